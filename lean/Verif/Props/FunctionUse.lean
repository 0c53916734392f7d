import Verif.Spec.FunctionUse
import Verif.Props.Trigger
import Verif.Props.PlanGreedy

/-!
# C75: functions are there while they are used
-/

namespace Verif

open Spec

/-- the statement drops the function `f` -/
def Ddl.dropsFunction (f : String) : Ddl → Bool
  | .dropFunction g => g.fq = f
  | _ => false

/-- the statement makes the function `f` -/
def Ddl.createsFunction (f : String) : Ddl → Bool
  | .createFunction g => g.name.fq = f
  | _ => false

/-- the statement defines the user anew, or drops it -/
def Ddl.redefines (u : FnUser) (x : Ddl) : Bool :=
  match u with
  | .trigger n k => x.onTrigger n k
  | .function n => x.onFunction n

/-- the statement makes the user use `f` -/
inductive MakesUse (f : String) : FnUser → Ddl → Prop where
  | function (g : Function) (h : functionUses f g = true) : MakesUse f (.function g.name.fq) (.createFunction g)
  | trigger (t : Trigger) (b : Bool) (text : String) (h : t.function.fq = f) :
      MakesUse f (.trigger t.owningTable.fq t.escapedName) (.createTrigger t b text)

theorem runWith_accepts {σ : Type} {step : σ → Ddl → Option σ} {s : σ} {l : List Statement}
    (h : ∀ a x b, l = a ++ x :: b → ∀ s', runWith step s a = some s' → ∃ s'', step s' x.ddl = some s'') :
    ∃ s', runWith step s l = some s' := by
  induction l using List.reverseRecOn with
  | nil => exact ⟨s, rfl⟩
  | append_singleton l x ih =>
    obtain ⟨s1, h1⟩ := ih fun a y b e s' hs => h a y (b ++ [x]) (by rw [e, List.append_assoc]; rfl) s' hs
    obtain ⟨s2, h2⟩ := h l x [] rfl s1 h1
    refine ⟨s2, ?_⟩
    rw [runWith_append, h1]
    show (step s1 x.ddl).bind _ = _
    rw [h2]; rfl

theorem define_usedBy {s : FnState} {u v : FnUser} {b : Bool} (h : (s.define u b).usedBy v = true) :
    (v = u ∧ b = true) ∨ (v ≠ u ∧ s.usedBy v = true) := by
  have h : (if v = u then b else s.usedBy v) = true := h
  by_cases e : v = u
  · rw [if_pos e] at h; exact Or.inl ⟨e, h⟩
  · rw [if_neg e] at h; exact Or.inr ⟨e, h⟩

theorem useStep_usedBy {f : String} {s s' : FnState} {x : Ddl} (h : useStep f s x = some s') {u : FnUser}
    (hu : s'.usedBy u = true) : (s.usedBy u = true ∧ x.redefines u = false) ∨ MakesUse f u x := by
  cases x with
  | createFunction g =>
    have h : (if functionUses f g = true ∧ s.present = false then none
      else some { s.define (.function g.name.fq) (functionUses f g) with present := s.present || decide (g.name.fq = f) }) = some s' := by
      rw [← h]; unfold useStep; rfl
    split at h
    · cases h
    · cases h
      rcases define_usedBy hu with ⟨rfl, hb⟩ | ⟨hne, hs⟩
      · exact Or.inr (.function g hb)
      · refine Or.inl ⟨hs, ?_⟩
        cases u with
        | trigger n k => rfl
        | function n => exact decide_eq_false (p := g.name.fq = n) fun e => hne (by rw [e])
  | dropFunction g =>
    unfold useStep at h
    dsimp only at h
    split at h
    · cases h
    · cases h
      rcases define_usedBy hu with ⟨_, hb⟩ | ⟨hne, hs⟩
      · cases hb
      · refine Or.inl ⟨hs, ?_⟩
        cases u with
        | trigger n k => rfl
        | function n => exact decide_eq_false (p := g.fq = n) fun e => hne (by rw [e])
  | createTrigger t b text =>
    unfold useStep at h
    dsimp only at h
    split at h
    · cases h
    · cases h
      rcases define_usedBy hu with ⟨rfl, hb⟩ | ⟨hne, hs⟩
      · exact Or.inr (.trigger t b text (of_decide_eq_true hb))
      · refine Or.inl ⟨hs, ?_⟩
        cases u with
        | trigger n k =>
          show (decide (t.owningTable.fq = n ∧ t.escapedName = k) || false) = false
          rw [Bool.or_false]
          exact decide_eq_false fun e => hne (by rw [e.1, e.2])
        | function n => rfl
  | dropTrigger x t =>
    cases h
    rcases define_usedBy hu with ⟨_, hb⟩ | ⟨hne, hs⟩
    · cases hb
    · refine Or.inl ⟨hs, ?_⟩
      cases u with
      | trigger n k => exact decide_eq_false (p := t.fq = n ∧ x = k) fun e => hne (by rw [e.1, e.2])
      | function n => rfl
  | _ => cases h; cases u <;> exact Or.inl ⟨hu, rfl⟩

theorem useStep_present {f : String} {s s' : FnState} {x : Ddl} (h : useStep f s x = some s') (hd : x.dropsFunction f = false)
    (hp : s.present = true ∨ x.createsFunction f = true) : s'.present = true := by
  cases x with
  | createFunction g =>
    unfold useStep at h
    dsimp only at h
    split at h
    · cases h
    · cases h
      rcases hp with hp | hp
      · show (s.present || _) = true
        rw [hp]; rfl
      · show (s.present || decide (g.name.fq = f)) = true
        rw [show decide (g.name.fq = f) = true from hp, Bool.or_true]
  | dropFunction g =>
    unfold useStep at h
    dsimp only at h
    split at h
    · cases h
    · cases h
      have hp : s.present = true := hp.resolve_right (by intro h; cases h)
      show (s.present && decide (g.fq ≠ f)) = true
      rw [hp, Bool.true_and]
      exact decide_eq_true (of_decide_eq_false (p := g.fq = f) hd)
  | createTrigger t b text =>
    unfold useStep at h
    dsimp only at h
    split at h
    · cases h
    · cases h
      exact hp.resolve_right (by intro h; cases h)
  | dropTrigger x t =>
    cases h
    exact hp.resolve_right (by intro h; cases h)
  | _ => cases h; exact hp.resolve_right (by intro h; cases h)

theorem runUses_usedBy {f : String} {s s' : FnState} {a : List Statement} (h : runUses f s a = some s') {u : FnUser}
    (hu : s'.usedBy u = true) : (s.usedBy u = true ∧ ∀ y ∈ a, y.ddl.redefines u = false) ∨ ∃ y ∈ a, MakesUse f u y.ddl := by
  induction a using List.reverseRecOn generalizing s' with
  | nil => cases h; exact Or.inl ⟨hu, by simp⟩
  | append_singleton l x ih =>
    unfold runUses at h
    rw [runWith_append] at h
    obtain ⟨s1, h1, h⟩ := Option.bind_eq_some_iff.mp h
    obtain ⟨s2, h2, h⟩ := Option.bind_eq_some_iff.mp (show (useStep f s1 x.ddl).bind _ = _ from h)
    cases h
    rcases useStep_usedBy h2 hu with ⟨hu1, hx⟩ | hm
    · rcases ih h1 hu1 with ⟨hs, hl⟩ | ⟨y, hy, hm⟩
      · refine Or.inl ⟨hs, fun y hy => ?_⟩
        rcases List.mem_append.mp hy with hy | hy
        · exact hl y hy
        · rw [List.mem_singleton.mp hy]; exact hx
      · exact Or.inr ⟨y, List.mem_append_left _ hy, hm⟩
    · exact Or.inr ⟨x, by simp, hm⟩

theorem runUses_present {f : String} {s s' : FnState} {a : List Statement} (h : runUses f s a = some s')
    (hd : ∀ y ∈ a, y.ddl.dropsFunction f = false) (hp : s.present = true ∨ ∃ y ∈ a, y.ddl.createsFunction f = true) :
    s'.present = true := by
  induction a using List.reverseRecOn generalizing s' with
  | nil => cases h; exact hp.resolve_right (by simp)
  | append_singleton l x ih =>
    unfold runUses at h
    rw [runWith_append] at h
    obtain ⟨s1, h1, h⟩ := Option.bind_eq_some_iff.mp h
    obtain ⟨s2, h2, h⟩ := Option.bind_eq_some_iff.mp (show (useStep f s1 x.ddl).bind _ = _ from h)
    cases h
    have hl : ∀ y ∈ l, y.ddl.dropsFunction f = false := fun y hy => hd y (List.mem_append_left _ hy)
    refine useStep_present h2 (hd x (by simp)) ?_
    rcases hp with hp | ⟨y, hy, hc⟩
    · exact Or.inl (ih h1 hl (Or.inl hp))
    · rcases List.mem_append.mp hy with hy | hy
      · exact Or.inl (ih h1 hl (Or.inr ⟨y, hy, hc⟩))
      · rw [List.mem_singleton.mp hy] at hc; exact Or.inr hc

/-- a plan is accepted if the users of a dropped function are redefined before, and the function is made before its users -/
theorem uses_accepted {f : String} {s : FnState} {l : List Statement}
    (hdrop : ∀ a x b, l = a ++ x :: b → x.ddl.dropsFunction f = true →
      (∀ u, s.usedBy u = true → ∃ y ∈ a, y.ddl.redefines u = true) ∧ ∀ u, ∀ y ∈ a, ¬ MakesUse f u y.ddl)
    (hmake : ∀ a x b, l = a ++ x :: b → ∀ u, MakesUse f u x.ddl → (∀ y ∈ a, y.ddl.dropsFunction f = false) ∧
      (s.present = true ∨ ∃ y ∈ a, y.ddl.createsFunction f = true)) :
    ∃ s', runUses f s l = some s' := by
  refine runWith_accepts fun a x b e s' hs => ?_
  have hm := hmake a x b e
  have hd := hdrop a x b e
  cases hx : x.ddl with
  | createFunction g =>
    unfold useStep
    dsimp only
    split
    · rename_i h
      obtain ⟨h1, h2⟩ := hm _ (show MakesUse f (.function g.name.fq) x.ddl from hx ▸ .function g h.1)
      exact absurd (runUses_present hs h1 h2) (fun e => Bool.false_ne_true (h.2.symm.trans e))
    · exact ⟨_, rfl⟩
  | dropFunction g =>
    unfold useStep
    dsimp only
    split
    · rename_i h
      obtain ⟨u, hu⟩ := h.2
      obtain ⟨h1, h2⟩ := hd (by rw [hx]; exact decide_eq_true h.1)
      rcases runUses_usedBy hs hu with ⟨h3, h4⟩ | ⟨y, hy, h3⟩
      · obtain ⟨y, hy, h5⟩ := h1 u h3
        exact absurd ((h4 y hy).symm.trans h5) Bool.false_ne_true
      · exact absurd h3 (h2 u y hy)
    · exact ⟨_, rfl⟩
  | createTrigger t b text =>
    unfold useStep
    dsimp only
    split
    · rename_i h
      obtain ⟨h1, h2⟩ := hm _ (show MakesUse f (.trigger t.owningTable.fq t.escapedName) x.ddl from hx ▸ .trigger t b text h.1)
      exact absurd (runUses_present hs h1 h2) (fun e => Bool.false_ne_true (h.2.symm.trans e))
    · exact ⟨_, rfl⟩
  | _ => exact ⟨_, rfl⟩


/-! ### the plan -/

section
variable {opts : PlanOptions} {old new : Schema} {d : SchemaDiff} {r r' : Rand} {stmts : List Statement}

theorem PlanRun.declared_drop_function (run : PlanRun opts d r r' stmts) {g : Function} (hg : g ∈ d.functionDiffs.deletes)
    {f : SQName} (hf : f ∈ g.dependsOnFunctions) :
    run.graph.Declared (functionVertexId g.name .delete).text (functionVertexId f .delete).text := by
  obtain ⟨deps, h1, h2⟩ := deps_of_delete (m := Except Err) (g := FunctionGen.legacy) run.hfunctions hg
  have e : FunctionGen.deleteDeps g = .ok deps := h1
  unfold FunctionGen.deleteDeps at e
  rw [Except.ok.injEq] at e
  subst e
  exact run.declared_before (p := run.functions) (by simp) (h2 _ (List.mem_map_of_mem (f := fun f : SQName =>
    mustRunBefore (functionVertexId g.name .delete) (functionVertexId f .delete)) hf))

theorem PlanRun.declared_add_function (run : PlanRun opts d r r' stmts) {g : Function}
    (hg : g ∈ d.functionDiffs.adds ∨ ∃ gd ∈ d.functionDiffs.alters, g = gd.new) {f : SQName} (hf : f ∈ g.dependsOnFunctions) :
    run.graph.Declared (functionVertexId f .addAlter).text (functionVertexId g.name .addAlter).text := by
  have key : ∀ {o : Function} {deps : List Dependency}, FunctionGen.addAlterDeps g o = .ok deps →
      (∀ x ∈ deps, x ∈ run.functions.dependencies) →
      run.graph.Declared (functionVertexId f .addAlter).text (functionVertexId g.name .addAlter).text := by
    intro o deps e h2
    unfold FunctionGen.addAlterDeps at e
    rw [Except.ok.injEq] at e
    subst e
    exact run.declared_after (p := run.functions) (by simp) (h2 _ (List.mem_append_left _ (List.mem_map_of_mem (f := fun f : SQName =>
      mustRunAfter (functionVertexId g.name .addAlter) (functionVertexId f .addAlter)) hf)))
  rcases hg with hg | ⟨gd, hgd, rfl⟩
  · obtain ⟨deps, h1, h2⟩ := deps_of_add (m := Except Err) (g := FunctionGen.legacy) run.hfunctions hg
    exact key h1 h2
  · obtain ⟨deps, h1, h2⟩ := deps_of_alter (m := Except Err) (g := FunctionGen.legacy) run.hfunctions hgd
    exact key h1 h2

theorem PlanRun.declared_alter_function (run : PlanRun opts d r r' stmts) {gd : OldNew Function}
    (hg : gd ∈ d.functionDiffs.alters) {f : SQName} (hf : f ∈ gd.old.dependsOnFunctions) :
    run.graph.Declared (functionVertexId gd.new.name .addAlter).text (functionVertexId f .delete).text := by
  obtain ⟨deps, h1, h2⟩ := deps_of_alter (m := Except Err) (g := FunctionGen.legacy) run.hfunctions hg
  have e : FunctionGen.addAlterDeps gd.new gd.old = .ok deps := h1
  unfold FunctionGen.addAlterDeps at e
  rw [Except.ok.injEq, if_pos (fun e => by rw [e] at hf; cases hf)] at e
  subst e
  exact run.declared_before (p := run.functions) (by simp) (h2 _ (List.mem_append_right _ (List.mem_map_of_mem (f := fun f : SQName =>
    mustRunBefore (functionVertexId gd.new.name .addAlter) (functionVertexId f .delete)) hf)))

theorem PlanRun.declared_alter_trigger (run : PlanRun opts d r r' stmts) {td : OldNew Trigger}
    (ht : td ∈ d.triggerDiffs.alters) (hz : td.old ≠ GoZero.zero) :
    run.graph.Declared (TriggerGen.vertexId td.new .addAlter).text (functionVertexId td.old.function .delete).text := by
  obtain ⟨deps, h1, h2⟩ := deps_of_alter (m := Except Err) (g := TriggerGen.legacy) run.htriggers ht
  have e : TriggerGen.addAlterDeps td.new td.old = .ok deps := h1
  unfold TriggerGen.addAlterDeps at e
  rw [Except.ok.injEq, if_pos hz] at e
  subst e
  exact run.declared_before (p := run.triggers) (by simp) (h2 _ (List.mem_append_right _ (by simp)))

theorem GraphShape.function_vertex {st : GenState} {id : VertexId} {s : Statement} {n : String}
    (h : GraphShape opts d st id s) (hs : s.ddl.onFunction n = true) :
    (∃ g, s.ddl = .createFunction g ∧ g.name.fq = n ∧ id = functionVertexId g.name .addAlter ∧
      (g ∈ d.functionDiffs.adds ∨ ∃ gd ∈ d.functionDiffs.alters, g = gd.new)) ∨
    ∃ g, s.ddl = .dropFunction g.name ∧ g.name.fq = n ∧ id = functionVertexId g.name .delete ∧ g ∈ d.functionDiffs.deletes := by
  cases h with
  | createFunction g h hid =>
    exact Or.inl ⟨g, rfl, of_decide_eq_true (p := g.name.fq = n) hs, hid, h.imp (fun h => h) fun ⟨gd, h1, h2, _⟩ => ⟨gd, h1, h2⟩⟩
  | dropFunction g h hid => exact Or.inr ⟨g, rfl, of_decide_eq_true (p := g.name.fq = n) hs, hid, h⟩
  | newTable t h ccs hc s hs' hid => cases hs' <;> cases hs
  | alterTable td h s hs' hid =>
    cases hs' with
    | column cd h s hs' => cases hs' <;> cases hs
    | _ => cases hs
  | _ => cases hs

theorem GraphShape.replaceTrigger_vertex {st : GenState} {id : VertexId} {s : Statement} {x : Trigger} {text : String}
    (h : GraphShape opts d st id s) (hs : s.ddl = .createTrigger x true text) :
    ∃ td ∈ d.triggerDiffs.alters, x = td.new ∧ id = TriggerGen.vertexId td.new .addAlter := by
  cases h with
  | replaceTrigger td h hd hc text ht hid => cases hs; exact ⟨td, h, rfl, hid⟩
  | newTable t h ccs hc s hs' hid => cases hs' <;> cases hs
  | alterTable td h s hs' hid =>
    cases hs' with
    | column cd h s hs' => cases hs' <;> cases hs
    | _ => cases hs
  | _ => cases hs

theorem GraphShape.madeTrigger_vertex {st : GenState} {id : VertexId} {s : Statement} {x : Trigger} {b : Bool} {text : String}
    (h : GraphShape opts d st id s) (hs : s.ddl = .createTrigger x b text) :
    (x ∈ d.triggerDiffs.adds ∨ ∃ td ∈ d.triggerDiffs.alters, x = td.new) ∧ id = TriggerGen.vertexId x .addAlter := by
  cases h with
  | createTrigger t h hid =>
    cases hs
    exact ⟨h.imp (fun h => h) fun ⟨td, h1, h2, _⟩ => ⟨td, h1, h2⟩, hid⟩
  | replaceTrigger td h hd hc text ht hid => cases hs; exact ⟨Or.inr ⟨td, h, rfl⟩, hid⟩
  | newTable t h ccs hc s hs' hid => cases hs' <;> cases hs
  | alterTable td h s hs' hid =>
    cases hs' with
    | column cd h s hs' => cases hs' <;> cases hs
    | _ => cases hs
  | _ => cases hs

theorem Ddl.dropsFunction_on {n : String} {x : Ddl} (h : x.dropsFunction n = true) : x.onFunction n = true := by
  cases x <;> first | exact h | cases h

theorem Ddl.createsFunction_on {n : String} {x : Ddl} (h : x.createsFunction n = true) : x.onFunction n = true := by
  cases x <;> first | exact h | cases h

theorem Ddl.onFunction_not_outer {n : String} {x : Ddl} (h : x.onFunction n = true) : ¬ x.IsOuter := by
  cases x <;> first | (exact fun h => h) | cases h

theorem dropsFunction_vertex {st : GenState} {id : VertexId} {s : Statement} {n : String}
    (h : GraphShape opts d st id s) (hs : s.ddl.dropsFunction n = true) : id = ⟨"function", n, .delete⟩ := by
  rcases h.function_vertex (Ddl.dropsFunction_on hs) with ⟨g, e, _⟩ | ⟨g, _, rfl, e, _⟩
  · rw [e] at hs; cases hs
  · exact e

theorem createsFunction_vertex {st : GenState} {id : VertexId} {s : Statement} {n : String}
    (h : GraphShape opts d st id s) (hs : s.ddl.createsFunction n = true) : id = ⟨"function", n, .addAlter⟩ := by
  rcases h.function_vertex (Ddl.createsFunction_on hs) with ⟨g, _, rfl, e, _⟩ | ⟨g, e, _⟩
  · exact e
  · rw [e] at hs; cases hs

theorem alters_trigger (dr : DiffRun opts old new d) {td : OldNew Trigger} (h : td ∈ d.triggerDiffs.alters) :
    td.old ∈ old.triggers ∧ td.new ∈ new.triggers ∧ Obj.getName td.old = Obj.getName td.new := by
  obtain ⟨i, x, j, o, h1, h2, h3, h4⟩ := diffLists_alters_mem dr.htriggers h
  have h4 : buildTriggerDiff _ o x j i = .ok (td, false) := h4
  unfold buildTriggerDiff at h4
  split at h4
  · cases h4
  · cases h4
    exact ⟨List.mem_of_getElem? h2, List.mem_of_getElem? h1, h3⟩

theorem alters_function (dr : DiffRun opts old new d) {gd : OldNew Function} (h : gd ∈ d.functionDiffs.alters) :
    gd.old ∈ old.functions ∧ gd.new ∈ new.functions ∧ gd.old.name.fq = gd.new.name.fq := by
  obtain ⟨i, x, j, o, h1, h2, h3, h4⟩ := diffLists_alters_mem dr.hfunctions h
  cases h4
  exact ⟨List.mem_of_getElem? h2, List.mem_of_getElem? h1, h3⟩

theorem old_trigger_eq (dr : DiffRun opts old new d) {t t' : Trigger} (ht : t ∈ old.triggers) (ht' : t' ∈ old.triggers)
    (e : t'.owningTable.fq = t.owningTable.fq ∧ t'.escapedName = t.escapedName) : t' = t :=
  List.inj_on_of_nodup_map (diffLists_old_nodup dr.htriggers) ht' ht (by
    show t'.owningTable.fq ++ "-" ++ t'.escapedName = t.owningTable.fq ++ "-" ++ t.escapedName
    rw [e.1, e.2])

/-- an old trigger is dropped or replaced before its function is dropped -/
theorem old_trigger_before (dr : DiffRun opts old new d) (run : PlanRun opts d r r' stmts) {t : Trigger} (ht : t ∈ old.triggers)
    (hz : t ≠ GoZero.zero) :
    AllBefore (fun s : Statement => s.ddl.dropsTrigger t.owningTable.fq t.escapedName = true ∨
        ∃ x text, s.ddl = .createTrigger x true text ∧ x.owningTable.fq = t.owningTable.fq ∧ x.escapedName = t.escapedName)
      (fun s => s.ddl.dropsFunction t.function.fq = true) stmts := by
  refine run.allBefore ?_ (fun s h => Ddl.onFunction_not_outer (Ddl.dropsFunction_on h)) ?_
  · rintro s (h | ⟨x, text, h, _⟩)
    · exact Ddl.dropsTrigger_not_outer h
    · rw [h]; exact fun h => h
  · intro u x v y hx hy hp hq
    obtain rfl := dropsFunction_vertex hy hq
    have altered : ∀ td ∈ d.triggerDiffs.alters, td.old = t →
        run.graph.Declared (TriggerGen.vertexId td.new .addAlter).text (VertexId.text ⟨"function", t.function.fq, .delete⟩) := by
      rintro td htd rfl
      exact run.declared_alter_trigger htd hz
    rcases hp with hp | ⟨z, text, hz', e⟩
    · obtain ⟨t', e, ⟨hm, rfl⟩ | ⟨td, htd, rfl, rfl⟩⟩ := hx.dropTrigger_vertex hp
      · obtain rfl := old_trigger_eq dr ht (diffLists_deletes_mem dr.htriggers hm) e
        exact .single (run.declared_drop_trigger hm).1
      · exact .single (altered td htd (old_trigger_eq dr ht (alters_trigger dr htd).1 e))
    · obtain ⟨td, htd, rfl, rfl⟩ := hx.replaceTrigger_vertex hz'
      refine .single (altered td htd (List.inj_on_of_nodup_map (diffLists_old_nodup dr.htriggers) (alters_trigger dr htd).1 ht ?_))
      rw [(alters_trigger dr htd).2.2]
      show td.new.owningTable.fq ++ "-" ++ td.new.escapedName = t.owningTable.fq ++ "-" ++ t.escapedName
      rw [e.1, e.2]

theorem added_function_new (dr : DiffRun opts old new d) (hu : NamesUnique new.functions) {g : Function}
    (hg : g ∈ d.functionDiffs.adds) : ∀ o ∈ old.functions, o.name.fq ≠ g.name.fq := by
  intro o ho e
  obtain ⟨i, hi⟩ := List.mem_iff_getElem?.mp (diffLists_adds_mem dr.hfunctions hg)
  rcases ((C08_every_object_once dr.hfunctions hu).1 i g hi).mp hg with h | ⟨_, _, _, _, _, h⟩
  · exact h (List.mem_map.mpr ⟨o, ho, e⟩)
  · cases h

/-- an old function is dropped or replaced before those it relies on are dropped -/
theorem old_function_before (dr : DiffRun opts old new d) (run : PlanRun opts d r r' stmts) (hu : NamesUnique new.functions)
    {g : Function} (hg : g ∈ old.functions) {f : SQName} (hf : f ∈ g.dependsOnFunctions) :
    AllBefore (fun s : Statement => s.ddl.onFunction g.name.fq = true) (fun s => s.ddl.dropsFunction f.fq = true) stmts := by
  refine run.allBefore (fun s h => Ddl.onFunction_not_outer h) (fun s h => Ddl.onFunction_not_outer (Ddl.dropsFunction_on h)) ?_
  intro u x v y hx hy hp hq
  obtain rfl := dropsFunction_vertex hy hq
  have same : ∀ g' ∈ old.functions, g'.name.fq = g.name.fq → g' = g := fun g' hg' e =>
    List.inj_on_of_nodup_map (diffLists_old_nodup dr.hfunctions) hg' hg e
  rcases hx.function_vertex hp with ⟨g', _, e, rfl, hm | ⟨gd, hgd, rfl⟩⟩ | ⟨g', _, e, rfl, hm⟩
  · exact absurd e.symm (added_function_new dr hu hm g hg)
  · obtain ⟨h1, _, h2⟩ := alters_function dr hgd
    have e' := same _ h1 (h2.trans e)
    exact .single (run.declared_alter_function hgd (by rw [e']; exact hf))
  · obtain rfl := same _ (diffLists_deletes_mem dr.hfunctions hm) e
    exact .single (run.declared_drop_function hm hf)

/-- a function is made before those that use it -/
theorem function_before_users (run : PlanRun opts d r r' stmts) (f : String) (u : FnUser) :
    AllBefore (fun s : Statement => s.ddl.createsFunction f = true) (fun s => MakesUse f u s.ddl) stmts := by
  refine run.allBefore (fun s h => Ddl.onFunction_not_outer (Ddl.createsFunction_on h)) ?_ ?_
  · intro s h
    generalize s.ddl = x at h
    cases h <;> exact fun h => h
  · intro v x w y hx hy hp hq
    obtain rfl := createsFunction_vertex hx hp
    generalize e : y.ddl = z at hq
    cases hq with
    | function g h =>
      obtain ⟨f', hf', e'⟩ := List.any_eq_true.mp ((Bool.and_eq_true _ _).mp h).2
      rcases hy.function_vertex (n := g.name.fq) (by rw [e]; exact decide_eq_true rfl) with ⟨g', eg, _, rfl, hm⟩ | ⟨g', eg, _⟩
      · rw [e] at eg
        cases eg
        have := run.declared_add_function hm hf'
        rw [← of_decide_eq_true e']
        exact .single this
      · rw [e] at eg; cases eg
    | trigger t b text h =>
      subst h
      obtain ⟨hm, rfl⟩ := hy.madeTrigger_vertex e
      exact .single (run.declared_add_trigger hm).1

/-- what a plan makes is in the new schema -/
theorem made_uses_new (dr : DiffRun opts old new d) (run : PlanRun opts d r r' stmts) {f : String} (known : UsesKnown new f)
    {s : Statement} (hs : s ∈ stmts) {u : FnUser} (hm : MakesUse f u s.ddl) : ∃ g ∈ new.functions, g.name.fq = f := by
  generalize e : s.ddl = z at hm
  cases hm with
  | function g h =>
    obtain ⟨v, hv⟩ := run.mem_shape hs (by rw [e]; exact fun h => h)
    rcases hv.function_vertex (n := g.name.fq) (by rw [e]; exact decide_eq_true rfl) with ⟨g', eg, _, _, hm⟩ | ⟨g', eg, _⟩
    · rw [e] at eg
      cases eg
      refine known.functions g ?_ h
      rcases hm with hm | ⟨gd, hgd, rfl⟩
      · exact diffLists_adds_mem dr.hfunctions hm
      · exact (alters_function dr hgd).2.1
    · rw [e] at eg; cases eg
  | trigger t b text h =>
    obtain ⟨v, hv⟩ := run.mem_shape hs (by rw [e]; exact fun h => h)
    refine known.triggers t ?_ h
    rcases (hv.madeTrigger_vertex e).1 with hm | ⟨td, htd, rfl⟩
    · exact diffLists_adds_mem dr.htriggers hm
    · exact (alters_trigger dr htd).2.1

theorem mem_filter_fn {n : String} {s : Statement} (hs : s ∈ stmts) (h : s.ddl.onFunction n = true) :
    s ∈ stmts.filter (fun s : Statement => s.ddl.onFunction n) := List.mem_filter.mpr ⟨hs, h⟩

/-- a function that is dropped was there and is not wanted -/
theorem drop_function_fate (fate : FunctionFate old new n stmts) {x : Statement} (hx : x ∈ stmts)
    (h : x.ddl.dropsFunction n = true) : ∀ g ∈ new.functions, g.name.fq ≠ n := by
  have hm := mem_filter_fn hx (Ddl.dropsFunction_on h)
  have no : ∀ {s : Statement} {g : Function}, s.ddl = .createFunction g →
      stmts.filter (fun s : Statement => s.ddl.onFunction n) = [s] → False := by
    intro s g e hs
    rw [hs, List.mem_singleton] at hm
    rw [hm, e] at h
    cases h
  cases fate with
  | absent ho hn hs => exact hn
  | dropped o ho e hn s hd hs => exact hn
  | added y hy e ho s hd hs => exact (no hd hs).elim
  | same o ho hx e hs => rw [hs] at hm; cases hm
  | replaced o y ho hy eo ex s hd hs => exact (no hd hs).elim

/-- a function of the new schema is not dropped, and was there or is made -/
theorem new_function_fate (fate : FunctionFate old new n stmts) (h : ∃ g ∈ new.functions, g.name.fq = n) :
    (∃ g ∈ old.functions, g.name.fq = n) ∨ ∃ y ∈ stmts, y.ddl.createsFunction n = true := by
  obtain ⟨g, hg, e⟩ := h
  cases fate with
  | absent ho hn hs => exact absurd e (hn g hg)
  | dropped o ho e' hn s hd hs => exact absurd e (hn g hg)
  | added y hy e ho s hd hs =>
    refine Or.inr ⟨s, (List.mem_filter.mp (hs ▸ List.mem_singleton_self s)).1, ?_⟩
    rw [hd]; exact decide_eq_true e
  | same o ho hx e hs => exact Or.inl ⟨o, ho, e⟩
  | replaced o y ho hy eo ex s hd hs => exact Or.inl ⟨o, ho, eo⟩

/-- the triggers of a schema have the names that the reader makes -/
def TriggersQuoted (s : Schema) : Prop :=
  ∀ t ∈ s.triggers, Quoted t.owningTable ∧ ∃ y, nameOk y = true ∧ t.escapedName = escapeIdentifier y

theorem escapeIdentifier_ne_empty (y : String) : escapeIdentifier y ≠ "" := fun h => by
  have := congrArg String.toList h
  unfold escapeIdentifier quoteWith at this
  rw [String.toList_ofList] at this
  cases this

set_option maxHeartbeats 1000000 in
theorem uses_run (dr : DiffRun opts old new d) (run : PlanRun opts d r r' stmts) (hf : NamesUnique new.functions)
    (ht : NamesUnique new.triggers) (qo : TriggersQuoted old) (qx : TriggersQuoted new) {f : String} (known : UsesKnown new f) :
    ∃ s, runUses f (usesOf old f) stmts = some s := by
  have fate := function_fate dr run hf f
  refine uses_accepted ?_ ?_
  · intro a x b e hx
    have hxm : x ∈ stmts := by rw [e]; simp
    have gone := drop_function_fate fate hxm hx
    refine ⟨fun u hu => ?_, fun u y hy hm => ?_⟩
    · cases u with
      | trigger n k =>
        obtain ⟨t, hto, h⟩ := List.any_eq_true.mp (show old.triggers.any _ = true from hu)
        obtain ⟨rfl, rfl, rfl⟩ := of_decide_eq_true h
        obtain ⟨q1, y, hy, q2⟩ := qo t hto
        have hz : t ≠ GoZero.zero := by
          rintro rfl
          exact escapeIdentifier_ne_empty y q2.symm
        have before := old_trigger_before dr run hto hz
        have tfate := trigger_fate (n := t.owningTable.fq) (k := t.escapedName) dr run ht (by
          intro o ho e
          rw [q2] at e ⊢
          exact (trigger_name (qo o ho) q1 hy).mp e) (by
          intro o ho e
          rw [q2] at e ⊢
          exact (trigger_name (qx o ho) q1 hy).mp e)
        -- a statement that drops or replaces the trigger
        have some_ : ∃ s ∈ stmts, (s.ddl.dropsTrigger t.owningTable.fq t.escapedName = true ∨
            ∃ x text, s.ddl = .createTrigger x true text ∧ x.owningTable.fq = t.owningTable.fq ∧ x.escapedName = t.escapedName) := by
          have single : ∀ {s : Statement} {l : List Statement},
              (stmts.filter fun s : Statement => s.ddl.onTrigger t.owningTable.fq t.escapedName).Perm l → s ∈ l → s ∈ stmts :=
            fun h hs => (List.mem_filter.mp (h.mem_iff.mpr hs)).1
          cases tfate with
          | absent ho hn hs => exact absurd ⟨rfl, rfl⟩ (ho t hto)
          | dropped o ho e hn s hd hs => exact ⟨s, single (.of_eq hs) (by simp), Or.inl (dropsTrigger_of e hd).1⟩
          | added x hx e ho s hd hs => exact absurd ⟨rfl, rfl⟩ (ho t hto)
          | recreated o x ho hx eo ex hb hm hm' s s' hd hd' hs => exact ⟨s, single hs (by simp), Or.inl (dropsTrigger_of eo hd).1⟩
          | same o ho hnew e hb hs =>
            obtain rfl := old_trigger_eq dr hto ho e
            obtain ⟨g, hg, e⟩ := known.triggers o hnew rfl
            exact absurd e (gone g hg)
          | replaced o x hne ho hx eo ex hb hc text htext s hd hs =>
            exact ⟨s, single (.of_eq hs) (by simp), Or.inr ⟨x, text, hd, ex⟩⟩
          | swapped o x hne ho hx eo ex hb s s' hd hd' hs =>
            exact ⟨s, single (.of_eq hs) (by simp), Or.inl (dropsTrigger_of eo hd).1⟩
        obtain ⟨y, hy, hp⟩ := before.preceded (by
          rintro s ⟨h1 | ⟨x, text, h1, _⟩, h2⟩
          · obtain ⟨z, ez⟩ : ∃ z, s.ddl = .dropFunction z := by
              generalize s.ddl = z at h2
              cases z <;> first | exact ⟨_, rfl⟩ | cases h2
            rw [ez] at h1; cases h1
          · rw [h1] at h2; cases h2) (fun _ => some_) a x b e hx
        refine ⟨y, hy, ?_⟩
        show (y.ddl.createsTrigger _ _ || y.ddl.dropsTrigger _ _) = true
        rcases hp with hp | ⟨x, text, hp, e⟩
        · rw [hp, Bool.or_true]
        · rw [(createsTrigger_of e hp).1, Bool.true_or]
      | function n =>
        obtain ⟨g, hg, h⟩ := List.any_eq_true.mp (show old.functions.any _ = true from hu)
        obtain ⟨rfl, hfu⟩ := of_decide_eq_true (p := g.name.fq = n ∧ functionUses f g = true) h
        obtain ⟨hne, h'⟩ := (Bool.and_eq_true _ _).mp hfu
        obtain ⟨f', hf', ef⟩ := List.any_eq_true.mp h'
        have ef : f'.fq = f := of_decide_eq_true ef
        have hne : g.name.fq ≠ f := of_decide_eq_true hne
        subst ef
        have before := old_function_before dr run hf hg hf'
        have some_ : ∃ s ∈ stmts, s.ddl.onFunction g.name.fq = true := by
          have single : ∀ {s : Statement},
              (stmts.filter fun s : Statement => s.ddl.onFunction g.name.fq) = [s] → s ∈ stmts ∧ s.ddl.onFunction g.name.fq = true :=
            fun h => List.mem_filter.mp (h ▸ List.mem_singleton_self _)
          have gfate := function_fate dr run hf g.name.fq
          cases gfate with
          | absent ho hn hs => exact absurd rfl (ho g hg)
          | dropped o ho e hn s hd hs => exact ⟨s, single hs⟩
          | added x hx e ho s hd hs => exact absurd rfl (ho g hg)
          | same o ho hnew e hs =>
            obtain rfl : o = g := List.inj_on_of_nodup_map (diffLists_old_nodup dr.hfunctions) ho hg e
            obtain ⟨g, hg, e⟩ := known.functions o hnew hfu
            exact absurd e (gone g hg)
          | replaced o x ho hx eo ex s hd hs => exact ⟨s, single hs⟩
        exact before.preceded (by
          rintro s ⟨h1, h2⟩
          obtain ⟨z, ez⟩ : ∃ z, s.ddl = .dropFunction z := by
            generalize s.ddl = z at h2
            cases z <;> first | exact ⟨_, rfl⟩ | cases h2
          rw [ez] at h1 h2
          exact hne ((of_decide_eq_true (p := z.fq = g.name.fq) h1).symm.trans (of_decide_eq_true (p := z.fq = f'.fq) h2)))
          (fun _ => some_) a x b e hx
    · obtain ⟨g, hg, eg⟩ := made_uses_new dr run known (by rw [e]; exact List.mem_append_left _ hy) hm
      exact gone g hg eg
  · intro a x b e u hm
    have hxm : x ∈ stmts := by rw [e]; simp
    have wanted := made_uses_new dr run known hxm hm
    refine ⟨fun y hy => ?_, ?_⟩
    · refine eq_false_of_ne_true fun hd => ?_
      obtain ⟨g, hg, eg⟩ := wanted
      exact drop_function_fate fate (by rw [e]; exact List.mem_append_left _ hy) hd g hg eg
    · rcases new_function_fate fate wanted with ⟨g, hg, eg⟩ | hc
      · exact Or.inl (List.any_eq_true.mpr ⟨g, hg, decide_eq_true eg⟩)
      · refine Or.inr ((function_before_users run f u).preceded ?_ (fun _ => hc) a x b e hm)
        rintro s ⟨h1, h2⟩
        generalize s.ddl = z at h1 h2
        cases h2 with
        | function g h =>
          have := of_decide_eq_true ((Bool.and_eq_true _ _).mp h).1
          exact this (of_decide_eq_true (p := g.name.fq = f) h1)
        | trigger t b text h => cases h1

/-! ### functions that read tables -/

/-- a vertex that waits for nothing goes before whatever waits for a vertex that is not wanted soon -/
theorem order_source {σ : Type} {parts : PartialGraph σ} {out : List σ} (h : orderPartial parts = .ok out) {Q : σ → Prop} {x : σ}
    {u : SqlVertex σ} (hu : u ∈ parts.vertices) (hx : x ∈ u.statements) (hsrc : ∀ s, ¬ parts.Declared s u.id.text)
    (hw : 0 < parts.wanted u.id.text)
    (hQ : ∀ v ∈ parts.vertices, ∀ y ∈ v.statements, Q y → ∃ w, parts.Declared w v.id.text ∧ parts.wanted w ≤ 0) :
    ∀ a y b, out = a ++ y :: b → Q y → x ∈ a := by
  obtain ⟨order, rfl, hall, hgr⟩ := C05_plan_greedy parts h
  intro a y b e hy
  obtain ⟨pre, z, post, a', b', e1, e2, e3, _⟩ := flatMap_eq_append_cons e
  have hyz : y ∈ parts.contributed z := by rw [e3]; simp
  obtain ⟨v, hv, hyv⟩ := List.mem_flatMap.mp hyz
  obtain ⟨hv, ez⟩ := List.mem_filter.mp hv
  have ez : v.id.text = z := by simpa using ez
  obtain ⟨w, hwv, hw0⟩ := hQ v hv y hyv hy
  have hwpre : w ∈ pre := (hgr pre z post e1).1.2.2 w (ez ▸ hwv)
  obtain ⟨p1, p2, e4⟩ := List.append_of_mem hwpre
  have hupre : u.id.text ∈ p1 := by
    by_contra hn
    have := (hgr p1 w (p2 ++ z :: post) (by rw [e1, e4]; simp)).2 u.id.text
      ⟨Or.inl ⟨u, hu, rfl⟩, hn, fun s hs => absurd hs (hsrc s)⟩
    omega
  rw [e2]
  refine List.mem_append_left _ (List.mem_flatMap.mpr ⟨u.id.text, by rw [e4]; exact List.mem_append_left _ hupre, ?_⟩)
  exact List.mem_flatMap.mpr ⟨u, List.mem_filter.mpr ⟨hu, by simp⟩, hx⟩

theorem PlanEdge.into_function {st : GenState} {a b : VertexId} {n : String} (h : PlanEdge opts d st a b)
    (e : b = ⟨"function", n, .addAlter⟩) : ∃ f g, NewOf d.functionDiffs f ∧ f.name.fq = n ∧ g ∈ f.dependsOnFunctions := by
  cases h with
  | functionAfterUsed f h g hg => exact ⟨f, g, h, congrArg VertexId.objId e, hg⟩
  | indexDeleteBeforeOwner i h x hx =>
    have e := congrArg VertexId.objType e
    unfold IndexGen.depsOnRelationAddAlter at hx
    split at hx
    · split at hx
      · rw [List.mem_singleton.mp hx] at e
        exact absurd e (by decide : ¬ "materialized_view" = "function")
      · cases hx
    · split at hx
      · cases hx
      · split at hx
        · rcases List.mem_cons.mp hx with rfl | hx
          · exact absurd e (by decide : ¬ "table" = "function")
          · split at hx
            · rw [List.mem_singleton.mp hx] at e
              exact absurd e (by decide : ¬ "table" = "function")
            · cases hx
        · cases hx
  | _ => first
    | exact absurd (congrArg VertexId.diffType e) (by decide : ¬ DiffType.delete = .addAlter)
    | exact absurd (congrArg VertexId.objType e) (by decide : ¬ "table" = "function")
    | exact absurd (congrArg VertexId.objType e) (by decide : ¬ "index" = "function")
    | exact absurd (congrArg VertexId.objType e) (by decide : ¬ "view" = "function")
    | exact absurd (congrArg VertexId.objType e) (by decide : ¬ "materialized_view" = "function")
    | exact absurd (congrArg VertexId.objType e) (by decide : ¬ "attachpartition" = "function")
    | exact absurd (congrArg VertexId.objType e) (by decide : ¬ "fkconstraint" = "function")
    | exact absurd (congrArg VertexId.objType e) (by decide : ¬ "sequence" = "function")
    | exact absurd (congrArg VertexId.objType e) (by decide : ¬ "sequence_ownership" = "function")
    | exact absurd (congrArg VertexId.objType e) (by decide : ¬ "procedure" = "function")
    | exact absurd (congrArg VertexId.objType e) (by decide : ¬ "trigger" = "function")
    | exact absurd (congrArg VertexId.objType e) (by decide : ¬ "indexrename" = "function")

theorem wanted_delete (run : PlanRun opts d r r' stmts) {v : VertexId} (hk : v.objType ∈ vertexKinds) (hv : v.diffType = .delete) :
    run.graph.wanted v.text ≤ 0 := by
  unfold PartialGraph.wanted
  dsimp only
  have : ¬ .sooner ∈ (run.graph.vertices.filter (fun w => w.id.text = v.text)).map (·.priority) := by
    intro h
    obtain ⟨w, hw, e⟩ := List.mem_map.mp h
    obtain ⟨hw, et⟩ := List.mem_filter.mp hw
    have := C07_vertex_id_injective (run.vertex_kind hw) hk (of_decide_eq_true et)
    rcases run.prioritized hw with h | h
    · rw [this, hv] at h; cases h.1
    · rw [h.2] at e; cases e
  rw [if_neg this]
  split
  · omega
  · omega

theorem wanted_add (run : PlanRun opts d r r' stmts) {u : SqlVertex Statement} (hu : u ∈ run.graph.vertices)
    (hd : u.id.diffType = .addAlter) {x : Statement} (hx : x ∈ u.statements) : 0 < run.graph.wanted u.id.text := by
  unfold PartialGraph.wanted
  dsimp only
  have hm : u ∈ run.graph.vertices.filter (fun w => w.id.text = u.id.text) := List.mem_filter.mpr ⟨hu, by simp⟩
  have hp : u.priority = .sooner := by
    rcases run.prioritized hu with h | h
    · exact h.2
    · rw [hd] at h; cases h.1
  rw [if_pos (List.mem_map.mpr ⟨u, hm, hp⟩)]
  have : 0 < (run.graph.contributed u.id.text).length :=
    List.length_pos_of_mem (List.mem_flatMap.mpr ⟨u, hm, hx⟩)
  omega

/-- the statement creates a table -/
def createsSomeTable : Ddl → Prop
  | .createTable _ _ _ => True
  | _ => False

/-- a function that relies on no other function is created before every table -/
theorem function_before_tables (dr : DiffRun opts old new d) (run : PlanRun opts d r r' stmts)
    (hu : NamesUnique new.functions) {f : Function} (hf : f.dependsOnFunctions = []) {s : Statement} (hs : s ∈ stmts)
    (e : s.ddl = .createFunction f) : ∀ a y b, stmts = a ++ y :: b → createsSomeTable y.ddl → s ∈ a := by
  intro a y b eq hy
  have hyo : ¬ y.ddl.IsOuter := by
    generalize y.ddl = z at hy
    cases z <;> first | exact fun h => h | cases hy
  obtain ⟨a1, a2, b1, b2, e1, e2, e3⟩ := run.split eq hyo
  obtain ⟨p, q, eo⟩ := List.append_of_mem hs
  obtain ⟨p1, p2, q1, q2, _, _, eo3⟩ := run.split eo (by rw [e]; exact fun h => h)
  obtain ⟨u, hu', hxu, _⟩ := order_at run.hordered eo3
  have hshape := run.vertex_shape hu' hxu
  obtain hid := hshape.createFunction_vertex e
  have hmem : ∀ g, NewOf d.functionDiffs g → g ∈ new.functions := by
    rintro g (hm | ⟨gd, hm, rfl⟩)
    · exact diffLists_adds_mem dr.hfunctions hm
    · exact (alters_function dr hm).2.1
  have hfn : f ∈ new.functions := by
    rcases hshape.function_vertex (n := f.name.fq) (by rw [e]; exact decide_eq_true rfl) with ⟨g, eg, _, _, hm⟩ | ⟨g, eg, _⟩
    · rw [e] at eg
      cases eg
      rcases hm with hm | ⟨gd, hm, rfl⟩
      · exact hmem _ (.add hm)
      · exact hmem _ (.alter gd hm rfl)
    · rw [e] at eg; cases eg
  have hsrc : ∀ z, ¬ run.graph.Declared z u.id.text := by
    intro z hz
    obtain ⟨v, w, rfl, et, he⟩ := run.edge_of_declared hz
    have := C07_vertex_id_injective he.kinds.2 (run.vertex_kind hu') et.symm
    obtain ⟨g, g', hg, en, hg'⟩ := he.into_function (n := f.name.fq) (this.trans hid)
    obtain rfl : g = f := List.inj_on_of_nodup_map hu (hmem g hg) hfn en
    rw [hf] at hg'; cases hg'
  have := order_source run.hordered hu' hxu hsrc (wanted_add run hu' (by rw [hid]; rfl) hxu)
    (Q := fun y : Statement => createsSomeTable y.ddl) (by
      intro v hv y hyv hq
      obtain ⟨n, hn⟩ : ∃ n, y.ddl.createsTable n = true := by
        generalize y.ddl = z at hq
        cases z <;> first | exact ⟨_, decide_eq_true rfl⟩ | cases hq
      obtain ⟨t, ht, _, hid⟩ := (run.vertex_shape hv hyv).createTable_vertex hn
      rw [hid]
      exact ⟨_, (run.declared_table_add ht).1, wanted_delete run (v := tableVertexId t.name .delete)
        (by decide : "table" ∈ vertexKinds) rfl⟩) a2 y b1 e3 hy
  rw [e1]
  exact List.mem_append_right _ this

/-! ### the properties -/

theorem functionUses_normalize {f : String} {g : Function} : functionUses f (normalizeFunction g) = functionUses f g := by
  unfold functionUses normalizeFunction
  dsimp only
  rw [(sortObjs_perm g.dependsOnFunctions).any_eq]

theorem usesOf_normalize (s : Schema) (f : String) : usesOf s.normalize f = usesOf s f := by
  have perm : s.normalize.functions.Perm (s.functions.map normalizeFunction) := (sortObjs_perm s.functions).map _
  unfold usesOf
  congr 1
  · rw [perm.any_eq, List.any_map]; rfl
  · funext u
    cases u with
    | trigger n k => exact (sortObjs_perm s.triggers).any_eq
    | function n =>
      refine perm.any_eq.trans (List.any_map.trans ?_)
      refine congrArg (fun p => s.functions.any p) (funext fun g => ?_)
      show decide (g.name.fq = n ∧ functionUses f (normalizeFunction g) = true) = _
      rw [functionUses_normalize]

theorem usesKnown_normalize {s : Schema} {f : String} (h : UsesKnown s f) : UsesKnown s.normalize f := by
  have perm : s.normalize.functions.Perm (s.functions.map normalizeFunction) := (sortObjs_perm s.functions).map _
  have key : (∃ g ∈ s.functions, g.name.fq = f) → ∃ g ∈ s.normalize.functions, g.name.fq = f := by
    rintro ⟨g, hg, e⟩
    exact ⟨normalizeFunction g, perm.mem_iff.mpr (List.mem_map_of_mem hg), e⟩
  refine ⟨fun t ht e => key (h.triggers t (mem_normalize_triggers.mp ht) e), fun g hg e => ?_⟩
  obtain ⟨g0, hg0, rfl⟩ := List.mem_map.mp (perm.mem_iff.mp hg)
  exact key (h.functions g0 hg0 (functionUses_normalize ▸ e))

end

section
variable {opts : PlanOptions} {old new : Schema} {r r' : Rand} {stmts : List Statement}

/-- **C75**: while a plan runs, no trigger and no function is made to use a function that is not there, and no function is
dropped while a trigger or another function uses it.  Missing: whatever else can use a function, such as views, indexes and
defaults of columns (refuted below). -/
theorem C75_functions_there_while_used_partial (h : generateMigrationStatements r old new opts = .ok (stmts, r'))
    (hf : NamesUnique new.functions) (ht : NamesUnique new.triggers) (qo : TriggersQuoted old) (qx : TriggersQuoted new)
    {f : String} (known : UsesKnown new f) : ∃ s, runUses f (usesOf old f) stmts = some s := by
  obtain ⟨d, ⟨dr⟩, ⟨run⟩⟩ := plan_runs h
  rw [← usesOf_normalize]
  exact uses_run dr run (normalize_functions_unique hf) (namesUnique_sort ht)
    (fun t h => qo t (mem_normalize_triggers.mp h)) (fun t h => qx t (mem_normalize_triggers.mp h)) (usesKnown_normalize known)

theorem bodyStep_absent {reads : Function → List String} {n : String} {x : Ddl} {p : Bool} (hx : ¬ createsSomeTable x)
    (h : bodyStep reads n false x = some p) : p = false := by
  cases x with
  | createTable n cols p => exact absurd trivial hx
  | createFunction f =>
    have h : (if f.language = "sql" ∧ n ∈ reads f ∧ false = false then none else some false) = some p := h
    split at h
    · cases h
    · cases h; rfl
  | dropTable x =>
    have h : some (if x.fq = n then false else false) = some p := h
    cases h; split <;> rfl
  | _ => cases h; rfl

/-- Whatever a new or changed function reads, if it relies on no other function then a plan creates it before every table: a
function in SQL whose body reads a table that is not there yet makes the plan fail, although the target is fine. -/
theorem C75_function_reading_new_table_violated (h : generateMigrationStatements r old new opts = .ok (stmts, r'))
    (hf : NamesUnique new.functions) {f : Function} (hd : f.dependsOnFunctions = []) (hl : f.language = "sql")
    {s : Statement} (hs : s ∈ stmts) (e : s.ddl = .createFunction f) {reads : Function → List String} {n : String}
    (hr : n ∈ reads f) (ho : hasTable old n = false) : runBodies reads n (hasTable old n) stmts = none := by
  obtain ⟨d, ⟨dr⟩, ⟨run⟩⟩ := plan_runs h
  have before := function_before_tables dr run (normalize_functions_unique hf) hd hs e
  obtain ⟨p, q, hpq, hfirst⟩ := List.eq_append_cons_of_mem hs
  have hp : ∀ y ∈ p, ¬ createsSomeTable y.ddl := by
    intro y hy hc
    obtain ⟨p1, p2, rfl⟩ := List.append_of_mem hy
    exact hfirst (List.mem_append_left _ (before p1 y (p2 ++ s :: q) (by rw [hpq]; simp) hc))
  have absent : ∀ (l : List Statement), (∀ y ∈ l, ¬ createsSomeTable y.ddl) → ∀ b, runBodies reads n false l = some b → b = false := by
    intro l
    induction l with
    | nil => intro _ b h; cases h; rfl
    | cons y l ih =>
      intro hl b h
      obtain ⟨b1, h1, h2⟩ := Option.bind_eq_some_iff.mp (show (bodyStep reads n false y.ddl).bind _ = some b from h)
      obtain rfl := bodyStep_absent (hl y (by simp)) h1
      exact ih (fun y hy => hl y (List.mem_cons_of_mem _ hy)) b h2
  rw [hpq, ho]
  unfold runBodies
  rw [runWith_append]
  cases hb : runWith (bodyStep reads n) false p with
  | none => rfl
  | some b =>
    obtain rfl := absent p hp b hb
    show (bodyStep reads n false s.ddl).bind _ = none
    rw [e]
    show (if f.language = "sql" ∧ n ∈ reads f ∧ false = false then none else some false).bind _ = none
    rw [if_pos ⟨hl, hr, rfl⟩]; rfl

end

/-! ### examples, and what is not tracked -/

namespace Samples

/-- a function that relies on others -/
def functionOn (n d : String) (on : List String) : Function := ⟨⟨"public", n⟩, d, "plpgsql", on.map fun x => ⟨"public", x⟩⟩

/-- a trigger that executes a function -/
def triggerOn (n t f : String) : Trigger :=
  { trigger n t ("CREATE TRIGGER " ++ n ++ " BEFORE INSERT ON public." ++ t ++ " EXECUTE FUNCTION public." ++ f) with
    function := ⟨"public", f⟩ }

/-- functions, and triggers that execute them -/
def oldUses : Schema := { Schema.empty with
  tables := [table "t" [col "a" "integer"]]
  functions := [functionOn "f()" "f" [], functionOn "g()" "g" ["f()"], functionOn "h()" "h" ["f()"]]
  triggers := [triggerOn "x" "t" "f()", triggerOn "y" "t" "f()", triggerOn "w" "t" "g()"] }

/-- `f` goes, `g` stays but relies on a new function -/
def newUses : Schema := { Schema.empty with
  tables := [table "t" [col "a" "integer"], table "u" [col "a" "integer"]]
  functions := [functionOn "g()" "g2" ["k()"], functionOn "k()" "k" ["l()"], functionOn "l()" "l" []]
  triggers := [triggerOn "x" "t" "k()", triggerOn "w" "t" "g()", triggerOn "v" "u" "l()"] }

/-- a function that is called by an index, by the default of a column and by a view: all are in the old schema only -/
def called : Function :=
  function "f()" "CREATE OR REPLACE FUNCTION public.f() RETURNS integer LANGUAGE sql IMMUTABLE AS $$ SELECT 1 $$"

/-- a function and an expression index that calls it -/
def oldCalledByIndex : Schema := { Schema.empty with
  tables := [table "t" [col "a" "integer"]]
  indexes := [index "i" "t" ["a"] "CREATE INDEX i ON public.t USING btree ((a + public.f()))"]
  functions := [called] }

/-- a function and a column whose default calls it -/
def oldCalledByDefault : Schema := { Schema.empty with
  tables := [table "s" [col "a" "integer"], table "t" [{ col "a" "integer" with default := "public.f()" }]]
  functions := [called] }

/-- a function and a view that calls it -/
def oldCalledByView : Schema := { Schema.empty with
  tables := [table "t" [col "a" "integer"]]
  views := [{ view "v" "t" ["a"] with viewDefinition := " SELECT (a + public.f()) AS b\n   FROM public.t;" }]
  functions := [called] }

/-- a function that counts the rows of a table -/
def counting : Function :=
  function "f()" "CREATE OR REPLACE FUNCTION public.f() RETURNS bigint LANGUAGE sql AS $$ SELECT count(*) FROM public.t $$"

/-- the table and the function -/
def newCounting : Schema := { Schema.empty with
  tables := [table "t" [col "a" "integer"]]
  functions := [counting] }

theorem triggersQuoted_uses {s : Schema} (hs : s = oldUses ∨ s = newUses) : TriggersQuoted s := by
  have key : ∀ n t f, nameOk n = true → nameOk t = true →
      Quoted (triggerOn n t f).owningTable ∧ ∃ y, nameOk y = true ∧ (triggerOn n t f).escapedName = escapeIdentifier y :=
    fun n t f hn ht => ⟨quoted_pub ht, n, hn, rfl⟩
  intro x hx
  rcases hs with rfl | rfl
  · simp only [oldUses, List.mem_cons, List.not_mem_nil, or_false] at hx
    rcases hx with rfl | rfl | rfl <;> exact key _ _ _ (by decide) (by decide)
  · simp only [newUses, List.mem_cons, List.not_mem_nil, or_false] at hx
    rcases hx with rfl | rfl | rfl <;> exact key _ _ _ (by decide) (by decide)

end Samples

example : ∃ stmts r', generateMigrationStatements Samples.rand Samples.oldUses Samples.newUses Samples.opts = .ok (stmts, r') ∧
    9 ≤ stmts.length ∧
    ∀ f ∈ ["f()", "g()", "h()", "k()", "l()"], ∃ s,
      runUses (SQName.fq ⟨"public", f⟩) (usesOf Samples.oldUses (SQName.fq ⟨"public", f⟩)) stmts = some s := by
  obtain ⟨stmts, r', h, hl⟩ := Samples.exists_plan (r := Samples.rand) (old := Samples.oldUses)
    (new := Samples.newUses) (opts := Samples.opts) (P := fun stmts => 9 ≤ stmts.length) (by decide +kernel)
  refine ⟨stmts, r', h, hl, fun f hf => ?_⟩
  refine C75_functions_there_while_used_partial h (by unfold NamesUnique; decide +kernel) (by unfold NamesUnique; decide +kernel)
    (Samples.triggersQuoted_uses (Or.inl rfl)) (Samples.triggersQuoted_uses (Or.inr rfl)) ⟨?_, ?_⟩
  · revert f; decide +kernel
  · revert f; decide +kernel

example : ∃ stmts r', generateMigrationStatements Samples.rand Schema.empty Samples.newCounting Samples.opts = .ok (stmts, r') ∧
    runBodies (fun _ => [(Samples.pub "t").fq]) (Samples.pub "t").fq (hasTable Schema.empty (Samples.pub "t").fq) stmts = none := by
  obtain ⟨stmts, r', h, s, hs, e⟩ := Samples.exists_plan (r := Samples.rand) (old := Schema.empty)
    (new := Samples.newCounting) (opts := Samples.opts)
    (P := fun stmts => ∃ s ∈ stmts, Statement.ddl s = .createFunction Samples.counting) (by decide +kernel)
  exact ⟨stmts, r', h, C75_function_reading_new_table_violated h (by unfold NamesUnique; decide +kernel) rfl rfl hs e (by simp) rfl⟩

/-- An expression index, a column and a view that call a function, each dropped together with it: the plan drops the function
first, which Postgres rejects. -/
theorem C75_other_users_violated :
    (∃ stmts r', generateMigrationStatements Samples.rand Samples.oldCalledByIndex
        { Schema.empty with tables := Samples.oldCalledByIndex.tables } Samples.opts = .ok (stmts, r') ∧
      stmts.map (fun s : Statement => s.ddl.render) = ["DROP FUNCTION \"public\".f()", "DROP INDEX CONCURRENTLY \"public\".\"i\""]) ∧
    (∃ stmts r', generateMigrationStatements Samples.rand Samples.oldCalledByDefault
        { Schema.empty with tables := [Samples.table "s" [Samples.col "a" "integer"]] } Samples.opts = .ok (stmts, r') ∧
      stmts.map (fun s : Statement => s.ddl.render) = ["DROP FUNCTION \"public\".f()", "DROP TABLE \"public\".\"t\""]) ∧
    (∃ stmts r', generateMigrationStatements Samples.rand Samples.oldCalledByView
        { Schema.empty with tables := Samples.oldCalledByView.tables } Samples.opts = .ok (stmts, r') ∧
      stmts.map (fun s : Statement => s.ddl.render) = ["DROP FUNCTION \"public\".f()", "DROP VIEW \"public\".\"v\""]) :=
  ⟨Samples.exists_plan (P := fun stmts => stmts.map (fun s : Statement => s.ddl.render) = _) (by decide +kernel),
    Samples.exists_plan (P := fun stmts => stmts.map (fun s : Statement => s.ddl.render) = _) (by decide +kernel),
    Samples.exists_plan (P := fun stmts => stmts.map (fun s : Statement => s.ddl.render) = _) (by decide +kernel)⟩

end Verif
