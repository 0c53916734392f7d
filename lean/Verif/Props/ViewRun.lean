import Verif.Spec.View
import Verif.Props.Trigger

/-!
# C76: views converge
-/

namespace Verif

open Spec

/-- the relation that the statement makes or drops -/
def Ddl.relation : Ddl → Option (RelKind × String)
  | .createTable x _ _ => some (.table, x.fq)
  | .dropTable x => some (.table, x.fq)
  | .createSequence x => some (.sequence, x.name.fq)
  | .dropSequence x => some (.sequence, x.fq)
  | .createView v => some (.view, v.name.fq)
  | .dropView x => some (.view, x.fq)
  | .createMaterializedView v => some (.matView, v.name.fq)
  | .dropMaterializedView x => some (.matView, x.fq)
  | _ => none

/-- the statement makes or drops this relation -/
def Ddl.onRel (k : RelKind) (n : String) (x : Ddl) : Bool := decide (x.relation = some (k, n))

section
variable {opts : PlanOptions} {old new : Schema} {d : SchemaDiff} {r r' : Rand} {stmts : List Statement} {n : String}

theorem relation_not_outer {x : Ddl} {p : RelKind × String} (h : x.relation = some p) : ¬ x.IsOuter := by
  cases x <;> first | exact fun h => h | cases h

/-- a plan only makes and drops relations of the two schemas -/
theorem relation_known (dr : DiffRun opts old new d) (run : PlanRun opts d r r' stmts) {s : Statement} (hs : s ∈ stmts)
    {k : RelKind} (h : s.ddl.relation = some (k, n)) : n ∈ relNames old k ∨ n ∈ relNames new k := by
  obtain ⟨id, hg⟩ := run.mem_shape hs (relation_not_outer h)
  cases hg with
  | newTable t ht ccs hc s hs' hid =>
    cases hs' with
    | create cols hcols =>
      cases h
      right
      have : Obj.getName t ∈ d.tableDiffs.adds.map Obj.getName := List.mem_map_of_mem ht
      rw [dr.addNames] at this
      obtain ⟨t0, ht0, e⟩ := List.mem_map.mp this
      exact List.mem_map.mpr ⟨t0, diffLists_adds_mem dr.htd0 ht0, e⟩
    | _ => cases h
  | dropTable t ht hp hid =>
    cases h
    rw [dr.hdeletes] at ht
    exact Or.inl (List.mem_map_of_mem (f := fun t : Table => t.name.fq) (diffLists_deletes_mem dr.htd0 ht))
  | createSequence q hq hid =>
    cases h
    exact Or.inr (List.mem_map_of_mem (f := fun t : Sequence => t.name.fq) (diffLists_adds_mem dr.hsequences hq))
  | dropOwnedSequence q hq =>
    cases h
    exact Or.inl (List.mem_map_of_mem (f := fun t : Sequence => t.name.fq) (diffLists_deletes_mem dr.hsequences hq))
  | dropSequence q hq =>
    cases h
    exact Or.inl (List.mem_map_of_mem (f := fun t : Sequence => t.name.fq) (diffLists_deletes_mem dr.hsequences hq))
  | createView v hv =>
    cases h
    exact Or.inr (List.mem_map_of_mem (f := fun t : View => t.name.fq) (diffLists_adds_mem dr.hviews hv))
  | dropView v hv =>
    cases h
    exact Or.inl (List.mem_map_of_mem (f := fun t : View => t.name.fq) (diffLists_deletes_mem dr.hviews hv))
  | createMatView v hv =>
    cases h
    exact Or.inr (List.mem_map_of_mem (f := fun t : MaterializedView => t.name.fq) (diffLists_adds_mem dr.hmatViews hv))
  | dropMatView v hv =>
    cases h
    exact Or.inl (List.mem_map_of_mem (f := fun t : MaterializedView => t.name.fq) (diffLists_deletes_mem dr.hmatViews hv))
  | alterTable td h' s hs' hid =>
    cases hs' with
    | column cd h' s hs' => cases hs' <;> cases h
    | _ => cases h
  | _ => cases h

/-- a statement that neither makes nor drops a relation of this name -/
theorem relStep_skip {sc : Schema} (hr : ∀ t ∈ sc.tables, t.name.fq = n → t.parentTable = none) {x : Ddl}
    (h : ∀ k, x.relation ≠ some (k, n)) (s : RelSlot) : relStep sc n s x = some s := by
  have ne : ∀ {k : RelKind} {m : String}, x.relation = some (k, m) → m ≠ n := by
    rintro k m e rfl
    exact h k e
  cases x with
  | createTable x cols p => exact if_neg (ne (show Ddl.relation _ = _ from rfl))
  | createSequence x => exact if_neg (ne (show Ddl.relation _ = _ from rfl))
  | createView v => exact if_neg (ne (show Ddl.relation _ = _ from rfl))
  | createMaterializedView v => exact if_neg (ne (show Ddl.relation _ = _ from rfl))
  | dropTable x =>
    have h1 : x.fq ≠ n := ne (show Ddl.relation _ = _ from rfl)
    have h2 : x.fq ∉ ancestors sc sc.tables.length n := by
      rw [ancestors_root hr]; simpa using h1
    unfold relStep
    dsimp only
    rw [if_neg h1, if_neg h2]
  | dropSequence x => exact if_neg (ne (show Ddl.relation _ = _ from rfl))
  | dropView x => exact if_neg (ne (show Ddl.relation _ = _ from rfl))
  | dropMaterializedView x => exact if_neg (ne (show Ddl.relation _ = _ from rfl))
  | _ => rfl

theorem runRel_filter {sc : Schema} (hr : ∀ t ∈ sc.tables, t.name.fq = n → t.parentTable = none) {k : RelKind}
    (h : ∀ s ∈ stmts, ∀ k', s.ddl.relation = some (k', n) → k' = k) (s : RelSlot) :
    runRel sc n s stmts = runRel sc n s (stmts.filter fun s : Statement => s.ddl.onRel k n) := by
  refine runWith_filter (I := fun _ => True) (fun x hx hp s _ => relStep_skip hr ?_ s) (fun _ _ _ _ _ _ _ => trivial) trivial
  intro k' e
  obtain rfl := h x hx k' e
  exact of_decide_eq_false hp e

/-- what a plan does about a view of one of the two kinds -/
inductive ViewFate {V : Type} (name : V → SQName) (same : V → V → Bool) (create : V → Ddl) (drop : SQName → Ddl) (old new : List V)
    (n : String) (L : List Statement) (dels adds : List V) : Prop where
  | absent (ho : ∀ o ∈ old, (name o).fq ≠ n) (hn : ∀ x ∈ new, (name x).fq ≠ n) (hs : L = [])
  | dropped (o : V) (ho : o ∈ old) (e : (name o).fq = n) (hn : ∀ x ∈ new, (name x).fq ≠ n)
      (hd : o ∈ dels) (hs : L = [stmt (drop (name o))])
  | added (x : V) (hx : x ∈ new) (e : (name x).fq = n) (ho : ∀ o ∈ old, (name o).fq ≠ n)
      (ha : x ∈ adds) (hs : L = [stmt (create x)])
  | recreated (o x : V) (ho : o ∈ old) (hx : x ∈ new) (eo : (name o).fq = n) (ex : (name x).fq = n)
      (hs : L = [stmt (drop (name o)), stmt (create x)])
  | same (o x : V) (ho : o ∈ old) (hx : x ∈ new) (eo : (name o).fq = n) (ex : (name x).fq = n) (h : same o x = true) (hs : L = [])


theorem view_build {o x : View} {a : GoMap String Table} {b : GoMap String TableDiff} {i j : Nat} {od : OldNew View}
    {re : Bool} (h : buildViewDiff a b o x i j = .ok (od, re)) : od = ⟨o, x⟩ ∧ (re = false → o.same x = true) := by
  unfold buildViewDiff at h
  cases e : viewDepsRecreated a b o.tableDependencies with
  | error _ => rw [e] at h; cases h
  | ok z =>
    rw [e] at h
    cases z with
    | true => cases h; exact ⟨rfl, fun h => nomatch h⟩
    | false =>
      by_cases hsame : o.same x = true
      · have e2 : ViewGen.gen.alter ⟨o, x⟩ = .ok .empty := if_pos hsame
        simp only [bind, Except.bind, e2] at h
        cases h
        exact ⟨rfl, fun _ => hsame⟩
      · have e2 : ∃ e, ViewGen.gen.alter ⟨o, x⟩ = .error e := ⟨_, if_neg hsame⟩
        obtain ⟨e2, e3⟩ := e2
        simp only [bind, Except.bind, e3] at h
        rw [if_neg (by decide)] at h
        split at h
        · cases h; exact ⟨rfl, fun h => nomatch h⟩
        · cases h

theorem view_order (run : PlanRun opts d r r' stmts) :
    AllBefore (fun s => ∃ m, s.ddl = .dropView m ∧ m.fq = n) (fun s => ∃ v, s.ddl = .createView v ∧ v.name.fq = n) stmts := by
  refine run.allBefore (fun s hs => by obtain ⟨m, e, _⟩ := hs; rw [e]; exact fun h => h)
    (fun s hs => by obtain ⟨m, e, _⟩ := hs; rw [e]; exact fun h => h) ?_
  rintro u x w y hx hy ⟨m, em, hm⟩ ⟨v, ev, hv⟩
  obtain ⟨rfl, _⟩ := hx.dropView_vertex em
  obtain ⟨rfl, v', hv', e⟩ := hy.createView_vertex (n := v.name) (by rw [ev]; exact decide_eq_true (p := v.name = v.name) rfl)
  have h1 := (run.declared_create_view hv').1
  rw [e] at h1
  have e2 : viewVertexId m .delete = viewVertexId v.name .delete := by unfold viewVertexId; rw [hm, hv]
  rw [e2]
  exact .single h1

theorem view_fate (dr : DiffRun opts old new d) (run : PlanRun opts d r r' stmts) (hu : NamesUnique new.views)
    (n : String) : ViewFate (fun v : View => v.name) View.same .createView .dropView old.views new.views n
      (stmts.filter fun s : Statement => s.ddl.onRel .view n) d.viewDiffs.deletes d.viewDiffs.adds := by
  have hL := run.family_perm (f := .view) rfl (P := fun s : Statement => s.ddl.onRel .view n)
    (fun s hs => by
      have hs : s.ddl.relation = some (.view, n) := of_decide_eq_true hs
      cases e : s.ddl <;> rw [e] at hs <;> first | rfl | cases hs)
  have notIn : ∀ {l : List View}, n ∉ l.map Obj.getName → ∀ o ∈ l, o.name.fq ≠ n := fun h o ho e =>
    h (e ▸ List.mem_map_of_mem (f := Obj.getName) ho)
  have addP : ∀ {o : View} {p : PartialGraph Statement}, ViewGen.gen.add o = .ok p →
      p.statements = [stmt (.createView o)] := by
    intro o p hp
    cases hp; rfl
  have delP : ∀ {o : View} {p : PartialGraph Statement}, ViewGen.gen.delete o = .ok p →
      p.statements = [stmt (.dropView o.name)] := by
    intro o p hp
    cases hp; rfl
  have altP : ∀ {o : OldNew View} {p : PartialGraph Statement}, ViewGen.gen.alter o = .ok p → p.statements = [] := by
    intro o p hp
    have hp : (if o.old.same o.new then .ok .empty else .error _) = Except.ok p := hp
    split at hp
    · cases hp; rfl
    · cases hp
  have one : ∀ {s : Statement} {m : String}, s.ddl.relation = some (.view, m) → m = n → s.ddl.onRel .view n = true := by
    rintro s m h rfl
    exact decide_eq_true h
  have off : ∀ {s : Statement} {m : String}, s.ddl.relation = some (.view, m) → m ≠ n → s.ddl.onRel .view n = false := by
    intro s m h hne
    refine decide_eq_false fun e => hne ?_
    rw [h] at e
    cases e; rfl
  have fate := plan_fate (m := Except Err) dr.hviews hu (g := ViewGen.gen) run.hviews
    (key := fun x : OldNew View => Obj.getName x.new) (by
      intro o x j i d _ hb
      cases (view_build hb).1; rfl) (n := n) hL (by
      intro o _ p hp hne
      rw [addP hp]
      exact filter_none (P := fun s : Statement => s.ddl.onRel .view n) (off rfl hne)) (by
      intro o _ p hp hne
      rw [delP hp]
      exact filter_none (P := fun s : Statement => s.ddl.onRel .view n) (off rfl hne)) (by
      rintro ⟨o, x⟩ _ p hp hne
      rw [altP hp]; rfl)
  cases fate with
  | absent ho hn hs => exact .absent (notIn ho) (notIn hn) hs
  | dropped o ho e hn h p hp hs =>
    rw [delP hp, filter_one (P := fun s : Statement => s.ddl.onRel .view n) (s := stmt (.dropView o.name)) (one rfl e)] at hs
    exact .dropped o ho e (notIn hn) h (List.perm_singleton.mp hs)
  | added x hx e ho h p hp hs =>
    rw [addP hp, filter_one (P := fun s : Statement => s.ddl.onRel .view n) (s := stmt (.createView x)) (one rfl e)] at hs
    exact .added x hx e (notIn ho) h (List.perm_singleton.mp hs)
  | recreated o x ho hx eo ex hb h h' p p' hp hp' hs =>
    rw [delP hp, filter_one (P := fun s : Statement => s.ddl.onRel .view n) (s := stmt (.dropView o.name)) (one rfl eo),
      addP hp', filter_one (P := fun s : Statement => s.ddl.onRel .view n) (s := stmt (.createView x)) (one rfl ex)] at hs
    exact .recreated o x ho hx eo ex (filter_two_of_before hs (view_order run) ⟨o.name, rfl, eo⟩ ⟨x, rfl, ex⟩)
  | altered o x fd ho hx eo ex hb h p hp hs =>
    obtain ⟨i, j, hb⟩ := hb
    rw [altP hp] at hs
    exact .same o x ho hx eo ex ((view_build hb).2 rfl) (List.perm_nil.mp hs)

theorem matView_build {o x : MaterializedView} {a : GoMap String Table} {b : GoMap String TableDiff} {i j : Nat} {od : OldNew MaterializedView}
    {re : Bool} (h : buildMaterializedViewDiff a b o x i j = .ok (od, re)) : od = ⟨o, x⟩ ∧ (re = false → o.same x = true) := by
  unfold buildMaterializedViewDiff at h
  cases e : viewDepsRecreated a b o.tableDependencies with
  | error _ => rw [e] at h; cases h
  | ok z =>
    rw [e] at h
    cases z with
    | true => cases h; exact ⟨rfl, fun h => nomatch h⟩
    | false =>
      by_cases hsame : o.same x = true
      · have e2 : MatViewGen.gen.alter ⟨o, x⟩ = .ok .empty := if_pos hsame
        simp only [bind, Except.bind, e2] at h
        cases h
        exact ⟨rfl, fun _ => hsame⟩
      · have e2 : ∃ e, MatViewGen.gen.alter ⟨o, x⟩ = .error e := ⟨_, if_neg hsame⟩
        obtain ⟨e2, e3⟩ := e2
        simp only [bind, Except.bind, e3] at h
        rw [if_neg (by decide)] at h
        split at h
        · cases h; exact ⟨rfl, fun h => nomatch h⟩
        · cases h

theorem matView_order (run : PlanRun opts d r r' stmts) :
    AllBefore (fun s => ∃ m, s.ddl = .dropMaterializedView m ∧ m.fq = n) (fun s => ∃ v, s.ddl = .createMaterializedView v ∧ v.name.fq = n) stmts := by
  refine run.allBefore (fun s hs => by obtain ⟨m, e, _⟩ := hs; rw [e]; exact fun h => h)
    (fun s hs => by obtain ⟨m, e, _⟩ := hs; rw [e]; exact fun h => h) ?_
  rintro u x w y hx hy ⟨m, em, hm⟩ ⟨v, ev, hv⟩
  obtain ⟨rfl, _⟩ := hx.dropMatView_vertex em
  obtain ⟨rfl, v', hv', e⟩ := hy.createMatView_vertex (n := v.name) (by rw [ev]; exact decide_eq_true (p := v.name = v.name) rfl)
  have h1 := (run.declared_create_matView hv').1
  rw [e] at h1
  have e2 : matViewVertexId m .delete = matViewVertexId v.name .delete := by unfold matViewVertexId; rw [hm, hv]
  rw [e2]
  exact .single h1

theorem matView_fate (dr : DiffRun opts old new d) (run : PlanRun opts d r r' stmts) (hu : NamesUnique new.materializedViews)
    (n : String) : ViewFate (fun v : MaterializedView => v.name) MaterializedView.same .createMaterializedView .dropMaterializedView old.materializedViews new.materializedViews n
      (stmts.filter fun s : Statement => s.ddl.onRel .matView n) d.materializedViewDiffs.deletes d.materializedViewDiffs.adds := by
  have hL := run.family_perm (f := .matView) rfl (P := fun s : Statement => s.ddl.onRel .matView n)
    (fun s hs => by
      have hs : s.ddl.relation = some (.matView, n) := of_decide_eq_true hs
      cases e : s.ddl <;> rw [e] at hs <;> first | rfl | cases hs)
  have notIn : ∀ {l : List MaterializedView}, n ∉ l.map Obj.getName → ∀ o ∈ l, o.name.fq ≠ n := fun h o ho e =>
    h (e ▸ List.mem_map_of_mem (f := Obj.getName) ho)
  have addP : ∀ {o : MaterializedView} {p : PartialGraph Statement}, MatViewGen.gen.add o = .ok p →
      p.statements = [stmt (.createMaterializedView o)] := by
    intro o p hp
    cases hp; rfl
  have delP : ∀ {o : MaterializedView} {p : PartialGraph Statement}, MatViewGen.gen.delete o = .ok p →
      p.statements = [stmt (.dropMaterializedView o.name)] := by
    intro o p hp
    cases hp; rfl
  have altP : ∀ {o : OldNew MaterializedView} {p : PartialGraph Statement}, MatViewGen.gen.alter o = .ok p → p.statements = [] := by
    intro o p hp
    have hp : (if o.old.same o.new then .ok .empty else .error _) = Except.ok p := hp
    split at hp
    · cases hp; rfl
    · cases hp
  have one : ∀ {s : Statement} {m : String}, s.ddl.relation = some (.matView, m) → m = n → s.ddl.onRel .matView n = true := by
    rintro s m h rfl
    exact decide_eq_true h
  have off : ∀ {s : Statement} {m : String}, s.ddl.relation = some (.matView, m) → m ≠ n → s.ddl.onRel .matView n = false := by
    intro s m h hne
    refine decide_eq_false fun e => hne ?_
    rw [h] at e
    cases e; rfl
  have fate := plan_fate (m := Except Err) dr.hmatViews hu (g := MatViewGen.gen) run.hmatViews
    (key := fun x : OldNew MaterializedView => Obj.getName x.new) (by
      intro o x j i d _ hb
      cases (matView_build hb).1; rfl) (n := n) hL (by
      intro o _ p hp hne
      rw [addP hp]
      exact filter_none (P := fun s : Statement => s.ddl.onRel .matView n) (off rfl hne)) (by
      intro o _ p hp hne
      rw [delP hp]
      exact filter_none (P := fun s : Statement => s.ddl.onRel .matView n) (off rfl hne)) (by
      rintro ⟨o, x⟩ _ p hp hne
      rw [altP hp]; rfl)
  cases fate with
  | absent ho hn hs => exact .absent (notIn ho) (notIn hn) hs
  | dropped o ho e hn h p hp hs =>
    rw [delP hp, filter_one (P := fun s : Statement => s.ddl.onRel .matView n) (s := stmt (.dropMaterializedView o.name)) (one rfl e)] at hs
    exact .dropped o ho e (notIn hn) h (List.perm_singleton.mp hs)
  | added x hx e ho h p hp hs =>
    rw [addP hp, filter_one (P := fun s : Statement => s.ddl.onRel .matView n) (s := stmt (.createMaterializedView x)) (one rfl e)] at hs
    exact .added x hx e (notIn ho) h (List.perm_singleton.mp hs)
  | recreated o x ho hx eo ex hb h h' p p' hp hp' hs =>
    rw [delP hp, filter_one (P := fun s : Statement => s.ddl.onRel .matView n) (s := stmt (.dropMaterializedView o.name)) (one rfl eo),
      addP hp', filter_one (P := fun s : Statement => s.ddl.onRel .matView n) (s := stmt (.createMaterializedView x)) (one rfl ex)] at hs
    exact .recreated o x ho hx eo ex (filter_two_of_before hs (matView_order run) ⟨o.name, rfl, eo⟩ ⟨x, rfl, ex⟩)
  | altered o x fd ho hx eo ex hb h p hp hs =>
    obtain ⟨i, j, hb⟩ := hb
    rw [altP hp] at hs
    exact .same o x ho hx eo ex ((matView_build hb).2 rfl) (List.perm_nil.mp hs)

/-- the slot of whatever has the name in a list -/
def slotIn {V : Type} (name : V → SQName) (slot : V → RelSlot) (l : List V) (n : String) : RelSlot :=
  match l.find? fun v => (name v).fq = n with
  | some v => slot v
  | none => .nothing

theorem slotIn_of {V : Type} {name : V → SQName} {slot : V → RelSlot} {l : List V} (hu : (l.map fun v => (name v).fq).Nodup)
    {v : V} (hv : v ∈ l) (e : (name v).fq = n) : slotIn name slot l n = slot v := by
  subst e
  unfold slotIn
  rw [find_named (f := fun v => (name v).fq) hu hv]

theorem slotIn_none {V : Type} {name : V → SQName} {slot : V → RelSlot} {l : List V} (h : ∀ v ∈ l, (name v).fq ≠ n) :
    slotIn name slot l n = .nothing := by
  unfold slotIn
  rw [find_unnamed (f := fun v => (name v).fq) h]

/-- views of one kind, alone -/
theorem ViewFate.run {V : Type} {name : V → SQName} {same : V → V → Bool} {create : V → Ddl} {drop : SQName → Ddl}
    {lo ln : List V} {L : List Statement} {dels adds : List V} {slot : V → RelSlot} {sc : Schema}
    (hf : ViewFate name same create drop lo ln n L dels adds) (ho : (lo.map fun v => (name v).fq).Nodup)
    (hn : (ln.map fun v => (name v).fq).Nodup)
    (hc : ∀ v, (name v).fq = n → relStep sc n .nothing (create v) = some (slot v))
    (hd : ∀ v o, (name o).fq = n → relStep sc n (slot v) (drop (name o)) = some .nothing)
    (hs : ∀ a b, same a b = true → slot a = slot b) :
    runRel sc n (slotIn name slot lo n) L = some (slotIn name slot ln n) := by
  cases hf with
  | absent a b e => rw [slotIn_none a, slotIn_none b, e]; rfl
  | dropped o a e b _ h =>
    rw [slotIn_of ho a e, slotIn_none b, h]
    show (relStep sc n (slot o) (drop (name o))).bind _ = _
    rw [hd o o e]; rfl
  | added x a e b _ h =>
    rw [slotIn_of hn a e, slotIn_none b, h]
    show (relStep sc n .nothing (create x)).bind _ = _
    rw [hc x e]; rfl
  | recreated o x a b eo ex h =>
    rw [slotIn_of ho a eo, slotIn_of hn b ex, h]
    show (relStep sc n (slot o) (drop (name o))).bind _ = _
    rw [hd o o eo]
    show (relStep sc n .nothing (create x)).bind _ = _
    rw [hc x ex]; rfl
  | same o x a b eo ex h h' =>
    rw [slotIn_of ho a eo, slotIn_of hn b ex, h', hs o x h]; rfl

theorem sameMap_get {a b : GoMap String String} (h : sameMap a b = true) : a.get? = b.get? := by
  unfold sameMap at h
  rw [Bool.and_eq_true, List.all_eq_true, List.all_eq_true] at h
  funext k
  cases e : a.get? k with
  | some v => exact (of_decide_eq_true (h.1 (k, v) (GoMap.mem_of_get? e))).symm
  | none =>
    cases e2 : b.get? k with
    | none => rfl
    | some v =>
      have := of_decide_eq_true (h.2 (k, v) (GoMap.mem_of_get? e2))
      rw [e] at this
      exact this

theorem viewSlot_same {a b : View} (h : a.same b = true) : viewSlot a = viewSlot b := by
  unfold View.same at h
  simp only [Bool.and_eq_true, decide_eq_true_eq] at h
  unfold viewSlot
  rw [h.1.1.2, sameMap_get h.1.2]

theorem matViewSlot_same {a b : MaterializedView} (h : a.same b = true) : matViewSlot a = matViewSlot b := by
  unfold MaterializedView.same at h
  simp only [Bool.and_eq_true, decide_eq_true_eq] at h
  unfold matViewSlot
  rw [h.1.1.1.2, sameMap_get h.1.1.2, h.1.2]

theorem not_named {α : Type} {f : α → String} {l : List α} (h : n ∉ l.map f) : ∀ x ∈ l, f x ≠ n := fun x hx e =>
  h (e ▸ List.mem_map_of_mem hx)

theorem relOf_views {s : Schema} (ht : n ∉ relNames s .table) (hs : n ∉ relNames s .sequence) (hm : n ∉ relNames s .matView) :
    relOf s n = slotIn (fun v : View => v.name) viewSlot s.views n := by
  unfold relOf slotIn
  rw [if_neg ht, if_neg hs]
  cases h : s.views.find? fun v => v.name.fq = n with
  | some v => rfl
  | none =>
    dsimp only
    rw [find_unnamed (f := fun v : MaterializedView => v.name.fq) (not_named hm)]

theorem relOf_matViews {s : Schema} (ht : n ∉ relNames s .table) (hs : n ∉ relNames s .sequence) (hm : n ∉ relNames s .view) :
    relOf s n = slotIn (fun v : MaterializedView => v.name) matViewSlot s.materializedViews n := by
  unfold relOf slotIn
  rw [if_neg ht, if_neg hs, find_unnamed (f := fun v : View => v.name.fq) (not_named hm)]
  dsimp only
  cases h : s.materializedViews.find? fun v => v.name.fq = n <;> rfl

theorem old_views_unique (dr : DiffRun opts old new d) : NamesUnique old.views := diffLists_old_nodup dr.hviews

theorem old_matViews_unique (dr : DiffRun opts old new d) : NamesUnique old.materializedViews := diffLists_old_nodup dr.hmatViews

/-- the two kinds of views, together -/
def Ddl.onView (n : String) (x : Ddl) : Bool := x.onRel .view n || x.onRel .matView n

theorem runRel_views {sc : Schema} (hr : ∀ t ∈ sc.tables, t.name.fq = n → t.parentTable = none)
    (h : ∀ s ∈ stmts, ∀ k, s.ddl.relation = some (k, n) → k = .view ∨ k = .matView) (s : RelSlot) :
    runRel sc n s stmts = runRel sc n s (stmts.filter fun s : Statement => s.ddl.onView n) := by
  refine runWith_filter (I := fun _ => True) (fun x hx hp s _ => relStep_skip hr ?_ s) (fun _ _ _ _ _ _ _ => trivial) trivial
  intro k e
  have hp : (x.ddl.onRel .view n || x.ddl.onRel .matView n) = false := hp
  rw [Bool.or_eq_false_iff] at hp
  rcases h x hx k e with rfl | rfl
  · exact of_decide_eq_false hp.1 e
  · exact of_decide_eq_false hp.2 e

theorem onView_left (h : (stmts.filter fun s : Statement => s.ddl.onRel .matView n) = []) :
    (stmts.filter fun s : Statement => s.ddl.onView n) = stmts.filter fun s : Statement => s.ddl.onRel .view n := by
  refine List.filter_congr fun s hs => ?_
  have := List.filter_eq_nil_iff.mp h s hs
  show (_ || _) = _
  rw [Bool.not_eq_true] at this
  rw [this, Bool.or_false]

theorem onView_right (h : (stmts.filter fun s : Statement => s.ddl.onRel .view n) = []) :
    (stmts.filter fun s : Statement => s.ddl.onView n) = stmts.filter fun s : Statement => s.ddl.onRel .matView n := by
  refine List.filter_congr fun s hs => ?_
  have := List.filter_eq_nil_iff.mp h s hs
  show (_ || _) = _
  rw [Bool.not_eq_true] at this
  rw [this, Bool.false_or]

theorem rel_disjoint (s : Statement) (h : s.ddl.onRel .view n = true) (h' : s.ddl.onRel .matView n = true) : False := by
  have h := of_decide_eq_true h
  have h' := of_decide_eq_true h'
  rw [h] at h'
  cases h'

theorem onRel_cases_view {x : Ddl} (h : x.onRel .view n = true) :
    (∃ m, x = .dropView m ∧ m.fq = n) ∨ ∃ v, x = .createView v ∧ v.name.fq = n := by
  have h : x.relation = some (.view, n) := of_decide_eq_true h
  cases x <;> first | cases h
  · exact Or.inr ⟨_, rfl, rfl⟩
  · exact Or.inl ⟨_, rfl, rfl⟩

theorem onRel_cases_matView {x : Ddl} (h : x.onRel .matView n = true) :
    (∃ m, x = .dropMaterializedView m ∧ m.fq = n) ∨ ∃ v, x = .createMaterializedView v ∧ v.name.fq = n := by
  have h : x.relation = some (.matView, n) := of_decide_eq_true h
  cases x <;> first | cases h
  · exact Or.inr ⟨_, rfl, rfl⟩
  · exact Or.inl ⟨_, rfl, rfl⟩

/-- a view goes before a materialized view that shares a table with it comes -/
theorem toMatView_order (run : PlanRun opts d r r' stmts) {o : View} {x : MaterializedView} (ho : o ∈ d.viewDiffs.deletes)
    (hx : x ∈ d.materializedViewDiffs.adds) {t u : TableDependency} (ht : t ∈ o.tableDependencies) (hu : u ∈ x.tableDependencies)
    (e : t.name.fq = u.name.fq) (eo : o.name.fq = n) (ex : x.name.fq = n)
    (ha : (stmts.filter fun s : Statement => s.ddl.onRel .view n) = [stmt (.dropView o.name)])
    (hb : (stmts.filter fun s : Statement => s.ddl.onRel .matView n) = [stmt (.createMaterializedView x)]) :
    (stmts.filter fun s : Statement => s.ddl.onView n) = [stmt (.dropView o.name), stmt (.createMaterializedView x)] := by
  have key : AllBefore (fun s => s.ddl.onRel .view n = true) (fun s => s.ddl.onRel .matView n = true) stmts := by
    have h1 : AllBefore (fun s => s.ddl = .dropView o.name) (fun s => s.ddl = .createMaterializedView x) stmts := by
      refine run.allBefore (fun s hs => by rw [hs]; exact fun h => h) (fun s hs => by rw [hs]; exact fun h => h) ?_
      intro a b c f hb hf ep eq
      obtain ⟨rfl, _⟩ := hb.dropView_vertex ep
      obtain ⟨rfl, _⟩ := hf.createMatView_vertex (n := x.name) (by rw [eq]; exact decide_eq_true (p := x.name = x.name) rfl)
      refine .tail (.single (run.declared_drop_view ho ht).1) ?_
      have e2 : tableVertexId t.name .delete = tableVertexId u.name .delete := by unfold tableVertexId; rw [e]
      rw [e2]
      exact ((run.declared_create_matView hx).2 u hu).1
    refine h1.mono (fun s hs h => ?_) (fun s hs h => ?_)
    · have : s ∈ stmts.filter fun s : Statement => s.ddl.onRel .view n := List.mem_filter.mpr ⟨hs, h⟩
      rw [ha, List.mem_singleton] at this
      rw [this]; rfl
    · have : s ∈ stmts.filter fun s : Statement => s.ddl.onRel .matView n := List.mem_filter.mpr ⟨hs, h⟩
      rw [hb, List.mem_singleton] at this
      rw [this]; rfl
  have := filter_or_of_before key rel_disjoint
  rw [ha, hb] at this
  exact this

/-- a materialized view goes before a view that shares a table with it comes -/
theorem toView_order (run : PlanRun opts d r r' stmts) {o : MaterializedView} {x : View}
    (ho : o ∈ d.materializedViewDiffs.deletes) (hx : x ∈ d.viewDiffs.adds) {t u : TableDependency} (ht : t ∈ o.tableDependencies)
    (hu : u ∈ x.tableDependencies) (e : t.name.fq = u.name.fq) (eo : o.name.fq = n) (ex : x.name.fq = n)
    (ha : (stmts.filter fun s : Statement => s.ddl.onRel .matView n) = [stmt (.dropMaterializedView o.name)])
    (hb : (stmts.filter fun s : Statement => s.ddl.onRel .view n) = [stmt (.createView x)]) :
    (stmts.filter fun s : Statement => s.ddl.onView n) = [stmt (.dropMaterializedView o.name), stmt (.createView x)] := by
  have key : AllBefore (fun s => s.ddl.onRel .matView n = true) (fun s => s.ddl.onRel .view n = true) stmts := by
    have h1 : AllBefore (fun s => s.ddl = .dropMaterializedView o.name) (fun s => s.ddl = .createView x) stmts := by
      refine run.allBefore (fun s hs => by rw [hs]; exact fun h => h) (fun s hs => by rw [hs]; exact fun h => h) ?_
      intro a b c f hb hf ep eq
      obtain ⟨rfl, _⟩ := hb.dropMatView_vertex ep
      obtain ⟨rfl, _⟩ := hf.createView_vertex (n := x.name) (by rw [eq]; exact decide_eq_true (p := x.name = x.name) rfl)
      refine .tail (.single (run.declared_drop_matView ho ht).1) ?_
      have e2 : tableVertexId t.name .delete = tableVertexId u.name .delete := by unfold tableVertexId; rw [e]
      rw [e2]
      exact ((run.declared_create_view hx).2 u hu).1
    refine h1.mono (fun s hs h => ?_) (fun s hs h => ?_)
    · have : s ∈ stmts.filter fun s : Statement => s.ddl.onRel .matView n := List.mem_filter.mpr ⟨hs, h⟩
      rw [ha, List.mem_singleton] at this
      rw [this]; rfl
    · have : s ∈ stmts.filter fun s : Statement => s.ddl.onRel .view n := List.mem_filter.mpr ⟨hs, h⟩
      rw [hb, List.mem_singleton] at this
      rw [this]; rfl
  have := filter_or_of_before key fun s h h' => rel_disjoint s h' h
  rw [ha, hb] at this
  refine Eq.trans (List.filter_congr fun s _ => ?_) this
  exact Bool.or_comm _ _

theorem relStep_create_view {sc : Schema} {v : View} (e : v.name.fq = n) :
    relStep sc n .nothing (.createView v) = some (viewSlot v) := if_pos e

theorem relStep_create_matView {sc : Schema} {v : MaterializedView} (e : v.name.fq = n) :
    relStep sc n .nothing (.createMaterializedView v) = some (matViewSlot v) := if_pos e

theorem relStep_drop_view {sc : Schema} {v : View} {m : SQName} (e : m.fq = n) :
    relStep sc n (viewSlot v) (.dropView m) = some .nothing := if_pos e

theorem relStep_drop_matView {sc : Schema} {v : MaterializedView} {m : SQName} (e : m.fq = n) :
    relStep sc n (matViewSlot v) (.dropMaterializedView m) = some .nothing := if_pos e

theorem runRel_two {sc : Schema} {a b c : RelSlot} {x y : Ddl} (h1 : relStep sc n a x = some b) (h2 : relStep sc n b y = some c) :
    runRel sc n a [stmt x, stmt y] = some c := by
  show (relStep sc n a x).bind (fun s => (relStep sc n s y).bind some) = some c
  rw [h1, Option.bind_some, h2, Option.bind_some]

theorem views_converge (dr : DiffRun opts old new d) (run : PlanRun opts d r r' stmts) (hv : NamesUnique new.views)
    (hm : NamesUnique new.materializedViews) (hk : ViewName old new n) :
    runRel old n (relOf old n) stmts = some (relOf new n) := by
  have named : ∀ {α : Type} {f : α → String} {l : List α} {x : α}, x ∈ l → f x = n → n ∈ l.map f := fun hx e =>
    e ▸ List.mem_map_of_mem hx
  have unnamed : ∀ {α : Type} {f : α → String} {l : List α}, (∀ x ∈ l, f x ≠ n) → n ∉ l.map f := fun h hn => by
    obtain ⟨x, hx, e⟩ := List.mem_map.mp hn
    exact h x hx e
  rw [runRel_views (fun t ht e => absurd (named (f := fun t : Table => t.name.fq) ht e) hk.oldTable) (fun s hs k e => by
    cases k with
    | table => exact ((relation_known dr run hs e).elim hk.oldTable hk.newTable).elim
    | sequence => exact ((relation_known dr run hs e).elim hk.oldSequence hk.newSequence).elim
    | view => exact Or.inl rfl
    | matView => exact Or.inr rfl)]
  have fv := view_fate dr run hv n
  have fm := matView_fate dr run hm n
  have runV := fv.run (slot := viewSlot) (sc := old) (old_views_unique dr) hv (fun v e => relStep_create_view e)
    (fun v o e => relStep_drop_view e) (fun a b => viewSlot_same)
  have runM := fm.run (slot := matViewSlot) (sc := old) (old_matViews_unique dr) hm (fun v e => relStep_create_matView e)
    (fun v o e => relStep_drop_matView e) (fun a b => matViewSlot_same)
  have onlyV : n ∉ relNames old .matView → n ∉ relNames new .matView →
      (stmts.filter fun s : Statement => s.ddl.onRel .matView n) = [] →
      runRel old n (relOf old n) (stmts.filter fun s : Statement => s.ddl.onView n) = some (relOf new n) := fun h1 h2 h3 => by
    rw [onView_left h3, relOf_views hk.oldTable hk.oldSequence h1, relOf_views hk.newTable hk.newSequence h2]
    exact runV
  have onlyM : n ∉ relNames old .view → n ∉ relNames new .view →
      (stmts.filter fun s : Statement => s.ddl.onRel .view n) = [] →
      runRel old n (relOf old n) (stmts.filter fun s : Statement => s.ddl.onView n) = some (relOf new n) := fun h1 h2 h3 => by
    rw [onView_right h3, relOf_matViews hk.oldTable hk.oldSequence h1, relOf_matViews hk.newTable hk.newSequence h2]
    exact runM
  have both : (∃ o ∈ old.views, o.name.fq = n) → (∃ x ∈ new.views, x.name.fq = n) →
      runRel old n (relOf old n) (stmts.filter fun s : Statement => s.ddl.onView n) = some (relOf new n) := by
    rintro ⟨o, ho, eo⟩ ⟨x, hx, ex⟩
    have h1 := hk.oldKind (named ho eo)
    have h2 := hk.newKind (named hx ex)
    cases fm with
    | absent _ _ hs => exact onlyV h1 h2 hs
    | dropped o ho e => exact absurd (named (f := fun v : MaterializedView => v.name.fq) ho e) h1
    | added x hx e => exact absurd (named (f := fun v : MaterializedView => v.name.fq) hx e) h2
    | recreated o x ho hx eo => exact absurd (named (f := fun v : MaterializedView => v.name.fq) ho eo) h1
    | same o x ho hx eo => exact absurd (named (f := fun v : MaterializedView => v.name.fq) ho eo) h1
  cases hfv : fv with
  | absent a b e => exact onlyM (unnamed a) (unnamed b) e
  | recreated o x a b eo ex h => exact both ⟨o, a, eo⟩ ⟨x, b, ex⟩
  | same o x a b eo ex h => exact both ⟨o, a, eo⟩ ⟨x, b, ex⟩
  | dropped o a e b hd h =>
    have h1 := hk.oldKind (named (f := fun v : View => v.name.fq) a e)
    cases fm with
    | absent _ hn hs => exact onlyV h1 (unnamed hn) hs
    | dropped o ho e => exact absurd (named (f := fun v : MaterializedView => v.name.fq) ho e) h1
    | recreated o x ho hx eo => exact absurd (named (f := fun v : MaterializedView => v.name.fq) ho eo) h1
    | same o x ho hx eo => exact absurd (named (f := fun v : MaterializedView => v.name.fq) ho eo) h1
    | added x hx ex _ ha hs =>
      obtain ⟨t, ht, u, hu, e3⟩ := hk.toMatView o a x hx e ex
      rw [toMatView_order run hd ha ht hu e3 e ex h hs, relOf_views hk.oldTable hk.oldSequence h1,
        relOf_matViews hk.newTable hk.newSequence (unnamed b), slotIn_of (old_views_unique dr) a e, slotIn_of hm hx ex]
      exact runRel_two (relStep_drop_view e) (relStep_create_matView ex)
  | added x a ex b ha h =>
    have h1 := hk.newKind (named (f := fun v : View => v.name.fq) a ex)
    cases fm with
    | absent hn _ hs => exact onlyV (unnamed hn) h1 hs
    | added o ho e => exact absurd (named (f := fun v : MaterializedView => v.name.fq) ho e) h1
    | recreated o x ho hx eo ex => exact absurd (named (f := fun v : MaterializedView => v.name.fq) hx ex) h1
    | same o x ho hx eo ex => exact absurd (named (f := fun v : MaterializedView => v.name.fq) hx ex) h1
    | dropped o ho e _ hd hs =>
      obtain ⟨t, ht, u, hu, e3⟩ := hk.toView o ho x a e ex
      rw [toView_order run hd ha ht hu e3 e ex hs h, relOf_matViews hk.oldTable hk.oldSequence (unnamed b),
        relOf_views hk.newTable hk.newSequence h1, slotIn_of (old_matViews_unique dr) ho e, slotIn_of hv a ex]
      exact runRel_two (relStep_drop_matView e) (relStep_create_view ex)

theorem normalize_relNames (s : Schema) (k : RelKind) : n ∈ relNames s.normalize k ↔ n ∈ relNames s k := by
  cases k with
  | table => exact (normalize_tables_names s).mem_iff
  | sequence => exact ((sortObjs_perm s.sequences).map _).mem_iff
  | view => exact (normalize_views_names s).mem_iff
  | matView => exact (normalize_matViews_names s).mem_iff

theorem shared_normalize {l l' : List TableDependency} (h : ∃ t ∈ l, ∃ u ∈ l', t.name.fq = u.name.fq) :
    ∃ t ∈ (sortObjs l).map normalizeTableDependency, ∃ u ∈ (sortObjs l').map normalizeTableDependency, t.name.fq = u.name.fq := by
  obtain ⟨t, ht, u, hu, e⟩ := h
  exact ⟨_, mem_normalize_deps ht, _, mem_normalize_deps hu, e⟩

theorem viewName_normalize (h : ViewName old new n) : ViewName old.normalize new.normalize n where
  oldTable := fun h' => h.oldTable ((normalize_relNames _ _).mp h')
  newTable := fun h' => h.newTable ((normalize_relNames _ _).mp h')
  oldSequence := fun h' => h.oldSequence ((normalize_relNames _ _).mp h')
  newSequence := fun h' => h.newSequence ((normalize_relNames _ _).mp h')
  oldKind := fun h' h'' => h.oldKind ((normalize_relNames _ _).mp h') ((normalize_relNames _ _).mp h'')
  newKind := fun h' h'' => h.newKind ((normalize_relNames _ _).mp h') ((normalize_relNames _ _).mp h'')
  toMatView := fun v hv w hw ev ew => by
    obtain ⟨v0, hv0, rfl⟩ := List.mem_map.mp hv
    obtain ⟨w0, hw0, rfl⟩ := List.mem_map.mp hw
    exact shared_normalize (h.toMatView v0 ((sortObjs_perm _).mem_iff.mp hv0) w0 ((sortObjs_perm _).mem_iff.mp hw0) ev ew)
  toView := fun v hv w hw ev ew => by
    obtain ⟨v0, hv0, rfl⟩ := List.mem_map.mp hv
    obtain ⟨w0, hw0, rfl⟩ := List.mem_map.mp hw
    exact shared_normalize (h.toView v0 ((sortObjs_perm _).mem_iff.mp hv0) w0 ((sortObjs_perm _).mem_iff.mp hw0) ev ew)

theorem relOf_normalize {s : Schema} (hv : NamesUnique s.views) (hm : NamesUnique s.materializedViews) :
    relOf s.normalize n = relOf s n := by
  have fv : ∀ {v : View}, v ∈ s.views → v.name.fq = n → s.views.find? (fun v => v.name.fq = n) = some v ∧
      s.normalize.views.find? (fun v => v.name.fq = n) = some (normalizeView v) := by
    rintro v hv' rfl
    exact ⟨find_named (f := fun v : View => v.name.fq) hv hv', find_named (f := fun v : View => v.name.fq)
      ((normalize_views_names s).nodup_iff.mpr hv) (mem_normalize_views hv')⟩
  have fm : ∀ {v : MaterializedView}, v ∈ s.materializedViews → v.name.fq = n →
      s.materializedViews.find? (fun v => v.name.fq = n) = some v ∧
      s.normalize.materializedViews.find? (fun v => v.name.fq = n) = some (normalizeMaterializedView v) := by
    rintro v hv' rfl
    exact ⟨find_named (f := fun v : MaterializedView => v.name.fq) hm hv', find_named (f := fun v : MaterializedView => v.name.fq)
      ((normalize_matViews_names s).nodup_iff.mpr hm) (mem_normalize_matViews hv')⟩
  unfold relOf
  by_cases ht : n ∈ relNames s .table
  · rw [if_pos ht, if_pos ((normalize_relNames _ _).mpr ht)]
  rw [if_neg ht, if_neg fun h => ht ((normalize_relNames _ _).mp h)]
  by_cases hs : n ∈ relNames s .sequence
  · rw [if_pos hs, if_pos ((normalize_relNames _ _).mpr hs)]
  rw [if_neg hs, if_neg fun h => hs ((normalize_relNames _ _).mp h)]
  by_cases h1 : n ∈ relNames s .view
  · obtain ⟨v, hv', e⟩ := List.mem_map.mp h1
    rw [(fv hv' e).1, (fv hv' e).2]
    rfl
  rw [find_unnamed (f := fun v : View => v.name.fq) (not_named h1),
    find_unnamed (f := fun v : View => v.name.fq) (not_named (l := s.normalize.views) fun h => h1 ((normalize_relNames s .view).mp h))]
  dsimp only
  by_cases h2 : n ∈ relNames s .matView
  · obtain ⟨v, hv', e⟩ := List.mem_map.mp h2
    rw [(fm hv' e).1, (fm hv' e).2]
    rfl
  rw [find_unnamed (f := fun v : MaterializedView => v.name.fq) (not_named h2),
    find_unnamed (f := fun v : MaterializedView => v.name.fq)
      (not_named (l := s.normalize.materializedViews) fun h => h2 ((normalize_relNames s .matView).mp h))]

theorem ancestors_unnamed {sc : Schema} (h : n ∉ relNames sc .table) (k : Nat) : ancestors sc k n = [n] :=
  ancestors_root (fun t ht e => absurd (e ▸ List.mem_map_of_mem (f := fun t : Table => t.name.fq) ht) h) k

theorem runRel_normalize (h : n ∉ relNames old .table) (s : RelSlot) : runRel old.normalize n s stmts = runRel old n s stmts := by
  have e : relStep old.normalize n = relStep old n := by
    funext s x
    cases x with
    | dropTable x =>
      unfold relStep
      dsimp only
      rw [ancestors_unnamed h, ancestors_unnamed fun h' => h ((normalize_relNames _ _).mp h')]
    | _ => rfl
  unfold runRel
  rw [e]

/-- Views converge: under the name of a view, a plan that runs from the old schema leads to the new one, and Postgres accepts
every statement about that name on the way.  Left out are names that change between a view and a table or a sequence, and views
that become materialized views with no table in common (`C76_changed_kind_violated`), and what the views read
(`C76_view_on_view_violated`; for tables see C56). -/
theorem C76_views_converge_partial (h : generateMigrationStatements r old new opts = .ok (stmts, r'))
    (hv : NamesUnique new.views) (hm : NamesUnique new.materializedViews) (hk : ViewName old new n) :
    runRel old n (relOf old n) stmts = some (relOf new n) := by
  obtain ⟨d, ⟨dr⟩, ⟨run⟩⟩ := plan_runs h
  have ov : NamesUnique old.views := (normalize_views_names old).nodup_iff.mp (old_views_unique dr)
  have om : NamesUnique old.materializedViews := (normalize_matViews_names old).nodup_iff.mp (old_matViews_unique dr)
  rw [← runRel_normalize hk.oldTable, ← relOf_normalize ov om, ← relOf_normalize hv hm]
  exact views_converge dr run ((normalize_views_names new).nodup_iff.mpr hv) ((normalize_matViews_names new).nodup_iff.mpr hm)
    (viewName_normalize hk)

end

/-! ### examples -/

namespace Samples

/-- two tables and a relation `n` of some kind; as a view it reads the first table, as a materialized view the second -/
def withKind (k : RelKind) : Schema :=
  let s := { Schema.empty with tables := [table "t" [col "x" "integer"], table "u" [col "x" "integer"]] }
  match k with
  | .table => { s with tables := table "n" [col "x" "integer"] :: s.tables }
  | .sequence => { s with sequences := [seq "n"] }
  | .view => { s with views := [view "n" "t" ["x"]] }
  | .matView => { s with materializedViews := [matView "n" "u" ["x"]] }

/-- views that go, change, change their kind and stay -/
def oldViewRun : Schema := { Schema.empty with
  tables := [table "t" [col "x" "integer"], table "u" [col "x" "integer"]]
  views := [view "a" "t" ["x"], view "b" "t" ["x"], view "c" "t" ["x"], { view "e" "t" ["x"] with options := [("p", "1"), ("q", "2")] }]
  materializedViews := [matView "d" "u" ["x"], matView "f" "u" ["x"]] }

/-- the target of `oldViewRun` -/
def newViewRun : Schema := { Schema.empty with
  tables := [table "t" [col "x" "integer"], table "u" [col "x" "integer"]]
  views := [{ view "b" "t" ["x"] with viewDefinition := "SELECT 1" }, matToView, { view "e" "t" ["x"] with options := [("q", "2"), ("p", "1")] }]
  materializedViews := [matView "c" "t" ["x"], { matView "f" "u" ["x"] with tablespace := "s" }, matView "g" "t" ["x"]] }
where matToView : View := view "d" "u" ["x"]

/-- a view that reads a view; the views have no table in common -/
def viewOnView : Schema := { Schema.empty with
  views := [⟨pub "n", "SELECT 1", [], []⟩, ⟨pub "v", "SELECT * FROM n", [], []⟩] }

/-- a view that reads a view, named the other way around -/
def viewOnLaterView : Schema := { Schema.empty with
  views := [⟨pub "n", "SELECT 1", [], []⟩, ⟨pub "m", "SELECT * FROM n", [], []⟩] }

end Samples

open Samples in
/-- the hypotheses of C76 can be met by a plan with views of both kinds that come, go, change and change their kind -/
example : (∃ stmts r', generateMigrationStatements rand oldViewRun newViewRun opts = .ok (stmts, r') ∧ stmts.length = 10) ∧
    NamesUnique newViewRun.views ∧ NamesUnique newViewRun.materializedViews ∧
    ∀ n ∈ ["a", "b", "c", "d", "e", "f", "g"], ViewName oldViewRun newViewRun (pub n).fq := by
  refine ⟨exists_plan (by decide +kernel), by unfold NamesUnique; decide +kernel, by unfold NamesUnique; decide +kernel, ?_⟩
  intro n hn
  constructor <;> revert n <;> decide +kernel

open Samples in
/-- A relation that becomes one of another kind: the new one is created while the old one is still there, for every two kinds. -/
theorem C76_changed_kind_violated (k k' : RelKind) (h : k ≠ k') :
    ∃ stmts r', generateMigrationStatements rand (withKind k) (withKind k') opts = .ok (stmts, r') ∧
      (runRel (withKind k) (pub "n").fq (relOf (withKind k) (pub "n").fq) stmts).isNone = true := by
  cases k <;> cases k' <;> first | exact absurd rfl h | exact exists_plan (by decide +kernel)

open Samples in
/-- Views that read views: plans drop a view that another view still reads, and create a view before the view it reads. -/
theorem C76_view_on_view_violated :
    (∃ stmts r', generateMigrationStatements rand viewOnView .empty opts = .ok (stmts, r') ∧
      runViewUse (fun n => if n = (pub "v").fq then [(pub "n").fq] else []) [(pub "n").fq, (pub "v").fq] stmts = none) ∧
    ∃ stmts r', generateMigrationStatements rand .empty viewOnLaterView opts = .ok (stmts, r') ∧
      runViewUse (fun n => if n = (pub "m").fq then [(pub "n").fq] else []) [] stmts = none :=
  ⟨exists_plan (by decide +kernel), exists_plan (by decide +kernel)⟩

end Verif
