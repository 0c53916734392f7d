import Verif.Lemmas.PlanFate
import Verif.Lemmas.Check
import Verif.Spec.Routine
import Verif.Props.Index
import Verif.Props.Views

/-!
# C73: functions and procedures converge
-/

namespace Verif

open Spec

/-- the statement names the function -/
def Ddl.onFunction (n : String) : Ddl → Bool
  | .createFunction f => f.name.fq = n
  | .dropFunction x => x.fq = n
  | _ => false

/-- the statement names the procedure -/
def Ddl.onProcedure (n : String) : Ddl → Bool
  | .createProcedure p => p.name.fq = n
  | .dropProcedure x => x.fq = n
  | _ => false

theorem Ddl.onFunction_family {n : String} {x : Ddl} (h : x.onFunction n = true) : x.family = .function := by
  cases x <;> first | rfl | cases h

theorem Ddl.onProcedure_family {n : String} {x : Ddl} (h : x.onProcedure n = true) : x.family = .procedure := by
  cases x <;> first | rfl | cases h

theorem routineStep_skip {sig : String → String} {n : String} {x : Ddl} (h1 : x.onFunction n = false)
    (h2 : x.onProcedure n = false) (s : Option Routine) : routineStep sig n s x = some s := by
  cases x with
  | createFunction f => exact if_neg (of_decide_eq_false (p := f.name.fq = n) h1)
  | dropFunction f => exact if_neg (of_decide_eq_false (p := f.fq = n) h1)
  | createProcedure f => exact if_neg (of_decide_eq_false (p := f.name.fq = n) h2)
  | dropProcedure f => exact if_neg (of_decide_eq_false (p := f.fq = n) h2)
  | _ => rfl

theorem procedure_over_function {sig : String → String} {n d : String} {p : Procedure} (e : p.name.fq = n) :
    routineStep sig n (some (.function d)) (.createProcedure p) = none := if_pos e

theorem filter_one {P : Statement → Bool} {s : Statement} (h : P s = true) : [s].filter P = [s] := by
  rw [List.filter_cons, if_pos h]; rfl

theorem filter_none {P : Statement → Bool} {s : Statement} (h : P s = false) : [s].filter P = [] := by
  rw [List.filter_cons, if_neg (fun e => Bool.false_ne_true (h.symm.trans e))]; rfl

section
variable {opts : PlanOptions} {old new : Schema} {d : SchemaDiff} {r r' : Rand} {stmts : List Statement}

/-- what a plan does about a function -/
inductive FunctionFate (old new : Schema) (n : String) (stmts : List Statement) : Prop where
  | absent (ho : ∀ o ∈ old.functions, o.name.fq ≠ n) (hn : ∀ x ∈ new.functions, x.name.fq ≠ n)
      (hs : stmts.filter (fun s : Statement => s.ddl.onFunction n) = [])
  | dropped (o : Function) (ho : o ∈ old.functions) (e : o.name.fq = n) (hn : ∀ x ∈ new.functions, x.name.fq ≠ n)
      (s : Statement) (hd : s.ddl = .dropFunction o.name) (hs : stmts.filter (fun s : Statement => s.ddl.onFunction n) = [s])
  | added (x : Function) (hx : x ∈ new.functions) (e : x.name.fq = n) (ho : ∀ o ∈ old.functions, o.name.fq ≠ n)
      (s : Statement) (hd : s.ddl = .createFunction x) (hs : stmts.filter (fun s : Statement => s.ddl.onFunction n) = [s])
  | same (o : Function) (ho : o ∈ old.functions) (hx : o ∈ new.functions) (e : o.name.fq = n)
      (hs : stmts.filter (fun s : Statement => s.ddl.onFunction n) = [])
  | replaced (o x : Function) (ho : o ∈ old.functions) (hx : x ∈ new.functions) (eo : o.name.fq = n) (ex : x.name.fq = n)
      (s : Statement) (hd : s.ddl = .createFunction x) (hs : stmts.filter (fun s : Statement => s.ddl.onFunction n) = [s])

theorem function_fate (dr : DiffRun opts old new d) (run : PlanRun opts d r r' stmts) (hu : NamesUnique new.functions)
    (n : String) : FunctionFate old new n stmts := by
  have hL := run.family_perm (f := .function) rfl (P := fun s : Statement => s.ddl.onFunction n)
    (fun s hs => Ddl.onFunction_family hs)
  have notIn : ∀ {l : List Function}, n ∉ l.map Obj.getName → ∀ o ∈ l, o.name.fq ≠ n := fun h o ho e =>
    h (e ▸ List.mem_map_of_mem (f := Obj.getName) ho)
  have addP : ∀ {o : Function} {p : PartialGraph Statement}, FunctionGen.gen.add o = .ok p →
      p.statements = [stmt (.createFunction o) (FunctionGen.hazards o)] := by
    intro o p hp
    have h : yields (FunctionGen.legacy.add o) p.statements := toNew_add_statements (m := Except Err) hp
    exact (Except.ok.inj h).symm
  have delP : ∀ {o : Function} {p : PartialGraph Statement}, FunctionGen.gen.delete o = .ok p →
      p.statements = [stmt (.dropFunction o.name) (FunctionGen.hazards o)] := by
    intro o p hp
    have h : yields (FunctionGen.legacy.delete o) p.statements := toNew_delete_statements (m := Except Err) hp
    exact (Except.ok.inj h).symm
  have altP : ∀ {o x : Function} {p : PartialGraph Statement}, FunctionGen.gen.alter ⟨o, x⟩ = .ok p →
      (o = x ∧ p.statements = []) ∨ p.statements = [stmt (.createFunction x) (FunctionGen.hazards x)] := by
    intro o x p hp
    have h : yields (FunctionGen.legacy.alter ⟨o, x⟩) p.statements := toNew_alter_statements (m := Except Err) hp
    have h : (if o = x then .ok [] else FunctionGen.add x) = Except.ok p.statements := h
    by_cases e : o = x
    · rw [if_pos e] at h
      exact Or.inl ⟨e, (Except.ok.inj h).symm⟩
    · rw [if_neg e] at h
      exact Or.inr (Except.ok.inj h).symm
  have fate := plan_fate (m := Except Err) dr.hfunctions hu (g := FunctionGen.gen) run.hfunctions
    (key := fun x : OldNew Function => Obj.getName x.new) (by
      intro o x j i d _ hb
      cases hb; rfl) (n := n) hL (by
      intro o _ p hp hne
      rw [addP hp]
      exact filter_none (P := fun s : Statement => s.ddl.onFunction n) (decide_eq_false (p := o.name.fq = n) hne)) (by
      intro o _ p hp hne
      rw [delP hp]
      exact filter_none (P := fun s : Statement => s.ddl.onFunction n) (decide_eq_false (p := o.name.fq = n) hne)) (by
      rintro ⟨o, x⟩ _ p hp hne
      rcases altP hp with ⟨_, e⟩ | e
      · rw [e]; rfl
      · rw [e]
        exact filter_none (P := fun s : Statement => s.ddl.onFunction n) (decide_eq_false (p := x.name.fq = n) hne))
  cases fate with
  | absent ho hn hs => exact .absent (notIn ho) (notIn hn) hs
  | dropped o ho e hn h p hp hs =>
    rw [delP hp, filter_one (P := fun s : Statement => s.ddl.onFunction n) (s := stmt (.dropFunction o.name) (FunctionGen.hazards o)) (decide_eq_true (p := o.name.fq = n) e)] at hs
    exact .dropped o ho e (notIn hn) _ rfl (List.perm_singleton.mp hs)
  | added x hx e ho h p hp hs =>
    rw [addP hp, filter_one (P := fun s : Statement => s.ddl.onFunction n) (s := stmt (.createFunction x) (FunctionGen.hazards x)) (decide_eq_true (p := x.name.fq = n) e)] at hs
    exact .added x hx e (notIn ho) _ rfl (List.perm_singleton.mp hs)
  | recreated o x ho hx eo ex hb => obtain ⟨i, j, d, hb⟩ := hb; cases hb
  | altered o x fd ho hx eo ex hb h p hp hs =>
    obtain ⟨i, j, hb⟩ := hb
    cases hb
    rcases altP hp with ⟨rfl, e⟩ | e
    · rw [e] at hs
      exact .same o ho hx eo (List.perm_nil.mp hs)
    · rw [e, filter_one (P := fun s : Statement => s.ddl.onFunction n) (s := stmt (.createFunction x) (FunctionGen.hazards x)) (decide_eq_true (p := x.name.fq = n) ex)] at hs
      exact .replaced o x ho hx eo ex _ rfl (List.perm_singleton.mp hs)

/-- what a plan does about a procedure -/
inductive ProcedureFate (old new : Schema) (n : String) (stmts : List Statement) : Prop where
  | absent (ho : ∀ o ∈ old.procedures, o.name.fq ≠ n) (hn : ∀ x ∈ new.procedures, x.name.fq ≠ n)
      (hs : stmts.filter (fun s : Statement => s.ddl.onProcedure n) = [])
  | dropped (o : Procedure) (ho : o ∈ old.procedures) (e : o.name.fq = n) (hn : ∀ x ∈ new.procedures, x.name.fq ≠ n)
      (s : Statement) (hd : s.ddl = .dropProcedure o.name) (hs : stmts.filter (fun s : Statement => s.ddl.onProcedure n) = [s])
  | added (x : Procedure) (hx : x ∈ new.procedures) (e : x.name.fq = n) (ho : ∀ o ∈ old.procedures, o.name.fq ≠ n)
      (s : Statement) (hd : s.ddl = .createProcedure x) (hs : stmts.filter (fun s : Statement => s.ddl.onProcedure n) = [s])
  | same (o : Procedure) (ho : o ∈ old.procedures) (hx : o ∈ new.procedures) (e : o.name.fq = n)
      (hs : stmts.filter (fun s : Statement => s.ddl.onProcedure n) = [])
  | replaced (o x : Procedure) (ho : o ∈ old.procedures) (hx : x ∈ new.procedures) (eo : o.name.fq = n) (ex : x.name.fq = n)
      (s : Statement) (hd : s.ddl = .createProcedure x) (hs : stmts.filter (fun s : Statement => s.ddl.onProcedure n) = [s])

theorem procedure_fate (dr : DiffRun opts old new d) (run : PlanRun opts d r r' stmts) (hu : NamesUnique new.procedures)
    (n : String) : ProcedureFate old new n stmts := by
  have hL := run.family_perm (f := .procedure) rfl (P := fun s : Statement => s.ddl.onProcedure n)
    (fun s hs => Ddl.onProcedure_family hs)
  have notIn : ∀ {l : List Procedure}, n ∉ l.map Obj.getName → ∀ o ∈ l, o.name.fq ≠ n := fun h o ho e =>
    h (e ▸ List.mem_map_of_mem (f := Obj.getName) ho)
  have addP : ∀ {o : Procedure} {p : PartialGraph Statement}, (ProcedureGen.gen d.new).add o = .ok p →
      p.statements = [stmt (.createProcedure o) [.hasUntrackableDependencies]] := by
    intro o p hp
    have h : ProcedureGen.add d.new o = .ok p := hp
    unfold ProcedureGen.add at h
    cases h; rfl
  have delP : ∀ {o : Procedure} {p : PartialGraph Statement}, (ProcedureGen.gen d.new).delete o = .ok p →
      p.statements = [stmt (.dropProcedure o.name) [.hasUntrackableDependencies]] := by
    intro o p hp
    have h : ProcedureGen.delete d.new o = .ok p := hp
    unfold ProcedureGen.delete at h
    cases h; rfl
  have altP : ∀ {o x : Procedure} {p : PartialGraph Statement}, (ProcedureGen.gen d.new).alter ⟨o, x⟩ = .ok p →
      (o = x ∧ p.statements = []) ∨ p.statements = [stmt (.createProcedure x) [.hasUntrackableDependencies]] := by
    intro o x p hp
    have h : (if o = x then .ok .empty else ProcedureGen.add d.new x) = Except.ok p := hp
    by_cases e : o = x
    · rw [if_pos e] at h
      cases h
      exact Or.inl ⟨e, rfl⟩
    · rw [if_neg e] at h
      exact Or.inr (addP h)
  have fate := plan_fate (m := Except Err) dr.hprocedures hu (g := ProcedureGen.gen d.new) run.hprocedures
    (key := fun x : OldNew Procedure => Obj.getName x.new) (by
      intro o x j i d _ hb
      cases hb; rfl) (n := n) hL (by
      intro o _ p hp hne
      rw [addP hp]
      exact filter_none (P := fun s : Statement => s.ddl.onProcedure n) (decide_eq_false (p := o.name.fq = n) hne)) (by
      intro o _ p hp hne
      rw [delP hp]
      exact filter_none (P := fun s : Statement => s.ddl.onProcedure n) (decide_eq_false (p := o.name.fq = n) hne)) (by
      rintro ⟨o, x⟩ _ p hp hne
      rcases altP hp with ⟨_, e⟩ | e
      · rw [e]; rfl
      · rw [e]
        exact filter_none (P := fun s : Statement => s.ddl.onProcedure n) (decide_eq_false (p := x.name.fq = n) hne))
  cases fate with
  | absent ho hn hs => exact .absent (notIn ho) (notIn hn) hs
  | dropped o ho e hn h p hp hs =>
    rw [delP hp, filter_one (P := fun s : Statement => s.ddl.onProcedure n) (s := stmt (.dropProcedure o.name) [.hasUntrackableDependencies]) (decide_eq_true (p := o.name.fq = n) e)] at hs
    exact .dropped o ho e (notIn hn) _ rfl (List.perm_singleton.mp hs)
  | added x hx e ho h p hp hs =>
    rw [addP hp, filter_one (P := fun s : Statement => s.ddl.onProcedure n) (s := stmt (.createProcedure x) [.hasUntrackableDependencies]) (decide_eq_true (p := x.name.fq = n) e)] at hs
    exact .added x hx e (notIn ho) _ rfl (List.perm_singleton.mp hs)
  | recreated o x ho hx eo ex hb => obtain ⟨i, j, d, hb⟩ := hb; cases hb
  | altered o x fd ho hx eo ex hb h p hp hs =>
    obtain ⟨i, j, hb⟩ := hb
    cases hb
    rcases altP hp with ⟨rfl, e⟩ | e
    · rw [e] at hs
      exact .same o ho hx eo (List.perm_nil.mp hs)
    · rw [e, filter_one (P := fun s : Statement => s.ddl.onProcedure n) (s := stmt (.createProcedure x) [.hasUntrackableDependencies]) (decide_eq_true (p := x.name.fq = n) ex)] at hs
      exact .replaced o x ho hx eo ex _ rfl (List.perm_singleton.mp hs)

/-! ### the routine of a name -/

theorem find_named {α : Type} {l : List α} {f : α → String} (hn : (l.map f).Nodup) {x : α} (hx : x ∈ l) :
    l.find? (fun y => f y = f x) = some x := by
  induction l with
  | nil => cases hx
  | cons y l ih =>
    rw [List.find?_cons]
    rw [List.map_cons, List.nodup_cons] at hn
    rcases List.mem_cons.mp hx with rfl | hx
    · simp
    · have : f y ≠ f x := fun e => hn.1 (e ▸ List.mem_map_of_mem hx)
      rw [decide_eq_false this]
      exact ih hn.2 hx

theorem find_unnamed {α : Type} {l : List α} {f : α → String} {n : String} (h : ∀ y ∈ l, f y ≠ n) :
    l.find? (fun y => f y = n) = none := by
  rw [List.find?_eq_none]
  intro y hy
  simpa using h y hy

variable {sig : String → String} {n : String}

theorem routineOf_function {s : Schema} (hu : NamesUnique s.functions) {f : Function} (hf : f ∈ s.functions)
    (e : f.name.fq = n) : routineOf s n = some (.function f.functionDef) := by
  subst e
  have := find_named (f := fun f : Function => f.name.fq) hu hf
  unfold routineOf
  rw [this]

theorem routineOf_procedure {s : Schema} (hu : NamesUnique s.procedures) {p : Procedure} (hp : p ∈ s.procedures)
    (e : p.name.fq = n) (hf : ∀ f ∈ s.functions, f.name.fq ≠ n) : routineOf s n = some (.procedure p.defn) := by
  subst e
  have h1 := find_unnamed (f := fun f : Function => f.name.fq) hf
  have h2 := find_named (f := fun f : Procedure => f.name.fq) hu hp
  unfold routineOf
  rw [h1, h2]

theorem routineOf_none {s : Schema} (hf : ∀ f ∈ s.functions, f.name.fq ≠ n) (hp : ∀ p ∈ s.procedures, p.name.fq ≠ n) :
    routineOf s n = none := by
  have h1 := find_unnamed (f := fun f : Function => f.name.fq) hf
  have h2 := find_unnamed (f := fun f : Procedure => f.name.fq) hp
  unfold routineOf
  rw [h1, h2]

theorem runRoutine_functions (h : stmts.filter (fun s : Statement => s.ddl.onProcedure n) = []) (s : Option Routine) :
    runRoutine sig n s stmts = runRoutine sig n s (stmts.filter fun s : Statement => s.ddl.onFunction n) := by
  refine runWith_filter (I := fun _ => True) (fun x hx hp s _ => ?_) (fun _ _ _ _ _ _ _ => trivial) trivial
  refine routineStep_skip hp ?_ s
  cases hq : x.ddl.onProcedure n with
  | false => rfl
  | true => exact absurd hq (List.filter_eq_nil_iff.mp h x hx)

theorem runRoutine_procedures (h : stmts.filter (fun s : Statement => s.ddl.onFunction n) = []) (s : Option Routine) :
    runRoutine sig n s stmts = runRoutine sig n s (stmts.filter fun s : Statement => s.ddl.onProcedure n) := by
  refine runWith_filter (I := fun _ => True) (fun x hx hp s _ => ?_) (fun _ _ _ _ _ _ _ => trivial) trivial
  refine routineStep_skip ?_ hp s
  cases hq : x.ddl.onFunction n with
  | false => rfl
  | true => exact absurd hq (List.filter_eq_nil_iff.mp h x hx)

theorem runRoutine_one {s s' : Option Routine} {x : Statement} {y : Ddl} (e : x.ddl = y)
    (h : routineStep sig n s y = some s') : runRoutine sig n s [x] = some s' :=
  (runWith_cons (l := []) (by rw [e]; exact h)).trans rfl

theorem routines_converge (dr : DiffRun opts old new d) (run : PlanRun opts d r r' stmts) (hf : NamesUnique new.functions)
    (hp : NamesUnique new.procedures) (hk : RoutinePlannable sig old new n) :
    runRoutine sig n (routineOf old n) stmts = some (routineOf new n) := by
  have hof : NamesUnique old.functions := diffLists_old_nodup dr.hfunctions
  have hop : NamesUnique old.procedures := diffLists_old_nodup dr.hprocedures
  have fo : ∀ {f}, f ∈ old.functions → f.name.fq = n → ∀ p ∈ old.procedures ++ new.procedures, p.name.fq ≠ n :=
    fun h e => hk.kind _ (List.mem_append_left _ h) e
  have fn : ∀ {f}, f ∈ new.functions → f.name.fq = n → ∀ p ∈ old.procedures ++ new.procedures, p.name.fq ≠ n :=
    fun h e => hk.kind _ (List.mem_append_right _ h) e
  have noProc : (∀ p ∈ old.procedures ++ new.procedures, p.name.fq ≠ n) →
      stmts.filter (fun s : Statement => s.ddl.onProcedure n) = [] := by
    intro h
    cases procedure_fate dr run hp n with
    | absent _ _ hs => exact hs
    | dropped o ho e _ _ _ _ => exact absurd e (h o (List.mem_append_left _ ho))
    | added x hx e _ _ _ _ => exact absurd e (h x (List.mem_append_right _ hx))
    | same o ho hx e hs => exact hs
    | replaced o x ho hx eo ex _ _ _ => exact absurd eo (h o (List.mem_append_left _ ho))
  cases function_fate dr run hf n with
  | dropped o ho e hn s hd hs =>
    have hno := fo ho e
    rw [runRoutine_functions (noProc hno), hs, routineOf_function hof ho e,
      routineOf_none hn fun p hp => hno p (List.mem_append_right _ hp)]
    exact runRoutine_one hd (if_pos e)
  | added x hx e ho s hd hs =>
    have hno := fn hx e
    rw [runRoutine_functions (noProc hno), hs, routineOf_function hf hx e,
      routineOf_none ho fun p hp => hno p (List.mem_append_left _ hp)]
    exact runRoutine_one hd (if_pos e)
  | same o ho hx e hs =>
    rw [runRoutine_functions (noProc (fo ho e)), hs, routineOf_function hof ho e, routineOf_function hf hx e]
    rfl
  | replaced o x ho hx eo ex s hd hs =>
    rw [runRoutine_functions (noProc (fo ho eo)), hs, routineOf_function hof ho eo, routineOf_function hf hx ex]
    exact runRoutine_one hd ((if_pos ex).trans (if_pos (hk.functions o ho eo x hx ex)))
  | absent hfo hfn hfs =>
    rw [runRoutine_procedures hfs]
    cases procedure_fate dr run hp n with
    | absent ho hn hs =>
      rw [hs, routineOf_none hfo ho, routineOf_none hfn hn]; rfl
    | dropped o ho e hn s hd hs =>
      rw [hs, routineOf_procedure hop ho e hfo, routineOf_none hfn hn]
      exact runRoutine_one hd (if_pos e)
    | added x hx e ho s hd hs =>
      rw [hs, routineOf_procedure hp hx e hfn, routineOf_none hfo ho]
      exact runRoutine_one hd (if_pos e)
    | same o ho hx e hs =>
      rw [hs, routineOf_procedure hop ho e hfo, routineOf_procedure hp hx e hfn]; rfl
    | replaced o x ho hx eo ex s hd hs =>
      rw [hs, routineOf_procedure hop ho eo hfo, routineOf_procedure hp hx ex hfn]
      exact runRoutine_one hd ((if_pos ex).trans (if_pos (hk.procedures o ho eo x hx ex)))

theorem normalize_functions (s : Schema) : (s.normalize.functions.map fun f : Function => (f.name, f.functionDef)).Perm
    (s.functions.map fun f : Function => (f.name, f.functionDef)) := by
  have : s.normalize.functions = (sortObjs s.functions).map normalizeFunction := rfl
  rw [this, List.map_map]
  exact (sortObjs_perm s.functions).map _

theorem mem_normalize_functions {s : Schema} {f : Function} (h : f ∈ s.normalize.functions) :
    ∃ f' ∈ s.functions, f'.name = f.name ∧ f'.functionDef = f.functionDef := by
  have := (normalize_functions s).mem_iff.mp (List.mem_map_of_mem (f := fun f : Function => (f.name, f.functionDef)) h)
  obtain ⟨f', hf', e⟩ := List.mem_map.mp this
  exact ⟨f', hf', congrArg Prod.fst e, congrArg Prod.snd e⟩

theorem mem_normalize_procedures {s : Schema} {p : Procedure} : p ∈ s.normalize.procedures ↔ p ∈ s.procedures :=
  (sortObjs_perm s.procedures).mem_iff

theorem normalize_functions_unique {s : Schema} (h : NamesUnique s.functions) : NamesUnique s.normalize.functions := by
  have hp : (s.normalize.functions.map Obj.getName).Perm (s.functions.map Obj.getName) := by
    have := (normalize_functions s).map fun x : SQName × String => x.1.fq
    rw [List.map_map, List.map_map] at this
    exact this
  exact hp.nodup_iff.mpr h

theorem normalize_procedures_unique {s : Schema} (h : NamesUnique s.procedures) : NamesUnique s.normalize.procedures :=
  ((sortObjs_perm s.procedures).map _).nodup_iff.mpr h

theorem routineOf_normalize {s : Schema} (hf : NamesUnique s.functions) (hp : NamesUnique s.procedures) :
    routineOf s.normalize n = routineOf s n := by
  by_cases h1 : ∃ f ∈ s.normalize.functions, f.name.fq = n
  · obtain ⟨f, hf1, e⟩ := h1
    obtain ⟨f', hf', e1, e2⟩ := mem_normalize_functions hf1
    rw [routineOf_function (normalize_functions_unique hf) hf1 e, routineOf_function hf hf' (by rw [e1]; exact e), e2]
  · have h1 : ∀ f ∈ s.normalize.functions, f.name.fq ≠ n := fun f hf e => h1 ⟨f, hf, e⟩
    have h2 : ∀ f ∈ s.functions, f.name.fq ≠ n := by
      intro f hf e
      exact h1 _ (List.mem_map_of_mem (f := normalizeFunction) ((sortObjs_perm s.functions).mem_iff.mpr hf)) e
    by_cases h3 : ∃ p ∈ s.procedures, p.name.fq = n
    · obtain ⟨p, hp1, e⟩ := h3
      rw [routineOf_procedure (normalize_procedures_unique hp) (mem_normalize_procedures.mpr hp1) e h1,
        routineOf_procedure hp hp1 e h2]
    · have h3 : ∀ p ∈ s.procedures, p.name.fq ≠ n := fun f hf e => h3 ⟨f, hf, e⟩
      rw [routineOf_none h1 fun p hp => h3 p (mem_normalize_procedures.mp hp), routineOf_none h2 h3]

theorem routines_normalize (h : RoutinePlannable sig old new n) :
    RoutinePlannable sig old.normalize new.normalize n := by
  refine ⟨?_, ?_, ?_⟩
  · intro f hf e p hp
    have hp' : p ∈ old.procedures ++ new.procedures := by
      rcases List.mem_append.mp hp with hp | hp
      · exact List.mem_append_left _ (mem_normalize_procedures.mp hp)
      · exact List.mem_append_right _ (mem_normalize_procedures.mp hp)
    rcases List.mem_append.mp hf with hf | hf
    · obtain ⟨f', hf', e1, _⟩ := mem_normalize_functions hf
      exact h.kind f' (List.mem_append_left _ hf') (by rw [e1]; exact e) p hp'
    · obtain ⟨f', hf', e1, _⟩ := mem_normalize_functions hf
      exact h.kind f' (List.mem_append_right _ hf') (by rw [e1]; exact e) p hp'
  · intro o ho eo x hx ex
    obtain ⟨o', ho', e1, e2⟩ := mem_normalize_functions ho
    obtain ⟨x', hx', e3, e4⟩ := mem_normalize_functions hx
    rw [← e2, ← e4]
    exact h.functions o' ho' (by rw [e1]; exact eo) x' hx' (by rw [e3]; exact ex)
  · intro o ho eo x hx ex
    exact h.procedures o (mem_normalize_procedures.mp ho) eo x (mem_normalize_procedures.mp hx) ex

theorem old_functions_unique (dr : DiffRun opts old.normalize new.normalize d) : NamesUnique old.functions := by
  have h : NamesUnique old.normalize.functions := diffLists_old_nodup dr.hfunctions
  have hp : (old.normalize.functions.map Obj.getName).Perm (old.functions.map Obj.getName) := by
    have := (normalize_functions old).map fun x : SQName × String => x.1.fq
    rw [List.map_map, List.map_map] at this
    exact this
  exact hp.nodup_iff.mp h

theorem old_procedures_unique (dr : DiffRun opts old.normalize new.normalize d) : NamesUnique old.procedures :=
  ((sortObjs_perm old.procedures).map _).nodup_iff.mp (diffLists_old_nodup dr.hprocedures)

/-- A plan takes the functions and procedures of the old schema to those of the new one: whatever the name, running the
plan from what the old schema has there ends with what the new schema has there, and no statement is rejected.  Missing for
the full claim: routines whose kind or whose signature changes (refuted below). -/
theorem C73_routines_converge_partial (h : generateMigrationStatements r old new opts = .ok (stmts, r'))
    (hf : NamesUnique new.functions) (hp : NamesUnique new.procedures) (hk : RoutinePlannable sig old new n) :
    runRoutine sig n (routineOf old n) stmts = some (routineOf new n) := by
  obtain ⟨d, ⟨dr⟩, ⟨run⟩⟩ := plan_runs h
  rw [← routineOf_normalize (old_functions_unique dr) (old_procedures_unique dr), ← routineOf_normalize hf hp]
  exact routines_converge dr run (normalize_functions_unique hf) (normalize_procedures_unique hp) (routines_normalize hk)

/-- A function whose signature changes is only replaced, never dropped: Postgres rejects every such plan. -/
theorem C73_changed_signature_violated (h : generateMigrationStatements r old new opts = .ok (stmts, r'))
    (hf : NamesUnique new.functions) {o x : Function} (ho : o ∈ old.functions) (hx : x ∈ new.functions)
    (e : o.name = x.name) (hs : sig o.functionDef ≠ sig x.functionDef)
    (hp : ∀ p ∈ old.procedures ++ new.procedures, p.name.fq ≠ x.name.fq) (hpu : NamesUnique new.procedures) :
    runRoutine sig x.name.fq (routineOf old x.name.fq) stmts = none := by
  obtain ⟨d, ⟨dr⟩, ⟨run⟩⟩ := plan_runs h
  have hou := old_functions_unique dr
  have fo : normalizeFunction o ∈ old.normalize.functions :=
    List.mem_map_of_mem ((sortObjs_perm old.functions).mem_iff.mpr ho)
  have fx : normalizeFunction x ∈ new.normalize.functions :=
    List.mem_map_of_mem ((sortObjs_perm new.functions).mem_iff.mpr hx)
  have noProc : stmts.filter (fun s : Statement => s.ddl.onProcedure x.name.fq) = [] := by
    cases procedure_fate dr run (normalize_procedures_unique hpu) x.name.fq with
    | absent _ _ hs => exact hs
    | dropped o ho e _ _ _ _ => exact absurd e (hp o (List.mem_append_left _ (mem_normalize_procedures.mp ho)))
    | added x hx e _ _ _ _ => exact absurd e (hp x (List.mem_append_right _ (mem_normalize_procedures.mp hx)))
    | same o ho hx e hs => exact hs
    | replaced o x ho hx eo ex _ _ _ => exact absurd eo (hp o (List.mem_append_left _ (mem_normalize_procedures.mp ho)))
  rw [runRoutine_functions noProc, routineOf_function hou ho (congrArg SQName.fq e)]
  have uo : ∀ y ∈ old.normalize.functions, y.name.fq = x.name.fq → y = normalizeFunction o := fun y hy ey =>
    List.inj_on_of_nodup_map (diffLists_old_nodup dr.hfunctions) hy fo (ey.trans (congrArg SQName.fq e).symm)
  have ux : ∀ y ∈ new.normalize.functions, y.name.fq = x.name.fq → y = normalizeFunction x := fun y hy ey =>
    List.inj_on_of_nodup_map (normalize_functions_unique hf) hy fx ey
  cases function_fate dr run (normalize_functions_unique hf) x.name.fq with
  | absent ho' hn hs' => exact absurd rfl (hn (normalizeFunction x) fx)
  | dropped o' ho' e' hn s hd hs' => exact absurd rfl (hn (normalizeFunction x) fx)
  | added x' hx' e' ho' s hd hs' => exact absurd (congrArg SQName.fq e) (ho' (normalizeFunction o) fo)
  | same o' ho' hx' e' hs' =>
    have := (uo o' ho' e').symm.trans (ux o' hx' e')
    exact absurd (congrArg (fun f : Function => sig f.functionDef) this) hs
  | replaced o' x' ho' hx' eo ex s hd hs' =>
    rw [hs']
    have hstep : routineStep sig x.name.fq (some (.function o.functionDef)) s.ddl = none := by
      rw [hd, ux x' hx' ex]
      exact (if_pos rfl).trans (if_neg hs)
    show (routineStep sig x.name.fq (some (.function o.functionDef)) s.ddl).bind _ = none
    rw [hstep]; rfl

theorem GraphShape.createFunction_vertex {st : GenState} {id : VertexId} {s : Statement} {f : Function}
    (h : GraphShape opts d st id s) (hs : s.ddl = .createFunction f) : id = functionVertexId f.name .addAlter := by
  cases h with
  | createFunction g h hid => cases hs; exact hid
  | newTable t h ccs hc s hs' hid => cases hs' <;> cases hs
  | alterTable td h s hs' hid =>
    cases hs' with
    | column cd h s hs' => cases hs' <;> cases hs
    | _ => cases hs
  | _ => cases hs

theorem GraphShape.dropProcedure_vertex {st : GenState} {id : VertexId} {s : Statement} {n : SQName}
    (h : GraphShape opts d st id s) (hs : s.ddl = .dropProcedure n) :
    id = procedureVertexId n .delete ∧ ∃ p ∈ d.procedureDiffs.deletes, p.name = n := by
  cases h with
  | dropProcedure p h hid => cases hs; exact ⟨hid, p, h, rfl⟩
  | newTable t h ccs hc s hs' hid => cases hs' <;> cases hs
  | alterTable td h s hs' hid =>
    cases hs' with
    | column cd h s hs' => cases hs' <;> cases hs
    | _ => cases hs
  | _ => cases hs

/-- Every procedure is dropped after every function of the new schema was created. -/
theorem functions_before_drops (dr : DiffRun opts old new d) (run : PlanRun opts d r r' stmts) {f : Function}
    (hf : f ∈ new.functions) (n : SQName) :
    AllBefore (fun s : Statement => s.ddl = .createFunction f) (fun s => s.ddl = .dropProcedure n) stmts := by
  refine run.allBefore (fun s hs => by rw [hs]; exact id) (fun s hs => by rw [hs]; exact id) ?_
  intro u x w y hx hy hp hq
  obtain rfl := hx.createFunction_vertex hp
  obtain ⟨rfl, p, hp', rfl⟩ := hy.dropProcedure_vertex hq
  obtain ⟨g, h1, _, h2⟩ := part_of_delete (m := Except Err) (g := ProcedureGen.gen d.new) run.hprocedures hp'
  have e : ProcedureGen.delete d.new p = .ok g := h1
  unfold ProcedureGen.delete at e
  rw [Except.ok.injEq] at e
  subst e
  refine .single (run.declared_after (p := run.procedures) (by simp) (h2 _ ?_))
  refine List.mem_append_left _ (List.mem_append_right _ ?_)
  rw [dr.hnew]
  exact List.mem_map_of_mem (f := fun f : Function => mustRunAfter _ (functionVertexId f.name .addAlter)) hf

/-- A procedure that becomes a function: the plan always creates the function while the procedure is still there, which
Postgres rejects. -/
theorem C73_procedure_to_function_violated (h : generateMigrationStatements r old new opts = .ok (stmts, r'))
    (hf : NamesUnique new.functions) (hpu : NamesUnique new.procedures) {o : Procedure} {x : Function}
    (ho : o ∈ old.procedures) (hx : x ∈ new.functions) (e : o.name = x.name)
    (hof : ∀ f ∈ old.functions, f.name.fq ≠ x.name.fq) (hnp : ∀ p ∈ new.procedures, p.name.fq ≠ x.name.fq) :
    runRoutine sig x.name.fq (routineOf old x.name.fq) stmts = none := by
  obtain ⟨d, ⟨dr⟩, ⟨run⟩⟩ := plan_runs h
  have fx : normalizeFunction x ∈ new.normalize.functions :=
    List.mem_map_of_mem ((sortObjs_perm new.functions).mem_iff.mpr hx)
  have hof' : ∀ f ∈ old.normalize.functions, f.name.fq ≠ x.name.fq := by
    intro f hf
    obtain ⟨f', hf', e1, _⟩ := mem_normalize_functions hf
    rw [← e1]; exact hof f' hf'
  have start : routineOf old x.name.fq = some (.procedure o.defn) :=
    routineOf_procedure (old_procedures_unique dr) ho (congrArg SQName.fq e) hof
  rw [start]
  have hpo : o ∈ old.normalize.procedures := mem_normalize_procedures.mpr ho
  cases procedure_fate dr run (normalize_procedures_unique hpu) x.name.fq with
  | absent ho' _ _ => exact absurd (congrArg SQName.fq e) (ho' o hpo)
  | added x' _ _ ho' _ _ _ => exact absurd (congrArg SQName.fq e) (ho' o hpo)
  | same o' ho' hx' e' _ => exact absurd e' (hnp o' (mem_normalize_procedures.mp hx'))
  | replaced o' x' _ hx' _ ex _ _ _ => exact absurd ex (hnp x' (mem_normalize_procedures.mp hx'))
  | dropped o' ho' e' _ s hd hs =>
    have ux : ∀ y ∈ new.normalize.functions, y.name.fq = x.name.fq → y = normalizeFunction x := fun y hy ey =>
      List.inj_on_of_nodup_map (normalize_functions_unique hf) hy fx ey
    cases function_fate dr run (normalize_functions_unique hf) x.name.fq with
    | absent _ hn _ => exact absurd rfl (hn (normalizeFunction x) fx)
    | dropped _ _ _ hn _ _ _ => exact absurd rfl (hn (normalizeFunction x) fx)
    | same o' ho' _ e' _ => exact absurd e' (hof' o' ho')
    | replaced o' _ ho' _ e' _ _ _ _ => exact absurd e' (hof' o' ho')
    | added x' hx' ex _ t ht hts =>
      obtain rfl := ux x' hx' ex
      have hmem : t ∈ stmts := (List.mem_filter.mp (hts ▸ List.mem_singleton_self t : t ∈ stmts.filter _)).1
      obtain ⟨a, b, rfl⟩ := List.append_of_mem hmem
      have hall := functions_before_drops dr run hx' o'.name
      have ha : ∀ y ∈ a, routineStep sig x.name.fq (some (.procedure o.defn)) y.ddl = some (some (.procedure o.defn)) := by
        intro y hy
        refine routineStep_skip ?_ ?_ _
        · cases hq : y.ddl.onFunction x.name.fq with
          | false => rfl
          | true =>
            have hlen := congrArg List.length hts
            rw [List.filter_append, List.filter_cons_of_pos
              (decide_eq_true (p := (normalizeFunction x).name.fq = x.name.fq) rfl ▸ ht ▸ rfl)] at hlen
            have : 0 < (a.filter fun s : Statement => s.ddl.onFunction x.name.fq).length :=
              List.length_pos_of_mem (List.mem_filter.mpr ⟨hy, hq⟩)
            simp only [List.length_append, List.length_cons, List.length_nil] at hlen
            omega
        · cases hq : y.ddl.onProcedure x.name.fq with
          | false => rfl
          | true =>
            have hy' : y ∈ (a ++ t :: b).filter fun s : Statement => s.ddl.onProcedure x.name.fq :=
              List.mem_filter.mpr ⟨List.mem_append_left _ hy, hq⟩
            rw [hs, List.mem_singleton] at hy'
            subst hy'
            rw [allBefore_append] at hall
            exact absurd ⟨hd, ht⟩ (hall.2.2 y hy t List.mem_cons_self)
      show runWith _ _ _ = none
      rw [runWith_append, runWith_keeps ha, Option.bind_some]
      show (routineStep sig x.name.fq (some (.procedure o.defn)) t.ddl).bind _ = none
      rw [ht]
      have : routineStep sig x.name.fq (some (.procedure o.defn)) (.createFunction (normalizeFunction x)) = none := if_pos rfl
      rw [this]; rfl

end

/-! ### samples -/

namespace Samples

/-- a function of language SQL without dependencies; the name includes the arguments -/
def function (n d : String) : Function := ⟨⟨"public", n⟩, d, "sql", []⟩

/-- a procedure; the name includes the arguments -/
def procedure (n d : String) : Procedure := ⟨⟨"public", n⟩, d⟩

/-- routines to drop and to change -/
def oldRoutines : Schema :=
  { Schema.empty with
    functions := [function "f(integer)" "int 1", { function "g()" "text 1" with dependsOnFunctions := [⟨"public", "f(integer)"⟩] }]
    procedures := [procedure "p()" " 1", procedure "q()" " 2"] }

/-- routines to create and to change -/
def newRoutines : Schema :=
  { Schema.empty with
    functions := [{ function "f(integer)" "int 2" with dependsOnFunctions := [⟨"public", "h()"⟩] }, function "h()" "int 1"]
    procedures := [procedure "p()" " 3", procedure "r()" " 4"] }

/-- everything before the first space -/
def resultType (s : String) : String := String.ofList (s.toList.takeWhile (· ≠ ' '))

end Samples

open Samples in
example : ∃ stmts r', generateMigrationStatements rand oldRoutines newRoutines opts = .ok (stmts, r') ∧
    stmts.map (fun s : Statement => s.ddl.render) = ["int 1", "int 2", " 3", " 4",
      "DROP FUNCTION \"public\".g()", "DROP PROCEDURE \"public\".q()"] :=
  exists_plan (by decide +kernel)

open Samples in
example : NamesUnique newRoutines.functions ∧ NamesUnique newRoutines.procedures ∧
    ∀ n, RoutinePlannable resultType oldRoutines newRoutines n := by
  refine ⟨by unfold NamesUnique; decide +kernel, by unfold NamesUnique; decide +kernel, fun n => ⟨?_, ?_, ?_⟩⟩
  · have h : ∀ f ∈ oldRoutines.functions ++ newRoutines.functions, ∀ p ∈ oldRoutines.procedures ++ newRoutines.procedures,
        p.name.fq ≠ f.name.fq := by decide +kernel
    rintro f hf rfl p hp
    exact h f hf p hp
  · have h : ∀ o ∈ oldRoutines.functions, ∀ x ∈ newRoutines.functions, x.name.fq = o.name.fq →
        resultType o.functionDef = resultType x.functionDef := by decide +kernel
    rintro o ho rfl x hx e
    exact h o ho x hx e
  · have h : ∀ o ∈ oldRoutines.procedures, ∀ x ∈ newRoutines.procedures, x.name.fq = o.name.fq →
        resultType o.defn = resultType x.defn := by decide +kernel
    rintro o ho rfl x hx e
    exact h o ho x hx e

/-- a function whose result type changes -/
example : ∃ stmts r', generateMigrationStatements Samples.rand
      { Schema.empty with functions := [Samples.function "f()" "int 1"] }
      { Schema.empty with functions := [Samples.function "f()" "text 1"] } Samples.opts = .ok (stmts, r') ∧
    stmts.map (fun s : Statement => s.ddl.render) = ["text 1"] ∧
    runRoutine Samples.resultType "\"public\".f()" (some (.function "int 1")) stmts = none :=
  Samples.exists_plan (by decide +kernel)

/-- a procedure that becomes a function -/
example : ∃ stmts r', generateMigrationStatements Samples.rand
      { Schema.empty with procedures := [Samples.procedure "f()" " 1"] }
      { Schema.empty with functions := [Samples.function "f()" "text 1"] } Samples.opts = .ok (stmts, r') ∧
    stmts.map (fun s : Statement => s.ddl.render) = ["text 1", "DROP PROCEDURE \"public\".f()"] :=
  Samples.exists_plan (by decide +kernel)

/-- A function that becomes a procedure: the plan creates the procedure while the function is still there, whatever a
replacement has to keep. -/
theorem C73_function_to_procedure_violated : ∃ stmts r', generateMigrationStatements Samples.rand
      { Schema.empty with functions := [Samples.function "f()" "text 1"] }
      { Schema.empty with procedures := [Samples.procedure "f()" " 1"] } Samples.opts = .ok (stmts, r') ∧
    ∀ sig, runRoutine sig "\"public\".f()" (some (.function "text 1")) stmts = none := by
  obtain ⟨stmts, r', h, e⟩ := Samples.exists_plan (r := Samples.rand)
    (old := { Schema.empty with functions := [Samples.function "f()" "text 1"] })
    (new := { Schema.empty with procedures := [Samples.procedure "f()" " 1"] }) (opts := Samples.opts)
    (P := fun stmts => stmts.map (fun s : Statement => s.ddl) =
      [.createProcedure (Samples.procedure "f()" " 1"), .dropFunction ⟨"public", "f()"⟩]) (by decide +kernel)
  refine ⟨stmts, r', h, fun sig => ?_⟩
  obtain ⟨a, b, rfl, ea, eb⟩ := map_eq_two e
  show (routineStep sig _ _ a.ddl).bind _ = none
  rw [ea]
  have hn : (Samples.procedure "f()" " 1").name.fq = "\"public\".f()" := by decide +kernel
  have : routineStep sig "\"public\".f()" (some (.function "text 1")) (.createProcedure (Samples.procedure "f()" " 1")) = none :=
    procedure_over_function hn
  rw [this]; rfl

end Verif
