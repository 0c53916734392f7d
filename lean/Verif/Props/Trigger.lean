import Verif.Lemmas.TableOps
import Verif.Spec.Trigger
import Verif.Props.Routine
import Verif.Props.ForeignKeyRun
import Verif.Props.RelOptions
import Verif.Props.Views

/-!
# C74: triggers converge
-/

namespace Verif

open Spec

/-- the statement makes the trigger `k` of the relation `n` -/
def Ddl.createsTrigger (n k : String) : Ddl → Bool
  | .createTrigger t _ _ => t.owningTable.fq = n ∧ t.escapedName = k
  | _ => false

/-- the statement drops the trigger `k` of the relation `n` -/
def Ddl.dropsTrigger (n k : String) : Ddl → Bool
  | .dropTrigger x t => t.fq = n ∧ x = k
  | _ => false

/-- the statement names the trigger -/
def Ddl.onTrigger (n k : String) (x : Ddl) : Bool := x.createsTrigger n k || x.dropsTrigger n k

theorem Ddl.onTrigger_family {n k : String} {x : Ddl} (h : x.onTrigger n k = true) : x.family = .trigger := by
  cases x <;> first | rfl | cases h

/-! ### texts -/

theorem toCreateOrReplace_says {s t : String} (h : toCreateOrReplace s = .ok t) : saysOrReplace t = true ∧
    withoutOrReplace t = s := by
  obtain ⟨rest, _, rfl, rfl⟩ := C50_replace_trigger.mp h
  have h1 : saysOrReplace ("CREATE OR REPLACE " ++ rest) = true := by
    unfold saysOrReplace
    rw [String.toList_append, List.isPrefixOf_iff_prefix]
    exact List.prefix_append _ _
  refine ⟨h1, ?_⟩
  unfold withoutOrReplace
  rw [if_pos h1, String.toList_append, List.drop_left, String.ofList_append, String.ofList_toList, String.ofList_toList]

theorem withoutOrReplace_plain {s : String} (h : saysOrReplace s = false) : withoutOrReplace s = s :=
  if_neg (fun e => Bool.false_ne_true (h.symm.trans e))

/-! ### names -/

/-- the name under which the trigger is compared -/
def triggerKey (n : String) (k : String) : String := n ++ "-" ++ k

theorem trigger_name {t : Trigger} {n : SQName} {k : String} (hq : Quoted t.owningTable ∧ ∃ y, nameOk y = true ∧
      t.escapedName = escapeIdentifier y) (hn : Quoted n) (hk : nameOk k = true) :
    Obj.getName t = triggerKey n.fq (escapeIdentifier k) ↔ t.owningTable.fq = n.fq ∧ t.escapedName = escapeIdentifier k := by
  have h := fk_name_injective (f := ⟨t.escapedName, t.owningTable, t.owningTable, "", true⟩) hq.1 hq.2 hn hk
  refine Iff.trans (show _ ↔ _ from h) ?_
  obtain ⟨y, hy, e⟩ := hq.2
  show _ ∧ readsAs t.escapedName k = true ↔ _
  rw [e, readsAs_quoted hy]
  refine and_congr_right fun _ => ?_
  constructor
  · intro h; rw [of_decide_eq_true h]
  · intro h; exact decide_eq_true (C10_identifier_injective (nameOk_iff.mp hy) (nameOk_iff.mp hk) h)

section
variable {opts : PlanOptions} {old new : Schema} {d : SchemaDiff} {r r' : Rand} {stmts : List Statement} {n k : String}

/-- what a plan does about a trigger -/
inductive TriggerFate {V : Type} (adds : GoMap String V) (d : SchemaDiff) (old new : Schema) (n k : String) (stmts : List Statement) : Prop where
  | absent (ho : ∀ o ∈ old.triggers, ¬ (o.owningTable.fq = n ∧ o.escapedName = k))
      (hn : ∀ x ∈ new.triggers, ¬ (x.owningTable.fq = n ∧ x.escapedName = k))
      (hs : stmts.filter (fun s : Statement => s.ddl.onTrigger n k) = [])
  | dropped (o : Trigger) (ho : o ∈ old.triggers) (e : o.owningTable.fq = n ∧ o.escapedName = k)
      (hn : ∀ x ∈ new.triggers, ¬ (x.owningTable.fq = n ∧ x.escapedName = k))
      (s : Statement) (hd : s.ddl = .dropTrigger o.escapedName o.owningTable)
      (hs : stmts.filter (fun s : Statement => s.ddl.onTrigger n k) = [s])
  | added (x : Trigger) (hx : x ∈ new.triggers) (e : x.owningTable.fq = n ∧ x.escapedName = k)
      (ho : ∀ o ∈ old.triggers, ¬ (o.owningTable.fq = n ∧ o.escapedName = k))
      (s : Statement) (hd : s.ddl = .createTrigger x false x.getTriggerDefStmt)
      (hs : stmts.filter (fun s : Statement => s.ddl.onTrigger n k) = [s])
  | recreated (o x : Trigger) (ho : o ∈ old.triggers) (hx : x ∈ new.triggers) (eo : o.owningTable.fq = n ∧ o.escapedName = k)
      (ex : x.owningTable.fq = n ∧ x.escapedName = k) (hb : adds.has n = true)
      (hm : o ∈ d.triggerDiffs.deletes) (hm' : x ∈ d.triggerDiffs.adds)
      (s s' : Statement) (hd : s.ddl = .dropTrigger o.escapedName o.owningTable)
      (hd' : s'.ddl = .createTrigger x false x.getTriggerDefStmt)
      (hs : (stmts.filter (fun s : Statement => s.ddl.onTrigger n k)).Perm [s, s'])
  | same (o : Trigger) (ho : o ∈ old.triggers) (hx : o ∈ new.triggers) (e : o.owningTable.fq = n ∧ o.escapedName = k)
      (hb : adds.has n = false) (hs : stmts.filter (fun s : Statement => s.ddl.onTrigger n k) = [])
  | replaced (o x : Trigger) (hne : o ≠ x) (ho : o ∈ old.triggers) (hx : x ∈ new.triggers) (eo : o.owningTable.fq = n ∧ o.escapedName = k)
      (ex : x.owningTable.fq = n ∧ x.escapedName = k) (hb : adds.has n = false)
      (hc : o.isConstraint = false ∧ x.isConstraint = false) (text : String)
      (ht : toCreateOrReplace x.getTriggerDefStmt = .ok text)
      (s : Statement) (hd : s.ddl = .createTrigger x true text)
      (hs : stmts.filter (fun s : Statement => s.ddl.onTrigger n k) = [s])
  | swapped (o x : Trigger) (hne : o ≠ x) (ho : o ∈ old.triggers) (hx : x ∈ new.triggers) (eo : o.owningTable.fq = n ∧ o.escapedName = k)
      (ex : x.owningTable.fq = n ∧ x.escapedName = k) (hb : adds.has n = false)
      (s s' : Statement) (hd : s.ddl = .dropTrigger o.escapedName o.owningTable)
      (hd' : s'.ddl = .createTrigger x false x.getTriggerDefStmt)
      (hs : stmts.filter (fun s : Statement => s.ddl.onTrigger n k) = [s, s'])

set_option maxHeartbeats 1000000 in
theorem trigger_fate (dr : DiffRun opts old new d) (run : PlanRun opts d r r' stmts) (hu : NamesUnique new.triggers)
    (io : ∀ o ∈ old.triggers, Obj.getName o = triggerKey n k → o.owningTable.fq = n ∧ o.escapedName = k)
    (ix : ∀ o ∈ new.triggers, Obj.getName o = triggerKey n k → o.owningTable.fq = n ∧ o.escapedName = k) :
    TriggerFate (byName dr.td0.adds) d old new n k stmts := by
  have key : ∀ {t : Trigger}, t.owningTable.fq = n ∧ t.escapedName = k → Obj.getName t = triggerKey n k := by
    rintro t ⟨rfl, rfl⟩; rfl
  have hL : (stmts.filter (fun s : Statement => s.ddl.onTrigger n k)).Perm
      (run.triggers.statements.filter fun s : Statement => s.ddl.onTrigger n k) := run.family_perm (f := .trigger) rfl (P := fun s : Statement => s.ddl.onTrigger n k)
    (fun s hs => Ddl.onTrigger_family hs)
  have notIn : ∀ {l : List Trigger}, triggerKey n k ∉ l.map Obj.getName →
      ∀ o ∈ l, ¬ (o.owningTable.fq = n ∧ o.escapedName = k) := fun h o ho e =>
    h (key e ▸ List.mem_map_of_mem (f := Obj.getName) ho)
  have addP : ∀ {o : Trigger} {l : List Statement}, yields (TriggerGen.legacy.add o) l →
      l = [stmt (.createTrigger o false o.getTriggerDefStmt)] := fun h => (Except.ok.inj h).symm
  have delP : ∀ {o : Trigger} {l : List Statement}, yields (TriggerGen.legacy.delete o) l →
      l = [stmt (.dropTrigger o.escapedName o.owningTable)] := fun h => (Except.ok.inj h).symm
  have altP : ∀ {o x : Trigger} {l : List Statement}, yields (TriggerGen.legacy.alter ⟨o, x⟩) l →
      (o = x ∧ l = []) ∨
      (o ≠ x ∧ l = [stmt (.dropTrigger o.escapedName o.owningTable), stmt (.createTrigger x false x.getTriggerDefStmt)]) ∨
      ∃ text, o ≠ x ∧ toCreateOrReplace x.getTriggerDefStmt = .ok text ∧ (o.isConstraint = false ∧ x.isConstraint = false) ∧
        l = [stmt (.createTrigger x true text)] := by
    intro o x l h
    have h : TriggerGen.alter ⟨o, x⟩ = .ok l := h
    unfold TriggerGen.alter at h
    by_cases e : o = x
    · rw [if_pos e] at h
      exact Or.inl ⟨e, (Except.ok.inj h).symm⟩
    · rw [if_neg e] at h
      by_cases hc : (o.isConstraint || x.isConstraint) = true
      · rw [if_pos hc] at h
        exact Or.inr (Or.inl ⟨e, (Except.ok.inj h).symm⟩)
      · rw [if_neg hc] at h
        obtain ⟨text, ht, h⟩ := except_bind_ok.mp h
        cases h
        exact Or.inr (Or.inr ⟨text, e, ht, by simpa using hc, rfl⟩)
  have yes : ∀ {l : List Statement}, (∀ s ∈ l, s.ddl.onTrigger n k = true) →
      l.filter (fun s : Statement => s.ddl.onTrigger n k) = l := fun h => List.filter_eq_self.mpr h
  have no : ∀ {l : List Statement}, (∀ s ∈ l, s.ddl.onTrigger n k = false) →
      l.filter (fun s : Statement => s.ddl.onTrigger n k) = [] := fun h =>
    List.filter_eq_nil_iff.mpr fun s hs e => Bool.false_ne_true ((h s hs).symm.trans e)
  have create : ∀ {t : Trigger} {b : Bool} {text : String}, (stmt (.createTrigger t b text)).ddl.onTrigger n k =
      decide (t.owningTable.fq = n ∧ t.escapedName = k) := fun {t b text} => Bool.or_false _
  have drop : ∀ {t : Trigger}, (stmt (.dropTrigger t.escapedName t.owningTable)).ddl.onTrigger n k =
      decide (t.owningTable.fq = n ∧ t.escapedName = k) := fun {t} => Bool.false_or _
  have hkey : ∀ (o x : Trigger) (j i : Nat) (dd : OldNew Trigger), Obj.getName o = Obj.getName x →
      buildTriggerDiff (byName dr.td0.adds) o x j i = .ok (dd, false) → Obj.getName dd.new = Obj.getName x ∧ dd = ⟨o, x⟩ := by
    intro o x j i dd _ hb
    unfold buildTriggerDiff at hb
    split at hb
    · cases hb
    · cases hb; exact ⟨rfl, rfl⟩
  have hpair : ∀ dd ∈ d.triggerDiffs.alters, Obj.getName dd.old = Obj.getName dd.new := by
    intro dd hdd
    obtain ⟨i, x, j, o, _, _, e, hb⟩ := diffLists_alters_mem dr.htriggers hdd
    rw [(hkey o x j i dd e hb).2]; exact e
  obtain ⟨_, _, _, _, k1, k2, _⟩ := diffLists_decision (key := fun x : OldNew Trigger => Obj.getName x.new) dr.htriggers hu
    (fun o x j i dd e hb => (hkey o x j i dd e hb).1) (triggerKey n k)
  have fate := legacy_fate (m := Except Err) dr.htriggers hu (g := TriggerGen.legacy) run.htriggers
    (key := fun x : OldNew Trigger => Obj.getName x.new) (fun o x j i dd e hb => (hkey o x j i dd e hb).1)
    (n := triggerKey n k) (P := fun s : Statement => s.ddl.onTrigger n k) (by
      intro o _ l hl hne
      rw [addP hl]
      exact filter_none (P := fun s : Statement => s.ddl.onTrigger n k) (create.trans (decide_eq_false fun e => hne (key e)))) (by
      intro o _ l hl hne
      rw [delP hl]
      exact filter_none (P := fun s : Statement => s.ddl.onTrigger n k) (drop.trans (decide_eq_false fun e => hne (key e)))) (by
      rintro ⟨o, x⟩ hm l hl hne
      have hne' : Obj.getName o ≠ triggerKey n k := fun e => hne ((hpair _ hm).symm.trans e)
      refine no fun s hs => ?_
      rcases altP hl with ⟨_, rfl⟩ | ⟨_, rfl⟩ | ⟨text, _, _, _, rfl⟩
      · cases hs
      · rcases List.mem_pair.mp hs with rfl | rfl
        · exact drop.trans (decide_eq_false fun e => hne' (key e))
        · exact create.trans (decide_eq_false fun e => hne (key e))
      · rw [List.mem_singleton.mp hs]
        exact create.trans (decide_eq_false fun e => hne (key e)))
  cases fate with
  | absent ho hn hs =>
    refine .absent (notIn ho) (notIn hn) ?_
    exact List.perm_nil.mp (hL.trans (List.Perm.of_eq hs))
  | dropped o ho e hn h l hl hs =>
    have e' := io o ho e
    refine .dropped o ho e' (notIn hn) (stmt (.dropTrigger o.escapedName o.owningTable)) rfl ?_
    rw [delP hl, filter_one (P := fun s : Statement => s.ddl.onTrigger n k)
      (s := stmt (.dropTrigger o.escapedName o.owningTable)) (drop.trans (decide_eq_true e'))] at hs
    exact List.perm_singleton.mp (hL.trans (List.Perm.of_eq hs))
  | added x hx e ho h l hl hs =>
    have e' := ix x hx e
    refine .added x hx e' (notIn ho) (stmt (.createTrigger x false x.getTriggerDefStmt)) rfl ?_
    rw [addP hl, filter_one (P := fun s : Statement => s.ddl.onTrigger n k)
      (s := stmt (.createTrigger x false x.getTriggerDefStmt)) (create.trans (decide_eq_true e'))] at hs
    exact List.perm_singleton.mp (hL.trans (List.Perm.of_eq hs))
  | recreated o x ho hx eo ex hb h h' l l' hl hl' hs =>
    have eo' := io o ho eo
    have ex' := ix x hx ex
    refine .recreated o x ho hx eo' ex' ?_ h h' (stmt (.dropTrigger o.escapedName o.owningTable))
      (stmt (.createTrigger x false x.getTriggerDefStmt)) rfl rfl ?_
    · obtain ⟨i, j, dd, hb⟩ := hb
      unfold buildTriggerDiff at hb
      split at hb
      · rename_i hh; rw [← ex'.1]; exact hh
      · cases hb
    · rw [addP hl', delP hl, filter_one (P := fun s : Statement => s.ddl.onTrigger n k)
        (s := stmt (.createTrigger x false x.getTriggerDefStmt)) (create.trans (decide_eq_true ex')),
        filter_one (P := fun s : Statement => s.ddl.onTrigger n k)
        (s := stmt (.dropTrigger o.escapedName o.owningTable)) (drop.trans (decide_eq_true eo'))] at hs
      exact (hL.trans (List.Perm.of_eq hs)).trans (List.Perm.swap _ _ _)
  | altered o x dd ho hx eo ex hb h l hl hs =>
    have eo' := io o ho eo
    have ex' := ix x hx ex
    obtain ⟨i, j, hb⟩ := hb
    have hno : (byName dr.td0.adds).has n = false := by
      unfold buildTriggerDiff at hb
      split at hb
      · cases hb
      · rename_i hh; rw [← ex'.1]; exact eq_false_of_ne_true hh
    obtain rfl := (hkey o x j i dd (eo.trans ex.symm) hb).2
    have hmem : triggerKey n k ∈ d.triggerDiffs.alters.map fun x : OldNew Trigger => Obj.getName x.new :=
      List.mem_map.mpr ⟨_, h, ex⟩
    have eq := run.part_filter (f := .trigger) (by simp) (n := triggerKey n k) (k := .addAlter)
      (P := fun s : Statement => s.ddl.onTrigger n k) (by
        intro id s hg hP
        cases hg with
        | createTrigger t ht hid =>
          rw [create] at hP
          rw [hid, ← key (of_decide_eq_true hP)]; rfl
        | replaceTrigger td htd hd hc text ht hid =>
          rw [create] at hP
          rw [hid, ← key (of_decide_eq_true hP)]; rfl
        | dropTrigger t ht hid =>
          rw [drop] at hP
          rcases hid with ⟨hm, _⟩ | ⟨td, htd, rfl, hid⟩
          · exact absurd hmem (k2 (List.mem_map.mpr ⟨t, hm, key (of_decide_eq_true hP)⟩))
          · rw [hid, ← key (of_decide_eq_true hP), hpair _ htd]; rfl
        | newTable t h ccs hc s hs' hid => cases hs' <;> cases hP
        | alterTable td h s hs' hid =>
          cases hs' with
          | column cd h s hs' => cases hs' <;> cases hP
          | _ => cases hP
        | _ => cases hP) (by
        intro s hh
        cases e : s.ddl <;> rw [e] at hh <;> first | rfl | cases hh)
    have eq := eq.trans hs
    rcases altP hl with ⟨rfl, e⟩ | ⟨hne, e⟩ | ⟨text, hne, ht, hc, e⟩
    · rw [e] at eq
      exact .same o ho hx eo' hno eq
    · refine .swapped o x hne ho hx eo' ex' hno (stmt (.dropTrigger o.escapedName o.owningTable))
        (stmt (.createTrigger x false x.getTriggerDefStmt)) rfl rfl ?_
      rw [e] at eq
      refine eq.trans (yes fun s hs => ?_)
      rcases List.mem_pair.mp hs with rfl | rfl
      · exact drop.trans (decide_eq_true eo')
      · exact create.trans (decide_eq_true ex')
    · refine .replaced o x hne ho hx eo' ex' hno hc text ht (stmt (.createTrigger x true text)) rfl ?_
      rw [e, filter_one (P := fun s : Statement => s.ddl.onTrigger n k)
        (s := stmt (.createTrigger x true text)) (create.trans (decide_eq_true ex'))] at eq
      exact eq

/-! ### the order -/

theorem PlanRun.declared_drop_trigger (run : PlanRun opts d r r' stmts) {t : Trigger} (ht : t ∈ d.triggerDiffs.deletes) :
    run.graph.Declared (TriggerGen.vertexId t .delete).text (functionVertexId t.function .delete).text ∧
    run.graph.Declared (TriggerGen.vertexId t .delete).text (tableVertexId t.owningTable .delete).text := by
  obtain ⟨deps, h1, h2⟩ := deps_of_delete (m := Except Err) (g := TriggerGen.legacy) run.htriggers ht
  have e : TriggerGen.deleteDeps t = .ok deps := h1
  unfold TriggerGen.deleteDeps at e
  rw [Except.ok.injEq] at e
  subst e
  exact ⟨run.declared_before (p := run.triggers) (by simp) (h2 _ (by simp)),
    run.declared_before (p := run.triggers) (by simp) (h2 _ (by simp))⟩

theorem PlanRun.declared_add_trigger (run : PlanRun opts d r r' stmts) {t : Trigger}
    (ht : t ∈ d.triggerDiffs.adds ∨ ∃ td ∈ d.triggerDiffs.alters, t = td.new) :
    run.graph.Declared (functionVertexId t.function .addAlter).text (TriggerGen.vertexId t .addAlter).text ∧
    run.graph.Declared (tableVertexId t.owningTable .addAlter).text (TriggerGen.vertexId t .addAlter).text := by
  have key : ∀ {o : Trigger} {deps : List Dependency}, TriggerGen.addAlterDeps t o = .ok deps →
      (∀ x ∈ deps, x ∈ run.triggers.dependencies) →
      run.graph.Declared (functionVertexId t.function .addAlter).text (TriggerGen.vertexId t .addAlter).text ∧
      run.graph.Declared (tableVertexId t.owningTable .addAlter).text (TriggerGen.vertexId t .addAlter).text := by
    intro o deps e h2
    unfold TriggerGen.addAlterDeps at e
    rw [Except.ok.injEq] at e
    subst e
    exact ⟨run.declared_after (p := run.triggers) (by simp) (h2 _ (List.mem_append_left _ (by simp))),
      run.declared_after (p := run.triggers) (by simp) (h2 _ (List.mem_append_left _ (by simp)))⟩
  rcases ht with ht | ⟨td, htd, rfl⟩
  · obtain ⟨deps, h1, h2⟩ := deps_of_add (m := Except Err) (g := TriggerGen.legacy) run.htriggers ht
    exact key h1 h2
  · obtain ⟨deps, h1, h2⟩ := deps_of_alter (m := Except Err) (g := TriggerGen.legacy) run.htriggers htd
    exact key h1 h2

theorem GraphShape.createTrigger_vertex {st : GenState} {id : VertexId} {s : Statement} (h : GraphShape opts d st id s)
    (hs : s.ddl.createsTrigger n k = true) : ∃ t, (t ∈ d.triggerDiffs.adds ∨ ∃ td ∈ d.triggerDiffs.alters, t = td.new) ∧
      (t.owningTable.fq = n ∧ t.escapedName = k) ∧ id = TriggerGen.vertexId t .addAlter := by
  cases h with
  | createTrigger t h hid =>
    exact ⟨t, h.imp (fun h => h) fun ⟨td, h1, h2, _⟩ => ⟨td, h1, h2⟩, of_decide_eq_true (p := t.owningTable.fq = n ∧ t.escapedName = k) hs, hid⟩
  | replaceTrigger td h hd hc text ht hid =>
    exact ⟨td.new, Or.inr ⟨td, h, rfl⟩, of_decide_eq_true (p := td.new.owningTable.fq = n ∧ td.new.escapedName = k) hs, hid⟩
  | newTable t h ccs hc s hs' hid => cases hs' <;> cases hs
  | alterTable td h s hs' hid =>
    cases hs' with
    | column cd h s hs' => cases hs' <;> cases hs
    | _ => cases hs
  | _ => cases hs

theorem GraphShape.dropTrigger_vertex {st : GenState} {id : VertexId} {s : Statement} (h : GraphShape opts d st id s)
    (hs : s.ddl.dropsTrigger n k = true) : ∃ t, (t.owningTable.fq = n ∧ t.escapedName = k) ∧
      ((t ∈ d.triggerDiffs.deletes ∧ id = TriggerGen.vertexId t .delete) ∨
        ∃ td ∈ d.triggerDiffs.alters, t = td.old ∧ id = TriggerGen.vertexId td.new .addAlter) := by
  cases h with
  | dropTrigger t h hid => exact ⟨t, of_decide_eq_true (p := t.owningTable.fq = n ∧ t.escapedName = k) hs, hid⟩
  | newTable t h ccs hc s hs' hid => cases hs' <;> cases hs
  | alterTable td h s hs' hid =>
    cases hs' with
    | column cd h s hs' => cases hs' <;> cases hs
    | _ => cases hs
  | _ => cases hs

theorem Ddl.createsTrigger_not_outer {x : Ddl} (h : x.createsTrigger n k = true) : ¬ x.IsOuter := by
  cases x <;> first | (exact id) | cases h

theorem Ddl.dropsTrigger_not_outer {x : Ddl} (h : x.dropsTrigger n k = true) : ¬ x.IsOuter := by
  cases x <;> first | (exact id) | cases h

theorem Ddl.createsTable_not_outer {x : Ddl} (h : x.createsTable n = true) : ¬ x.IsOuter := by
  cases x <;> first | (exact id) | cases h

theorem Ddl.dropsTable_not_outer {x : Ddl} (h : x.dropsTable n = true) : ¬ x.IsOuter := by
  cases x <;> first | (exact id) | cases h

/-- no altered trigger is this one -/
def NotAltered (d : SchemaDiff) (n k : String) : Prop :=
  ∀ td ∈ d.triggerDiffs.alters, ¬ (td.old.owningTable.fq = n ∧ td.old.escapedName = k)

section
variable (run : PlanRun opts d r r' stmts)
include run

theorem drop_trigger_path (ha : NotAltered d n k) {u : VertexId} {x : Statement} (h : GraphShape opts d run.s3 u x)
    (hs : x.ddl.dropsTrigger n k = true) :
    run.graph.Declared u.text (VertexId.text ⟨"table", n, .delete⟩) := by
  obtain ⟨t, e, ⟨hm, rfl⟩ | ⟨td, htd, rfl, rfl⟩⟩ := h.dropTrigger_vertex hs
  · have := (run.declared_drop_trigger hm).2
    rw [← e.1]; exact this
  · exact absurd e (ha td htd)

theorem create_trigger_path {u : VertexId} {x : Statement} (h : GraphShape opts d run.s3 u x)
    (hs : x.ddl.createsTrigger n k = true) :
    run.graph.Declared (VertexId.text ⟨"table", n, .addAlter⟩) u.text := by
  obtain ⟨t, hm, e, rfl⟩ := h.createTrigger_vertex hs
  have := (run.declared_add_trigger hm).2
  rw [← e.1]; exact this

theorem trigger_table_before (ha : NotAltered d n k) :
    AllBefore (fun s : Statement => s.ddl.dropsTrigger n k = true) (fun s => s.ddl.dropsTable n = true) stmts :=
  run.allBefore (fun _ h => Ddl.dropsTrigger_not_outer h) (fun _ h => Ddl.dropsTable_not_outer h) fun u x v y hx hy hp hq => by
    obtain ⟨t, _, rfl, rfl⟩ := hy.dropTable_vertex hq
    exact .single (drop_trigger_path run ha hx hp)

theorem table_trigger_before :
    AllBefore (fun s : Statement => s.ddl.createsTable n = true) (fun s => s.ddl.createsTrigger n k = true) stmts :=
  run.allBefore (fun _ h => Ddl.createsTable_not_outer h) (fun _ h => Ddl.createsTrigger_not_outer h)
    fun u x v y hx hy hp hq => by
    obtain ⟨t, _, rfl, rfl⟩ := hx.createTable_vertex hp
    exact .single (create_trigger_path run hy hq)

theorem trigger_rebuild_before (dr : DiffRun opts old new d) (hn : (new.tables.map Obj.getName).Nodup) {t : Table}
    (ht : t ∈ new.tables) (e : t.name.fq = n) (ha : NotAltered d n k) :
    AllBefore (fun s : Statement => s.ddl.dropsTrigger n k = true) (fun s => s.ddl.createsTable n = true) stmts ∧
    AllBefore (fun s : Statement => s.ddl.dropsTrigger n k = true) (fun s => s.ddl.createsTrigger n k = true) stmts ∧
    AllBefore (fun s : Statement => s.ddl.dropsTable n = true) (fun s => s.ddl.createsTrigger n k = true) stmts := by
  have hr : run.graph.Declared (VertexId.text ⟨"table", n, .delete⟩) (VertexId.text ⟨"table", n, .addAlter⟩) := by
    rw [← e]; exact dr.declared_rebuild run hn ht
  refine ⟨?_, ?_, ?_⟩
  · refine run.allBefore (fun _ h => Ddl.dropsTrigger_not_outer h) (fun _ h => Ddl.createsTable_not_outer h)
      fun u x v y hx hy hp hq => ?_
    obtain ⟨t', _, e', rfl⟩ := hy.createTable_vertex hq
    refine .head (drop_trigger_path run ha hx hp) (.single ?_)
    rw [← e'] at hr ⊢; exact hr
  · exact run.allBefore (fun _ h => Ddl.dropsTrigger_not_outer h) (fun _ h => Ddl.createsTrigger_not_outer h)
      fun u x v y hx hy hp hq => .head (drop_trigger_path run ha hx hp) (.head hr (.single (create_trigger_path run hy hq)))
  · refine run.allBefore (fun _ h => Ddl.dropsTable_not_outer h) (fun _ h => Ddl.createsTrigger_not_outer h)
      fun u x v y hx hy hp hq => ?_
    obtain ⟨t', _, e', rfl⟩ := hx.dropTable_vertex hp
    refine .head ?_ (.single (create_trigger_path run hy hq))
    rw [← e'] at hr ⊢; exact hr

end

/-! ### running the plan -/

variable {sc : Schema}

theorem triggerStep_skip (hr : ∀ t ∈ sc.tables, t.name.fq = n → t.parentTable = none) {x : Ddl} (h1 : x.dropsTrigger n k = false)
    (h2 : x.dropsTable n = false) (h3 : x.createsTable n = false) (h4 : x.createsTrigger n k = false) (h5 : onView n x = false)
    (s : TriggerSlot) : triggerStep sc n k s x = some s := by
  cases x with
  | createTable y _ _ => exact if_neg (of_decide_eq_false (p := y.fq = n) h3)
  | createView v => exact if_neg (of_decide_eq_false (p := v.name.fq = n) h5)
  | dropTable y =>
    have hne := of_decide_eq_false (p := y.fq = n) h2
    refine (if_neg hne).trans (if_neg ?_)
    rw [ancestors_root hr, List.mem_singleton]
    exact hne
  | dropView v => exact if_neg (of_decide_eq_false (p := v.fq = n) h5)
  | createTrigger t b text => exact if_neg (of_decide_eq_false (p := t.owningTable.fq = n ∧ t.escapedName = k) h4)
  | dropTrigger y t => exact if_neg (of_decide_eq_false (p := t.fq = n ∧ y = k) h1)
  | _ => rfl

/-- the statements that matter -/
def Ddl.aboutTrigger (n k : String) (x : Ddl) : Bool :=
  x.dropsTrigger n k || (x.dropsTable n || (x.createsTable n || x.createsTrigger n k))

theorem runTrigger_filter (hr : ∀ t ∈ sc.tables, t.name.fq = n → t.parentTable = none)
    (hv : ∀ s ∈ stmts, onView n s.ddl = false) (s : TriggerSlot) :
    runTrigger sc n k s stmts = runTrigger sc n k s (stmts.filter fun s : Statement => s.ddl.aboutTrigger n k) := by
  refine runWith_filter (I := fun _ => True) (fun x hx hp s _ => ?_) (fun _ _ _ _ _ _ _ => trivial) trivial
  have hp : x.ddl.aboutTrigger n k = false := hp
  unfold Ddl.aboutTrigger at hp
  rw [Bool.or_eq_false_iff, Bool.or_eq_false_iff, Bool.or_eq_false_iff] at hp
  exact triggerStep_skip hr hp.1 hp.2.1 hp.2.2.1 hp.2.2.2 (hv x hx) s

theorem runTrigger_cons {s s' : TriggerSlot} {x : Statement} {y : Ddl} {l : List Statement} (e : x.ddl = y)
    (h : triggerStep sc n k s y = some s') : runTrigger sc n k s (x :: l) = runTrigger sc n k s' l :=
  runWith_cons (by rw [e]; exact h)

theorem triggerOf_none {s : Schema} (ht : n ∉ s.tables.map Obj.getName) (hv : n ∉ s.views.map (·.name.fq)) :
    triggerOf s n k = .noRelation := if_neg (not_or.mpr ⟨ht, hv⟩)

theorem triggerOf_absent {s : Schema} (ht : n ∈ s.tables.map (·.name.fq) ∨ n ∈ s.views.map (·.name.fq))
    (h : ∀ x ∈ s.triggers, ¬ (x.owningTable.fq = n ∧ x.escapedName = k)) : triggerOf s n k = .noTrigger := by
  unfold triggerOf
  rw [if_pos ht, List.find?_eq_none.mpr fun x hx e => h x hx (of_decide_eq_true e)]

theorem triggerOf_some {s : Schema} (ht : n ∈ s.tables.map (·.name.fq) ∨ n ∈ s.views.map (·.name.fq))
    (hu : NamesUnique s.triggers) {x : Trigger} (hx : x ∈ s.triggers) (e : x.owningTable.fq = n ∧ x.escapedName = k) :
    triggerOf s n k = .trigger x.getTriggerDefStmt := by
  have : s.triggers.find? (fun y => y.owningTable.fq = n ∧ y.escapedName = k) = some x := by
    cases h : s.triggers.find? (fun y => y.owningTable.fq = n ∧ y.escapedName = k) with
    | none => exact absurd (decide_eq_true e) (List.find?_eq_none.mp h x hx)
    | some y =>
      have hy := List.mem_of_find?_eq_some h
      have ey := of_decide_eq_true (List.find?_some (p := fun y : Trigger => y.owningTable.fq = n ∧ y.escapedName = k) h)
      have : Obj.getName y = Obj.getName x := by
        show y.owningTable.fq ++ "-" ++ y.escapedName = x.owningTable.fq ++ "-" ++ x.escapedName
        rw [ey.1, ey.2, e.1, e.2]
      rw [List.inj_on_of_nodup_map hu hy hx this]
  unfold triggerOf
  rw [if_pos ht, this]

theorem views_left_alone (dr : DiffRun opts old new d) (run : PlanRun opts d r r' stmts)
    (h : ∀ v ∈ old.views ++ new.views, v.name.fq ≠ n) : ∀ s ∈ stmts, onView n s.ddl = false := by
  intro s hs
  cases hv : onView n s.ddl with
  | false => rfl
  | true =>
    exfalso
    have ho : ¬ s.ddl.IsOuter := by
      intro ho
      cases e : s.ddl <;> rw [e] at ho hv <;> first | cases hv | cases ho
    obtain ⟨id, hg⟩ := run.mem_shape hs ho
    cases hg with
    | createView v h' hid =>
      exact h v (List.mem_append_right _ (diffLists_adds_mem dr.hviews h')) (of_decide_eq_true (p := v.name.fq = n) hv)
    | dropView v h' hid =>
      exact h v (List.mem_append_left _ (diffLists_deletes_mem dr.hviews h')) (of_decide_eq_true (p := v.name.fq = n) hv)
    | newTable t h ccs hc s hs' hid => cases hs' <;> cases hv
    | alterTable td h s hs' hid =>
      cases hs' with
      | column cd h s hs' => cases hs' <;> cases hv
      | _ => cases hv
    | _ => cases hv

/-- nothing is done about the table -/
theorem about_trigger_kept (hc : stmts.filter (fun s : Statement => s.ddl.createsTable n) = [])
    (hd : stmts.filter (fun s : Statement => s.ddl.dropsTable n) = []) :
    stmts.filter (fun s : Statement => s.ddl.aboutTrigger n k) = stmts.filter fun s : Statement => s.ddl.onTrigger n k := by
  refine List.filter_congr fun s hs => ?_
  have h1 := filter_nil_false hc s hs
  have h2 := filter_nil_false hd s hs
  show s.ddl.aboutTrigger n k = s.ddl.onTrigger n k
  unfold Ddl.aboutTrigger Ddl.onTrigger
  rw [h1, h2, Bool.false_or, Bool.false_or, Bool.or_comm]

theorem about_trigger_four
    (ab : AllBefore (fun s : Statement => s.ddl.dropsTrigger n k = true) (fun s => s.ddl.dropsTable n = true) stmts)
    (ac : AllBefore (fun s : Statement => s.ddl.dropsTrigger n k = true) (fun s => s.ddl.createsTable n = true) stmts)
    (ae : AllBefore (fun s : Statement => s.ddl.dropsTrigger n k = true) (fun s => s.ddl.createsTrigger n k = true) stmts)
    (bc : AllBefore (fun s : Statement => s.ddl.dropsTable n = true) (fun s => s.ddl.createsTable n = true) stmts)
    (be : AllBefore (fun s : Statement => s.ddl.dropsTable n = true) (fun s => s.ddl.createsTrigger n k = true) stmts)
    (ce : AllBefore (fun s : Statement => s.ddl.createsTable n = true) (fun s => s.ddl.createsTrigger n k = true) stmts) :
    stmts.filter (fun s : Statement => s.ddl.aboutTrigger n k) = stmts.filter (fun s : Statement => s.ddl.dropsTrigger n k) ++
      (stmts.filter (fun s : Statement => s.ddl.dropsTable n) ++ (stmts.filter (fun s : Statement => s.ddl.createsTable n) ++
        stmts.filter fun s : Statement => s.ddl.createsTrigger n k)) := by
  have dt : ∀ {x : Ddl}, x.dropsTrigger n k = true → ∃ y t, x = .dropTrigger y t := by
    intro x h; cases x <;> first | exact ⟨_, _, rfl⟩ | cases h
  have dr : ∀ {x : Ddl}, x.dropsTable n = true → ∃ y, x = .dropTable y := by
    intro x h; cases x <;> first | exact ⟨_, rfl⟩ | cases h
  have cr : ∀ {x : Ddl}, x.createsTable n = true → ∃ y c p, x = .createTable y c p := by
    intro x h; cases x <;> first | exact ⟨_, _, _, rfl⟩ | cases h
  refine filter_four ab ac ae bc be ce ?_ ?_ ?_ ?_ ?_ ?_
  · intro s h1 h2; obtain ⟨y, t, e⟩ := dt h1; rw [e] at h2; cases h2
  · intro s h1 h2; obtain ⟨y, t, e⟩ := dt h1; rw [e] at h2; cases h2
  · intro s h1 h2; obtain ⟨y, t, e⟩ := dt h1; rw [e] at h2; cases h2
  · intro s h1 h2; obtain ⟨y, e⟩ := dr h1; rw [e] at h2; cases h2
  · intro s h1 h2; obtain ⟨y, e⟩ := dr h1; rw [e] at h2; cases h2
  · intro s h1 h2; obtain ⟨y, c, p, e⟩ := cr h1; rw [e] at h2; cases h2

/-- the trigger's own statements, from those that name it -/
theorem trigger_parts {l : List Statement} (h : (stmts.filter fun s : Statement => s.ddl.onTrigger n k).Perm l) :
    (stmts.filter fun s : Statement => s.ddl.dropsTrigger n k).Perm (l.filter fun s : Statement => s.ddl.dropsTrigger n k) ∧
    (stmts.filter fun s : Statement => s.ddl.createsTrigger n k).Perm (l.filter fun s : Statement => s.ddl.createsTrigger n k) := by
  constructor
  · have := h.filter fun s : Statement => s.ddl.dropsTrigger n k
    rw [List.filter_filter] at this
    refine (List.Perm.of_eq (List.filter_congr fun s _ => ?_)).trans this
    unfold Ddl.onTrigger
    cases s.ddl.dropsTrigger n k <;> simp
  · have := h.filter fun s : Statement => s.ddl.createsTrigger n k
    rw [List.filter_filter] at this
    refine (List.Perm.of_eq (List.filter_congr fun s _ => ?_)).trans this
    unfold Ddl.onTrigger
    cases s.ddl.createsTrigger n k <;> simp

theorem dropsTrigger_of {o : Trigger} {s : Statement} (e : o.owningTable.fq = n ∧ o.escapedName = k)
    (h : s.ddl = .dropTrigger o.escapedName o.owningTable) :
    s.ddl.dropsTrigger n k = true ∧ s.ddl.createsTrigger n k = false := by
  rw [h]; exact ⟨decide_eq_true (p := o.owningTable.fq = n ∧ o.escapedName = k) e, rfl⟩

theorem createsTrigger_of {o : Trigger} {s : Statement} {b : Bool} {text : String} (e : o.owningTable.fq = n ∧ o.escapedName = k)
    (h : s.ddl = .createTrigger o b text) : s.ddl.createsTrigger n k = true ∧ s.ddl.dropsTrigger n k = false := by
  rw [h]; exact ⟨decide_eq_true (p := o.owningTable.fq = n ∧ o.escapedName = k) e, rfl⟩

/-! ### the machine -/

theorem triggerStep_drop {o : Trigger} (e : o.owningTable.fq = n ∧ o.escapedName = k) (x : String) :
    triggerStep sc n k (.trigger x) (.dropTrigger o.escapedName o.owningTable) = some .noTrigger := if_pos e

theorem triggerStep_create {o : Trigger} (e : o.owningTable.fq = n ∧ o.escapedName = k) {b : Bool} {text : String} :
    triggerStep sc n k .noTrigger (.createTrigger o b text) = some (.trigger (withoutOrReplace text)) := if_pos e

theorem triggerStep_replace {o : Trigger} (e : o.owningTable.fq = n ∧ o.escapedName = k) {b : Bool} {x text : String}
    (h : saysOrReplace text = true ∧ saysConstraintTrigger x = false ∧ saysConstraintTrigger (withoutOrReplace text) = false) :
    triggerStep sc n k (.trigger x) (.createTrigger o b text) = some (.trigger (withoutOrReplace text)) :=
  (if_pos e).trans (if_pos h)

theorem triggerStep_dropTable {x : SQName} (e : x.fq = n) {s : TriggerSlot} (h : s ≠ .noRelation) :
    triggerStep sc n k s (.dropTable x) = some .noRelation := by
  cases s with
  | noRelation => exact absurd rfl h
  | noTrigger => exact if_pos e
  | trigger t => exact if_pos e

theorem triggerStep_createTable {x : SQName} (e : x.fq = n) {cols : List ColumnDef} {p : Option String} :
    triggerStep sc n k .noRelation (.createTable x cols p) = some .noTrigger := if_pos e

/-- a relation that stays -/
theorem trigger_kept {V : Type} {adds : GoMap String V} (hb : adds.has n = false) (fate : TriggerFate adds d old new n k stmts)
    (uo : NamesUnique old.triggers) (ux : NamesUnique new.triggers) (po : TriggersPlannable old n k)
    (px : TriggersPlannable new n k) (ro : n ∈ old.tables.map (·.name.fq) ∨ n ∈ old.views.map (·.name.fq))
    (rx : n ∈ new.tables.map (·.name.fq) ∨ n ∈ new.views.map (·.name.fq)) :
    runTrigger sc n k (triggerOf old n k) (stmts.filter fun s : Statement => s.ddl.onTrigger n k) = some (triggerOf new n k) := by
  cases fate with
  | absent ho hn hs => rw [hs, triggerOf_absent ro ho, triggerOf_absent rx hn]; rfl
  | dropped o ho e hn s hd hs =>
    rw [hs, triggerOf_some ro uo ho e, triggerOf_absent rx hn]
    exact (runTrigger_cons hd (triggerStep_drop e _)).trans rfl
  | added x hx e ho s hd hs =>
    rw [hs, triggerOf_absent ro ho, triggerOf_some rx ux hx e]
    refine (runTrigger_cons hd (triggerStep_create e)).trans ?_
    rw [withoutOrReplace_plain (px.plain x hx e.1 e.2)]; rfl
  | recreated o x ho hx eo ex hb' => exact absurd (hb.symm.trans hb') Bool.false_ne_true
  | same o ho hx e _ hs => rw [hs, triggerOf_some ro uo ho e, triggerOf_some rx ux hx e]; rfl
  | replaced o x _ ho hx eo ex _ hc text ht s hd hs =>
    rw [hs, triggerOf_some ro uo ho eo, triggerOf_some rx ux hx ex]
    obtain ⟨h1, h2⟩ := toCreateOrReplace_says ht
    refine (runTrigger_cons hd (triggerStep_replace ex ⟨h1, ?_, ?_⟩)).trans ?_
    · rw [po.constraint o ho eo.1 eo.2]; exact hc.1
    · rw [h2, px.constraint x hx ex.1 ex.2]; exact hc.2
    · rw [h2]; rfl
  | swapped o x _ ho hx eo ex _ s s' hd hd' hs =>
    rw [hs, triggerOf_some ro uo ho eo, triggerOf_some rx ux hx ex]
    refine (runTrigger_cons hd (triggerStep_drop eo _)).trans ((runTrigger_cons hd' (triggerStep_create ex)).trans ?_)
    rw [withoutOrReplace_plain (px.plain x hx ex.1 ex.2)]; rfl

theorem perm_one {l : List Statement} {P : Statement → Bool} {s : Statement} (h : l.Perm ([s].filter P)) (hs : P s = true) :
    l = [s] := List.perm_singleton.mp (h.trans (List.Perm.of_eq (filter_one hs)))

theorem perm_none {l : List Statement} {P : Statement → Bool} {s : Statement} (h : l.Perm ([s].filter P)) (hs : P s = false) :
    l = [] := List.perm_nil.mp (h.trans (List.Perm.of_eq (filter_none hs)))

set_option maxHeartbeats 1000000 in
theorem triggers_converge (dr : DiffRun opts old new d) (run : PlanRun opts d r r' stmts)
    (hn : (new.tables.map Obj.getName).Nodup) (ux : NamesUnique new.triggers)
    (hr : ∀ t ∈ sc.tables, t.name.fq = n → t.parentTable = none)
    (hro : ∀ t ∈ old.tables, t.name.fq = n → t.parentTable = none)
    (io : ∀ o ∈ old.triggers, Obj.getName o = triggerKey n k → o.owningTable.fq = n ∧ o.escapedName = k)
    (ix : ∀ o ∈ new.triggers, Obj.getName o = triggerKey n k → o.owningTable.fq = n ∧ o.escapedName = k)
    (po : TriggersPlannable old n k) (px : TriggersPlannable new n k) (hv : ViewLeftAlone old new n stmts) :
    runTrigger sc n k (triggerOf old n k) stmts = some (triggerOf new n k) := by
  have uo : NamesUnique old.triggers := diffLists_old_nodup dr.htriggers
  have hvs : ∀ s ∈ stmts, onView n s.ddl = false := by
    rcases hv with hv | ⟨_, _, _, hv⟩
    · exact views_left_alone dr run hv
    · exact hv
  have noView : n ∈ old.tables.map (·.name.fq) ∨ n ∈ new.tables.map (·.name.fq) →
      n ∉ old.views.map (·.name.fq) ∧ n ∉ new.views.map (·.name.fq) := by
    intro h
    rcases hv with hv | ⟨_, _, hv, _⟩
    · constructor
      · intro hm
        obtain ⟨v, hvm, e⟩ := List.mem_map.mp hm
        exact hv v (List.mem_append_left _ hvm) e
      · intro hm
        obtain ⟨v, hvm, e⟩ := List.mem_map.mp hm
        exact hv v (List.mem_append_right _ hvm) e
    · rcases h with h | h
      · obtain ⟨t, ht, e⟩ := List.mem_map.mp h
        exact absurd e (hv t (List.mem_append_left _ ht))
      · obtain ⟨t, ht, e⟩ := List.mem_map.mp h
        exact absurd e (hv t (List.mem_append_right _ ht))
  have fate := trigger_fate dr run ux io ix
  rw [runTrigger_filter hr hvs]
  have hasAdd : ∀ {t : Table}, packIf opts t ∈ d.tableDiffs.adds → t.name.fq = n → (byName dr.td0.adds).has n = true := by
    intro t hm e
    rw [byName_has, ← dr.addNames]
    refine List.mem_map.mpr ⟨_, hm, ?_⟩
    show (packIf opts t).name.fq = n
    rw [packIf_name]; exact e
  have notAltered : (byName dr.td0.adds).has n = true ∨ (∀ x ∈ new.triggers, ¬ (x.owningTable.fq = n ∧ x.escapedName = k)) →
      NotAltered d n k := by
    intro h td htd e
    obtain ⟨i, x, j, o, hx, ho, en, hb⟩ := diffLists_alters_mem dr.htriggers htd
    have hbb : td = ⟨o, x⟩ ∧ (byName dr.td0.adds).has x.owningTable.getName = false := by
      unfold buildTriggerDiff at hb
      split at hb
      · cases hb
      · rename_i hh; cases hb; exact ⟨rfl, eq_false_of_ne_true hh⟩
    obtain ⟨rfl, hno⟩ := hbb
    have ex := ix x (List.mem_of_getElem? hx) (en.symm.trans (by
      show o.owningTable.fq ++ "-" ++ o.escapedName = n ++ "-" ++ k
      have e : o.owningTable.fq = n ∧ o.escapedName = k := e
      rw [e.1, e.2]))
    rcases h with h | h
    · rw [← ex.1] at h
      exact Bool.false_ne_true (hno.symm.trans h)
    · exact h x (List.mem_of_getElem? hx) ex
  have inTables : ∀ {s : Schema} {t : Table}, t ∈ s.tables → t.name.fq = n → n ∈ s.tables.map (·.name.fq) := fun h e =>
    List.mem_map.mpr ⟨_, h, e⟩
  cases table_ops dr run hn n with
  | absent ho hx hc hd =>
    rw [about_trigger_kept hc hd]
    have hb : (byName dr.td0.adds).has n = false := by
      cases h : (byName dr.td0.adds).has n with
      | false => rfl
      | true =>
        rw [byName_has] at h
        obtain ⟨t, ht, e⟩ := List.mem_map.mp h
        exact absurd (List.mem_map.mpr ⟨t, diffLists_adds_mem dr.htd0 ht, e⟩) hx
    rcases hv with hv | ⟨⟨v, hvo, evo⟩, ⟨w, hwn, ewn⟩, _, _⟩
    · have h1 : n ∉ old.views.map (·.name.fq) := by
        intro hm
        obtain ⟨v, hvm, e⟩ := List.mem_map.mp hm
        exact hv v (List.mem_append_left _ hvm) e
      have h2 : n ∉ new.views.map (·.name.fq) := by
        intro hm
        obtain ⟨v, hvm, e⟩ := List.mem_map.mp hm
        exact hv v (List.mem_append_right _ hvm) e
      have h3 : ∀ o ∈ old.triggers, ¬ (o.owningTable.fq = n ∧ o.escapedName = k) := fun o hoo e =>
        (po.owner o hoo e.1 e.2).elim ho h1
      have h4 : ∀ o ∈ new.triggers, ¬ (o.owningTable.fq = n ∧ o.escapedName = k) := fun o hoo e =>
        (px.owner o hoo e.1 e.2).elim hx h2
      rw [triggerOf_none ho h1, triggerOf_none hx h2]
      cases fate with
      | absent _ _ hs => rw [hs]; rfl
      | dropped o hoo e => exact absurd e (h3 o hoo)
      | added x hxx e => exact absurd e (h4 x hxx)
      | recreated o x hoo _ e => exact absurd e (h3 o hoo)
      | same o hoo _ e => exact absurd e (h3 o hoo)
      | replaced o x _ hoo _ e => exact absurd e (h3 o hoo)
      | swapped o x _ hoo _ e => exact absurd e (h3 o hoo)
    · exact trigger_kept hb fate uo ux po px (Or.inr (List.mem_map.mpr ⟨v, hvo, evo⟩)) (Or.inr (List.mem_map.mpr ⟨w, hwn, ewn⟩))
  | altered o t ho ht eo e td hb hm hc hd =>
    rw [about_trigger_kept hc hd]
    refine trigger_kept ?_ fate uo ux po px (Or.inl (inTables ho eo)) (Or.inl (inTables ht e))
    cases h : (byName dr.td0.adds).has n with
    | false => rfl
    | true =>
      exfalso
      obtain ⟨_, _, _, _, k1, _, _⟩ := diffLists_decision (key := fun td : TableDiff => Obj.getName td.new) dr.htd0 hn
        (fun o x j i td _ hb => by rw [(buildTableDiff_ok hb).2.1]) n
      rw [byName_has] at h
      refine k1 h ?_
      have hm : orderIf opts td ∈ d.tableDiffs.alters := hm
      rw [dr.halters] at hm
      obtain ⟨td', htd', e'⟩ := List.mem_map.mp hm
      refine List.mem_map.mpr ⟨td', htd', ?_⟩
      obtain ⟨i, j, hb⟩ := hb
      show td'.new.name.fq = n
      rw [← orderIf_new opts td', e', orderIf_new, (buildTableDiff_ok hb).2.1]
      exact e
  | dropped o ho e hx hc hd =>
    obtain ⟨s2, e2, hd⟩ := hd (hro o ho e)
    have hro' := inTables ho e
    obtain ⟨v1, v2⟩ := noView (Or.inl hro')
    have noNew : ∀ x ∈ new.triggers, ¬ (x.owningTable.fq = n ∧ x.escapedName = k) := fun x hxx ex =>
      (px.owner x hxx ex.1 ex.2).elim hx v2
    rw [triggerOf_none hx v2]
    have noCreate : stmts.filter (fun s : Statement => s.ddl.createsTrigger n k) = [] ∧
        runTrigger sc n k (triggerOf old n k) (stmts.filter (fun s : Statement => s.ddl.dropsTrigger n k) ++ [s2]) =
          some .noRelation := by
      cases fate with
      | absent h1 _ hs =>
        obtain ⟨p1, p2⟩ := trigger_parts (List.Perm.of_eq hs)
        rw [List.perm_nil.mp p1, triggerOf_absent (Or.inl hro') h1]
        exact ⟨List.perm_nil.mp p2, (runTrigger_cons e2 (triggerStep_dropTable e (by simp))).trans rfl⟩
      | dropped o' ho' e' _ s1 e1 hs =>
        obtain ⟨p1, p2⟩ := trigger_parts (List.Perm.of_eq hs)
        obtain ⟨q1, q2⟩ := dropsTrigger_of e' e1
        rw [perm_one p1 q1, triggerOf_some (Or.inl hro') uo ho' e']
        exact ⟨perm_none p2 q2, (runTrigger_cons e1 (triggerStep_drop e' _)).trans
          ((runTrigger_cons e2 (triggerStep_dropTable e (by simp))).trans rfl)⟩
      | added x hxx ex => exact absurd ex (noNew x hxx)
      | recreated _ x _ hxx _ ex => exact absurd ex (noNew x hxx)
      | same x _ hxx ex => exact absurd ex (noNew x hxx)
      | replaced _ x _ _ hxx _ ex => exact absurd ex (noNew x hxx)
      | swapped _ x _ _ hxx _ ex => exact absurd ex (noNew x hxx)
    rw [about_trigger_four (trigger_table_before run (notAltered (Or.inr noNew))) (allBefore_nil_right hc)
      (allBefore_nil_right noCreate.1) (allBefore_nil_right hc) (allBefore_nil_right noCreate.1) (allBefore_nil_right noCreate.1),
      hd, hc, noCreate.1]
    exact noCreate.2
  | added t ht e ho hm hc hd =>
    obtain ⟨s3, cols, p, e3, hc⟩ := hc
    have hrx := inTables ht e
    obtain ⟨v1, v2⟩ := noView (Or.inr hrx)
    have noOld : ∀ x ∈ old.triggers, ¬ (x.owningTable.fq = n ∧ x.escapedName = k) := fun x hxx ex =>
      (po.owner x hxx ex.1 ex.2).elim ho v1
    rw [triggerOf_none ho v1]
    have noDrop : stmts.filter (fun s : Statement => s.ddl.dropsTrigger n k) = [] ∧
        runTrigger sc n k .noRelation ([s3] ++ stmts.filter (fun s : Statement => s.ddl.createsTrigger n k)) =
          some (triggerOf new n k) := by
      cases fate with
      | absent _ h1 hs =>
        obtain ⟨p1, p2⟩ := trigger_parts (List.Perm.of_eq hs)
        rw [List.perm_nil.mp p2, triggerOf_absent (Or.inl hrx) h1]
        exact ⟨List.perm_nil.mp p1, (runTrigger_cons e3 (triggerStep_createTable e)).trans rfl⟩
      | added x hx' e' _ s1 e1 hs =>
        obtain ⟨p1, p2⟩ := trigger_parts (List.Perm.of_eq hs)
        obtain ⟨q1, q2⟩ := createsTrigger_of e' e1
        rw [perm_one p2 q1, triggerOf_some (Or.inl hrx) ux hx' e']
        refine ⟨perm_none p1 q2, (runTrigger_cons e3 (triggerStep_createTable e)).trans
          ((runTrigger_cons e1 (triggerStep_create e')).trans ?_)⟩
        rw [withoutOrReplace_plain (px.plain x hx' e'.1 e'.2)]; rfl
      | dropped x hxx ex => exact absurd ex (noOld x hxx)
      | recreated x _ hxx _ ex => exact absurd ex (noOld x hxx)
      | same x hxx _ ex => exact absurd ex (noOld x hxx)
      | replaced x _ _ hxx _ ex => exact absurd ex (noOld x hxx)
      | swapped x _ _ hxx _ ex => exact absurd ex (noOld x hxx)
    rw [about_trigger_four (allBefore_nil_left noDrop.1) (allBefore_nil_left noDrop.1) (allBefore_nil_left noDrop.1)
      (allBefore_nil_left hd) (allBefore_nil_left hd) (table_trigger_before run), hd, hc, noDrop.1]
    exact noDrop.2
  | recreated o t ho ht eo e hm hc hd hbefore =>
    obtain ⟨s2, e2, hd⟩ := hd (hro o ho eo)
    obtain ⟨s3, cols, p, e3, hc⟩ := hc
    have hb := hasAdd hm e
    have na := notAltered (Or.inl hb)
    obtain ⟨b1, b2, b3⟩ := trigger_rebuild_before run dr hn ht e na
    have ro : n ∈ old.tables.map (·.name.fq) ∨ n ∈ old.views.map (·.name.fq) := Or.inl (inTables ho eo)
    have rx : n ∈ new.tables.map (·.name.fq) ∨ n ∈ new.views.map (·.name.fq) := Or.inl (inTables ht e)
    rw [about_trigger_four (trigger_table_before run na) b1 b2 hbefore b3 (table_trigger_before run), hd, hc]
    cases fate with
    | absent h1 h2 hs =>
      obtain ⟨p1, p2⟩ := trigger_parts (List.Perm.of_eq hs)
      rw [List.perm_nil.mp p1, List.perm_nil.mp p2, triggerOf_absent ro h1, triggerOf_absent rx h2]
      exact (runTrigger_cons e2 (triggerStep_dropTable eo (by simp))).trans
        ((runTrigger_cons e3 (triggerStep_createTable e)).trans rfl)
    | dropped o' ho' e' h2 s1 e1 hs =>
      obtain ⟨p1, p2⟩ := trigger_parts (List.Perm.of_eq hs)
      obtain ⟨q1, q2⟩ := dropsTrigger_of e' e1
      rw [perm_one p1 q1, perm_none p2 q2, triggerOf_some ro uo ho' e', triggerOf_absent rx h2]
      exact (runTrigger_cons e1 (triggerStep_drop e' _)).trans ((runTrigger_cons e2 (triggerStep_dropTable eo (by simp))).trans
        ((runTrigger_cons e3 (triggerStep_createTable e)).trans rfl))
    | added x hx' e' h1 s1 e1 hs =>
      obtain ⟨p1, p2⟩ := trigger_parts (List.Perm.of_eq hs)
      obtain ⟨q1, q2⟩ := createsTrigger_of e' e1
      rw [perm_one p2 q1, perm_none p1 q2, triggerOf_absent ro h1, triggerOf_some rx ux hx' e']
      refine (runTrigger_cons e2 (triggerStep_dropTable eo (by simp))).trans
        ((runTrigger_cons e3 (triggerStep_createTable e)).trans ((runTrigger_cons e1 (triggerStep_create e')).trans ?_))
      rw [withoutOrReplace_plain (px.plain x hx' e'.1 e'.2)]; rfl
    | recreated o' x ho' hx' eo' ex' _ _ _ s1 s4 e1 e4 hs =>
      obtain ⟨p1, p2⟩ := trigger_parts hs
      obtain ⟨q1, q2⟩ := dropsTrigger_of eo' e1
      obtain ⟨q3, q4⟩ := createsTrigger_of ex' e4
      have f1 : [s1, s4].filter (fun s : Statement => s.ddl.dropsTrigger n k) = [s1] := by
        rw [List.filter_cons, if_pos q1]
        exact congrArg _ (filter_none (P := fun s : Statement => s.ddl.dropsTrigger n k) (s := s4) q4)
      have f2 : [s1, s4].filter (fun s : Statement => s.ddl.createsTrigger n k) = [s4] := by
        rw [List.filter_cons, if_neg (fun h => Bool.false_ne_true (q2.symm.trans h))]
        exact filter_one (P := fun s : Statement => s.ddl.createsTrigger n k) (s := s4) q3
      rw [List.perm_singleton.mp (p1.trans (List.Perm.of_eq f1)), List.perm_singleton.mp (p2.trans (List.Perm.of_eq f2)),
        triggerOf_some ro uo ho' eo', triggerOf_some rx ux hx' ex']
      refine (runTrigger_cons e1 (triggerStep_drop eo' _)).trans ((runTrigger_cons e2 (triggerStep_dropTable eo (by simp))).trans
        ((runTrigger_cons e3 (triggerStep_createTable e)).trans ((runTrigger_cons e4 (triggerStep_create ex')).trans ?_)))
      rw [withoutOrReplace_plain (px.plain x hx' ex'.1 ex'.2)]; rfl
    | same _ _ _ _ hb' => exact absurd (hb'.symm.trans hb) Bool.false_ne_true
    | replaced _ _ _ _ _ _ _ hb' => exact absurd (hb'.symm.trans hb) Bool.false_ne_true
    | swapped _ _ _ _ _ _ _ hb' => exact absurd (hb'.symm.trans hb) Bool.false_ne_true

/-! ### normalized schemas -/

theorem mem_normalize_triggers {s : Schema} {x : Trigger} : x ∈ s.normalize.triggers ↔ x ∈ s.triggers :=
  (sortObjs_perm s.triggers).mem_iff

theorem normalize_table_names_iff {s : Schema} : n ∈ s.normalize.tables.map (·.name.fq) ↔ n ∈ s.tables.map (·.name.fq) :=
  (normalize_tables_names s).mem_iff

theorem normalize_view_names_iff {s : Schema} : n ∈ s.normalize.views.map (·.name.fq) ↔ n ∈ s.views.map (·.name.fq) :=
  (normalize_views_names s).mem_iff

theorem normalize_relations {s : Schema} :
    (n ∈ s.normalize.tables.map (·.name.fq) ∨ n ∈ s.normalize.views.map (·.name.fq)) ↔
    (n ∈ s.tables.map (·.name.fq) ∨ n ∈ s.views.map (·.name.fq)) :=
  or_congr normalize_table_names_iff normalize_view_names_iff

theorem triggerOf_normalize {s : Schema} (hu : NamesUnique s.triggers) : triggerOf s.normalize n k = triggerOf s n k := by
  by_cases hr : n ∈ s.tables.map (·.name.fq) ∨ n ∈ s.views.map (·.name.fq)
  · have hr' := normalize_relations.mpr hr
    by_cases hx : ∃ x ∈ s.triggers, x.owningTable.fq = n ∧ x.escapedName = k
    · obtain ⟨x, hx, e⟩ := hx
      rw [triggerOf_some hr hu hx e, triggerOf_some hr' (namesUnique_sort hu) (mem_normalize_triggers.mpr hx) e]
    · rw [triggerOf_absent hr fun x h e => hx ⟨x, h, e⟩,
        triggerOf_absent hr' fun x h e => hx ⟨x, mem_normalize_triggers.mp h, e⟩]
  · unfold triggerOf
    rw [if_neg hr, if_neg fun h => hr (normalize_relations.mp h)]

theorem triggersPlannable_normalize {s : Schema} (h : TriggersPlannable s n k) : TriggersPlannable s.normalize n k where
  quoted x hx := h.quoted x (mem_normalize_triggers.mp hx)
  owner x hx e1 e2 := normalize_relations.mpr (h.owner x (mem_normalize_triggers.mp hx) e1 e2)
  plain x hx := h.plain x (mem_normalize_triggers.mp hx)
  constraint x hx := h.constraint x (mem_normalize_triggers.mp hx)

theorem viewLeftAlone_normalize (h : ViewLeftAlone old new n stmts) : ViewLeftAlone old.normalize new.normalize n stmts := by
  have views : ∀ {s : Schema}, (∃ v ∈ s.normalize.views, v.name.fq = n) ↔ ∃ v ∈ s.views, v.name.fq = n := fun {s} => by
    have := normalize_view_names_iff (n := n) (s := s)
    simpa only [List.mem_map] using this
  have tables : ∀ {s : Schema}, (∃ v ∈ s.normalize.tables, v.name.fq = n) ↔ ∃ v ∈ s.tables, v.name.fq = n := fun {s} => by
    have := normalize_table_names_iff (n := n) (s := s)
    simpa only [List.mem_map] using this
  rcases h with h | ⟨h1, h2, h3, h4⟩
  · refine Or.inl fun v hv e => ?_
    rcases List.mem_append.mp hv with hv | hv
    · obtain ⟨w, hw, e⟩ := views.mp ⟨v, hv, e⟩
      exact h w (List.mem_append_left _ hw) e
    · obtain ⟨w, hw, e⟩ := views.mp ⟨v, hv, e⟩
      exact h w (List.mem_append_right _ hw) e
  · refine Or.inr ⟨views.mpr h1, views.mpr h2, fun v hv e => ?_, h4⟩
    rcases List.mem_append.mp hv with hv | hv
    · obtain ⟨w, hw, e⟩ := tables.mp ⟨v, hv, e⟩
      exact h3 w (List.mem_append_left _ hw) e
    · obtain ⟨w, hw, e⟩ := tables.mp ⟨v, hv, e⟩
      exact h3 w (List.mem_append_right _ hw) e

end

section
variable {opts : PlanOptions} {old new : Schema} {r r' : Rand} {stmts : List Statement}

/-- **C74**: every statement of a plan about a trigger, and about the relation it is on, is accepted, and in the end the relation
has the trigger of the target.  Missing: triggers on views which the plan recreates, and triggers on partitions. -/
theorem C74_triggers_converge_partial (h : generateMigrationStatements r old new opts = .ok (stmts, r'))
    (hn : NamesUnique new.tables) (hu : NamesUnique new.triggers) {n : SQName} {k : String} (hq : Quoted n) (hk : nameOk k = true)
    (hr : ∀ t ∈ old.tables, t.name.fq = n.fq → t.parentTable = none)
    (po : TriggersPlannable old n.fq (escapeIdentifier k)) (px : TriggersPlannable new n.fq (escapeIdentifier k))
    (hv : ViewLeftAlone old new n.fq stmts) :
    runTrigger old n.fq (escapeIdentifier k) (triggerOf old n.fq (escapeIdentifier k)) stmts =
      some (triggerOf new n.fq (escapeIdentifier k)) := by
  obtain ⟨d, ⟨dr⟩, ⟨run⟩⟩ := plan_runs h
  have uo : NamesUnique old.triggers := by
    have : NamesUnique old.normalize.triggers := diffLists_old_nodup dr.htriggers
    exact ((sortObjs_perm old.triggers).map _).nodup_iff.mp this
  rw [← triggerOf_normalize uo, ← triggerOf_normalize hu]
  refine triggers_converge dr run (normalize_tables_nodup hn) (namesUnique_sort hu) hr ?_ ?_ ?_
    (triggersPlannable_normalize po) (triggersPlannable_normalize px) (viewLeftAlone_normalize hv)
  · intro t ht e
    obtain ⟨t0, ht0, rfl⟩ := mem_normalize_tables ht
    exact hr t0 ht0 e
  · intro o ho e
    exact (trigger_name (po.quoted o (mem_normalize_triggers.mp ho)) hq hk).mp e
  · intro o ho e
    exact (trigger_name (px.quoted o (mem_normalize_triggers.mp ho)) hq hk).mp e

/-! ### triggers that get lost -/

theorem triggerStep_no_trigger {sc : Schema} {n k : String} {x : Ddl} (h : x.createsTrigger n k = false) {s s' : TriggerSlot}
    (hs : ∀ d, s ≠ .trigger d) (e : triggerStep sc n k s x = some s') : ∀ d, s' ≠ .trigger d := by
  have keep : ∀ {c : Prop} [Decidable c] {a : Option TriggerSlot}, (∀ t, a = some t → ∀ d, t ≠ .trigger d) →
      (if c then a else some s) = some s' → ∀ d, s' ≠ .trigger d := by
    intro c _ a ha e
    split at e
    · exact ha _ e
    · cases e; exact hs
  cases x with
  | createTable y _ _ =>
    refine keep (fun t ht => ?_) e
    cases s with
    | noRelation => cases ht; simp
    | noTrigger => cases ht
    | trigger t => cases ht
  | createView v =>
    refine keep (fun t ht => ?_) e
    cases s with
    | noRelation => cases ht; simp
    | noTrigger => cases ht
    | trigger t => cases ht
  | dropTable y =>
    cases s with
    | noRelation =>
      have e : (if y.fq = n then none else if y.fq ∈ ancestors sc sc.tables.length n then some .noRelation
        else some .noRelation) = some s' := e
      split at e
      · cases e
      · exact keep (fun t ht => by cases ht; simp) e
    | noTrigger =>
      have e : (if y.fq = n then some .noRelation else if y.fq ∈ ancestors sc sc.tables.length n then some .noRelation
        else some .noTrigger) = some s' := e
      split at e
      · cases e; simp
      · exact keep (fun t ht => by cases ht; simp) e
    | trigger t => exact absurd rfl (hs t)
  | dropView v =>
    refine keep (fun t ht => ?_) e
    cases s with
    | noRelation => cases ht
    | noTrigger => cases ht; simp
    | trigger t => cases ht; simp
  | createTrigger t b text =>
    have hne := of_decide_eq_false (p := t.owningTable.fq = n ∧ t.escapedName = k) h
    have e' : triggerStep sc n k s (.createTrigger t b text) = some s := if_neg hne
    rw [e'] at e
    cases e; exact hs
  | dropTrigger y t =>
    refine keep (fun t ht => ?_) e
    cases s with
    | noRelation => cases ht
    | noTrigger => cases ht
    | trigger t => cases ht; simp
  | _ => cases e; exact hs

theorem runTrigger_no_trigger {sc : Schema} {n k : String} {l : List Statement}
    (h : ∀ x ∈ l, x.ddl.createsTrigger n k = false) {s s' : TriggerSlot}
    (hs : ∀ d, s ≠ .trigger d) (e : runTrigger sc n k s l = some s') : ∀ d, s' ≠ .trigger d := by
  induction l generalizing s with
  | nil => cases e; exact hs
  | cons x l ih =>
    have e : (triggerStep sc n k s x.ddl).bind (fun t => runTrigger sc n k t l) = some s' := e
    obtain ⟨t, h1, h2⟩ := Option.bind_eq_some_iff.mp e
    exact ih (fun y hy => h y (List.mem_cons_of_mem _ hy)) (triggerStep_no_trigger (h x List.mem_cons_self) hs h1) h2

/-- A trigger on a view does not survive if the plan drops and recreates the view: nothing creates it again. -/
theorem C74_trigger_on_recreated_view_violated (h : generateMigrationStatements r old new opts = .ok (stmts, r'))
    (hu : NamesUnique new.triggers) {n : SQName} {k : String} (hq : Quoted n) (hk : nameOk k = true)
    (po : TriggersPlannable old n.fq (escapeIdentifier k)) (px : TriggersPlannable new n.fq (escapeIdentifier k))
    (ht : ∀ t ∈ new.tables, t.name.fq ≠ n.fq) {x : Trigger} (ho : x ∈ old.triggers) (hx : x ∈ new.triggers)
    (e : x.owningTable.fq = n.fq ∧ x.escapedName = escapeIdentifier k) {s : Statement} (hs : s ∈ stmts) (hd : s.ddl = .dropView n) :
    triggerOf new n.fq (escapeIdentifier k) = .trigger x.getTriggerDefStmt ∧
    runTrigger old n.fq (escapeIdentifier k) (triggerOf old n.fq (escapeIdentifier k)) stmts ≠
      some (triggerOf new n.fq (escapeIdentifier k)) := by
  obtain ⟨d, ⟨dr⟩, ⟨run⟩⟩ := plan_runs h
  have uo : NamesUnique old.normalize.triggers := diffLists_old_nodup dr.htriggers
  have ux : NamesUnique new.normalize.triggers := namesUnique_sort hu
  have target := triggerOf_some (px.owner x hx e.1 e.2) hu hx e
  refine ⟨target, fun hrun => ?_⟩
  have key : ∀ {y : Trigger}, y.owningTable.fq = n.fq ∧ y.escapedName = escapeIdentifier k → Obj.getName y = Obj.getName x := by
    intro y ey
    show y.owningTable.fq ++ "-" ++ y.escapedName = x.owningTable.fq ++ "-" ++ x.escapedName
    rw [ey.1, ey.2, e.1, e.2]
  have ho' := mem_normalize_triggers.mpr ho
  have hx' := mem_normalize_triggers.mpr hx
  have none : stmts.filter (fun s : Statement => s.ddl.onTrigger n.fq (escapeIdentifier k)) = [] := by
    cases trigger_fate dr run ux
      (fun o ho e => (trigger_name (po.quoted o (mem_normalize_triggers.mp ho)) hq hk).mp e)
      (fun o ho e => (trigger_name (px.quoted o (mem_normalize_triggers.mp ho)) hq hk).mp e) with
    | absent _ _ hs => exact hs
    | dropped _ _ _ hn => exact absurd e (hn x hx')
    | added _ _ _ hn => exact absurd e (hn x ho')
    | recreated _ _ _ _ _ _ hb =>
      rw [byName_has] at hb
      obtain ⟨t, htm, et⟩ := List.mem_map.mp hb
      obtain ⟨t0, ht0, rfl⟩ := mem_normalize_tables (diffLists_adds_mem dr.htd0 htm)
      exact absurd et (ht t0 ht0)
    | same _ _ _ _ _ hs => exact hs
    | replaced y z hne hy hz ey ez =>
      exact absurd ((List.inj_on_of_nodup_map uo hy ho' (key ey)).trans (List.inj_on_of_nodup_map ux hz hx' (key ez)).symm) hne
    | swapped y z hne hy hz ey ez =>
      exact absurd ((List.inj_on_of_nodup_map uo hy ho' (key ey)).trans (List.inj_on_of_nodup_map ux hz hx' (key ez)).symm) hne
  have quiet : ∀ y ∈ stmts, y.ddl.createsTrigger n.fq (escapeIdentifier k) = false := fun y hy =>
    (Bool.or_eq_false_iff.mp (filter_nil_false none y hy)).1
  obtain ⟨a, b, rfl⟩ := List.append_of_mem hs
  rw [target] at hrun
  unfold runTrigger at hrun
  rw [runWith_append] at hrun
  obtain ⟨t, h1, h2⟩ := Option.bind_eq_some_iff.mp hrun
  have h2 : (triggerStep old n.fq (escapeIdentifier k) t s.ddl).bind (fun t => runTrigger old n.fq (escapeIdentifier k) t b) =
    some (.trigger x.getTriggerDefStmt) := h2
  rw [hd] at h2
  obtain ⟨t', h3, h4⟩ := Option.bind_eq_some_iff.mp h2
  have : t' = .noRelation := by
    cases t with
    | noRelation => exact absurd (h3.symm.trans (if_pos rfl)) (by simp)
    | noTrigger => exact Option.some.inj (h3.symm.trans (if_pos rfl))
    | trigger _ => exact Option.some.inj (h3.symm.trans (if_pos rfl))
  subst this
  exact runTrigger_no_trigger (fun y hy => quiet y (by simp [hy])) (by simp) h4 _ rfl

end

namespace Samples

/-- a trigger -/
def trigger (n t d : String) (c : Bool := false) : Trigger := ⟨escapeIdentifier n, pub t, ⟨"public", "f()"⟩, d, c⟩

/-- what can be decided about the triggers of a schema -/
def triggerChecked (s : Schema) (n k : String) (x : Trigger) : Prop :=
  x.owningTable.fq = n → x.escapedName = k →
    (n ∈ s.tables.map (·.name.fq) ∨ n ∈ s.views.map (·.name.fq)) ∧ saysOrReplace x.getTriggerDefStmt = false ∧
    saysConstraintTrigger x.getTriggerDefStmt = x.isConstraint

instance (s : Schema) (n k : String) (x : Trigger) : Decidable (triggerChecked s n k x) := by
  unfold triggerChecked; infer_instance

theorem triggersPlannable_of {s : Schema} {n k : String} (hq : ∀ x ∈ s.triggers, ∃ n t d c, nameOk n = true ∧ nameOk t = true ∧
      x = trigger n t d c) (h : ∀ x ∈ s.triggers, triggerChecked s n k x) : TriggersPlannable s n k where
  quoted x hx := by
    obtain ⟨n, t, d, c, h1, h2, rfl⟩ := hq x hx
    exact ⟨quoted_pub h2, n, h1, rfl⟩
  owner x hx e1 e2 := (h x hx e1 e2).1
  plain x hx e1 e2 := (h x hx e1 e2).2.1
  constraint x hx e1 e2 := (h x hx e1 e2).2.2

/-- a table with a trigger and a constraint trigger; a partitioned table and a view with triggers -/
def oldTriggers : Schema := { Schema.empty with
  tables := [table "t" [col "a" "integer", col "b" "integer"], parent "p" [col "a" "integer"] "LIST (a)"]
  views := [view "v" "t" ["a"]]
  triggers := [trigger "x" "t" "CREATE TRIGGER x BEFORE INSERT ON public.t EXECUTE FUNCTION public.f()",
    trigger "y" "t" "CREATE CONSTRAINT TRIGGER y AFTER INSERT ON public.t EXECUTE FUNCTION public.f()" true,
    trigger "z" "p" "CREATE TRIGGER z BEFORE INSERT ON public.p EXECUTE FUNCTION public.f()",
    trigger "w" "v" "CREATE TRIGGER w INSTEAD OF INSERT ON public.v EXECUTE FUNCTION public.f()"] }

/-- the triggers of the table change, the second table is made anew, and so is the view -/
def newTriggers : Schema := { Schema.empty with
  tables := [table "t" [col "a" "integer", col "b" "integer"], table "p" [col "a" "integer"]]
  views := [view "v" "t" ["a", "b"]]
  triggers := [trigger "x" "t" "CREATE TRIGGER x BEFORE UPDATE ON public.t EXECUTE FUNCTION public.f()",
    trigger "y" "t" "CREATE CONSTRAINT TRIGGER y AFTER UPDATE ON public.t EXECUTE FUNCTION public.f()" true,
    trigger "z" "p" "CREATE TRIGGER z BEFORE INSERT ON public.p EXECUTE FUNCTION public.f()",
    trigger "w" "v" "CREATE TRIGGER w INSTEAD OF INSERT ON public.v EXECUTE FUNCTION public.f()"] }

theorem plannable_triggers {s : Schema} (hs : s = oldTriggers ∨ s = newTriggers) {n k : String}
    (h : ∀ x ∈ s.triggers, triggerChecked s n k x) : TriggersPlannable s n k := by
  refine triggersPlannable_of (fun x hx => ?_) h
  rcases hs with rfl | rfl
  · simp only [oldTriggers, List.mem_cons, List.not_mem_nil, or_false] at hx
    rcases hx with rfl | rfl | rfl | rfl <;> exact ⟨_, _, _, _, by decide, by decide, rfl⟩
  · simp only [newTriggers, List.mem_cons, List.not_mem_nil, or_false] at hx
    rcases hx with rfl | rfl | rfl | rfl <;> exact ⟨_, _, _, _, by decide, by decide, rfl⟩

end Samples

/-- the changed trigger, the changed constraint trigger and the trigger of the recreated table converge -/
example : ∃ stmts r', generateMigrationStatements Samples.rand Samples.oldTriggers Samples.newTriggers Samples.opts =
      .ok (stmts, r') ∧ 6 ≤ stmts.length ∧
    ∀ p ∈ [("t", "x"), ("t", "y"), ("p", "z")],
      runTrigger Samples.oldTriggers (Samples.pub p.1).fq (escapeIdentifier p.2)
          (triggerOf Samples.oldTriggers (Samples.pub p.1).fq (escapeIdentifier p.2)) stmts =
        some (triggerOf Samples.newTriggers (Samples.pub p.1).fq (escapeIdentifier p.2)) := by
  obtain ⟨stmts, r', h, hl⟩ := Samples.exists_plan (r := Samples.rand) (old := Samples.oldTriggers)
    (new := Samples.newTriggers) (opts := Samples.opts) (P := fun stmts => 6 ≤ stmts.length) (by decide +kernel)
  refine ⟨stmts, r', h, hl, fun p hp => ?_⟩
  have names : nameOk p.1 = true ∧ nameOk p.2 = true := by
    revert p; decide
  refine C74_triggers_converge_partial h (by unfold NamesUnique; decide +kernel) (by unfold NamesUnique; decide +kernel)
    (Samples.quoted_pub names.1) names.2 ?_ (Samples.plannable_triggers (Or.inl rfl) ?_) (Samples.plannable_triggers (Or.inr rfl) ?_)
    (Or.inl ?_)
  · clear names; revert p; decide +kernel
  · clear names; revert p; decide +kernel
  · clear names; revert p; decide +kernel
  · clear names; revert p; decide +kernel

/-- the trigger of the recreated view gets lost -/
example : ∃ stmts r', generateMigrationStatements Samples.rand Samples.oldTriggers Samples.newTriggers Samples.opts =
      .ok (stmts, r') ∧
    runTrigger Samples.oldTriggers (Samples.pub "v").fq (escapeIdentifier "w")
        (triggerOf Samples.oldTriggers (Samples.pub "v").fq (escapeIdentifier "w")) stmts ≠
      some (triggerOf Samples.newTriggers (Samples.pub "v").fq (escapeIdentifier "w")) := by
  obtain ⟨stmts, r', h, hd⟩ := Samples.exists_plan (r := Samples.rand) (old := Samples.oldTriggers)
    (new := Samples.newTriggers) (opts := Samples.opts)
    (P := fun stmts => ∃ s ∈ stmts, Statement.ddl s = .dropView (Samples.pub "v")) (by decide +kernel)
  obtain ⟨s, hs, hd⟩ := hd
  exact ⟨stmts, r', h, (C74_trigger_on_recreated_view_violated h (by unfold NamesUnique; decide +kernel)
    (Samples.quoted_pub (by decide)) (by decide) (Samples.plannable_triggers (Or.inl rfl) (by decide +kernel))
    (Samples.plannable_triggers (Or.inr rfl) (by decide +kernel)) (by decide +kernel)
    (x := Samples.trigger "w" "v" "CREATE TRIGGER w INSTEAD OF INSERT ON public.v EXECUTE FUNCTION public.f()")
    (by decide +kernel) (by decide +kernel) ⟨rfl, rfl⟩ hs hd).2⟩

/-- A trigger on a partition that goes with its partitioned table: the table is dropped first, and with it the partition and the
trigger; `DROP TRIGGER` then fails. -/
theorem C74_trigger_on_dropped_partition_violated : ∃ stmts r', generateMigrationStatements Samples.rand
      { Schema.empty with
        tables := [Samples.parent "p" [Samples.col "a" "integer"] "LIST (a)",
          Samples.partition "q" "p" [Samples.col "a" "integer"] "FOR VALUES IN (1)"]
        triggers := [Samples.trigger "x" "q" "CREATE TRIGGER x BEFORE INSERT ON public.q EXECUTE FUNCTION public.f()"] }
      Schema.empty Samples.opts = .ok (stmts, r') ∧
    runTrigger { Schema.empty with
        tables := [Samples.parent "p" [Samples.col "a" "integer"] "LIST (a)",
          Samples.partition "q" "p" [Samples.col "a" "integer"] "FOR VALUES IN (1)"]
        triggers := [Samples.trigger "x" "q" "CREATE TRIGGER x BEFORE INSERT ON public.q EXECUTE FUNCTION public.f()"] }
      (Samples.pub "q").fq (escapeIdentifier "x")
      (.trigger "CREATE TRIGGER x BEFORE INSERT ON public.q EXECUTE FUNCTION public.f()") stmts = none :=
  Samples.exists_plan (P := fun stmts => runTrigger _ (Samples.pub "q").fq (escapeIdentifier "x")
    (.trigger "CREATE TRIGGER x BEFORE INSERT ON public.q EXECUTE FUNCTION public.f()") stmts = none) (by decide +kernel)

end Verif
