import Verif.Props.AttachTouched
import Verif.Props.PartCheck
import Verif.Props.SelfDiff

/-!
# C53: what makes planning fail by being there
-/

namespace Verif

open Spec

section
variable {opts : PlanOptions} {old new : Schema} {r r' : Rand} {stmts : List Statement}

/-- **C53 is violated** by every partition that stays and has a check constraint, a policy or a privilege of its own, before or after:
whatever else there is in the schemas, and whether or not anything changes, planning fails. -/
theorem C53_partition_pieces_violated (ht : NamesUnique new.tables) {o x : Table} (ho : o ∈ old.tables) (hx : x ∈ new.tables)
    (e : o.name.fq = x.name.fq) (hp : o.isPartitioned = x.isPartitioned) (hq : o.parentTable = x.parentTable)
    (hpar : x.parentTable ≠ none)
    (hh : ¬ (o.checkConstraints = [] ∧ o.policies = [] ∧ o.privileges = [] ∧ x.checkConstraints = [] ∧ x.policies = [] ∧
      x.privileges = [])) : ¬ ∃ stmts r', generateMigrationStatements r old new opts = .ok (stmts, r') := by
  rintro ⟨stmts, r', h⟩
  apply hh
  obtain ⟨d, ⟨dr⟩, ⟨run⟩⟩ := plan_runs h
  have hN := normalize_tables_nodup ht
  rcases plan_table dr run hN (mem_normalize_tables_of hx) with ⟨hm, _⟩ | ⟨td, htd, e1, e2, e3, l, hl, hf⟩
  · refine absurd ?_ (stays_not_added dr ht ho hx e hp hq hm)
    exact congrArg SQName.fq (packIf_name opts (normalizeTable x))
  obtain ⟨td0, i, j, rfl, hb⟩ := stays_diff dr ht ho hx e htd (by rw [e1]; rfl)
  obtain ⟨⟨c1, c2⟩, ⟨p1, p2⟩, q1, q2⟩ := part_bare hb hl (Option.isSome_iff_ne_none.mpr hpar)
  have nil : ∀ {S : Type} [Obj S] {l : List S}, sortObjs l = [] → l = [] := fun {S} _ {l} h => by
    have := sortObjs_perm l
    rw [h] at this
    exact this.nil_eq.symm
  have nilm : ∀ {S T : Type} [Obj S] {l : List S} {f : S → T}, (sortObjs l).map f = [] → l = [] := fun {S T} _ {l f} h =>
    nil (List.map_eq_nil_iff.mp h)
  exact ⟨nilm c1, nilm p1, nil q1, nilm c2, nilm p2, nil q2⟩

/-- **C53 is violated** by every check constraint that calls a function, on a table that stays: whatever else there is in the schemas,
and whether or not the constraint changes, planning fails. -/
theorem C53_check_functions_violated (ht : NamesUnique new.tables) {o x : Table} (ho : o ∈ old.tables) (hx : x ∈ new.tables)
    (e : o.name.fq = x.name.fq) (hp : o.isPartitioned = x.isPartitioned) (hq : o.parentTable = x.parentTable)
    (hu : NamesUnique x.checkConstraints) {c : CheckConstraint} (hc : c ∈ o.checkConstraints ∨ c ∈ x.checkConstraints)
    (hd : c.dependsOnFunctions ≠ []) : ¬ ∃ stmts r', generateMigrationStatements r old new opts = .ok (stmts, r') := by
  by_cases hpar : x.parentTable = none
  swap
  · refine C53_partition_pieces_violated ht ho hx e hp hq hpar ?_
    rintro ⟨h1, _, _, h2, _⟩
    rw [h1, h2] at hc
    rcases hc with hc | hc <;> cases hc
  rintro ⟨stmts, r', h⟩
  obtain ⟨d, ⟨dr⟩, ⟨run⟩⟩ := plan_runs h
  have hN := normalize_tables_nodup ht
  rcases plan_table dr run hN (mem_normalize_tables_of hx) with ⟨hm, _⟩ | ⟨td, htd, e1, e2, e3, l, hl, hf⟩
  · refine absurd ?_ (stays_not_added dr ht ho hx e hp hq hm)
    exact congrArg SQName.fq (packIf_name opts (normalizeTable x))
  obtain ⟨td0, i, j, rfl, hb⟩ := stays_diff dr ht ho hx e htd (by rw [e1]; rfl)
  obtain ⟨trun⟩ := table_run hl
  have hpart : (orderIf opts td0).new.isPartition = false := by
    rw [e1]
    show x.parentTable.isSome = false
    rw [hpar]; rfl
  obtain ⟨base⟩ := base_run (trun.hbase hpart)
  have hg := base.hchecks
  obtain ⟨_, _, _, _, _, _, b1, _⟩ := buildTableDiff_ok hb
  rw [orderIf_checks] at hg
  have adds : ∀ k ∈ td0.checkConstraintDiff.adds, k.dependsOnFunctions = [] := fun k hk => by
    obtain ⟨v, _, _, hy⟩ := vertex_of_add (m := Except Err) (g := (TableGen.checkGen (orderIf opts td0)).legacy) hg
      (List.mem_append_left _ hk)
    exact (CheckGen.add_ok hy).1
  have deletes : ∀ k ∈ td0.checkConstraintDiff.deletes, k.dependsOnFunctions = [] := fun k hk => by
    obtain ⟨v, _, _, hy⟩ := vertex_of_delete (m := Except Err) (g := (TableGen.checkGen (orderIf opts td0)).legacy) hg hk
    exact (CheckGen.delete_ok hy).1
  have alters : ∀ p ∈ td0.checkConstraintDiff.alters, p.old.dependsOnFunctions = [] ∧ p.new.dependsOnFunctions = [] := fun p hp => by
    obtain ⟨v, _, _, hy⟩ := vertex_of_alter (m := Except Err) (g := (TableGen.checkGen (orderIf opts td0)).legacy) hg hp
    exact ⟨(CheckGen.alter_ok hy).2.1, (CheckGen.alter_ok hy).2.2.1⟩
  have hpair : ∀ (o x : CheckConstraint) (i j : Nat) (p : OldNew CheckConstraint) (b : Bool),
      buildCheckConstraintDiff o x i j = .ok (p, b) → p = ⟨o, x⟩ := fun o x i j p b hp =>
    (congrArg Prod.fst (Except.ok.inj hp)).symm
  have hO := diffLists_old_nodup b1
  have hX := normalize_checks_nodup hu
  obtain ⟨dec, _⟩ := diffLists_decision b1 hX (key := fun p : OldNew CheckConstraint => Obj.getName p.new)
    (fun o x j i p _ hp => by rw [hpair _ _ _ _ _ _ hp]) (Obj.getName c)
  have old_ok : ∀ {k : CheckConstraint}, k ∈ (normalizeTable o).checkConstraints → Obj.getName k = Obj.getName c →
      k.dependsOnFunctions = [] := by
    intro k hk ek
    cases dec with
    | absent h1 _ => exact absurd (List.mem_map.mpr ⟨k, hk, ek⟩) h1
    | dropped o1 h1 e1 _ h2 => rw [List.inj_on_of_nodup_map hO hk h1 (ek.trans e1.symm)]; exact deletes _ h2
    | added _ _ _ h1 _ => exact absurd (List.mem_map.mpr ⟨k, hk, ek⟩) h1
    | recreated o1 _ h1 _ e1 _ _ h2 _ => rw [List.inj_on_of_nodup_map hO hk h1 (ek.trans e1.symm)]; exact deletes _ h2
    | altered o1 x1 p h1 _ e1 _ hb h2 =>
      obtain ⟨i, j, hb⟩ := hb
      rw [List.inj_on_of_nodup_map hO hk h1 (ek.trans e1.symm)]
      have := (alters _ h2).1
      rw [hpair _ _ _ _ _ _ hb] at this
      exact this
  have new_ok : ∀ {k : CheckConstraint}, k ∈ (normalizeTable x).checkConstraints → Obj.getName k = Obj.getName c →
      k.dependsOnFunctions = [] := by
    intro k hk ek
    cases dec with
    | absent _ h1 => exact absurd (List.mem_map.mpr ⟨k, hk, ek⟩) h1
    | dropped _ _ _ h1 _ => exact absurd (List.mem_map.mpr ⟨k, hk, ek⟩) h1
    | added x1 h1 e1 _ h2 => rw [List.inj_on_of_nodup_map hX hk h1 (ek.trans e1.symm)]; exact adds _ h2
    | recreated _ x1 _ h1 _ e1 _ _ h2 => rw [List.inj_on_of_nodup_map hX hk h1 (ek.trans e1.symm)]; exact adds _ h2
    | altered o1 x1 p _ h1 _ e1 hb h2 =>
      obtain ⟨i, j, hb⟩ := hb
      rw [List.inj_on_of_nodup_map hX hk h1 (ek.trans e1.symm)]
      have := (alters _ h2).2
      rw [hpair _ _ _ _ _ _ hb] at this
      exact this
  have listed : ∀ {t : Table}, c ∈ t.checkConstraints → normalizeCheckConstraint c ∈ (normalizeTable t).checkConstraints :=
    fun h => List.mem_map_of_mem ((sortObjs_perm _).mem_iff.mpr h)
  have key : (normalizeCheckConstraint c).dependsOnFunctions = [] := by
    rcases hc with hc | hc
    · exact old_ok (listed hc) rfl
    · exact new_ok (listed hc) rfl
  have hperm := sortObjs_perm c.dependsOnFunctions
  rw [show sortObjs c.dependsOnFunctions = [] from key] at hperm
  exact hd hperm.nil_eq.symm

end

section
open Samples

/-- a partition with a privilege; another table gets a column -/
def piecesOld : Schema := { Schema.empty with
  tables := grantedPartition.tables ++ [table "t" [col "x" "integer"]] }

def piecesNew : Schema := { Schema.empty with
  tables := grantedPartition.tables ++ [table "t" [col "x" "integer", col "y" "integer"]] }

/-- the hypotheses of `C53_partition_pieces_violated` can be met: the change has nothing to do with the partition -/
example : ¬ ∃ stmts r', generateMigrationStatements readerRand piecesOld piecesNew opts = .ok (stmts, r') :=
  C53_partition_pieces_violated (o := piecesOld.tables[1]) (x := piecesNew.tables[1]) (by unfold NamesUnique; decide +kernel)
    (List.getElem_mem _) (List.getElem_mem _) rfl rfl rfl (by decide +kernel) (by decide +kernel)

/-- a check constraint that calls a function; the table gets a column -/
def callingOld : Schema := { Schema.empty with
  tables := [{ table "t" [col "x" "integer"] with checkConstraints := [⟨"c", ["x"], "f(x)", true, true, [pub "f(integer)"]⟩] }] }

def callingNew : Schema := { Schema.empty with
  tables := [{ table "t" [col "x" "integer", col "y" "integer"] with
    checkConstraints := [⟨"c", ["x"], "f(x)", true, true, [pub "f(integer)"]⟩] }] }

/-- the hypotheses of `C53_check_functions_violated` can be met: the constraint does not change -/
example : ¬ ∃ stmts r', generateMigrationStatements readerRand callingOld callingNew opts = .ok (stmts, r') :=
  C53_check_functions_violated (o := callingOld.tables[0]) (x := callingNew.tables[0])
    (c := ⟨"c", ["x"], "f(x)", true, true, [pub "f(integer)"]⟩) (by unfold NamesUnique; decide +kernel)
    (List.getElem_mem _) (List.getElem_mem _) rfl rfl rfl (by unfold NamesUnique; decide +kernel)
    (Or.inr List.mem_cons_self) (by decide +kernel)

end
end Verif
