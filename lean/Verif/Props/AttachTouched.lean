import Verif.Props.TableTouched

/-!
# C112: partitions are attached exactly when they are made
-/

namespace Verif

open Spec

section
variable {opts : PlanOptions} {old new : Schema} {r r' : Rand} {stmts : List Statement}

/-- **C112.**  A plan attaches a table exactly if it makes it and it is to be a partition, and then to the table and with the bounds
that the target has. -/
theorem C112_partitions_attached_when_made (h : generateMigrationStatements r old new opts = .ok (stmts, r'))
    (ht : NamesUnique new.tables) {x : Table} (hx : x ∈ new.tables) :
    ((∃ s ∈ stmts, attaches x.name.fq s.ddl = true) ↔ TableComes old new x.name.fq ∧ x.parentTable ≠ none) ∧
    ∀ s ∈ stmts, ∀ p q v, s.ddl = .alterTable p (.attachPartition q v) → q.fq = x.name.fq →
      x.parentTable = some p ∧ v = x.forValues := by
  obtain ⟨d, ⟨dr⟩, ⟨run⟩⟩ := plan_runs h
  have hN := normalize_tables_nodup ht
  have key : ∀ s ∈ stmts, ∀ p q v, s.ddl = .alterTable p (.attachPartition q v) → q.fq = x.name.fq →
      packIf opts (normalizeTable x) ∈ d.tableDiffs.adds ∧ x.parentTable = some p ∧ v = x.forValues := by
    intro s hs p q v hd e
    obtain ⟨t, h1, h2, h3, h4, h5⟩ := attached_vertex dr run hs hd
    obtain rfl : t = normalizeTable x := List.inj_on_of_nodup_map hN h1 (mem_normalize_tables_of hx)
      ((congrArg SQName.fq h3).trans e)
    exact ⟨h2, h4, h5.symm⟩
  refine ⟨⟨?_, ?_⟩, fun s hs p q v hd e => (key s hs p q v hd e).2⟩
  · rintro ⟨s, hs, hh⟩
    obtain ⟨p, q, v, hd, e⟩ : ∃ p q v, s.ddl = .alterTable p (.attachPartition q v) ∧ q.fq = x.name.fq := by
      cases hd : s.ddl with
      | alterTable p a =>
        rw [hd] at hh
        cases a with
        | attachPartition q v => exact ⟨p, q, v, rfl, of_decide_eq_true (p := q.fq = x.name.fq) hh⟩
        | _ => cases hh
      | _ => rw [hd] at hh; cases hh
    obtain ⟨h1, h2, _⟩ := key s hs p q v hd e
    refine ⟨(comes_iff dr ht).mp ?_, by rw [h2]; exact Option.some_ne_none _⟩
    rw [byName_has, ← dr.addNames]
    exact List.mem_map.mpr ⟨_, h1, congrArg SQName.fq (packIf_name opts (normalizeTable x))⟩
  · rintro ⟨hc, hp⟩
    have h1 := (comes_iff dr ht).mpr hc
    rw [byName_has, ← dr.addNames] at h1
    obtain ⟨t, hm, e⟩ := List.mem_map.mp h1
    obtain ⟨t0, _, rfl, h0⟩ := dr.added_mem hm
    have e : t0.name.fq = x.name.fq := by rw [← packIf_name opts t0]; exact e
    obtain rfl : t0 = normalizeTable x := List.inj_on_of_nodup_map hN h0 (mem_normalize_tables_of hx) e
    obtain ⟨p, hp⟩ := Option.ne_none_iff_exists'.mp hp
    obtain ⟨s, hs, hd⟩ := run.attaches_added hm (p := p) (by rw [packIf_parent]; exact hp)
    exact ⟨s, hs, attaches_of ⟨_, _, _, hd, by rw [packIf_name]; rfl⟩⟩

/-- **C112.**  There is no plan that keeps a table and changes the bounds it is a partition with, or how it is partitioned itself: what
no statement can do is refused and not passed over. -/
theorem C112_bounds_and_keys_kept (h : generateMigrationStatements r old new opts = .ok (stmts, r')) (ht : NamesUnique new.tables)
    {o x : Table} (ho : o ∈ old.tables) (hx : x ∈ new.tables) (e : o.name.fq = x.name.fq)
    (hp : o.isPartitioned = x.isPartitioned) (hq : o.parentTable = x.parentTable) :
    (x.parentTable ≠ none → o.forValues = x.forValues) ∧ o.partitionKeyDef = x.partitionKeyDef := by
  obtain ⟨d, ⟨dr⟩, ⟨run⟩⟩ := plan_runs h
  have hN := normalize_tables_nodup ht
  rcases plan_table dr run hN (mem_normalize_tables_of hx) with ⟨hm, _⟩ | ⟨td, htd, e1, e2, e3, l, hl, hf⟩
  · refine absurd ?_ (stays_not_added dr ht ho hx e hp hq hm)
    exact congrArg SQName.fq (packIf_name opts (normalizeTable x))
  have e4 : td.old = normalizeTable o := List.inj_on_of_nodup_map (diffLists_old_nodup dr.htd0) e2
    (mem_normalize_tables_of ho) (e3.trans e.symm)
  obtain ⟨trun⟩ := table_run hl
  constructor
  · intro hpar
    have hpart : td.new.isPartition = true := by
      rw [e1]
      exact Option.isSome_iff_ne_none.mpr hpar
    have := trun.hpartition hpart
    unfold TableGen.alterPartition at this
    split at this
    · cases this
    · rename_i hv
      rw [e1, e4] at hv
      exact not_not.mp hv
  · obtain ⟨td0, i, j, _, hb⟩ := stays_diff dr ht ho hx e htd (by rw [e1]; rfl)
    exact (buildTableDiff_ok hb).2.2.2.1

end

section
open Samples

/-- a partitioned table with one partition, and a table of its own -/
def attachedOld : Schema := { Schema.empty with
  tables := [parent "p" [col "x" "integer"] "LIST (x)", partition "q" "p" [col "x" "integer"] "FOR VALUES IN (1)",
    table "t" [col "x" "integer"]] }

/-- one more partition -/
def attachedNew : Schema := { Schema.empty with
  tables := [parent "p" [col "x" "integer"] "LIST (x)", partition "q" "p" [col "x" "integer"] "FOR VALUES IN (1)",
    partition "r" "p" [col "x" "integer"] "FOR VALUES IN (2)", table "t" [col "x" "integer", col "y" "integer"]] }

/-- the hypotheses of C112 can be met: the new partition is made and attached, the other one is not touched -/
example : ∃ stmts r', generateMigrationStatements readerRand attachedOld attachedNew opts = .ok (stmts, r') ∧
    stmts.length = 3 ∧
    (∃ s ∈ stmts, attaches (pub "r").fq s.ddl = true) ∧
    (∀ s ∈ stmts, ∀ p q v, s.ddl = .alterTable p (.attachPartition q v) → q.fq = (pub "r").fq → v = "FOR VALUES IN (2)") ∧
    (¬ ∃ s ∈ stmts, attaches (pub "q").fq s.ddl = true) ∧ (¬ ∃ s ∈ stmts, attaches (pub "t").fq s.ddl = true) ∧
    attachedOld.tables[1].forValues = attachedNew.tables[1].forValues := by
  obtain ⟨stmts, r', h, hl⟩ : ∃ stmts r', generateMigrationStatements readerRand attachedOld attachedNew opts =
      .ok (stmts, r') ∧ stmts.length = 3 := exists_plan (by decide +kernel)
  have ht : NamesUnique attachedNew.tables := by unfold NamesUnique; decide +kernel
  have hr := C112_partitions_attached_when_made h ht (x := attachedNew.tables[2]) (List.getElem_mem _)
  have hq := C112_partitions_attached_when_made h ht (x := attachedNew.tables[1]) (List.getElem_mem _)
  have hs := C112_partitions_attached_when_made h ht (x := attachedNew.tables[3]) (List.getElem_mem _)
  refine ⟨stmts, r', h, hl, hr.1.mpr (by decide +kernel), fun s hm p q v hd e => (hr.2 s hm p q v hd e).2,
    fun hh => absurd (hq.1.mp hh) (by decide +kernel), fun hh => absurd (hs.1.mp hh) (by decide +kernel), ?_⟩
  exact (C112_bounds_and_keys_kept h ht (o := attachedOld.tables[1]) (x := attachedNew.tables[1]) (List.getElem_mem _)
    (List.getElem_mem _) rfl rfl rfl).1 (by decide +kernel)

end
end Verif
