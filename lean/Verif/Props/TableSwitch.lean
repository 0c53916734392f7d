import Verif.Spec.TableSwitch
import Verif.Props.Replica
import Verif.Props.PieceQuiet

/-!
# C110: row level security and replica identities are switched exactly when they differ
-/

namespace Verif

open Spec

section
variable {opts : PlanOptions} {old new : Schema} {d : SchemaDiff} {r r' : Rand} {stmts : List Statement}

/-- the catalog has a replica identity under one name -/
theorem replicaKind_inj {a b i : String} (ha : replicaKind a = some i) (hb : replicaKind b = some i) : a = b := by
  unfold replicaKind at ha hb
  split_ifs at ha hb with h1 h2 h3 h4 h5 h6 <;> simp_all <;> exact absurd (ha.trans hb.symm) (by decide +kernel)

/-- the table statements that are not about row level security and the replica identity -/
theorem TableRun.body_not_switch {g : TableGen} {d : TableDiff} {l : List Statement} (run : TableRun g d l) (t : SQName)
    (w : TableSwitch) : ∀ s ∈ run.body, s.ddl ≠ .alterTable t w.action := by
  intro s hs hd
  cases hp : d.new.isPartition with
  | true =>
    obtain ⟨m, e⟩ := TableGen.alterPartition_ok (run.hpartition hp)
    rw [e] at hs
    obtain ⟨cd, hcd, hs⟩ := List.mem_flatMap.mp hs
    unfold TableGen.alterPartitionColumn at hs
    repeat' (split at hs)
    all_goals first
      | (cases hs; done)
      | (rw [List.mem_singleton.mp hs] at hd; cases w <;> cases hd)
  | false =>
    obtain ⟨base⟩ := base_run (run.hbase hp)
    have := base.hbody
    rw [this, List.mem_append] at hs
    rcases hs with hs | hs
    · obtain ⟨id, h⟩ := base.shape hs
      cases h with
      | column cd hcd s hs => cases hs <;> cases w <;> cases hd
      | _ => cases w <;> cases hd
    · obtain ⟨c, _, rfl⟩ := base.dropTemps_ddl hs; cases w <;> cases hd

/-- the alteration of a table has one statement for a switch that is needed, and none for one that is not -/
theorem TableRun.switch {g : TableGen} {d : TableDiff} {l : List Statement} (run : TableRun g d l) (w : TableSwitch) :
    (w.Needed d.old d.new → (l.filter fun s => s.ddl = .alterTable d.new.name w.action).length = 1) ∧
    (¬ w.Needed d.old d.new → (l.filter fun s => s.ddl = .alterTable d.new.name w.action) = []) := by
  have hb : (run.body.filter fun s => s.ddl = .alterTable d.new.name w.action) = [] := by
    rw [List.filter_eq_nil_iff]
    intro s hs
    simpa using run.body_not_switch d.new.name w s hs
  have hr : (run.replica.filter fun s => s.ddl = .alterTable d.new.name w.action).length =
      (match w with
       | .identify ty => if d.old.replicaIdentity ≠ d.new.replicaIdentity ∧ replicaKind ty = some d.new.replicaIdentity
         then 1 else 0
       | _ => 0) := by
    rcases run.hreplica with ⟨h1, e⟩ | ⟨h1, s, h2, e⟩
    · rw [e]
      cases w <;> simp [h1]
    · obtain ⟨ty, h3, rfl⟩ := alterReplicaIdentityStatement_ok h2
      rw [e]
      cases w with
      | identify ty' =>
        dsimp only
        have hk := replicaKind_of h3
        by_cases h4 : ty = ty'
        · subst h4
          rw [if_pos ⟨h1, hk⟩]
          simp [stmt, TableSwitch.action]
        · rw [if_neg fun h => h4 (replicaKind_inj hk h.2)]
          simp [stmt, TableSwitch.action, h4]
      | _ => simp [stmt, TableSwitch.action]
  have he := congrArg (List.filter fun s : Statement => s.ddl = .alterTable d.new.name w.action) run.hstmts
  rw [← List.length_eq_zero_iff]
  rw [he]
  simp only [List.filter_append, List.length_append, hb, hr]
  cases w with
  | identify ty =>
    simp only [TableSwitch.Needed]
    constructor
    · intro h
      rw [if_pos h]
      cases d.new.rlsEnabled <;> cases d.old.rlsEnabled <;> cases d.new.rlsForced <;> cases d.old.rlsForced <;>
        simp [enableRLSForTable, disableRLSForTable, forceRLSForTable, unforceRLSForTable, stmt, TableSwitch.action]
    · intro h
      rw [if_neg h]
      cases d.new.rlsEnabled <;> cases d.old.rlsEnabled <;> cases d.new.rlsForced <;> cases d.old.rlsForced <;>
        simp [enableRLSForTable, disableRLSForTable, forceRLSForTable, unforceRLSForTable, stmt, TableSwitch.action]
  | _ =>
    simp only [TableSwitch.Needed]
    cases d.new.rlsEnabled <;> cases d.old.rlsEnabled <;> cases d.new.rlsForced <;> cases d.old.rlsForced <;>
      simp [enableRLSForTable, disableRLSForTable, forceRLSForTable, unforceRLSForTable, stmt, TableSwitch.action]

/-- **C110.**  A table that stays has its row level security enabled, disabled, forced or no longer forced, and its replica identity
set, once if that differs between the schemas, and else not at all. -/
theorem C110_table_switched_when_it_differs (h : generateMigrationStatements r old new opts = .ok (stmts, r'))
    (ht : NamesUnique new.tables) {o x : Table} (ho : o ∈ old.tables) (hx : x ∈ new.tables) (e : o.name.fq = x.name.fq)
    (hp : o.isPartitioned = x.isPartitioned) (hq : o.parentTable = x.parentTable) (w : TableSwitch) :
    (w.Needed o x → (stmts.filter fun s => s.ddl = .alterTable x.name w.action).length = 1) ∧
    (¬ w.Needed o x → ∀ s ∈ stmts, s.ddl ≠ .alterTable x.name w.action) := by
  obtain ⟨d, ⟨dr⟩, ⟨run⟩⟩ := plan_runs h
  have hN := normalize_tables_nodup ht
  rcases plan_table dr run hN (mem_normalize_tables_of hx) with ⟨hm, _⟩ | ⟨td, htd, e1, e2, e3, l, hl, hf⟩
  · refine absurd ?_ (stays_not_added dr ht ho hx e hp hq hm)
    unfold packIf; split <;> rfl
  · have e4 : td.old = normalizeTable o := List.inj_on_of_nodup_map (diffLists_old_nodup dr.htd0) e2
      (mem_normalize_tables_of ho) (e3.trans e.symm)
    obtain ⟨trun⟩ := table_run hl
    have key := trun.switch w
    rw [e1, e4] at key
    have hn : w.Needed (normalizeTable o) (normalizeTable x) ↔ w.Needed o x := by cases w <;> exact Iff.rfl
    rw [hn] at key
    have := hf (fun s => s.ddl = .alterTable x.name w.action) fun s hs => by
      rw [of_decide_eq_true hs]
      cases w <;> exact decide_eq_true rfl
    change (w.Needed o x → (l.filter fun s => s.ddl = .alterTable x.name w.action).length = 1) ∧
      (¬ w.Needed o x → (l.filter fun s => s.ddl = .alterTable x.name w.action) = []) at key
    rw [← this] at key
    refine ⟨key.1, fun hnot s hs hd => ?_⟩
    have := List.filter_eq_nil_iff.mp (key.2 hnot) s hs
    exact this (decide_eq_true hd)

end

section
open Samples

/-- a table that is secured but not forced to be -/
def switchedOld : Schema := { Schema.empty with
  tables := [{ table "t" [col "x" "integer"] with rlsEnabled := true, rlsForced := false, replicaIdentity := "d" }] }

/-- no longer secured, but forced, and replicated by all columns; one column more -/
def switchedNew : Schema := { Schema.empty with
  tables := [{ table "t" [col "x" "integer", col "y" "integer"] with
    rlsEnabled := false, rlsForced := true, replicaIdentity := "f" }] }

/-- the hypotheses of C110 can be met: four statements, with one for each of the three switches -/
example : ∃ stmts r', generateMigrationStatements readerRand switchedOld switchedNew opts = .ok (stmts, r') ∧
    stmts.length = 4 ∧
    (stmts.filter fun s => s.ddl = .alterTable (pub "t") .disableRLS).length = 1 ∧
    (stmts.filter fun s => s.ddl = .alterTable (pub "t") .forceRLS).length = 1 ∧
    (stmts.filter fun s => s.ddl = .alterTable (pub "t") (.replicaIdentity "FULL")).length = 1 ∧
    (∀ s ∈ stmts, s.ddl ≠ .alterTable (pub "t") .enableRLS) ∧
    ∀ s ∈ stmts, s.ddl ≠ .alterTable (pub "t") (.replicaIdentity "NOTHING") := by
  obtain ⟨stmts, r', h, hl⟩ : ∃ stmts r', generateMigrationStatements readerRand switchedOld switchedNew opts =
      .ok (stmts, r') ∧ stmts.length = 4 := exists_plan (by decide +kernel)
  have ht : NamesUnique switchedNew.tables := by unfold NamesUnique; decide +kernel
  have ho : switchedOld.tables[0] ∈ switchedOld.tables := List.getElem_mem _
  have hx : switchedNew.tables[0] ∈ switchedNew.tables := List.getElem_mem _
  have key := C110_table_switched_when_it_differs h ht ho hx rfl rfl rfl
  refine ⟨stmts, r', h, hl, (key .unsecure).1 ⟨rfl, rfl⟩, (key .force).1 ⟨rfl, rfl⟩,
    (key (.identify "FULL")).1 ⟨by decide +kernel, by decide +kernel⟩, (key .secure).2 ?_, (key (.identify "NOTHING")).2 ?_⟩
  · rintro ⟨a, _⟩; cases a
  · rintro ⟨_, a⟩; revert a; decide +kernel

end
end Verif
