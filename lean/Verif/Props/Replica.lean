import Verif.Spec.Replica
import Verif.Props.Policy
import Verif.Props.Index

/-!
# C82: replica identities
-/

namespace Verif

open Spec

/-- the statements that concern the replica identity of a table -/
def Ddl.isReplica (t : SQName) : Ddl → Bool
  | .createTable t' _ _ => t' = t
  | .alterTable t' (.replicaIdentity _) => t' = t
  | _ => false

theorem Ddl.isReplica_tableBody {t : SQName} {x : Ddl} (h : x.isReplica t = true) : x.tableBody t = true := by
  cases x with
  | createTable => exact h
  | alterTable t' a => cases a <;> first | cases h | exact h
  | _ => cases h

theorem replicaStep_other {t : SQName} {x : Ddl} (h : x.isReplica t = false) (s : String) : replicaStep t s x = some s := by
  cases x with
  | createTable => exact if_neg (of_decide_eq_false h)
  | alterTable t' a => cases a <;> first | rfl | exact if_neg (of_decide_eq_false h)
  | _ => rfl

theorem runReplica_filter {t : SQName} {l : List Statement} (s : String) :
    runReplica t s l = runReplica t s (l.filter fun x => x.ddl.isReplica t) :=
  runWith_filter (I := fun _ => True) (fun _ _ h s _ => replicaStep_other h s) (fun _ _ _ _ _ _ _ => trivial) trivial

theorem replicaKind_of {i ty : String} (h : replicaIdentityAlterType i = .ok ty) : replicaKind ty = some i := by
  unfold replicaIdentityAlterType at h
  split at h
  · rename_i e; cases h; rw [e]; rfl
  split at h
  · rename_i e; cases h; rw [e]; rfl
  split at h
  · rename_i e; cases h; rw [e]; rfl
  · cases h

theorem replicaKind_ne_index {i ty : String} (h : replicaIdentityAlterType i = .ok ty) : i ≠ "i" := by
  rintro rfl; cases h

/-- altering a table: its replica identity is set if it differs -/
theorem TableRun.replica_filter {g : TableGen} {d : TableDiff} {l : List Statement} (run : TableRun g d l) (t : SQName) :
    (l.filter fun x => x.ddl.isReplica t) = run.replica.filter fun x => x.ddl.isReplica t := by
  have single : ∀ {c : Bool} {x : Statement}, x.ddl.isReplica t = false →
      (if c then [x] else []).filter (fun x => x.ddl.isReplica t) = [] := by
    intro c x hx; cases c <;> simp [hx]
  have hb : run.body.filter (fun x => x.ddl.isReplica t) = [] := by
    rw [List.filter_eq_nil_iff]
    intro s hs
    rw [Bool.not_eq_true]
    cases hp : d.new.isPartition with
    | true =>
      obtain ⟨m, e⟩ := TableGen.alterPartition_ok (run.hpartition hp)
      rw [e] at hs
      obtain ⟨cd, hcd, hs⟩ := List.mem_flatMap.mp hs
      unfold TableGen.alterPartitionColumn at hs
      repeat' (split at hs)
      all_goals first
        | (cases hs; done)
        | (rw [List.mem_singleton.mp hs]; rfl)
    | false =>
      obtain ⟨base⟩ := base_run (run.hbase hp)
      have := base.hbody
      rw [this, List.mem_append] at hs
      rcases hs with hs | hs
      · obtain ⟨id, h⟩ := base.shape hs
        cases h with
        | column cd hcd s hs => cases hs <;> rfl
        | _ => rfl
      · obtain ⟨c, _, rfl⟩ := base.dropTemps_ddl hs; rfl
  refine (congrArg _ run.hstmts).trans ?_
  simp only [List.filter_append]
  rw [single (x := disableRLSForTable d.new) rfl, single (x := unforceRLSForTable d.new) rfl,
    single (x := enableRLSForTable d.new) rfl, single (x := forceRLSForTable d.new) rfl, hb]
  simp

/-- the replica identity of an altered table -/
theorem TableRun.replica_run {g : TableGen} {d : TableDiff} {l : List Statement} (run : TableRun g d l) :
    runReplica d.new.name d.old.replicaIdentity l = some d.new.replicaIdentity := by
  rw [runReplica_filter, run.replica_filter]
  rcases run.hreplica with ⟨e, e'⟩ | ⟨_, s, h, e'⟩
  · rw [e', e]; rfl
  · rw [e']
    obtain ⟨ty, hty, rfl⟩ := alterReplicaIdentityStatement_ok h
    rw [← runReplica_filter]
    unfold runReplica
    rw [runWith_cons (s' := d.new.replicaIdentity)]
    · rfl
    · exact (if_pos rfl).trans (replicaKind_of hty)

/-- the replica identity of a new table -/
theorem add_replica {g : TableGen} {t : Table} {l : List Statement} (h : g.add t = .ok l) (s : String) :
    runReplica t.name s l = some t.replicaIdentity := by
  obtain ⟨run⟩ := add_run h
  have no : ∀ {m : List Statement}, (∀ x ∈ m, (∀ cs p, x.ddl ≠ .createTable t.name cs p) ∧
      ∀ ty, x.ddl ≠ .alterTable t.name (.replicaIdentity ty)) → ∀ s, runWith (replicaStep t.name) s m = some s := by
    intro m hm s
    refine runWith_keeps fun x hx => replicaStep_other ?_ s
    rw [Bool.eq_false_iff]
    intro hk
    obtain ⟨k1, k2⟩ := hm x hx
    cases hd : x.ddl with
    | createTable t' cs p => rw [hd] at hk; exact k1 cs p (by rw [hd, of_decide_eq_true hk])
    | alterTable t' a =>
      rw [hd] at hk
      cases a with
      | replicaIdentity ty => exact k2 ty (by rw [hd, of_decide_eq_true hk])
      | _ => cases hk
    | _ => rw [hd] at hk; cases hk
  have hchecks : ∀ x ∈ stripMigrationHazards run.checks, (∀ cs p, x.ddl ≠ .createTable t.name cs p) ∧
      ∀ ty, x.ddl ≠ .alterTable t.name (.replicaIdentity ty) := by
    intro x hx
    obtain ⟨s0, hs0, rfl⟩ := List.mem_map.mp hx
    obtain ⟨c, hc, b, hb, hs⟩ := mem_concatMapM run.hchecks hs0
    rcases (CheckGen.add_ok hb).2 with ⟨_, rfl⟩ | ⟨_, h, _⟩
    · rw [List.mem_singleton.mp hs]; exact ⟨nofun, nofun⟩
    · cases h
  have hpolicies : ∀ x ∈ stripMigrationHazards run.policies, (∀ cs p, x.ddl ≠ .createTable t.name cs p) ∧
      ∀ ty, x.ddl ≠ .alterTable t.name (.replicaIdentity ty) := by
    intro x hx
    obtain ⟨s0, hs0, rfl⟩ := List.mem_map.mp hx
    obtain ⟨p, hp, b, hb, hs⟩ := mem_concatMapM run.hpolicies hs0
    obtain ⟨pg, h1, h2⟩ := except_bind_ok.mp hb
    obtain ⟨l, deps, h3, _, rfl⟩ := toNew_add (m := Except Err) h1
    obtain ⟨cmd, _, h4⟩ := except_bind_ok.mp h3
    cases h4
    cases h2
    simp only [PartialGraph.statements, List.flatMap_cons, List.flatMap_nil, List.append_nil, List.mem_singleton] at hs
    rw [hs]; exact ⟨nofun, nofun⟩
  have hprivileges : ∀ x ∈ stripMigrationHazards run.privileges, (∀ cs p, x.ddl ≠ .createTable t.name cs p) ∧
      ∀ ty, x.ddl ≠ .alterTable t.name (.replicaIdentity ty) := by
    intro x hx
    obtain ⟨s0, hs0, rfl⟩ := List.mem_map.mp hx
    obtain ⟨c, hc, b, hb, hs⟩ := mem_concatMapM run.hprivileges hs0
    cases hb
    rw [List.mem_singleton.mp hs]; exact ⟨nofun, nofun⟩
  have single : ∀ {c : Bool} {y : Statement}, ((∀ cs p, y.ddl ≠ .createTable t.name cs p) ∧
      ∀ ty, y.ddl ≠ .alterTable t.name (.replicaIdentity ty)) → ∀ x ∈ stripMigrationHazards (if c then [y] else []),
      (∀ cs p, x.ddl ≠ .createTable t.name cs p) ∧ ∀ ty, x.ddl ≠ .alterTable t.name (.replicaIdentity ty) := by
    intro c y hy x hx
    obtain ⟨s0, hs0, rfl⟩ := List.mem_map.mp hx
    cases c with
    | false => cases hs0
    | true => rw [List.mem_singleton.mp hs0]; exact hy
  refine (congrArg _ run.hstmts).trans ?_
  unfold runReplica
  rw [runWith_cons (s' := "d") (if_pos rfl)]
  simp only [runWith_append]
  rw [no hchecks, Option.bind_some]
  have hr : runWith (replicaStep t.name) "d" (stripMigrationHazards run.replica) = some t.replicaIdentity := by
    rcases run.hreplica with ⟨e, e'⟩ | ⟨_, s, h, e'⟩
    · rw [e', e]; rfl
    · rw [e']
      obtain ⟨ty, hty, rfl⟩ := alterReplicaIdentityStatement_ok h
      show runWith (replicaStep t.name) "d" [_] = _
      rw [runWith_cons (s' := t.replicaIdentity)]
      · rfl
      · exact (if_pos rfl).trans (replicaKind_of hty)
  rw [hr, Option.bind_some, no hpolicies, Option.bind_some, no (single (y := enableRLSForTable t) ⟨nofun, nofun⟩), Option.bind_some,
    no (single (y := forceRLSForTable t) ⟨nofun, nofun⟩), Option.bind_some, no hprivileges]

/-! ### C82 -/

section
variable {r r' : Rand} {old new : Schema} {opts : PlanOptions} {stmts : List Statement}

/-- C82: the replica identity of every table becomes that of the target, whatever it was.

The full property also asks that the index which a table with the replica identity `i` is identified by stays the same.  It does
not: schemas do not say which index that is (`C82_lost_index_violated`), and there is no plan that gives a table such a replica
identity (`C82_index_identity_violated`). -/
theorem C82_replica_identities_converge_partial (h : generateMigrationStatements r old new opts = .ok (stmts, r'))
    (hn : (new.tables.map Obj.getName).Nodup) {t : Table} (ht : t ∈ new.tables) :
    (∀ o ∈ old.tables, o.name = t.name → runReplica t.name o.replicaIdentity stmts = some t.replicaIdentity) ∧
    (Obj.getName t ∉ old.tables.map Obj.getName → ∀ s, runReplica t.name s stmts = some t.replicaIdentity) := by
  obtain ⟨d, ⟨dr, run, _⟩, hc⟩ := plan_table_cases h hn ht
  rcases hc with ⟨l, hl, hf, _⟩ | ⟨td, htd, e1, o', ho', e2, e3, _, _, l, hl, hf⟩
  · have key : ∀ s, runReplica t.name s stmts = some t.replicaIdentity := by
      intro s
      have e1 : (packIf opts (normalizeTable t)).replicaIdentity = t.replicaIdentity := by unfold packIf; split <;> rfl
      have en : (packIf opts (normalizeTable t)).name = t.name := by unfold packIf; split <;> rfl
      have := add_replica hl s
      rw [e1, en, runReplica_filter] at this
      rw [runReplica_filter, hf _ fun s hs => Ddl.isReplica_tableBody hs]
      exact this
    exact ⟨fun _ _ _ => key _, fun _ => key⟩
  · refine ⟨?_, fun hnot => absurd (List.mem_map.mpr ⟨o', ho', e3⟩) hnot⟩
    intro o ho hname
    have hoo : normalizeTable o' = normalizeTable o :=
      List.inj_on_of_nodup_map (diffLists_old_nodup dr.htd0) (mem_normalize_tables_of ho') (mem_normalize_tables_of ho)
        (e3.trans (congrArg SQName.getName hname.symm))
    obtain ⟨trun⟩ := table_run hl
    have := trun.replica_run
    rw [e1, e2, hoo, runReplica_filter] at this
    rw [runReplica_filter, hf _ fun s hs => Ddl.isReplica_tableBody hs]
    exact this

/-- C82 is violated: no table can be given an index as its replica identity, be it new or old -/
theorem C82_index_identity_violated (hn : (new.tables.map Obj.getName).Nodup) {t : Table} (ht : t ∈ new.tables)
    (hi : t.replicaIdentity = "i") (ho : ∀ o ∈ old.tables, Obj.getName o = Obj.getName t → o.replicaIdentity ≠ "i") :
    ∀ stmts r', generateMigrationStatements r old new opts ≠ .ok (stmts, r') := by
  intro stmts r' h
  obtain ⟨d, _, hc⟩ := plan_table_cases h hn ht
  rcases hc with ⟨l, hl, _, _⟩ | ⟨td, htd, e1, o', ho', e2, e3, _, _, l, hl, _⟩
  · obtain ⟨run⟩ := add_run hl
    have e1 : (packIf opts (normalizeTable t)).replicaIdentity = t.replicaIdentity := by unfold packIf; split <;> rfl
    rcases run.hreplica with ⟨e, _⟩ | ⟨_, s, hs, _⟩
    · rw [e1, hi] at e; exact absurd e (by decide)
    · obtain ⟨ty, hty, _⟩ := alterReplicaIdentityStatement_ok hs
      exact replicaKind_ne_index hty (e1.trans hi)
  · obtain ⟨trun⟩ := table_run hl
    rcases trun.hreplica with ⟨e, _⟩ | ⟨_, s, hs, _⟩
    · rw [e1, e2] at e
      exact ho o' ho' e3 (e.trans hi)
    · obtain ⟨ty, hty, _⟩ := alterReplicaIdentityStatement_ok hs
      rw [e1] at hty
      exact replicaKind_ne_index hty hi

end

/-! ### samples -/

namespace Samples

def oldReplica : Schema := { Schema.empty with
  tables := [{ table "a" [col "x" "integer"] with replicaIdentity := "f" }, { table "b" [col "x" "integer"] with replicaIdentity := "i" },
    { table "c" [col "x" "integer"] with replicaIdentity := "i" }] }

def newReplica : Schema := { Schema.empty with
  tables := [{ table "a" [col "x" "integer"] with replicaIdentity := "d" }, { table "b" [col "x" "integer"] with replicaIdentity := "n" },
    { table "c" [col "x" "integer"] with replicaIdentity := "i" }, { table "d" [col "x" "integer"] with replicaIdentity := "f" }] }

/-- the rows of `t` are identified by the unique index `i` -/
def identifiedBy (cols : List String) (defn : String) : Schema := { Schema.empty with
  tables := [{ table "t" [{ col "x" "integer" with isNullable := false }, { col "y" "integer" with isNullable := false }] with
    replicaIdentity := "i" }]
  indexes := [{ index "i" "t" cols defn with isUnique := true }] }

example : (∃ stmts r', generateMigrationStatements rand oldReplica newReplica opts = .ok (stmts, r') ∧ stmts.length = 4) ∧
    (newReplica.tables.map Obj.getName).Nodup := ⟨exists_plan (by decide +kernel), by decide +kernel⟩

/-- the hypotheses of `C82_index_identity_violated` can be met -/
example : (newReplica.tables.map Obj.getName).Nodup ∧ (∃ t ∈ newReplica.tables, t.replicaIdentity = "i" ∧
    ∀ o ∈ Schema.empty.tables, Obj.getName o = Obj.getName t → o.replicaIdentity ≠ "i") ∧
    ∀ stmts r', generateMigrationStatements rand Schema.empty newReplica opts ≠ .ok (stmts, r') := by
  refine ⟨by decide +kernel, ⟨{ table "c" [col "x" "integer"] with replicaIdentity := "i" }, by simp [newReplica], rfl, nofun⟩, ?_⟩
  exact C82_index_identity_violated (by decide +kernel) (t := { table "c" [col "x" "integer"] with replicaIdentity := "i" })
    (by simp [newReplica]) rfl nofun

end Samples

/-- C82 is violated: an index that identifies the rows of its table is dropped for its successor, which does not identify them, and
nothing in the plan is about the replica identity -/
theorem C82_lost_index_violated : ∃ stmts r',
    generateMigrationStatements Samples.readerRand (Samples.identifiedBy ["x"] "CREATE UNIQUE INDEX i ON public.t USING btree (x)")
      (Samples.identifiedBy ["x", "y"] "CREATE UNIQUE INDEX i ON public.t USING btree (x, y)") Samples.opts = .ok (stmts, r') ∧
    runObject Samples.sampleTexts (some (indexName "public" "i", indexState (Samples.index "i" "t" ["x"]
      "CREATE UNIQUE INDEX i ON public.t USING btree (x)"))) stmts = some none ∧
    ∀ s ∈ stmts, s.ddl.isReplica (Samples.pub "t") = false :=
  Samples.exists_plan (by decide +kernel)

end Verif
