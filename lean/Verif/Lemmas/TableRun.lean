import Verif.Lemmas.Gen

/-!
# Taking the alteration of a table apart
-/

namespace Verif

theorem genM_ite_throw {α : Type} {c : Prop} [Decidable c] {e : Err} {x : GenM α} {a : α}
    (h : yields (if c then throw e else x) a) : ¬ c ∧ yields x a := by
  by_cases hc : c
  · rw [if_pos hc] at h
    obtain ⟨s, s', h⟩ := h
    exact (genM_throw_ok.mp h).elim
  · rw [if_neg hc] at h
    exact ⟨hc, h⟩

/-- everything a successful `alterBaseTableWith` went through -/
structure BaseRun (d : TableDiff) (temps : List CheckConstraint) (body : List Statement) where
  columns : PartialGraph Statement
  checks : PartialGraph Statement
  dropTemps : List (PartialGraph Statement)
  psg : PolicyGen
  policies : PartialGraph Statement
  privileges : PartialGraph Statement
  ordered : List Statement
  hkey : d.old.partitionKeyDef = d.new.partitionKeyDef
  hcolumns : generatePartialGraph (columnGen d.new.name) d.columnsDiff = .ok columns
  hchecks : generatePartialGraph (TableGen.checkGen d).gen
    { d.checkConstraintDiff with adds := d.checkConstraintDiff.adds ++ temps } = .ok checks
  hdropTemps : List.Forall₂ (fun c p => (TableGen.checkGen d).gen.delete c = .ok p) temps dropTemps
  hpsg : newPolicyGen (nilableTable d.old) d.new = .ok psg
  hpolicies : generatePartialGraph psg.gen d.policiesDiff = .ok policies
  hprivileges : generatePartialGraph (PrivilegeGen.gen d.new.name) d.privilegesDiff = .ok privileges
  hordered : orderPartial (PartialGraph.concat [columns, checks, policies, privileges]) = .ok ordered
  hbody : body = ordered ++ dropTemps.flatMap (·.statements)

/-- the graph of the run -/
def BaseRun.graph {d : TableDiff} {temps : List CheckConstraint} {body : List Statement} (run : BaseRun d temps body) :
    PartialGraph Statement :=
  PartialGraph.concat [run.columns, run.checks, run.policies, run.privileges]

theorem base_run {d : TableDiff} {temps : List CheckConstraint} {body : List Statement}
    (h : TableGen.alterBaseTableWith d temps = .ok body) : Nonempty (BaseRun d temps body) := by
  unfold TableGen.alterBaseTableWith at h
  split at h
  · cases h
  · rename_i hk
    simp only [except_bind_ok, except_pure_ok, orderStatements_ok] at h
    obtain ⟨columns, h1, checks, h2, dropTemps, h3, psg, h4, policies, h5, privileges, h6, ordered, h7, rfl⟩ := h
    exact ⟨⟨_, _, _, _, _, _, _, not_not.mp hk, h1, h2, yields_mapMs (m := Except Err) h3, h4, h5, h6, h7, rfl⟩⟩

/-- everything a successful `TableGen.alter` went through -/
structure TableRun (g : TableGen) (d : TableDiff) (stmts : List Statement) where
  temps : List CheckConstraint
  body : List Statement
  replica : List Statement
  hpart : d.old.isPartition = d.new.isPartition
  htemps : d.new.isPartition = false → yields (TableGen.tempConstraints d) temps
  hbase : d.new.isPartition = false → TableGen.alterBaseTableWith d temps = .ok body
  hpartition : d.new.isPartition = true → g.alterPartition d = .ok body
  hreplica : (d.old.replicaIdentity = d.new.replicaIdentity ∧ replica = []) ∨
    (d.old.replicaIdentity ≠ d.new.replicaIdentity ∧
      ∃ s, alterReplicaIdentityStatement d.new.name d.new.replicaIdentity = .ok s ∧ replica = [s])
  hstmts : stmts = (if !d.new.rlsEnabled && d.old.rlsEnabled then [disableRLSForTable d.new] else []) ++
    (if !d.new.rlsForced && d.old.rlsForced then [unforceRLSForTable d.new] else []) ++
    body ++ replica ++
    (if d.new.rlsEnabled && !d.old.rlsEnabled then [enableRLSForTable d.new] else []) ++
    (if d.new.rlsForced && !d.old.rlsForced then [forceRLSForTable d.new] else [])

theorem replicaStatements_ok {t : SQName} {i j : String} {l : List Statement} (h : replicaStatements t i j = .ok l) :
    (i = j ∧ l = []) ∨ (i ≠ j ∧ ∃ s, alterReplicaIdentityStatement t j = .ok s ∧ l = [s]) := by
  unfold replicaStatements at h
  split at h
  · rename_i hne
    obtain ⟨s, h3, h4⟩ := except_bind_ok.mp h
    exact Or.inr ⟨hne, s, h3, (except_pure_ok.mp h4).symm⟩
  · rename_i hne
    cases h
    exact Or.inl ⟨not_not.mp hne, rfl⟩

theorem wrapAlter_ok {d : TableDiff} {body stmts : List Statement} (h : TableGen.wrapAlter d body = .ok stmts) :
    ∃ replica, ((d.old.replicaIdentity = d.new.replicaIdentity ∧ replica = []) ∨
    (d.old.replicaIdentity ≠ d.new.replicaIdentity ∧
      ∃ s, alterReplicaIdentityStatement d.new.name d.new.replicaIdentity = .ok s ∧ replica = [s])) ∧
    stmts = (if !d.new.rlsEnabled && d.old.rlsEnabled then [disableRLSForTable d.new] else []) ++
    (if !d.new.rlsForced && d.old.rlsForced then [unforceRLSForTable d.new] else []) ++
    body ++ replica ++
    (if d.new.rlsEnabled && !d.old.rlsEnabled then [enableRLSForTable d.new] else []) ++
    (if d.new.rlsForced && !d.old.rlsForced then [forceRLSForTable d.new] else []) := by
  unfold TableGen.wrapAlter at h
  obtain ⟨replica, h1, h2⟩ := except_bind_ok.mp h
  exact ⟨replica, replicaStatements_ok h1, (except_pure_ok.mp h2).symm⟩

theorem table_run {g : TableGen} {d : TableDiff} {stmts : List Statement} (h : yields (g.alter d) stmts) :
    Nonempty (TableRun g d stmts) := by
  unfold TableGen.alter at h
  obtain ⟨hp, h⟩ := genM_ite_throw h
  have hp := not_not.mp hp
  obtain ⟨body, h1, h2⟩ := yields_bind h
  unfold TableGen.alterBody at h1
  obtain ⟨replica, h3, h4⟩ := wrapAlter_ok (yields_lift h2)
  by_cases hn : d.new.isPartition = true
  · rw [if_pos hn] at h1
    have h1 := yields_lift h1
    exact ⟨⟨[], body, replica, hp, fun e => by simp [hn] at e, fun e => by simp [hn] at e, fun _ => h1, h3, h4⟩⟩
  · rw [if_neg hn] at h1
    unfold TableGen.alterBaseTable at h1
    obtain ⟨_, h1⟩ := genM_ite_throw h1
    obtain ⟨temps, h5, h6⟩ := yields_bind h1
    have h6 := yields_lift h6
    exact ⟨⟨temps, body, replica, hp, fun _ => h5, fun _ => h6, fun e => absurd e hn, h3, h4⟩⟩

/-- everything a successful `TableGen.add` went through -/
structure AddRun (g : TableGen) (t : Table) (stmts : List Statement) where
  checkConstraints : List CheckConstraint
  columnDefs : List ColumnDef
  checks : List Statement
  replica : List Statement
  psg : PolicyGen
  policies : List Statement
  privileges : List Statement
  hcheckConstraints : g.partitionChecks t = .ok checkConstraints
  hcolumns : List.Forall₂ (fun c d => buildColumnDefinition c = .ok d) t.columns columnDefs
  hchecks : concatMapM (CheckGen.add ⟨t.name, [], [], [], [], true⟩) checkConstraints = .ok checks
  hreplica : (t.replicaIdentity = "d" ∧ replica = []) ∨
    (t.replicaIdentity ≠ "d" ∧ ∃ s, alterReplicaIdentityStatement t.name t.replicaIdentity = .ok s ∧ replica = [s])
  hpsg : newPolicyGen none { t with checkConstraints } = .ok psg
  hpolicies : concatMapM (fun p => do let pg ← psg.gen.add p; return pg.statements) t.policies = .ok policies
  hprivileges : concatMapM (PrivilegeGen.add t.name) t.privileges = .ok privileges
  hstmts : stmts = stmt (.createTable t.name columnDefs (if t.isPartitioned then some t.partitionKeyDef else none)) ::
    (stripMigrationHazards checks ++ stripMigrationHazards replica ++ stripMigrationHazards policies ++
    stripMigrationHazards (if t.rlsEnabled then [enableRLSForTable t] else []) ++
    stripMigrationHazards (if t.rlsForced then [forceRLSForTable t] else []) ++ stripMigrationHazards privileges)

theorem add_run {g : TableGen} {t : Table} {stmts : List Statement} (h : g.add t = .ok stmts) :
    Nonempty (AddRun g t stmts) := by
  unfold TableGen.add at h
  obtain ⟨ccs, h1, h⟩ := except_bind_ok.mp h
  obtain ⟨cols, h2, h⟩ := except_bind_ok.mp h
  obtain ⟨checks, h3, h⟩ := except_bind_ok.mp h
  obtain ⟨replica, h4, h⟩ := except_bind_ok.mp h
  obtain ⟨psg, h5, h⟩ := except_bind_ok.mp h
  obtain ⟨policies, h6, h⟩ := except_bind_ok.mp h
  obtain ⟨privileges, h7, h⟩ := except_bind_ok.mp h
  exact ⟨⟨ccs, cols, checks, replica, psg, policies, privileges, h1, yields_mapMs (m := Except Err) h2, h3,
    (replicaStatements_ok h4).imp (fun h => ⟨h.1.symm, h.2⟩) (fun h => ⟨fun e => h.1 e.symm, h.2⟩), h5, h6, h7,
    (except_pure_ok.mp h).symm⟩⟩

end Verif
