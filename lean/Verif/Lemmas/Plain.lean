import Verif.Lemmas.Gen

/-!
# Errors that are not about the order of statements

`plain x`: the computation does not fail with an error of the sort.
-/

namespace Verif

/-- computations that can fail -/
class Plains (m : Type → Type) [Monad m] [Yields m] where
  /-- the computation does not fail with an error of the sort -/
  plain : {α : Type} → m α → Prop
  plain_pure : ∀ {α : Type} (a : α), plain (pure a : m α)
  plain_bind : ∀ {α β : Type} {x : m α} {f : α → m β}, plain x → (∀ a, yields x a → plain (f a)) → plain (x >>= f)

export Plains (plain plain_pure plain_bind)

instance : Plains (Except Err) where
  plain x := ∀ e, x ≠ .error (.graph e)
  plain_pure a e h := by cases h
  plain_bind := by
    intro α β x f hx hf e h
    cases x with
    | error y => exact hx e (by cases h; rfl)
    | ok a => exact hf a rfl e h

instance : Plains GenM where
  plain x := ∀ s e, x s ≠ .error (.graph e)
  plain_pure a s e h := by cases h
  plain_bind := by
    intro α β x f hx hf s e h
    cases hs : x s with
    | error y =>
      have : (x >>= f) s = .error y := by
        show (x s >>= fun p => f p.1 p.2) = _
        rw [hs]; rfl
      have := this.symm.trans h
      exact hx s e (by rw [hs]; cases this; rfl)
    | ok p =>
      obtain ⟨a, s'⟩ := p
      have : (x >>= f) s = f a s' := by
        show (x s >>= fun p => f p.1 p.2) = _
        rw [hs]; rfl
      exact hf a ⟨s, s', hs⟩ s' e (this.symm.trans h)

theorem plain_ok {α : Type} (a : α) : plain (.ok a : Except Err α) := fun _ h => by cases h
theorem plain_other {α : Type} (t : String) : plain (.error (.other t) : Except Err α) := fun _ h => by cases h
theorem plain_notImplemented {α : Type} (t : String) : plain (.error (.notImplemented t) : Except Err α) := fun _ h => by cases h
theorem plain_duplicate {α : Type} : plain (.error .duplicateIdentifier : Except Err α) := fun _ h => by cases h

theorem plain_lift {α : Type} {x : Except Err α} (h : plain x) : plain (liftM x : GenM α) := by
  intro s e he
  cases x with
  | error y => exact h e (by cases he; rfl)
  | ok a => cases he

theorem plain_throw {α : Type} (t : String) : plain (throw (.notImplemented t) : GenM α) := fun _ _ h => by cases h
theorem plain_throw' {α : Type} (t : String) : plain (throw (.notImplemented t) : Except Err α) := fun _ h => by cases h
theorem plain_modify (f : GenState → GenState) : plain (modify f : GenM PUnit) := fun _ _ h => by cases h
theorem plain_get : plain (get : GenM GenState) := fun _ _ h => by cases h

theorem plain_randomUUID : plain randomUUID := by
  intro s e h
  unfold randomUUID at h
  split at h <;> cases h

section
variable {m : Type → Type} [Monad m] [Yields m] [Plains m]

theorem plain_mapMs {α β : Type} {f : α → m β} {l : List α} (h : ∀ a ∈ l, plain (f a)) : plain (mapMs f l) := by
  induction l with
  | nil => exact plain_pure _
  | cons a l ih =>
    unfold mapMs
    exact plain_bind (h a (by simp)) fun b _ => plain_bind (ih fun a ha => h a (by simp [ha])) fun bs _ => plain_pure _

theorem plain_graph {S D : Type} {g : VertexGen m S D} {ld : ListDiff S D} (ha : ∀ x ∈ ld.adds, plain (g.add x))
    (hd : ∀ x ∈ ld.deletes, plain (g.delete x)) (hc : ∀ x ∈ ld.alters, plain (g.alter x)) :
    plain (generatePartialGraph g ld) :=
  plain_bind (plain_mapMs ha) fun _ _ => plain_bind (plain_mapMs hd) fun _ _ => plain_bind (plain_mapMs hc) fun _ _ => plain_pure _

theorem plain_legacy {S D : Type} [GoZero S] [IsDiff D S] {g : LegacyGen m S D} {ld : ListDiff S D}
    (ha : ∀ x, plain (g.add x)) (hd : ∀ x, plain (g.delete x)) (hc : ∀ x ∈ ld.alters, plain (g.alter x))
    (ht : ∀ x y, plain (g.addAlterDeps x y)) (hu : ∀ x, plain (g.deleteDeps x)) : plain (generatePartialGraph g.toNew ld) :=
  plain_graph (fun x _ => plain_bind (ha x) fun _ _ => plain_bind (ht _ _) fun _ _ => plain_pure _)
    (fun x _ => plain_bind (hd x) fun _ _ => plain_bind (hu _) fun _ _ => plain_pure _)
    (fun x hx => plain_bind (hc x hx) fun _ _ => plain_bind (ht _ _) fun _ _ => plain_pure _)

end

theorem plain_concatMapM {α β : Type} {f : α → Except Err (List β)} {l : List α} (h : ∀ a ∈ l, plain (f a)) :
    plain (concatMapM f l) := by
  induction l with
  | nil => exact plain_ok _
  | cons a l ih =>
    unfold concatMapM
    exact plain_bind (h a (by simp)) fun b _ => plain_bind (ih fun a ha => h a (by simp [ha])) fun bs _ => plain_pure _

theorem plain_resolve {S D σ : Type} {ld : ListDiff S D} {add delete : S → Except Err (List σ)} {alter : D → Except Err (List σ)}
    (ha : ∀ x, plain (add x)) (hd : ∀ x, plain (delete x)) (hc : ∀ x, plain (alter x)) : plain (resolveToSQL ld add delete alter) :=
  plain_bind (plain_concatMapM fun x _ => ha x) fun _ _ => plain_bind (plain_concatMapM fun x _ => hd x) fun _ _ =>
    plain_bind (plain_concatMapM fun x _ => hc x) fun _ _ => plain_pure _

theorem plain_indexOld {S : Type} [Obj S] (l : List S) : ∀ (i : Nat) (m : GoMap String (Entry S)), plain (indexOld i l m) := by
  induction l with
  | nil => exact fun _ _ => plain_ok _
  | cons o l ih =>
    intro i m
    unfold indexOld
    split
    · exact plain_duplicate
    · exact ih _ _

theorem plain_diffNew {S D : Type} [Obj S] {buildDiff : S → S → Nat → Nat → Except Err (D × Bool)}
    (h : ∀ o n i j, plain (buildDiff o n i j)) (l : List S) : ∀ (i : Nat) (st : DiffState S D), plain (diffNew buildDiff i l st) := by
  induction l with
  | nil => exact fun _ _ => plain_ok _
  | cons o l ih =>
    intro i m
    unfold diffNew
    split
    · exact ih _ _
    · rename_i en _
      split
      · rename_i err herr
        intro e he
        cases he
        exact h en.obj o en.index i e herr
      · dsimp only
        split <;> exact ih _ _

theorem plain_diffLists {S D : Type} [Obj S] {old new : List S} {buildDiff : S → S → Nat → Nat → Except Err (D × Bool)}
    (h : ∀ o n i j, plain (buildDiff o n i j)) : plain (diffLists old new buildDiff) :=
  plain_bind (plain_indexOld _ _ _) fun _ _ => plain_bind (plain_diffNew h _ _ _) fun _ _ => plain_pure _

/-- splits and closes what is plain by its form -/
macro "plains" : tactic =>
  `(tactic| repeat (first
    | assumption
    | exact plain_ok _
    | exact plain_other _
    | exact plain_notImplemented _
    | exact plain_pure _
    | exact plain_throw _
    | exact plain_throw' _
    | exact plain_randomUUID
    | exact plain_modify _
    | (with_reducible apply plain_lift)
    | (with_reducible refine plain_bind ?_ fun _ _ => ?_)
    | split
    | (dsimp only)))

/-! ### the generators -/

theorem plain_getTargetColumns (m : GoMap String Column) : ∀ l, plain (getTargetColumns l m)
  | [] => plain_ok _
  | n :: rest => by
    have := plain_getTargetColumns m rest
    unfold getTargetColumns
    plains

theorem plain_identityModifier (t : String) : plain (columnIdentityTypeToModifier t) := by
  unfold columnIdentityTypeToModifier
  plains

theorem plain_identityDefinition (i : ColumnIdentity) : plain (buildColumnIdentityDefinition i) :=
  plain_bind (plain_identityModifier _) fun _ _ => plain_pure _

theorem plain_columnDefinition (c : Column) : plain (buildColumnDefinition c) := by
  refine plain_bind ?_ fun _ _ => plain_pure _
  cases c.identity with
  | none => exact plain_ok _
  | some i => exact plain_bind (plain_identityDefinition i) fun _ _ => plain_pure _

theorem plain_updateIdentity (t : SQName) (o n : Column) : plain (ColumnGen.buildUpdateIdentityStatements t o n) := by
  unfold ColumnGen.buildUpdateIdentityStatements
  split
  · exact plain_ok _
  · split
    · exact plain_ok _
    · split
      · exact plain_bind (plain_identityDefinition _) fun _ _ => plain_pure _
      · refine plain_bind (plain_bind ?_ fun _ _ => plain_pure _) fun _ _ => plain_pure _
        unfold ColumnGen.identityTypeMods
        split
        · exact plain_bind (plain_identityModifier _) fun _ _ => plain_pure _
        · exact plain_ok _

theorem plain_columns (t : SQName) (ld : ListDiff Column ColumnDiff) : plain (generatePartialGraph (columnGen t) ld) := by
  refine plain_legacy (fun x => plain_bind (plain_columnDefinition x) fun _ _ => plain_pure _) (fun _ => plain_ok _) (fun d _ => ?_)
    (fun _ _ => plain_ok _) fun _ => plain_ok _
  show plain (ColumnGen.alter t d)
  unfold ColumnGen.alter
  split
  · exact plain_notImplemented _
  · exact plain_bind (plain_updateIdentity _ _ _) fun _ _ => plain_pure _

theorem plain_checkAdd (g : CheckGen) (c : CheckConstraint) : plain (g.add c) := by
  unfold CheckGen.add
  plains

theorem plain_checkDelete (g : CheckGen) (c : CheckConstraint) : plain (g.delete c) := by
  unfold CheckGen.delete
  plains

theorem plain_checkDeleteDeps (g : CheckGen) (c : CheckConstraint) : plain (g.deleteDeps c) := by
  refine plain_bind (plain_getTargetColumns _ _) fun _ _ => ?_
  plains

theorem plain_checks (g : CheckGen) (ld : ListDiff CheckConstraint (OldNew CheckConstraint)) : plain (generatePartialGraph g.gen ld) := by
  refine plain_legacy (plain_checkAdd g) (plain_checkDelete g) (fun d _ => ?_) (fun c o => ?_) (plain_checkDeleteDeps g)
  · show plain (g.alter d)
    unfold CheckGen.alter
    plains
  · refine plain_bind (plain_getTargetColumns _ _) fun _ _ => ?_
    plains

theorem plain_newPolicyGen (o : Option Table) (t : Table) : plain (newPolicyGen o t) := by
  unfold newPolicyGen
  plains

theorem plain_policyAdd (g : PolicyGen) (p : Policy) : plain (g.add p) := by
  refine plain_bind ?_ fun _ _ => plain_pure _
  unfold policyCharToSQL
  plains

theorem plain_policyAlter (g : PolicyGen) (d : OldNew Policy) : plain (g.alter d) := by
  unfold PolicyGen.alter
  plains

theorem plain_policyDeps (g : PolicyGen) (n o : Policy) : plain (g.addAlterDeps n o) := by
  refine plain_bind (plain_getTargetColumns _ _) fun _ _ => ?_
  dsimp only
  split
  · exact plain_pure _
  · exact plain_bind (plain_getTargetColumns _ _) fun _ _ => plain_pure _

theorem plain_policyGenAlter (g : PolicyGen) (d : OldNew Policy) : plain (g.gen.alter d) :=
  plain_bind (plain_policyAlter g d) fun _ _ => plain_bind (plain_policyDeps g _ _) fun _ _ => plain_pure _

theorem plain_policies (g : PolicyGen) (ld : ListDiff Policy (OldNew Policy)) : plain (generatePartialGraph g.gen ld) :=
  plain_legacy (plain_policyAdd g) (fun _ => plain_ok _) (fun d _ => plain_policyAlter g d) (plain_policyDeps g)
    fun _ => plain_bind (plain_getTargetColumns _ _) fun _ _ => plain_pure _

theorem plain_privileges (t : SQName) (ld : ListDiff TablePrivilege (OldNew TablePrivilege)) :
    plain (generatePartialGraph (PrivilegeGen.gen t) ld) :=
  plain_legacy (fun _ => plain_ok _) (fun _ => plain_ok _) (fun _ _ => plain_ok _) (fun _ _ => plain_ok _) fun _ => plain_ok _

theorem plain_policyDiffs (g : PolicyGen) (o n : List Policy) : plain (buildPolicyDiffs g o n) := by
  refine plain_diffLists fun o n i j => ?_
  split
  · exact plain_ok _
  · rename_i e he
    split
    · exact plain_ok _
    · intro e' h
      cases h
      exact plain_policyGenAlter g _ e' he

theorem plain_tableDiff (o n : Table) (i j : Nat) : plain (buildTableDiff o n i j) := by
  unfold buildTableDiff
  split
  · exact plain_ok _
  · split
    · exact plain_notImplemented _
    · split
      · exact plain_ok _
      · exact plain_bind (plain_diffLists fun _ _ _ _ => plain_ok _) fun _ _ =>
          plain_bind (plain_diffLists fun _ _ _ _ => plain_ok _) fun _ _ => plain_bind (plain_newPolicyGen _ _) fun _ _ =>
          plain_bind (plain_policyDiffs _ _ _) fun _ _ => plain_bind (plain_diffLists fun _ _ _ _ => plain_ok _) fun _ _ => plain_pure _

theorem plain_replica (t : SQName) (a b : String) : plain (replicaStatements t a b) := by
  unfold replicaStatements
  split
  · refine plain_bind (plain_bind ?_ fun _ _ => plain_pure _) fun _ _ => plain_pure _
    unfold replicaIdentityAlterType
    plains
  · exact plain_ok _

theorem plain_tableAdd (g : TableGen) (t : Table) : plain (g.add t) := by
  unfold TableGen.add
  refine plain_bind ?_ fun _ _ => plain_bind (plain_mapMs fun _ _ => plain_columnDefinition _) fun _ _ =>
    plain_bind (plain_concatMapM fun _ _ => plain_checkAdd _ _) fun _ _ => plain_bind (plain_replica _ _ _) fun _ _ =>
    plain_bind (plain_newPolicyGen _ _) fun psg _ => plain_bind (plain_concatMapM fun p _ => ?_) fun _ _ =>
    plain_bind (plain_concatMapM fun _ _ => plain_ok _) fun _ _ => plain_pure _
  · unfold TableGen.partitionChecks
    plains
  · exact plain_bind (plain_bind (plain_policyAdd psg p) fun _ _ => plain_bind (plain_policyDeps psg _ _) fun _ _ => plain_pure _)
      fun _ _ => plain_pure _

/-- altering a table fails with an error of the sort only if the statements for the table cannot be put in order -/
theorem plain_tableAlter (g : TableGen) (d : TableDiff)
    (h : d.new.isPartition = false → ∀ temps, yields (TableGen.tempConstraints d) temps → ∀ columns checks psg policies privileges,
      generatePartialGraph (columnGen d.new.name) d.columnsDiff = .ok columns →
      generatePartialGraph (TableGen.checkGen d).gen
        { d.checkConstraintDiff with adds := d.checkConstraintDiff.adds ++ temps } = .ok checks →
      newPolicyGen (nilableTable d.old) d.new = .ok psg → generatePartialGraph psg.gen d.policiesDiff = .ok policies →
      generatePartialGraph (PrivilegeGen.gen d.new.name) d.privilegesDiff = .ok privileges →
      plain (orderStatements (PartialGraph.concat [columns, checks, policies, privileges]))) : plain (g.alter d) := by
  have hw : ∀ body, plain (liftM (TableGen.wrapAlter d body) : GenM (List Statement)) := fun body =>
    plain_lift (plain_bind (plain_replica _ _ _) fun _ _ => plain_pure _)
  have hbody : plain (g.alterBody d) := by
    unfold TableGen.alterBody
    split
    · refine plain_lift ?_
      unfold TableGen.alterPartition
      plains
    · rename_i hp
      have hw2 : ∀ temps, yields (TableGen.tempConstraints d) temps →
          plain (liftM (TableGen.alterBaseTableWith d temps) : GenM (List Statement)) := by
        intro temps ht
        refine plain_lift ?_
        have rest : plain (do
          let columns ← generatePartialGraph (columnGen d.new.name) d.columnsDiff
          let checks ← generatePartialGraph (TableGen.checkGen d).gen
            { d.checkConstraintDiff with adds := d.checkConstraintDiff.adds ++ temps }
          let dropTempCCs ← mapMs (TableGen.checkGen d).gen.delete temps
          let psg ← newPolicyGen (nilableTable d.old) d.new
          let policies ← generatePartialGraph psg.gen d.policiesDiff
          let privileges ← generatePartialGraph (PrivilegeGen.gen d.new.name) d.privilegesDiff
          let stmts ← orderStatements (PartialGraph.concat [columns, checks, policies, privileges])
          return stmts ++ dropTempCCs.flatMap (·.statements) : Except Err (List Statement)) :=
          plain_bind (plain_columns _ _) fun columns h1 => plain_bind (plain_checks _ _) fun checks h2 =>
            plain_bind (plain_mapMs fun c _ => plain_bind (plain_checkDelete _ c) fun _ _ => plain_bind (plain_checkDeleteDeps _ c)
              fun _ _ => plain_pure _) fun _ _ => plain_bind (plain_newPolicyGen _ _) fun psg h3 =>
            plain_bind (plain_policies _ _) fun policies h4 => plain_bind (plain_privileges _ _) fun privileges h5 =>
            plain_bind (h (eq_false_of_ne_true hp) temps ht columns checks psg policies privileges h1 h2 h3 h4 h5)
              fun _ _ => plain_pure _
        unfold TableGen.alterBaseTableWith
        dsimp only
        split
        · exact plain_bind (plain_throw' _) fun _ _ => rest
        · exact rest
      have rest : plain (do
          let tempCCs ← TableGen.tempConstraints d
          liftM (TableGen.alterBaseTableWith d tempCCs) : GenM (List Statement)) := by
        refine plain_bind (plain_mapMs fun _ _ => plain_bind plain_randomUUID fun _ _ => plain_pure _) fun temps ht => hw2 temps ht
      unfold TableGen.alterBaseTable
      dsimp only
      split
      · exact plain_bind (plain_throw _) fun _ _ => rest
      · exact rest
  unfold TableGen.alter
  dsimp only
  split
  · exact plain_bind (plain_throw _) fun _ _ => plain_bind hbody fun b _ => hw b
  · exact plain_bind hbody fun b _ => hw b

theorem plain_rename (m : GoMap String Index) (ld : ListDiff Index (OldNew Index)) :
    plain (generatePartialGraph (RenameGen.gen m) ld) := by
  refine plain_legacy (fun i => ?_) (fun _ => plain_pure _) (fun _ _ => plain_pure _) (fun _ _ => plain_pure _) fun _ => plain_pure _
  show plain (RenameGen.add m i)
  unfold RenameGen.add
  plains

theorem plain_attach (l : List Index) (m : GoMap String Table) (ld : ListDiff Table TableDiff) :
    plain (generatePartialGraph (AttachGen.gen l m) ld) := by
  refine plain_legacy (fun t => ?_) (fun _ => plain_pure _) (fun _ _ => plain_pure _) (fun t o => ?_) fun _ => plain_pure _
  · show plain (AttachGen.add t)
    unfold AttachGen.add
    plains
  · show plain (AttachGen.addAlterDeps l m t o)
    unfold AttachGen.addAlterDeps
    plains

theorem plain_onPartitioned (m : GoMap String Table) (i : Index) : plain (isIndexOnPartitionedTable m i) := by
  unfold isIndexOnPartitionedTable
  plains

theorem plain_constraintStatements (i : Index) (a b : Option IndexConstraint) : plain (IndexGen.constraintStatements i a b) := by
  unfold IndexGen.constraintStatements
  split
  · refine plain_bind (plain_bind ?_ fun _ _ => plain_pure _) fun _ _ => plain_pure _
    unfold constraintTypeAsSQL
    plains
  · exact plain_ok _

theorem plain_concurrently (t : String) : plain (toCreateIndexConcurrently t) := by
  unfold toCreateIndexConcurrently
  plains

theorem plain_indexes (g : IndexGen) (ld : ListDiff Index (OldNew Index)) : plain (generatePartialGraph g.gen ld) := by
  refine plain_legacy (fun i => plain_bind ?_ fun _ _ => plain_pure _) (fun i => ?_) (fun d _ => ?_) (fun _ _ => plain_ok _)
    fun _ => plain_ok _
  · unfold IndexGen.addIdxStmtsWithHazards
    split
    · exact plain_notImplemented _
    · refine plain_bind (plain_onPartitioned _ _) fun part _ => ?_
      split
      · exact plain_pure _
      · refine plain_bind ?_ fun _ _ => plain_bind (plain_constraintStatements _ _ _) fun _ _ => plain_pure _
        unfold IndexGen.buildCreateIndexStatement
        split
        · exact plain_ok _
        · exact plain_bind (plain_concurrently _) fun _ _ => plain_pure _
  · show plain (g.delete i)
    have := plain_onPartitioned g.tablesInNewSchemaByName i
    unfold IndexGen.delete IndexGen.onPartitionedTable
    plains
  · show plain (g.alter d)
    refine plain_bind (plain_onPartitioned _ _) fun part _ => ?_
    dsimp only
    refine plain_bind (plain_constraintStatements _ _ _) fun con _ => ?_
    plains

theorem plain_indexDiffAux (cfg : IndexDiffConfig) : ∀ (n : Nat) (seen : List String) (o x : Index),
    plain (buildIndexDiffAux cfg n seen o x)
  | 0, _, _, _ => plain_other _
  | n + 1, seen, o, x => by
    unfold buildIndexDiffAux
    split
    · exact plain_other _
    · split
      · exact plain_ok _
      · refine plain_bind ?_ fun p _ => ?_
        · unfold parentRecreated
          split
          · split
            · split
              · exact plain_other _
              · split
                · exact plain_other _
                · split
                  · rename_i a _ b _ e he
                    intro e' h
                    cases h
                    exact plain_indexDiffAux cfg n _ _ _ e' he
                  · exact plain_ok _
                  · exact plain_ok _
            · exact plain_ok _
          · exact plain_ok _
        · split
          · exact plain_pure _
          · exact plain_bind (plain_onPartitioned _ _) fun _ _ => plain_pure _

theorem plain_indexDiff (cfg : IndexDiffConfig) (o n : List Index) : plain (indexListDiff cfg o n) := by
  refine plain_diffLists fun o n i j => ?_
  split
  · rename_i e he
    intro e' h
    cases h
    exact plain_indexDiffAux cfg _ _ _ _ e' he
  · exact plain_ok _
  · exact plain_ok _

theorem plain_fkAlter (d : OldNew ForeignKeyConstraint) : plain (FkGen.alter d) := by
  unfold FkGen.alter
  plains

theorem plain_fks (g : FkGen) (ld : ListDiff ForeignKeyConstraint (OldNew ForeignKeyConstraint)) :
    plain (generatePartialGraph g.gen ld) := by
  refine plain_legacy (fun c => ?_) (fun _ => plain_ok _) (fun d _ => plain_fkAlter d) (fun _ _ => plain_ok _) fun _ => plain_ok _
  show plain (g.add c)
  unfold FkGen.add
  plains

theorem plain_fkDiff (g : FkGen) (m : GoMap String Table) (o n : ForeignKeyConstraint) (i j : Nat) :
    plain (buildForeignKeyConstraintDiff g m o n i j) := by
  unfold buildForeignKeyConstraintDiff
  split
  · exact plain_ok _
  · split
    · exact plain_ok _
    · split
      · exact plain_ok _
      · rename_i e he
        split
        · exact plain_ok _
        · intro e' h
          cases h
          exact plain_bind (plain_fkAlter ⟨o, n⟩) (fun _ _ => plain_bind (plain_ok _) fun _ _ => plain_pure _) e' he

theorem plain_sequenceDiff (m : GoMap String Table) (o n : Sequence) (i j : Nat) : plain (buildSequenceDiff m o n i j) := by
  unfold buildSequenceDiff
  plains

theorem plain_sequences (g : SequenceGen) (ld : ListDiff Sequence (OldNew Sequence)) : plain (generatePartialGraph g.gen ld) := by
  refine plain_legacy (fun _ => plain_ok _) (fun s => ?_) (fun d _ => ?_) (fun _ _ => plain_ok _) fun _ => plain_ok _
  · show plain (g.delete s)
    unfold SequenceGen.delete
    plains
  · show plain (SequenceGen.alter d)
    unfold SequenceGen.alter
    plains

theorem plain_ownerships (ld : ListDiff Sequence (OldNew Sequence)) : plain (generatePartialGraph OwnershipGen.gen ld) :=
  plain_legacy (fun _ => plain_ok _) (fun _ => plain_ok _) (fun _ _ => plain_ok _) (fun _ _ => plain_ok _) fun _ => plain_ok _

theorem plain_functions (ld : ListDiff Function (OldNew Function)) : plain (generatePartialGraph FunctionGen.gen ld) := by
  refine plain_legacy (fun _ => plain_ok _) (fun _ => plain_ok _) (fun d _ => ?_) (fun _ _ => plain_ok _) fun _ => plain_ok _
  show plain (FunctionGen.alter d)
  unfold FunctionGen.alter FunctionGen.add
  plains

theorem plain_procedures (s : Schema) (ld : ListDiff Procedure (OldNew Procedure)) :
    plain (generatePartialGraph (ProcedureGen.gen s) ld) := by
  refine plain_graph (fun _ _ => plain_ok _) (fun _ _ => plain_ok _) fun d _ => ?_
  show plain (ProcedureGen.alter s d)
  unfold ProcedureGen.alter ProcedureGen.add
  plains

theorem plain_triggers (ld : ListDiff Trigger (OldNew Trigger)) : plain (generatePartialGraph TriggerGen.gen ld) := by
  refine plain_legacy (fun _ => plain_ok _) (fun _ => plain_ok _) (fun d _ => ?_) (fun _ _ => plain_ok _) fun _ => plain_ok _
  show plain (TriggerGen.alter d)
  unfold TriggerGen.alter toCreateOrReplace
  plains

theorem plain_viewDeps (a : GoMap String Table) (b : GoMap String TableDiff) : ∀ l, plain (viewDepsRecreated a b l)
  | [] => plain_ok _
  | t :: rest => by
    have := plain_viewDeps a b rest
    unfold viewDepsRecreated
    plains

theorem plain_viewAlter (d : OldNew View) : plain (ViewGen.alter d) := by
  unfold ViewGen.alter
  plains

theorem plain_matViewAlter (d : OldNew MaterializedView) : plain (MatViewGen.alter d) := by
  unfold MatViewGen.alter
  plains

theorem plain_views (ld : ListDiff View (OldNew View)) : plain (generatePartialGraph ViewGen.gen ld) :=
  plain_graph (fun _ _ => plain_ok _) (fun _ _ => plain_ok _) fun d _ => plain_viewAlter d

theorem plain_matViews (ld : ListDiff MaterializedView (OldNew MaterializedView)) : plain (generatePartialGraph MatViewGen.gen ld) :=
  plain_graph (fun _ _ => plain_ok _) (fun _ _ => plain_ok _) fun d _ => plain_matViewAlter d

theorem plain_viewDiff (a : GoMap String Table) (b : GoMap String TableDiff) (o n : View) (i j : Nat) :
    plain (buildViewDiff a b o n i j) := by
  refine plain_bind (plain_viewDeps _ _ _) fun r _ => ?_
  split
  · exact plain_pure _
  · split
    · exact plain_ok _
    · rename_i e he
      split
      · exact plain_ok _
      · intro e' h
        cases h
        exact plain_viewAlter _ e' he

theorem plain_matViewDiff (a : GoMap String Table) (b : GoMap String TableDiff) (o n : MaterializedView) (i j : Nat) :
    plain (buildMaterializedViewDiff a b o n i j) := by
  refine plain_bind (plain_viewDeps _ _ _) fun r _ => ?_
  split
  · exact plain_pure _
  · split
    · exact plain_ok _
    · rename_i e he
      split
      · exact plain_ok _
      · intro e' h
        cases h
        exact plain_matViewAlter _ e' he

theorem plain_enumAlter (d : OldNew Enum) : plain (EnumGen.alter d) := by
  unfold EnumGen.alter EnumGen.delete EnumGen.add
  plains

theorem plain_schemaDiff (old new : Schema) : plain (buildSchemaDiff old new) :=
  plain_bind (plain_diffLists fun _ _ _ _ => plain_ok _) fun _ _ => plain_bind (plain_diffLists fun _ _ _ _ => plain_ok _) fun _ _ =>
  plain_bind (plain_diffLists fun _ _ _ _ => plain_ok _) fun _ _ => plain_bind (plain_diffLists plain_tableDiff) fun _ _ =>
  plain_bind (plain_indexDiff _ _ _) fun _ _ => plain_bind (plain_diffLists (plain_fkDiff _ _)) fun _ _ =>
  plain_bind (plain_diffLists (plain_sequenceDiff _)) fun _ _ => plain_bind (plain_diffLists fun _ _ _ _ => plain_ok _) fun _ _ =>
  plain_bind (plain_diffLists fun _ _ _ _ => plain_ok _) fun _ _ =>
  plain_bind (plain_diffLists fun o n _ _ => (by unfold buildTriggerDiff; plains)) fun _ _ =>
  plain_bind (plain_diffLists (plain_viewDiff _ _)) fun _ _ => plain_bind (plain_diffLists (plain_matViewDiff _ _)) fun _ _ => plain_pure _

theorem plain_stateless (opts : PlanOptions) (d : SchemaDiff) (st : GenState) : plain (SchemaGen.statelessGraphs opts d st) :=
  plain_bind (plain_indexes _ _) fun _ _ => plain_bind (plain_fks _ _) fun _ _ => plain_bind (plain_sequences _ _) fun _ _ =>
  plain_bind (plain_ownerships _) fun _ _ => plain_bind (plain_functions _) fun _ _ => plain_bind (plain_procedures _ _) fun _ _ =>
  plain_bind (plain_triggers _) fun _ _ => plain_bind (plain_views _) fun _ _ => plain_bind (plain_matViews _) fun _ _ => plain_pure _

theorem plain_graphs (opts : PlanOptions) (d : SchemaDiff) (h : ∀ td ∈ d.tableDiffs.alters, plain ((SchemaGen.tableGen d).alter td)) :
    plain (SchemaGen.graphs opts d) := by
  refine plain_bind (plain_lift (plain_resolve (fun _ => plain_ok _) (fun _ => plain_ok _) fun _ => plain_ok _)) fun _ _ =>
    plain_bind (plain_legacy (fun t => plain_lift (plain_tableAdd _ t)) (fun t => plain_lift ?_) h
      (fun _ _ => plain_lift (plain_ok _)) fun _ => plain_lift (plain_ok _)) fun _ _ =>
    plain_bind (plain_lift (plain_resolve (fun _ => plain_ok _) (fun _ => plain_ok _) fun _ => plain_ok _)) fun _ _ =>
    plain_bind (plain_lift (plain_resolve (fun _ => plain_ok _) (fun _ => plain_ok _) plain_enumAlter)) fun _ _ =>
    plain_bind (plain_attach _ _ _) fun _ _ => plain_bind (plain_rename _ _) fun _ _ => plain_bind plain_get fun _ _ =>
    plain_bind (plain_lift (plain_stateless _ _ _)) fun _ _ => plain_pure _
  unfold TableGen.delete
  plains

/-- when the graph was built -/
theorem graphs_run {opts : PlanOptions} {d : SchemaDiff} {r : Rand} {res : SchemaGen.Outer × PartialGraph Statement} {st : GenState}
    (h : SchemaGen.graphs opts d (GenState.init r) = .ok (res, st)) : ∃ run : GraphRun opts d r, run.graph = res.2 := by
  unfold SchemaGen.graphs at h
  simp only [genM_bind_ok, genM_pure_ok, genM_lift_ok, genM_get_ok, SchemaGen.statelessGraphs, except_bind_ok,
    except_pure_ok] at h
  obtain ⟨schemas, _, ⟨h1, rfl⟩, tables, s1, h2, extensions, _, ⟨h3, rfl⟩, enums, _, ⟨h4, rfl⟩, attaches, s2, h5,
    renames, s3, h6, _, _, ⟨rfl, rfl⟩, rest, _, ⟨⟨indexes, h7, fks, h8, sequences, h9, ownerships, h10, functions, h11,
    procedures, h12, triggers, h13, views, h14, matViews, h15, rfl⟩, rfl⟩, rfl, rfl⟩ := h
  exact ⟨⟨_, _, _, _, _, _, _, _, _, _, _, _, _, _, _, _, _, _, h1, h3, h4, h2, h5, h6, h7, h8, h9, h10, h11, h12, h13,
    h14, h15⟩, rfl⟩

/-- no plan fails with an error of the sort when the statements of every altered table and those of the schema can be put in
order -/
theorem plain_plan {r : Rand} {old new : Schema} {opts : PlanOptions}
    (h : ∀ d0 d, buildSchemaDiff old new = .ok d0 → transformDiff opts d0 = .ok d →
      (∀ td ∈ d.tableDiffs.alters, plain ((SchemaGen.tableGen d).alter td)) ∧
      ∀ run : GraphRun opts d r, plain (orderStatements run.graph)) :
    plain (generateMigrationStatements r old new opts) := by
  refine plain_bind (plain_schemaDiff _ _) fun d0 h0 => plain_bind ?_ fun d h1 => ?_
  · unfold transformDiff
    plains
  · obtain ⟨h2, h3⟩ := h d0 d h0 h1
    refine plain_bind (x := SchemaGen.alter opts d (GenState.init r)) ?_ fun p _ => (by cases p; exact plain_pure _)
    intro e he
    unfold SchemaGen.alter at he
    cases hg : SchemaGen.graphs opts d (GenState.init r) with
    | error y =>
      refine plain_graphs opts d h2 (GenState.init r) e ?_
      have : (SchemaGen.alter opts d) (GenState.init r) = .error y := by
        show (SchemaGen.graphs opts d (GenState.init r) >>= _) = _
        rw [hg]; rfl
      have := this.symm.trans he
      rw [hg]
      cases this
      rfl
    | ok q =>
      obtain ⟨res, st⟩ := q
      obtain ⟨run, hr⟩ := graphs_run hg
      have hp := h3 run
      rw [hr] at hp
      have : (SchemaGen.alter opts d) (GenState.init r) = (do
          let ordered ← liftM (orderStatements res.2)
          return SchemaGen.assemble res.1 ordered : GenM (List Statement)) st := by
        show (SchemaGen.graphs opts d (GenState.init r) >>= _) = _
        rw [hg]; rfl
      exact plain_bind (plain_lift hp) (fun _ _ => plain_pure _) st e (this.symm.trans he)

end Verif
