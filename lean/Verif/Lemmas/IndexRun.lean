import Verif.Lemmas.IndexOrder

/-!
# The statements of a plan about one index, and what they do
-/

namespace Verif

open Spec

/-! ### what the generator of indexes writes -/

/-- the name an index has when it is dropped -/
def IndexGen.calledNow (g : IndexGen) (o : Index) : String := (g.renames.get? (Obj.getName o)).getD o.name

/-- an index that is no part of another one is dropped with its relation, or by its name -/
theorem IndexGen.delete_cases {g : IndexGen} {o : Index} {l : List Statement} (h : g.delete o = .ok l) (hp : o.parentIdx = none)
    (hc : ConstraintNamed o) : (g.wasOwningRelationDeleted o = true ∧ l = []) ∨
      (g.wasOwningRelationDeleted o = false ∧ ∃ e, l = [e] ∧
        ((o.constraint = none ∧ ∃ b, e.ddl = .dropIndex ⟨o.owningRelName.schemaName, escapeIdentifier (g.calledNow o)⟩ b) ∨
         (o.constraint ≠ none ∧ e.ddl = .alterTable o.owningRelName (.dropConstraint (escapeIdentifier (g.calledNow o)))))) := by
  unfold IndexGen.delete at h
  cases hd : g.wasOwningRelationDeleted o with
  | true =>
    rw [hd, if_pos rfl] at h
    exact Or.inl ⟨rfl, (Except.ok.inj h).symm⟩
  | false =>
    rw [hd, if_neg (by simp), hp] at h
    dsimp only at h
    refine Or.inr ⟨rfl, ?_⟩
    cases hcc : o.constraint with
    | some c =>
      rw [hcc] at h
      dsimp only at h
      cases h
      refine ⟨_, rfl, Or.inr ⟨by simp, ?_⟩⟩
      unfold IndexGen.calledNow
      show Ddl.alterTable _ (.dropConstraint _) = _
      cases hr : g.renames.get? (Obj.getName o) with
      | none => rw [hc c hcc]; rfl
      | some m => rfl
    | none =>
      rw [hcc] at h
      dsimp only at h
      obtain ⟨part, _, h⟩ := except_bind_ok.mp h
      have hcur : g.currentName o = ⟨o.owningRelName.schemaName, escapeIdentifier (g.calledNow o)⟩ := by
        unfold IndexGen.currentName IndexGen.calledNow
        cases hr : g.renames.get? (Obj.getName o) <;> rfl
      rw [hcur] at h
      split at h
      · cases h
        exact ⟨_, rfl, Or.inl ⟨rfl, _, rfl⟩⟩
      · cases h
        exact ⟨_, rfl, Or.inl ⟨rfl, _, rfl⟩⟩

theorem constraintKind_of {ty sql : String} (h : constraintTypeAsSQL ty = .ok sql) : constraintKind sql = some ty := by
  unfold constraintTypeAsSQL at h
  split at h
  · rename_i e; cases h; rw [e]; rfl
  · split at h
    · rename_i e; cases h; rw [e]; rfl
    · cases h

/-- how a new index is built -/
theorem IndexGen.add_cases {g : IndexGen} {i : Index} {l : List Statement} (h : g.add i = .ok l) (hp : i.parentIdx = none)
    (hc : ConstraintNamed i) :
    (∃ c, i.constraint = some c ∧ g.onPartitionedTable i = .ok true ∧
      l.map (·.ddl) = [.addConstraintOnly i.owningRelName (escapeIdentifier i.name) c.constraintDef]) ∨
    (∃ b text, l.map (·.ddl) = .createIndex i b text :: (match i.constraint with
      | none => []
      | some c => [.alterTable i.owningRelName (.addUsingIndex (escapeIdentifier i.name)
          (if c.type = "p" then "PRIMARY KEY" else "UNIQUE") (escapeIdentifier i.name))]) ∧
      ∀ c, i.constraint = some c → c.type = "p" ∨ c.type = "u") := by
  unfold IndexGen.add at h
  obtain ⟨l0, h1, h⟩ := except_bind_ok.mp h
  have hl := except_pure_ok.mp h
  have hm : l.map (·.ddl) = l0.map (·.ddl) := by
    rw [← hl]
    split
    · exact strip_ddl l0
    · rfl
  rw [hm]
  unfold IndexGen.addIdxStmtsWithHazards at h1
  rw [ite_error_ok] at h1
  obtain ⟨part, h2, h1⟩ := except_bind_ok.mp h1.2
  split at h1
  · rename_i c hcc
    cases h1
    rw [← hc c hcc]
    exact Or.inl ⟨c, hcc, h2, rfl⟩
  · refine Or.inr ?_
    unfold IndexGen.createStatements at h1
    obtain ⟨cr, h3, h1⟩ := except_bind_ok.mp h1
    obtain ⟨con, h4, h1⟩ := except_bind_ok.mp h1
    have := except_pure_ok.mp h1
    rw [hp] at this
    subst this
    obtain ⟨b, text, hcr⟩ : ∃ b text, cr.ddl = .createIndex i b text := by
      unfold IndexGen.buildCreateIndexStatement at h3
      split at h3
      · cases h3; exact ⟨_, _, rfl⟩
      · obtain ⟨text, _, h3⟩ := except_bind_ok.mp h3
        cases h3; exact ⟨_, _, rfl⟩
    refine ⟨b, text, ?_, ?_⟩
    · rw [List.map_cons, hcr, List.append_nil]
      congr 1
      cases hcc : i.constraint with
      | none =>
        rw [hcc] at h4
        cases h4; rfl
      | some c =>
        rw [hcc] at h4
        obtain ⟨s, h5, h4⟩ := except_bind_ok.mp h4
        cases h4
        obtain ⟨ty, h6, h5⟩ := except_bind_ok.mp h5
        cases h5
        have e : ty = if c.type = "p" then "PRIMARY KEY" else "UNIQUE" := by
          unfold constraintTypeAsSQL at h6
          split at h6
          · rename_i e; cases h6; rw [if_pos e]
          · rename_i e
            split at h6
            · cases h6; rw [if_neg e]
            · cases h6
        show [Ddl.alterTable i.owningRelName (.addUsingIndex c.escapedConstraintName ty i.sqName.escapedName)] =
          [Ddl.alterTable i.owningRelName (.addUsingIndex (escapeIdentifier i.name)
            (if c.type = "p" then "PRIMARY KEY" else "UNIQUE") (escapeIdentifier i.name))]
        rw [← e, hc c hcc]; rfl
    · intro c hcc
      rw [hcc] at h4
      obtain ⟨s, h5, h4⟩ := except_bind_ok.mp h4
      obtain ⟨ty, h6, h5⟩ := except_bind_ok.mp h5
      unfold constraintTypeAsSQL at h6
      split at h6
      · rename_i e; exact Or.inl e
      · split at h6
        · rename_i e; exact Or.inr e
        · cases h6

/-- an index that stays: at most it backs a constraint now -/
theorem IndexGen.alter_cases {g : IndexGen} {x : OldNew Index} {l : List Statement} (h : g.alter x = .ok l)
    (hp : x.new.parentIdx = none) (hc : ConstraintNamed x.new) :
    x.new.owningRelKind = x.old.owningRelKind ∧ x.new.owningRelName = x.old.owningRelName ∧ x.new.columns = x.old.columns ∧
      x.new.getIndexDefStmt = x.old.getIndexDefStmt ∧
    ((x.new.constraint = x.old.constraint ∧ l = []) ∨
     (x.old.constraint = none ∧ ∃ c ty, x.new.constraint = some c ∧ constraintTypeAsSQL c.type = .ok ty ∧
      l.map (·.ddl) = [.alterTable x.new.owningRelName (.addUsingIndex (escapeIdentifier x.new.name) ty
        (escapeIdentifier x.new.name))])) := by
  unfold IndexGen.alter at h
  obtain ⟨part, h1, h⟩ := except_bind_ok.mp h
  obtain ⟨con, h2, h⟩ := except_bind_ok.mp h
  rw [ite_error_ok] at h
  obtain ⟨he, h⟩ := h
  have he := not_not.mp he
  have hl := (Except.ok.inj h).symm
  have hl : l = con := by
    rw [hl, hp]; cases x.old.parentIdx <;> simp
  subst hl
  have f : x.new.owningRelKind = x.old.owningRelKind ∧ x.new.owningRelName = x.old.owningRelName ∧
      x.new.columns = x.old.columns ∧ x.new.getIndexDefStmt = x.old.getIndexDefStmt ∧
      (¬ (x.old.constraint = none ∧ x.new.constraint.isSome = true) → x.new.constraint = x.old.constraint) := by
    refine ⟨?_, ?_, ?_, ?_, ?_⟩
    · have := congrArg Index.owningRelKind he
      split_ifs at this <;> exact this.symm
    · have := congrArg Index.owningRelName he
      split_ifs at this <;> exact this.symm
    · have := congrArg Index.columns he
      split_ifs at this <;> exact this.symm
    · have := congrArg Index.getIndexDefStmt he
      split_ifs at this <;> exact this.symm
    · intro hne
      have hb : (decide (x.old.constraint = none) && x.new.constraint.isSome) = false := by
        rw [Bool.eq_false_iff]
        intro hb
        rw [Bool.and_eq_true, decide_eq_true_iff] at hb
        exact hne hb
      rw [hb] at he
      have := congrArg Index.constraint he
      split_ifs at this with h1 h2 h3 h4 <;> first | exact this.symm | contradiction
  refine ⟨f.1, f.2.1, f.2.2.1, f.2.2.2.1, ?_⟩
  cases ho : x.old.constraint with
  | some c0 =>
    left
    refine ⟨by rw [← ho]; exact f.2.2.2.2 (by rw [ho]; simp), ?_⟩
    rw [ho] at h2
    cases h2; rfl
  | none =>
    cases hn : x.new.constraint with
    | none =>
      rw [ho, hn] at h2
      cases h2
      exact Or.inl ⟨rfl, rfl⟩
    | some c =>
      right
      rw [ho, hn] at h2
      obtain ⟨s, h5, h2⟩ := except_bind_ok.mp h2
      cases h2
      obtain ⟨ty, h6, h5⟩ := except_bind_ok.mp h5
      cases h5
      refine ⟨rfl, c, ty, rfl, h6, ?_⟩
      show [Ddl.alterTable _ (.addUsingIndex c.escapedConstraintName ty _)] = _
      rw [hc c hn]; rfl

/-! ### which of these statements a plan has -/

section
variable {opts : PlanOptions} {old new : Schema} {d : SchemaDiff} {r r' : Rand} {stmts : List Statement} {sch n : String}
  {tx : IndexTexts}

theorem index_key {cfg : IndexDiffConfig} {o x : Index} {j i : Nat} {y : OldNew Index} (_ : Obj.getName o = Obj.getName x)
    (h : indexCompare cfg o x j i = .ok (y, false)) : Obj.getName y.new = Obj.getName x := by
  rw [(indexCompare_altered h).1]

/-- what is decided about an index -/
theorem DiffRun.index_decision (dr : DiffRun opts old new d) (hI : (new.indexes.map Obj.getName).Nodup) (q : String) :
    Decision (old.indexes.map (effectiveOldIndex (indexDiffConfig old new dr.td0.adds) new.indexes)) new.indexes
      (indexCompare (indexDiffConfig old new dr.td0.adds)) d.indexDiffs q ∧
      (d.indexDiffs.adds.map Obj.getName).Nodup ∧ (d.indexDiffs.deletes.map Obj.getName).Nodup ∧
      (d.indexDiffs.alters.map fun x : OldNew Index => Obj.getName x.new).Nodup ∧
      (q ∈ d.indexDiffs.adds.map Obj.getName → q ∉ d.indexDiffs.alters.map fun x : OldNew Index => Obj.getName x.new) ∧
      (q ∈ d.indexDiffs.deletes.map Obj.getName → q ∉ d.indexDiffs.alters.map fun x : OldNew Index => Obj.getName x.new) ∧
      (q ∈ (d.indexDiffs.alters.map fun x : OldNew Index => Obj.getName x.new) →
        q ∈ (old.indexes.map (effectiveOldIndex (indexDiffConfig old new dr.td0.adds) new.indexes)).map Obj.getName ∧
        q ∈ new.indexes.map Obj.getName) :=
  diffLists_decision (key := fun x : OldNew Index => Obj.getName x.new) (indexListDiff_eq _ _ _ ▸ dr.hindexes) hI
    (fun _ _ _ _ _ h h' => index_key h h') q

/-- statements about the index `q` -/
theorem PlanRun.index_focus (dr : DiffRun opts old new d) (run : PlanRun opts d r r' stmts)
    (hI : (new.indexes.map Obj.getName).Nodup) {q : String} {k : DiffType} {P : Statement → Bool}
    (hid : ∀ id s, GraphShape opts d run.s3 id s → P s = true → id = ⟨"index", q, k⟩)
    (hout : ∀ s : Statement, s.ddl.IsOuter → P s = false) :
    ∃ A B C, stmts.filter P = A ++ B ++ C ∧
      (q ∉ d.indexDiffs.adds.map Obj.getName → A = []) ∧
      (q ∉ d.indexDiffs.deletes.map Obj.getName → B = []) ∧
      (q ∉ d.indexDiffs.alters.map (fun x : OldNew Index => Obj.getName x.new) → C = []) ∧
      (∀ x ∈ d.indexDiffs.adds, Obj.getName x = q → ∃ l, (SchemaGen.indexGen opts d run.s3).add x = .ok l ∧ A = l.filter P) ∧
      (∀ x ∈ d.indexDiffs.deletes, Obj.getName x = q → ∃ l, (SchemaGen.indexGen opts d run.s3).delete x = .ok l ∧ B = l.filter P) ∧
      (∀ x ∈ d.indexDiffs.alters, Obj.getName x.new = q →
        ∃ l, (SchemaGen.indexGen opts d run.s3).alter x = .ok l ∧ C = l.filter P) ∧
      (k = .addAlter → B = []) ∧ (k = .delete → A = [] ∧ C = []) := by
  obtain ⟨_, n1, n2, n3, _⟩ := dr.index_decision hI q
  have shape : ∀ (v : SqlVertex Statement), v ∈ run.indexes.vertices → ∀ s ∈ v.statements, P s = true → v.id = ⟨"index", q, k⟩ :=
    fun v hv s hs hP => hid _ _ (run.vertex_shape (run.mem_vertices (p := run.indexes) (by simp) hv) hs) hP
  have hadd : ∀ o ∈ d.indexDiffs.adds, ∀ l, (SchemaGen.indexGen opts d run.s3).add o = .ok l →
      Obj.getName o ≠ q ∨ k = .delete → l.filter P = [] := by
    intro o ho l hl hne
    obtain ⟨v, hv, hvid, h⟩ := vertex_of_add (m := Except Err) (g := (SchemaGen.indexGen opts d run.s3).legacy) run.hindexes ho
    have h : (SchemaGen.indexGen opts d run.s3).add o = .ok v.statements := h
    rw [hl] at h
    cases h
    rw [List.filter_eq_nil_iff]
    intro s hs hP
    have e := shape v hv s hs hP
    rw [hvid] at e
    injection (e : indexVertexId o.sqName .addAlter = ⟨"index", q, k⟩) with _ e1 e2
    rcases hne with hne | rfl
    · exact hne e1
    · cases e2
  have hdel : ∀ o ∈ d.indexDiffs.deletes, ∀ l, (SchemaGen.indexGen opts d run.s3).delete o = .ok l →
      Obj.getName o ≠ q ∨ k = .addAlter → l.filter P = [] := by
    intro o ho l hl hne
    obtain ⟨v, hv, hvid, h⟩ := vertex_of_delete (m := Except Err) (g := (SchemaGen.indexGen opts d run.s3).legacy) run.hindexes ho
    have h : (SchemaGen.indexGen opts d run.s3).delete o = .ok v.statements := h
    rw [hl] at h
    cases h
    rw [List.filter_eq_nil_iff]
    intro s hs hP
    have e := shape v hv s hs hP
    rw [hvid] at e
    injection (e : indexVertexId o.sqName .delete = ⟨"index", q, k⟩) with _ e1 e2
    rcases hne with hne | rfl
    · exact hne e1
    · cases e2
  have halt : ∀ o ∈ d.indexDiffs.alters, ∀ l, (SchemaGen.indexGen opts d run.s3).alter o = .ok l →
      Obj.getName o.new ≠ q ∨ k = .delete → l.filter P = [] := by
    intro o ho l hl hne
    obtain ⟨v, hv, hvid, h⟩ := vertex_of_alter (m := Except Err) (g := (SchemaGen.indexGen opts d run.s3).legacy) run.hindexes ho
    have h : (SchemaGen.indexGen opts d run.s3).alter o = .ok v.statements := h
    rw [hl] at h
    cases h
    rw [List.filter_eq_nil_iff]
    intro s hs hP
    have e := shape v hv s hs hP
    rw [hvid] at e
    injection (e : indexVertexId o.new.sqName .addAlter = ⟨"index", q, k⟩) with _ e1 e2
    rcases hne with hne | rfl
    · exact hne e1
    · cases e2
  obtain ⟨A, B, C, e, a1, b1, c1, a2, b2, c2⟩ := legacy_focus (m := Except Err) (g := (SchemaGen.indexGen opts d run.s3).legacy)
    run.hindexes (key := fun x : OldNew Index => Obj.getName x.new) n1 n2 n3 (n := q) (P := P)
    (fun o ho l hl hne => hadd o ho l hl (Or.inl hne)) (fun o ho l hl hne => hdel o ho l hl (Or.inl hne))
    (fun o ho l hl hne => halt o ho l hl (Or.inl hne))
  refine ⟨A, B, C, ?_, a1, b1, c1, a2, b2, c2, ?_, ?_⟩
  · rw [run.part_filter (f := .index) (by simp) hid hout]
    exact e
  · intro hk
    by_cases hq : q ∈ d.indexDiffs.deletes.map Obj.getName
    · obtain ⟨o, ho, eo⟩ := List.mem_map.mp hq
      obtain ⟨l, hl, rfl⟩ := b2 o ho eo
      exact hdel o ho l hl (Or.inr hk)
    · exact b1 hq
  · intro hk
    constructor
    · by_cases hq : q ∈ d.indexDiffs.adds.map Obj.getName
      · obtain ⟨o, ho, eo⟩ := List.mem_map.mp hq
        obtain ⟨l, hl, rfl⟩ := a2 o ho eo
        exact hadd o ho l hl (Or.inr hk)
      · exact a1 hq
    · by_cases hq : q ∈ d.indexDiffs.alters.map (fun x : OldNew Index => Obj.getName x.new)
      · obtain ⟨o, ho, eo⟩ := List.mem_map.mp hq
        obtain ⟨l, hl, rfl⟩ := c2 o ho eo
        exact halt o ho l hl (Or.inr hk)
      · exact c1 hq

/-- the renames of the index `q` -/
theorem PlanRun.rename_focus (dr : DiffRun opts old new d) (run : PlanRun opts d r r' stmts)
    (hI : (new.indexes.map Obj.getName).Nodup) (q : String) :
    (q ∉ d.indexDiffs.adds.map Obj.getName → stmts.filter (fun s : Statement => s.ddl.renamesIndex q) = []) ∧
    ∀ i ∈ d.indexDiffs.adds, Obj.getName i = q →
      ((byName d.old.indexes).get? q = none → stmts.filter (fun s : Statement => s.ddl.renamesIndex q) = []) ∧
      ∀ o, (byName d.old.indexes).get? q = some o →
        ((o.isPk && i.isPk) = true → stmts.filter (fun s : Statement => s.ddl.renamesIndex q) = []) ∧
        ((o.isPk && i.isPk) = false → ∃ m, stmts.filter (fun s : Statement => s.ddl.renamesIndex q) =
          [stmt (.renameIndex i.sqName m)] ∧ run.s3.renames.get? q = some m) := by
  obtain ⟨_, n1, n2, n3, _⟩ := dr.index_decision hI q
  have hadd : ∀ o ∈ d.indexDiffs.adds, ∀ l, yields (RenameGen.add (byName d.old.indexes) o) l →
      (∀ s ∈ l, ∃ m, s = stmt (.renameIndex o.sqName m)) := by
    rintro o ho l ⟨s0, s1, hl⟩ s hs
    unfold RenameGen.add at hl
    cases hg : (byName d.old.indexes).get? (Obj.getName o) with
    | none =>
      rw [hg] at hl
      obtain ⟨rfl, _⟩ := genM_pure_ok.mp hl; cases hs
    | some o' =>
      rw [hg] at hl
      dsimp only at hl
      by_cases hpk : (o'.isPk && o.isPk) = true
      · rw [if_pos hpk] at hl
        obtain ⟨rfl, _⟩ := genM_pure_ok.mp hl; cases hs
      · rw [if_neg hpk] at hl
        obtain ⟨u, s2, h1, hl⟩ := genM_bind_ok.mp hl
        obtain ⟨_, s3, h2, hl⟩ := genM_bind_ok.mp hl
        obtain ⟨rfl, _⟩ := genM_pure_ok.mp hl
        exact ⟨_, List.mem_singleton.mp hs⟩
  have nil : ∀ (o : Index) l, yields (pure [] : GenM (List Statement)) l → l = [] := by
    rintro o l ⟨s0, s1, hl⟩
    exact (genM_pure_ok.mp hl).1.symm
  obtain ⟨A, B, C, e, a1, b1, c1, a2, b2, c2⟩ := legacy_focus (m := GenM) (g := RenameGen.legacy (byName d.old.indexes))
    (yields_of_run run.hrenames) (key := fun x : OldNew Index => Obj.getName x.new) n1 n2 n3 (n := q)
    (P := fun s : Statement => s.ddl.renamesIndex q)
    (by
      intro o ho l hl hne
      rw [List.filter_eq_nil_iff]
      intro s hs hP
      obtain ⟨m, rfl⟩ := hadd o ho l hl s hs
      exact hne (of_decide_eq_true hP))
    (by
      rintro o ho l ⟨s0, s1, hl⟩ hne
      rw [← (genM_pure_ok.mp hl).1]; rfl)
    (by
      rintro o ho l ⟨s0, s1, hl⟩ hne
      rw [← (genM_pure_ok.mp hl).1]; rfl)
  have hB : B = [] := by
    by_cases hq : q ∈ d.indexDiffs.deletes.map Obj.getName
    · obtain ⟨o, ho, eo⟩ := List.mem_map.mp hq
      obtain ⟨l, ⟨s0, s1, hl⟩, rfl⟩ := b2 o ho eo
      rw [← (genM_pure_ok.mp hl).1]; rfl
    · exact b1 hq
  have hC : C = [] := by
    by_cases hq : q ∈ d.indexDiffs.alters.map (fun x : OldNew Index => Obj.getName x.new)
    · obtain ⟨o, ho, eo⟩ := List.mem_map.mp hq
      obtain ⟨l, ⟨s0, s1, hl⟩, rfl⟩ := c2 o ho eo
      rw [← (genM_pure_ok.mp hl).1]; rfl
    · exact c1 hq
  have e : stmts.filter (fun s : Statement => s.ddl.renamesIndex q) = A := by
    rw [run.part_filter (f := .rename) (by simp) (n := q) (k := .addAlter) (fun id s h hs => (h.renamesIndex_id hs).1)
      (fun s hs => by
        cases h : s.ddl.renamesIndex q with
        | false => rfl
        | true => exact absurd hs (renamesIndex_not_outer h))]
    refine Eq.trans e ?_
    rw [hB, hC]; simp
  refine ⟨fun h => e.trans (a1 h), fun i hi ei => ⟨fun hg => ?_, fun o hg => ⟨fun hpk => ?_, fun hpk => ?_⟩⟩⟩
  · obtain ⟨l, ⟨s0, s1, hl⟩, rfl⟩ := a2 i hi ei
    have hl : RenameGen.add (byName d.old.indexes) i s0 = .ok (l, s1) := hl
    unfold RenameGen.add at hl
    rw [ei, hg] at hl
    rw [e, ← (genM_pure_ok.mp hl).1]; rfl
  · obtain ⟨l, ⟨s0, s1, hl⟩, rfl⟩ := a2 i hi ei
    have hl : RenameGen.add (byName d.old.indexes) i s0 = .ok (l, s1) := hl
    unfold RenameGen.add at hl
    rw [ei, hg] at hl
    dsimp only at hl
    rw [if_pos hpk] at hl
    rw [e, ← (genM_pure_ok.mp hl).1]; rfl
  · obtain ⟨l, ⟨s0, s1, hl⟩, rfl⟩ := a2 i hi ei
    have hl : RenameGen.add (byName d.old.indexes) i s0 = .ok (l, s1) := hl
    unfold RenameGen.add at hl
    rw [ei, hg] at hl
    dsimp only at hl
    rw [if_neg (by rw [hpk]; simp)] at hl
    obtain ⟨u, s2, h1, hl⟩ := genM_bind_ok.mp hl
    obtain ⟨_, s3, h2, hl⟩ := genM_bind_ok.mp hl
    have hl := (genM_pure_ok.mp hl).1
    subst hl
    have e2 : stmts.filter (fun s : Statement => s.ddl.renamesIndex q) =
        [stmt (.renameIndex i.sqName (nonConflictingName i.name u))] := by
      rw [e, List.filter_cons]
      exact if_pos (decide_eq_true (p := i.sqName.fq = q) ei)
    refine ⟨_, e2, ?_⟩
    have hmem : stmt (.renameIndex i.sqName (nonConflictingName i.name u)) ∈ stmts := by
      have : stmt (.renameIndex i.sqName (nonConflictingName i.name u)) ∈ stmts.filter (fun s : Statement => s.ddl.renamesIndex q) := by
        rw [e2]; simp
      exact (List.mem_filter.mp this).1
    obtain ⟨i', hi', en, hm⟩ := run.rename_statement n1 hmem rfl
    have : Obj.getName i' = q := (congrArg SQName.fq en).trans ei
    rw [this] at hm
    exact hm

end
end Verif
