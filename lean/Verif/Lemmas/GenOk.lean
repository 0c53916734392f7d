import Verif.Lemmas.Gen

/-!
# Successful runs of single generators
-/

namespace Verif

theorem ite_error_ok {α : Type} {c : Prop} [Decidable c] {e : Err} {x : Except Err α} {a : α} :
    (if c then .error e else x) = .ok a ↔ ¬ c ∧ x = .ok a := by
  by_cases hc : c <;> simp [hc]

/-- a constraint that becomes valid -/
def CheckGen.becomesValid (d : OldNew CheckConstraint) : Bool := !d.old.isValid && d.new.isValid

theorem CheckGen.alter_ok {g : CheckGen} {d : OldNew CheckConstraint} {l : List Statement} (h : g.alter d = .ok l) :
    ({ d.old with
        isValid := if CheckGen.becomesValid d then d.new.isValid else d.old.isValid
        keyColumns := sortStrings d.old.keyColumns } : CheckConstraint) =
      { d.new with keyColumns := sortStrings d.new.keyColumns } ∧
    d.old.dependsOnFunctions = [] ∧ d.new.dependsOnFunctions = [] ∧
    l = if CheckGen.becomesValid d then [validateConstraintStatement g.tableName (escapeIdentifier d.new.name)] else [] := by
  simp only [CheckGen.alter, ite_error_ok, not_not, Except.ok.injEq, not_or] at h
  obtain ⟨h1, ⟨h2, h3⟩, h4⟩ := h
  exact ⟨h1, by simpa using h2, by simpa using h3, h4.symm⟩

theorem CheckGen.add_ok {g : CheckGen} {c : CheckConstraint} {l : List Statement} (h : g.add c = .ok l) :
    c.dependsOnFunctions = [] ∧
    ((c.isValid = false ∨ g.isNewTable = true) ∧ l = [g.createStatement c] ∨
     c.isValid = true ∧ g.isNewTable = false ∧
      l = [g.createStatement { c with isValid := false },
           validateConstraintStatement g.tableName (escapeIdentifier c.name)]) := by
  simp only [CheckGen.add, ite_error_ok] at h
  obtain ⟨h1, h⟩ := h
  refine ⟨by simpa using h1, ?_⟩
  split at h
  · rename_i hc
    cases h
    exact Or.inl ⟨by simpa using hc, rfl⟩
  · rename_i hc
    cases h
    simp only [Bool.or_eq_true, not_or, Bool.not_eq_true', Bool.not_eq_true] at hc
    exact Or.inr ⟨by simpa using hc.1, hc.2, rfl⟩

theorem ColumnGen.alter_ok {t : SQName} {d : ColumnDiff} {l : List Statement} (h : ColumnGen.alter t d = .ok l) :
    d.oldOrdering = d.newOrdering ∧ ∃ ids, ColumnGen.buildUpdateIdentityStatements t d.old d.new = .ok ids ∧
      l = ColumnGen.alterStatements t d ids := by
  simp only [ColumnGen.alter, ite_error_ok, not_not] at h
  obtain ⟨h1, h⟩ := h
  obtain ⟨ids, h2, h⟩ := except_bind_ok.mp h
  exact ⟨h1, ids, h2, (except_pure_ok.mp h).symm⟩

theorem IndexGen.alter_ok {g : IndexGen} {d : OldNew Index} {l : List Statement} (h : g.alter d = .ok l) :
    ∃ part con, g.onPartitionedTable d.new = .ok part ∧
      IndexGen.constraintStatements d.new d.old.constraint d.new.constraint = .ok con ∧
      l = con ++ (match d.old.parentIdx, d.new.parentIdx with
        | none, some p => [IndexGen.buildAttachIndex d.new p]
        | _, _ => []) := by
  unfold IndexGen.alter at h
  obtain ⟨part, h1, h⟩ := except_bind_ok.mp h
  obtain ⟨con, h2, h⟩ := except_bind_ok.mp h
  simp only [ite_error_ok] at h
  exact ⟨part, con, h1, h2, (Except.ok.inj h.2).symm⟩

theorem SequenceGen.alter_ok {d : OldNew Sequence} {l : List Statement} (h : SequenceGen.alter d = .ok l) :
    l = if SequenceGen.differs d.old d.new then [stmt (.alterSequence d.new)] else [] := by
  simp only [SequenceGen.alter, ite_error_ok] at h
  exact (Except.ok.inj h.2).symm

/-- the statement of a policy alteration -/
def PolicyGen.alterStatement (g : PolicyGen) (d : OldNew Policy) : Statement :=
  stmt (.alterPolicy g.table.name d.new.escapedName
      (if d.old.appliesTo ≠ d.new.appliesTo then some d.new.appliesTo else none)
      (if d.old.usingExpression ≠ d.new.usingExpression ∧ d.new.usingExpression ≠ "" then some d.new.usingExpression else none)
      (if d.old.checkExpression ≠ d.new.checkExpression ∧ d.new.checkExpression ≠ "" then some d.new.checkExpression else none))
    [.authzUpdate]

theorem PolicyGen.alter_ok {g : PolicyGen} {d : OldNew Policy} {l : List Statement} (h : g.alter d = .ok l) :
    ({ d.old with
        appliesTo := if d.old.appliesTo ≠ d.new.appliesTo then d.new.appliesTo else d.old.appliesTo
        usingExpression := if d.old.usingExpression ≠ d.new.usingExpression ∧ d.new.usingExpression ≠ "" then
          d.new.usingExpression else d.old.usingExpression
        checkExpression := if d.old.checkExpression ≠ d.new.checkExpression ∧ d.new.checkExpression ≠ "" then
          d.new.checkExpression else d.old.checkExpression
        columns := d.new.columns } : Policy) = d.new ∧
    ((d.old.appliesTo = d.new.appliesTo ∧
        ¬ (d.old.usingExpression ≠ d.new.usingExpression ∧ d.new.usingExpression ≠ "") ∧
        ¬ (d.old.checkExpression ≠ d.new.checkExpression ∧ d.new.checkExpression ≠ "") ∧ l = []) ∨
      l = [g.alterStatement d]) := by
  simp only [PolicyGen.alter, ite_error_ok] at h
  obtain ⟨h1, h2⟩ := h
  refine ⟨not_not.mp h1, ?_⟩
  by_cases hc : ¬ d.old.appliesTo ≠ d.new.appliesTo ∧ ¬ (d.old.usingExpression ≠ d.new.usingExpression ∧
    d.new.usingExpression ≠ "") ∧ ¬ (d.old.checkExpression ≠ d.new.checkExpression ∧ d.new.checkExpression ≠ "")
  · rw [if_pos hc] at h2
    exact Or.inl ⟨not_not.mp hc.1, hc.2.1, hc.2.2, (Except.ok.inj h2).symm⟩
  · rw [if_neg hc] at h2
    exact Or.inr (Except.ok.inj h2).symm

end Verif
