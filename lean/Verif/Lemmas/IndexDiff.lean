import Verif.Lemmas.DiffRun
import Verif.Lemmas.GenOk

/-!
# The diff of indexes
-/

namespace Verif

/-- the old index as used by the generators differs from the fetched one in its constraint only -/
theorem buildIndexDiffAux_some {cfg : IndexDiffConfig} : ∀ {fuel : Nat} {seen : List String} {o n o' : Index} {r : Bool},
    buildIndexDiffAux cfg fuel seen o n = .ok (some (o', r)) →
    ∃ part, isIndexOnPartitionedTable cfg.newSchemaTablesByName n = .ok part ∧
      cfg.addedTablesByName.has n.owningRelName.getName = false ∧
      o' = o.afterDiff part n ∧ r = o.recreates part n := by
  intro fuel seen o n o' r h
  cases fuel with
  | zero => cases h
  | succ fuel =>
    unfold buildIndexDiffAux at h
    rw [ite_error_ok] at h
    obtain ⟨_, h⟩ := h
    split at h
    · cases h
    · rename_i hadd
      obtain ⟨pr, _, h⟩ := except_bind_ok.mp h
      split at h
      · cases h
      · obtain ⟨part, h1, h⟩ := except_bind_ok.mp h
        have := except_pure_ok.mp h
        simp only [Option.some.injEq, Prod.mk.injEq] at this
        exact ⟨part, h1, by simpa using hadd, this.1.symm, this.2.symm⟩

theorem Index.afterDiff_eq (part : Bool) (o n : Index) : ∃ c, o.afterDiff part n = { o with constraint := c } := by
  unfold Index.afterDiff
  split
  · exact ⟨_, rfl⟩
  · exact ⟨o.constraint, rfl⟩

theorem effectiveOldIndex_eq (cfg : IndexDiffConfig) (ns : List Index) (o : Index) :
    ∃ c, effectiveOldIndex cfg ns o = { o with constraint := c } := by
  unfold effectiveOldIndex
  split
  · exact ⟨o.constraint, rfl⟩
  · split
    · rename_i o' r h
      obtain ⟨part, _, _, e, _⟩ := buildIndexDiffAux_some h
      rw [e]; exact Index.afterDiff_eq _ _ _
    · exact ⟨o.constraint, rfl⟩

@[simp] theorem effectiveOldIndex_name (cfg : IndexDiffConfig) (ns : List Index) (o : Index) :
    Obj.getName (effectiveOldIndex cfg ns o) = Obj.getName o := by
  obtain ⟨c, e⟩ := effectiveOldIndex_eq cfg ns o
  rw [e]; rfl

/-- a deleted index is an old index, up to its constraint -/
theorem indexDiff_deletes_mem {cfg : IndexDiffConfig} {old new : List Index} {r : ListDiff Index (OldNew Index)}
    (h : indexListDiff cfg old new = .ok r) {i : Index} (hi : i ∈ r.deletes) :
    ∃ i0 ∈ old, i = effectiveOldIndex cfg new i0 ∧ ∃ c, i = { i0 with constraint := c } := by
  have := diffLists_deletes_mem h hi
  obtain ⟨i0, h0, e⟩ := List.mem_map.mp this
  obtain ⟨c, e'⟩ := effectiveOldIndex_eq cfg new i0
  exact ⟨i0, h0, e.symm, c, by rw [← e, e']⟩

theorem indexDiff_adds_mem {cfg : IndexDiffConfig} {old new : List Index} {r : ListDiff Index (OldNew Index)}
    (h : indexListDiff cfg old new = .ok r) {i : Index} (hi : i ∈ r.adds) : i ∈ new := diffLists_adds_mem h hi

/-! ### statements of the index generator -/

/-- a statement with or without its hazards -/
def stripIf (b : Bool) (s : Statement) : Statement := if b then { s with hazards := [] } else s

theorem IndexGen.add_mem {g : IndexGen} {i : Index} {l : List Statement} (h : g.add i = .ok l) {s : Statement}
    (hs : s ∈ l) : ∃ part, g.onPartitionedTable i = .ok part ∧ i.isInvalid = false ∧
      ∃ s0, s = stripIf (g.wasOwningRelationAdded i) s0 ∧
      ((∃ c, part = true ∧ i.constraint = some c ∧
          s0 = stmt (.addConstraintOnly i.owningRelName c.escapedConstraintName c.constraintDef)) ∨
       (IndexGen.buildCreateIndexStatement i (!part && !g.planOptions.noConcurrentIndexOps) part = .ok s0) ∨
       (∃ c ty, i.constraint = some c ∧ constraintTypeAsSQL c.type = .ok ty ∧
          s0 = stmt (.alterTable i.owningRelName (.addUsingIndex c.escapedConstraintName ty i.sqName.escapedName))) ∨
       (∃ p, i.parentIdx = some p ∧ g.isPartitionAlreadyAttached i.owningRelName = true ∧
          s0 = IndexGen.buildAttachIndex i p)) := by
  unfold IndexGen.add at h
  obtain ⟨l0, h1, h⟩ := except_bind_ok.mp h
  have hl := except_pure_ok.mp h
  have key : ∃ s0 ∈ l0, s = stripIf (g.wasOwningRelationAdded i) s0 := by
    rw [← hl] at hs
    unfold stripIf
    split at hs
    · rename_i hw
      simp only [stripMigrationHazards, List.mem_map] at hs
      obtain ⟨a, ha, rfl⟩ := hs
      exact ⟨a, ha, by rw [if_pos hw]⟩
    · rename_i hw
      exact ⟨s, hs, by rw [if_neg hw]⟩
  obtain ⟨s0, hs0, e⟩ := key
  unfold IndexGen.addIdxStmtsWithHazards at h1
  rw [ite_error_ok] at h1
  obtain ⟨hinv, h1⟩ := h1
  obtain ⟨part, h2, h1⟩ := except_bind_ok.mp h1
  refine ⟨part, h2, by simpa using hinv, s0, e, ?_⟩
  split at h1
  · rename_i c hc
    cases h1
    exact Or.inl ⟨c, rfl, hc, List.mem_singleton.mp hs0⟩
  · unfold IndexGen.createStatements at h1
    obtain ⟨cr, h3, h1⟩ := except_bind_ok.mp h1
    obtain ⟨con, h4, h1⟩ := except_bind_ok.mp h1
    have := except_pure_ok.mp h1
    subst this
    simp only [List.mem_cons, List.mem_append] at hs0
    rcases hs0 with rfl | hs0 | hs0
    · exact Or.inr (Or.inl h3)
    · right; right; left
      unfold IndexGen.constraintStatements at h4
      split at h4
      · rename_i c _ hc
        obtain ⟨s', h5, h4⟩ := except_bind_ok.mp h4
        obtain ⟨ty, h6, h5⟩ := except_bind_ok.mp h5
        cases h4; cases h5
        exact ⟨c, ty, hc, h6, List.mem_singleton.mp hs0⟩
      · cases h4; cases hs0
    · right; right; right
      split at hs0
      · rename_i p hp
        split at hs0
        · rename_i ha
          exact ⟨p, hp, ha, List.mem_singleton.mp hs0⟩
        · cases hs0
      · cases hs0

theorem IndexGen.delete_mem {g : IndexGen} {i : Index} {l : List Statement} (h : g.delete i = .ok l) {s : Statement}
    (hs : s ∈ l) : g.wasOwningRelationDeleted i = false ∧ i.parentIdx = none ∧
      ((∃ c name, (i.constraint = some c ∧ (name = c.escapedConstraintName ∨
          ∃ m, g.renames.get? (Obj.getName i) = some m ∧ name = escapeIdentifier m)) ∧
          s = stmt (.alterTable i.owningRelName (.dropConstraint name)) [.acquiresAccessExclusiveLock, .indexDropped]) ∨
       (i.constraint = none ∧ ∃ part, g.onPartitionedTable i = .ok part ∧
          s = if part || g.planOptions.noConcurrentIndexOps then
              stmt (.dropIndex (g.currentName i) false) [.acquiresAccessExclusiveLock, .indexDropped]
            else stmt (.dropIndex (g.currentName i) true) [.indexDropped] statementTimeoutConcurrentIndexDrop)) := by
  unfold IndexGen.delete at h
  split at h
  · cases h; cases hs
  · rename_i hdel
    refine ⟨by simpa using hdel, ?_⟩
    split at h
    · split at h
      · split at h
        · cases h
        · cases h; cases hs
      · cases h; cases hs
    · rename_i hp
      refine ⟨hp, ?_⟩
      split at h
      · rename_i c hc
        cases h
        refine Or.inl ⟨c, _, ⟨hc, ?_⟩, List.mem_singleton.mp hs⟩
        split
        · rename_i m hm; exact Or.inr ⟨m, hm, rfl⟩
        · exact Or.inl rfl
      · rename_i hc
        obtain ⟨part, h1, h⟩ := except_bind_ok.mp h
        refine Or.inr ⟨hc, part, h1, ?_⟩
        split at h
        · rename_i hh
          cases h; rw [if_pos hh]; exact List.mem_singleton.mp hs
        · rename_i hh
          cases h; rw [if_neg hh]; exact List.mem_singleton.mp hs

theorem IndexGen.alter_mem {g : IndexGen} {d : OldNew Index} {l : List Statement} (h : g.alter d = .ok l) {s : Statement}
    (hs : s ∈ l) :
    (∃ c ty, d.old.constraint = none ∧ d.new.constraint = some c ∧ constraintTypeAsSQL c.type = .ok ty ∧
      s = stmt (.alterTable d.new.owningRelName (.addUsingIndex c.escapedConstraintName ty d.new.sqName.escapedName))) ∨
    (∃ p, d.old.parentIdx = none ∧ d.new.parentIdx = some p ∧ s = IndexGen.buildAttachIndex d.new p) := by
  obtain ⟨part, con, _, h1, rfl⟩ := IndexGen.alter_ok h
  rcases List.mem_append.mp hs with hs | hs
  · left
    unfold IndexGen.constraintStatements at h1
    split at h1
    · rename_i c hc ho
      obtain ⟨s', h5, h4⟩ := except_bind_ok.mp h1
      obtain ⟨ty, h6, h5⟩ := except_bind_ok.mp h5
      cases h4; cases h5
      exact ⟨c, ty, hc, ho, h6, List.mem_singleton.mp hs⟩
    · cases h1; cases hs
  · right
    split at hs
    · rename_i p h1 h2
      exact ⟨p, h1, h2, List.mem_singleton.mp hs⟩
    · cases hs

/-- whether an index is on a partitioned table, read off the list of tables -/
theorem isIndexOnPartitionedTable_ok {ts : List Table} (hn : (ts.map Obj.getName).Nodup) {i : Index} {part : Bool}
    (h : isIndexOnPartitionedTable (byName ts) i = .ok part) :
    part = true ↔ i.owningRelKind ≠ "m" ∧ ∃ t ∈ ts, t.name.getName = i.owningRelName.getName ∧ t.isPartitioned = true := by
  unfold isIndexOnPartitionedTable at h
  split at h
  · rename_i hm; cases h; simp [hm]
  · rename_i hm
    split at h
    · cases h
    · rename_i t ht
      cases h
      obtain ⟨h1, h2⟩ := byName_get?_some ht
      refine ⟨fun hp => ⟨hm, t, h1, h2, hp⟩, ?_⟩
      rintro ⟨_, t', h3, h4, h5⟩
      have : t = t' := List.inj_on_of_nodup_map hn h1 h3 (h2.trans h4.symm)
      rw [this]; exact h5

end Verif
