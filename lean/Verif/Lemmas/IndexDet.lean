import Verif.Lemmas.IndexDiff

/-!
# The comparison of two indexes: it does not depend on where the recursion comes from, nor on what it wrote before
-/

namespace Verif

theorem parentRecreated_congr {cfg : IndexDiffConfig} {rec : Index → Index → Except Err (Option (Index × Bool))} {o o' n : Index}
    (h : o'.parentIdx = o.parentIdx) : parentRecreated cfg rec o' n = parentRecreated cfg rec o n := by
  unfold parentRecreated
  rw [h]

theorem parentRecreated_det {cfg : IndexDiffConfig} {rec rec' : Index → Index → Except Err (Option (Index × Bool))} {o n : Index}
    (h : ∀ a b x y, rec a b = .ok x → rec' a b = .ok y → x = y) {p q : Bool}
    (h1 : parentRecreated cfg rec o n = .ok p) (h2 : parentRecreated cfg rec' o n = .ok q) : p = q := by
  unfold parentRecreated at h1 h2
  cases ho : o.parentIdx with
  | none =>
    rw [ho] at h1 h2
    cases h1; cases h2; rfl
  | some op =>
    cases hn : n.parentIdx with
    | none =>
      rw [ho, hn] at h1 h2
      cases h1; cases h2; rfl
    | some np =>
      rw [ho, hn] at h1 h2
      dsimp only at h1 h2
      by_cases e : op = np
      · rw [if_pos e] at h1 h2
        cases hg : cfg.oldSchemaIndexesByName.get? np.getName with
        | none => rw [hg] at h1; cases h1
        | some a =>
          rw [hg] at h1 h2
          dsimp only at h1 h2
          cases hg' : cfg.newSchemaIndexesByName.get? np.getName with
          | none => rw [hg'] at h1; cases h1
          | some b =>
            rw [hg'] at h1 h2
            dsimp only at h1 h2
            cases hr : rec a b with
            | error x => rw [hr] at h1; cases h1
            | ok x =>
              cases hr' : rec' a b with
              | error x => rw [hr'] at h2; cases h2
              | ok y =>
                have := h a b x y hr hr'
                subst this
                rw [hr] at h1
                rw [hr'] at h2
                cases x with
                | none => cases h1; cases h2; rfl
                | some x => cases h1; cases h2; rfl
      · rw [if_neg e] at h1 h2
        cases h1; cases h2; rfl

/-- one round of the comparison -/
theorem buildIndexDiffAux_ok {cfg : IndexDiffConfig} {fuel : Nat} {seen : List String} {o n : Index} {x : Option (Index × Bool)}
    (h : buildIndexDiffAux cfg (fuel + 1) seen o n = .ok x) :
    (cfg.addedTablesByName.has n.owningRelName.getName = true ∧ x = none) ∨
    (cfg.addedTablesByName.has n.owningRelName.getName = false ∧
      ∃ p, parentRecreated cfg (buildIndexDiffAux cfg fuel (Obj.getName n :: seen)) o n = .ok p ∧
        ((p = true ∧ x = none) ∨ (p = false ∧ ∃ part, isIndexOnPartitionedTable cfg.newSchemaTablesByName n = .ok part ∧
          x = some (o.afterDiff part n, o.recreates part n)))) := by
  unfold buildIndexDiffAux at h
  rw [ite_error_ok] at h
  obtain ⟨_, h⟩ := h
  split at h
  · rename_i ha
    cases h
    exact Or.inl ⟨ha, rfl⟩
  · rename_i ha
    obtain ⟨p, hp, h⟩ := except_bind_ok.mp h
    refine Or.inr ⟨by simpa using ha, p, hp, ?_⟩
    split at h
    · rename_i e
      cases h
      exact Or.inl ⟨e, rfl⟩
    · rename_i e
      obtain ⟨part, h1, h⟩ := except_bind_ok.mp h
      exact Or.inr ⟨by simpa using e, part, h1, (except_pure_ok.mp h).symm⟩

/-- the result does not depend on the fuel and on the indexes already seen -/
theorem buildIndexDiffAux_det {cfg : IndexDiffConfig} : ∀ {fuel fuel' : Nat} {seen seen' : List String} {o n : Index}
    {x y : Option (Index × Bool)}, buildIndexDiffAux cfg fuel seen o n = .ok x →
    buildIndexDiffAux cfg fuel' seen' o n = .ok y → x = y := by
  intro fuel
  induction fuel with
  | zero => intro _ _ _ _ _ _ _ h; cases h
  | succ fuel ih =>
    intro fuel' seen seen' o n x y h h'
    cases fuel' with
    | zero => cases h'
    | succ fuel' =>
      rcases buildIndexDiffAux_ok h with ⟨a1, rfl⟩ | ⟨a1, p, hp, a2⟩ <;>
        rcases buildIndexDiffAux_ok h' with ⟨b1, rfl⟩ | ⟨b1, q, hq, b2⟩
      · rfl
      · rw [a1] at b1; cases b1
      · rw [a1] at b1; cases b1
      · have := parentRecreated_det (fun a b x y e e' => ih e e') hp hq
        subst this
        rcases a2 with ⟨e, rfl⟩ | ⟨e, part, hpart, rfl⟩ <;> rcases b2 with ⟨e', rfl⟩ | ⟨e', part', hpart', rfl⟩
        · rfl
        · rw [e] at e'; cases e'
        · rw [e] at e'; cases e'
        · rw [hpart] at hpart'
          cases hpart'; rfl

theorem Index.afterDiff_parent (part : Bool) (o n : Index) : (o.afterDiff part n).parentIdx = o.parentIdx := by
  obtain ⟨c, e⟩ := Index.afterDiff_eq part o n
  rw [e]

theorem Index.afterDiff_recreates (part : Bool) (o n : Index) : (o.afterDiff part n).recreates part n = o.recreates part n := by
  by_cases h : (!part && o.losesLocal n) = true
  · obtain ⟨hp, hl⟩ := Bool.and_eq_true_iff.mp h
    have hp : part = false := by simpa using hp
    subst hp
    obtain ⟨c, hc⟩ : ∃ c, o.constraint = some c := by
      unfold Index.losesLocal at hl
      cases hc : o.constraint with
      | none => rw [hc] at hl; cases hl
      | some c => exact ⟨c, rfl⟩
    have hl' : (o.setNotLocal).losesLocal n = false := by
      unfold Index.losesLocal Index.setNotLocal
      rw [hc]
      cases hn : n.constraint with
      | none => simp
      | some c' => simp
    unfold Index.afterDiff
    rw [if_pos h]
    unfold Index.recreates
    rw [hl', hl]
    simp only [Bool.not_false, Bool.true_and, Bool.false_and, if_true, Bool.false_eq_true, if_false]
    have e1 : o.setNotLocal.constraint ≠ none := by simp [Index.setNotLocal, hc]
    have e2 : o.constraint ≠ none := by simp [hc]
    have e3 : o.setNotLocal.parentIdx = o.parentIdx := rfl
    simp only [e1, e2, e3, decide_false, Bool.false_and, Bool.false_eq_true, if_false]
    by_cases hpp : o.parentIdx = none
    · rw [if_pos hpp, if_pos hpp]; rfl
    · rw [if_neg hpp, if_neg hpp]
  · unfold Index.afterDiff
    rw [if_neg h]

/-- what the comparison writes through the pointer changes none of its results -/
theorem buildIndexDiffAux_again {cfg : IndexDiffConfig} {fuel : Nat} {seen : List String} {o n o' : Index} {r : Bool}
    (h : buildIndexDiffAux cfg fuel seen o n = .ok (some (o', r))) {y : Option (Index × Bool)}
    (h' : buildIndexDiffAux cfg fuel seen o' n = .ok y) : ∃ o'', y = some (o'', r) := by
  cases fuel with
  | zero => cases h
  | succ fuel =>
    rcases buildIndexDiffAux_ok h with ⟨_, a⟩ | ⟨a1, p, hp, ⟨_, a⟩ | ⟨rfl, part, hpart, a⟩⟩
    · cases a
    · cases a
    · cases a
      rcases buildIndexDiffAux_ok h' with ⟨b1, _⟩ | ⟨b1, q, hq, b2⟩
      · rw [a1] at b1; cases b1
      · rw [parentRecreated_congr (Index.afterDiff_parent _ _ _), hp] at hq
        cases hq
        rcases b2 with ⟨e, _⟩ | ⟨_, part', hpart', rfl⟩
        · cases e
        · rw [hpart] at hpart'
          cases hpart'
          exact ⟨_, by rw [Index.afterDiff_recreates]⟩

/-- the comparison with the index as it is after all comparisons gives what the recursion got -/
theorem buildIndexDiff_effective {cfg : IndexDiffConfig} {ns : List Index} {o n : Index}
    (hn : ns.find? (fun x => Obj.getName x = Obj.getName o) = some n) {fuel : Nat} {seen : List String} {o' : Index} {r : Bool}
    (h : buildIndexDiffAux cfg fuel seen o n = .ok (some (o', r))) {y : Option (Index × Bool)}
    (h' : buildIndexDiff cfg (effectiveOldIndex cfg ns o) n = .ok y) : ∃ o'', y = some (o'', r) := by
  unfold effectiveOldIndex at h'
  rw [hn] at h'
  dsimp only at h'
  cases hb : buildIndexDiff cfg o n with
  | error e =>
    rw [hb] at h'
    dsimp only at h'
    rw [hb] at h'
    cases h'
  | ok x =>
    have := buildIndexDiffAux_det h hb
    subst this
    rw [hb] at h'
    exact buildIndexDiffAux_again hb h'

end Verif
