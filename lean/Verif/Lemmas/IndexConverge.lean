import Verif.Lemmas.IndexRun

/-!
# The name of an index ends up at the index of the new schema
-/

namespace Verif

open Spec

theorem map_eq_one {α β : Type} {f : α → β} {l : List α} {b : β} (h : l.map f = [b]) : ∃ a, l = [a] ∧ f a = b := by
  cases l with
  | nil => cases h
  | cons a l =>
    cases l with
    | nil => exact ⟨a, rfl, (List.cons.inj h).1⟩
    | cons c l => exact absurd (List.cons.inj h).2 (by simp)

theorem map_eq_two {α β : Type} {f : α → β} {l : List α} {b c : β} (h : l.map f = [b, c]) :
    ∃ x y, l = [x, y] ∧ f x = b ∧ f y = c := by
  cases l with
  | nil => cases h
  | cons a l =>
    obtain ⟨y, rfl, e⟩ := map_eq_one (List.cons.inj h).2
    exact ⟨a, y, rfl, (List.cons.inj h).1, e⟩

section
variable {tx : IndexTexts}

theorem kind_of_type {c : IndexConstraint} (h : c.type = "p" ∨ c.type = "u") :
    constraintKind (if c.type = "p" then "PRIMARY KEY" else "UNIQUE") = some c.type := by
  rcases h with h | h
  · rw [if_pos h, h]; rfl
  · rw [if_neg (by rw [h]; decide), h]; rfl

/-- a constraint is put on the index `q` -/
theorem nameStep_using {x : IndexState} {t : SQName} {n ty k : String} (hk : constraintKind ty = some k) (h1 : x.onView = false)
    (h2 : x.owner = t.fq) (h3 : x.constraint = none) :
    nameStep tx (beside t n) (some x) (.alterTable t (.addUsingIndex n ty n)) = some (some { x with constraint := some k }) := by
  have e : indexEffect tx (beside t n) x (.alterTable t (.addUsingIndex n ty n)) =
      some (some (beside t n, { x with constraint := some k })) := by
    show (if beside t n = beside t n then _ else _) = _
    rw [if_pos rfl, hk]
    exact if_pos ⟨h1, h2, h3⟩
  show (indexEffect tx (beside t n) x (.alterTable t (.addUsingIndex n ty n))).map _ = _
  rw [e]
  exact congrArg some (if_pos rfl)

theorem buildsAt_create {i : Index} {b : Bool} {text : String} :
    BuildsAt tx i.sqName.fq (indexState i) (.createIndex i b text) := by
  intro s s' h hs
  cases s with
  | none =>
    have h : (if beside i.owningRelName (escapeIdentifier i.name) = i.sqName.fq then
      some (some (⟨i.owningRelKind = "m", i.owningRelName.fq, i.getIndexDefStmt, none⟩ : IndexState)) else some none) = some (some s') := h
    have h := (if_pos rfl).symm.trans h
    cases h
    exact ⟨rfl, rfl, rfl⟩
  | some x =>
    have e : indexEffect tx i.sqName.fq x (.createIndex i b text) = none := if_pos rfl
    have h : (indexEffect tx i.sqName.fq x (.createIndex i b text)).map _ = some (some s') := h
    rw [e] at h
    cases h

theorem buildsAt_using {x0 : IndexState} {t : SQName} {n ty : String} :
    BuildsAt tx (beside t n) x0 (.alterTable t (.addUsingIndex n ty n)) := by
  intro s s' h hs
  cases s with
  | none =>
    have h : (if beside t n = beside t n ∨ beside t n = beside t n then none else some none) = some (some s') := h
    rw [if_pos (Or.inl rfl)] at h
    cases h
  | some x =>
    have e : indexEffect tx (beside t n) x (.alterTable t (.addUsingIndex n ty n)) =
        match constraintKind ty with
        | some k => if x.onView = false ∧ x.owner = t.fq ∧ x.constraint = none then
            some (some (beside t n, { x with constraint := some k })) else none
        | none => none := if_pos rfl
    have h : (indexEffect tx (beside t n) x (.alterTable t (.addUsingIndex n ty n))).map
      (fun r => r.bind fun p => if p.1 = beside t n then some p.2 else none) = some (some s') := h
    rw [e] at h
    cases hk : constraintKind ty with
    | none => rw [hk] at h; cases h
    | some k =>
      rw [hk] at h
      dsimp only at h
      by_cases hc : x.onView = false ∧ x.owner = t.fq ∧ x.constraint = none
      · rw [if_pos hc] at h
        have h : (if beside t n = beside t n then some { x with constraint := some k } else none) = some s' := Option.some.inj h
        rw [if_pos rfl] at h
        cases h
        exact hs x rfl
      · rw [if_neg hc] at h
        cases h

theorem buildsAt_only {x0 : IndexState} {t : SQName} {n defn : String} (h1 : x0.onView = false) (h2 : x0.owner = t.fq)
    (h3 : ∀ b, tx.built t n defn = some b → b.1 = x0.definition) :
    BuildsAt tx (beside t n) x0 (.addConstraintOnly t n defn) := by
  intro s s' h hs
  cases s with
  | none =>
    have h : (if beside t n = beside t n then (tx.built t n defn).map fun b => some (⟨false, t.fq, b.1, some b.2⟩ : IndexState)
      else some none) = some (some s') := h
    rw [if_pos rfl] at h
    cases hb : tx.built t n defn with
    | none => rw [hb] at h; cases h
    | some b =>
      rw [hb] at h
      cases h
      exact ⟨h1.symm, h2.symm, h3 b hb⟩
  | some x =>
    have e : indexEffect tx (beside t n) x (.addConstraintOnly t n defn) = none := if_pos rfl
    have h : (indexEffect tx (beside t n) x (.addConstraintOnly t n defn)).map _ = some (some s') := h
    rw [e] at h
    cases h

/-- a list of statements that builds the index `x0` under the name `q`, starting from `s` -/
structure Built (tx : IndexTexts) (q : String) (s : Option IndexState) (x0 : IndexState) (l : List Statement) : Prop where
  makes : ∀ y ∈ l, y.ddl.makesIndex q = true
  builds : ∀ y ∈ l, BuildsAt tx q x0 y.ddl
  result : runName tx q s l = some (some x0)

theorem added_built {g : IndexGen} {i : Index} {l : List Statement} (h : g.add i = .ok l) (hp : i.parentIdx = none)
    (hc : ConstraintNamed i) (hv : i.owningRelKind = "m" → i.constraint = none)
    (hb : g.onPartitionedTable i = .ok true → ∀ c, i.constraint = some c →
      tx.built i.owningRelName c.escapedConstraintName c.constraintDef = some (i.getIndexDefStmt, c.type)) :
    Built tx i.sqName.fq none (indexState i) l := by
  rcases IndexGen.add_cases h hp hc with ⟨c, hcc, hpart, e⟩ | ⟨b, text, e, hty⟩
  · have hk : decide (i.owningRelKind = "m") = false := decide_eq_false fun hm => by rw [hv hm] at hcc; cases hcc
    have hbb := hb hpart c hcc
    rw [hc c hcc] at hbb
    obtain ⟨y, rfl, ey⟩ := map_eq_one e
    refine ⟨?_, ?_, ?_⟩
    · intro z hz
      rw [List.mem_singleton.mp hz, ey]
      exact decide_eq_true (p := beside i.owningRelName (escapeIdentifier i.name) = i.sqName.fq) rfl
    · intro z hz
      rw [List.mem_singleton.mp hz, ey]
      refine buildsAt_only hk rfl fun b hb' => ?_
      rw [hbb] at hb'
      cases hb'; rfl
    · unfold runName
      have hstep : nameStep tx i.sqName.fq none y.ddl = some (some (indexState i)) := by
        rw [ey]
        have : nameStep tx i.sqName.fq none (.addConstraintOnly i.owningRelName (escapeIdentifier i.name) c.constraintDef) =
          (tx.built i.owningRelName (escapeIdentifier i.name) c.constraintDef).map fun b =>
            some (⟨false, i.owningRelName.fq, b.1, some b.2⟩ : IndexState) := if_pos rfl
        rw [this, hbb]
        unfold indexState
        rw [hk, hcc]; rfl
      rw [runWith_cons hstep]; rfl
  · cases hcc : i.constraint with
    | none =>
      rw [hcc] at e
      obtain ⟨y, rfl, ey⟩ := map_eq_one e
      refine ⟨?_, ?_, ?_⟩
      · intro z hz
        rw [List.mem_singleton.mp hz, ey]
        exact decide_eq_true (p := beside i.owningRelName (escapeIdentifier i.name) = i.sqName.fq) rfl
      · intro z hz
        rw [List.mem_singleton.mp hz, ey]
        exact buildsAt_create
      · unfold runName
        have hstep : nameStep tx i.sqName.fq none y.ddl = some (some (indexState i)) := by
          rw [ey]
          have : nameStep tx i.sqName.fq none (.createIndex i b text) =
            some (some ⟨i.owningRelKind = "m", i.owningRelName.fq, i.getIndexDefStmt, none⟩) := if_pos rfl
          rw [this]
          unfold indexState
          rw [hcc]; rfl
        rw [runWith_cons hstep]; rfl
    | some c =>
      have hk : decide (i.owningRelKind = "m") = false := decide_eq_false fun hm => by rw [hv hm] at hcc; cases hcc
      rw [hcc] at e
      obtain ⟨y, z, rfl, ey, ez⟩ := map_eq_two e
      refine ⟨?_, ?_, ?_⟩
      · intro w hw
        simp only [List.mem_cons, List.not_mem_nil, or_false] at hw
        rcases hw with rfl | rfl
        · rw [ey]
          exact decide_eq_true (p := beside i.owningRelName (escapeIdentifier i.name) = i.sqName.fq) rfl
        · rw [ez]
          exact Bool.or_eq_true_iff.mpr (Or.inl
            (decide_eq_true (p := beside i.owningRelName (escapeIdentifier i.name) = i.sqName.fq) rfl))
      · intro w hw
        simp only [List.mem_cons, List.not_mem_nil, or_false] at hw
        rcases hw with rfl | rfl
        · rw [ey]; exact buildsAt_create
        · rw [ez]; exact buildsAt_using (t := i.owningRelName) (n := escapeIdentifier i.name)
      · unfold runName
        have s1 : nameStep tx i.sqName.fq none y.ddl =
            some (some ⟨i.owningRelKind = "m", i.owningRelName.fq, i.getIndexDefStmt, none⟩) := by
          rw [ey]
          exact if_pos rfl
        have s2 : nameStep tx i.sqName.fq (some ⟨i.owningRelKind = "m", i.owningRelName.fq, i.getIndexDefStmt, none⟩) z.ddl =
            some (some (indexState i)) := by
          rw [ez]
          refine (nameStep_using (t := i.owningRelName) (n := escapeIdentifier i.name) (kind_of_type (hty c hcc)) hk rfl rfl).trans ?_
          unfold indexState
          rw [hcc]; rfl
        rw [runWith_cons s1, runWith_cons s2]; rfl

theorem altered_built {g : IndexGen} {x : OldNew Index} {l : List Statement} (h : g.alter x = .ok l) (hp : x.new.parentIdx = none)
    (hc : ConstraintNamed x.new) (hv : x.new.owningRelKind = "m" → x.new.constraint = none) :
    Built tx x.new.sqName.fq (some (indexState x.old)) (indexState x.new) l := by
  obtain ⟨e1, e2, e3, e4, hh⟩ := IndexGen.alter_cases h hp hc
  rcases hh with ⟨e5, rfl⟩ | ⟨ho, c, ty, hn, hty, e⟩
  · refine ⟨by simp, by simp, ?_⟩
    have : indexState x.old = indexState x.new := by
      unfold indexState
      rw [e1, e2, e4, e5]
    rw [this]; rfl
  · have hk : decide (x.old.owningRelKind = "m") = false := decide_eq_false fun hm => by rw [hv (e1.trans hm)] at hn; cases hn
    obtain ⟨y, rfl, ey⟩ := map_eq_one e
    refine ⟨?_, ?_, ?_⟩
    · intro z hz
      rw [List.mem_singleton.mp hz, ey]
      exact Bool.or_eq_true_iff.mpr (Or.inl
        (decide_eq_true (p := beside x.new.owningRelName (escapeIdentifier x.new.name) = x.new.sqName.fq) rfl))
    · intro z hz
      rw [List.mem_singleton.mp hz, ey]
      exact buildsAt_using (t := x.new.owningRelName) (n := escapeIdentifier x.new.name)
    · unfold runName
      have s1 : nameStep tx x.new.sqName.fq (some (indexState x.old)) y.ddl = some (some (indexState x.new)) := by
        rw [ey]
        refine (nameStep_using (t := x.new.owningRelName) (n := escapeIdentifier x.new.name) (constraintKind_of hty) hk
          (by rw [e2]; rfl) (by unfold indexState; rw [ho]; rfl)).trans ?_
        unfold indexState
        rw [hn, e1, e2, e4]; rfl
      rw [runWith_cons s1]; rfl

end
end Verif
