import Verif.Spec.Forest
import Verif.Lemmas.Run

/-!
# Running a plan on the tables, from the order of its statements
-/

namespace Verif

open Spec

/-- some statement of the list drops the table `q` -/
def Dropped (l : List Statement) (q : String) : Prop := ∃ s ∈ l, ∃ t, s.ddl = .dropTable t ∧ t.fq = q

/-- some statement of the list creates the table `n` -/
def Created (l : List Statement) (n : String) : Prop := ∃ s ∈ l, ∃ t c k, s.ddl = .createTable t c k ∧ t.fq = n

/-- some statement of the list attaches the table `n` -/
def Attached (l : List Statement) (n : String) : Prop := ∃ s ∈ l, ∃ p t v, s.ddl = .alterTable p (.attachPartition t v) ∧ t.fq = n

/-- the table `n` has gone with a table that has been dropped -/
def Taken (f : Forest) (l : List Statement) (n : String) : Prop := ∃ q, Dropped l q ∧ Below f q n

/-- What the order of the statements has to be like: `f` are the tables before, `g` those after. -/
structure ForestPlan (f g : Forest) (stmts : List Statement) : Prop where
  create : ∀ a x b t c k, stmts = a ++ x :: b → x.ddl = .createTable t c k → ¬ Created a t.fq ∧ ¬ Attached a t.fq ∧
    (f t.fq = none ∨ Taken f a t.fq) ∧ ∃ i, g t.fq = some ⟨k, i⟩
  drop : ∀ a x b q, stmts = a ++ x :: b → x.ddl = .dropTable q → f q.fq ≠ none ∧ ¬ Created a q.fq ∧ ¬ Taken f a q.fq
  attach : ∀ a x b p t v, stmts = a ++ x :: b → x.ddl = .alterTable p (.attachPartition t v) → Created a t.fq ∧
    ¬ Attached a t.fq ∧ (∃ k, g t.fq = some ⟨k, some (p.fq, v)⟩) ∧
    ((Created a p.fq ∧ ∃ k, g p.fq = some ⟨some k, none⟩) ∨
      ((∃ k i, f p.fq = some ⟨some k, i⟩) ∧ ¬ Created stmts p.fq ∧ ¬ Taken f stmts p.fq))
  made : ∀ n, Created stmts n → ∀ k i, g n = some ⟨k, i⟩ → i = none ∨ Attached stmts n
  gone : ∀ n, ¬ Created stmts n → Taken f stmts n → g n = none
  kept : ∀ n, ¬ Created stmts n → ¬ Taken f stmts n → f n = g n

open Classical in
/-- the tables after the statements `a` -/
noncomputable def forestAfter (f g : Forest) (a : List Statement) : Forest := fun n =>
  if Created a n then
    if Attached a n then g n else (g n).map fun x => ⟨x.key, none⟩
  else if Taken f a n then none else f n

theorem forestAfter_congr {f g : Forest} {a b : List Statement} {n : String} (c : Created b n ↔ Created a n)
    (t : Attached b n ↔ Attached a n) (k : Taken f b n ↔ Taken f a n) : forestAfter f g a n = forestAfter f g b n := by
  unfold forestAfter
  rw [propext c, propext t, propext k]

section
variable {f g : Forest} {stmts : List Statement}

theorem below_trans {q p n : String} (h1 : Below f q p) (h2 : Below f p n) : Below f q n := by
  induction h2 with
  | self => exact h1
  | part h _ ih => exact .part h ih

theorem Created.mono {a b : List Statement} {n : String} (h : Created a n) : Created (a ++ b) n := by
  obtain ⟨s, hs, h⟩ := h
  exact ⟨s, List.mem_append_left _ hs, h⟩

theorem Attached.mono {a b : List Statement} {n : String} (h : Attached a n) : Attached (a ++ b) n := by
  obtain ⟨s, hs, h⟩ := h
  exact ⟨s, List.mem_append_left _ hs, h⟩

theorem Taken.mono {a b : List Statement} {n : String} (h : Taken f a n) : Taken f (a ++ b) n := by
  obtain ⟨q, ⟨s, hs, h⟩, hq⟩ := h
  exact ⟨q, ⟨s, List.mem_append_left _ hs, h⟩, hq⟩

theorem created_snoc {a : List Statement} {x : Statement} {n : String} :
    Created (a ++ [x]) n ↔ Created a n ∨ ∃ t c k, x.ddl = .createTable t c k ∧ t.fq = n := by
  unfold Created
  constructor
  · rintro ⟨s, hs, h⟩
    rcases List.mem_append.mp hs with hs | hs
    · exact Or.inl ⟨s, hs, h⟩
    · rw [List.mem_singleton.mp hs] at h
      exact Or.inr h
  · rintro (⟨s, hs, h⟩ | h)
    · exact ⟨s, List.mem_append_left _ hs, h⟩
    · exact ⟨x, by simp, h⟩

theorem attached_snoc {a : List Statement} {x : Statement} {n : String} :
    Attached (a ++ [x]) n ↔ Attached a n ∨ ∃ p t v, x.ddl = .alterTable p (.attachPartition t v) ∧ t.fq = n := by
  unfold Attached
  constructor
  · rintro ⟨s, hs, h⟩
    rcases List.mem_append.mp hs with hs | hs
    · exact Or.inl ⟨s, hs, h⟩
    · rw [List.mem_singleton.mp hs] at h
      exact Or.inr h
  · rintro (⟨s, hs, h⟩ | h)
    · exact ⟨s, List.mem_append_left _ hs, h⟩
    · exact ⟨x, by simp, h⟩

theorem taken_snoc {a : List Statement} {x : Statement} {n : String} :
    Taken f (a ++ [x]) n ↔ Taken f a n ∨ ∃ q, x.ddl = .dropTable q ∧ Below f q.fq n := by
  unfold Taken Dropped
  constructor
  · rintro ⟨q, ⟨s, hs, t, h1, h2⟩, hq⟩
    rcases List.mem_append.mp hs with hs | hs
    · exact Or.inl ⟨q, ⟨s, hs, t, h1, h2⟩, hq⟩
    · rw [List.mem_singleton.mp hs] at h1
      exact Or.inr ⟨t, h1, h2 ▸ hq⟩
  · rintro (⟨q, ⟨s, hs, h⟩, hq⟩ | ⟨q, h, hq⟩)
    · exact ⟨q, ⟨s, List.mem_append_left _ hs, h⟩, hq⟩
    · exact ⟨q.fq, ⟨x, by simp, q, h, rfl⟩, hq⟩

/-- what has been created had not been there, or it had gone -/
theorem ForestPlan.created (hp : ForestPlan f g stmts) {a b : List Statement} (e : stmts = a ++ b) {n : String} (h : Created a n) :
    (f n = none ∨ Taken f a n) ∧ ∃ x, g n = some x := by
  obtain ⟨s, hs, t, c, k, hd, rfl⟩ := h
  obtain ⟨a1, a2, rfl⟩ := List.append_of_mem hs
  obtain ⟨_, _, h, i, hi⟩ := hp.create a1 s (a2 ++ b) t c k (by rw [e]; simp) hd
  exact ⟨h.imp id Taken.mono, _, hi⟩

/-- a table below one that has been created, and that had been there, has gone -/
theorem ForestPlan.below_created (hp : ForestPlan f g stmts) {a b : List Statement} (e : stmts = a ++ b) {n p : String}
    (h : Created a p) (hf : f p ≠ none) (hb : Below f p n) : Taken f a n := by
  rcases (hp.created e h).1 with h | ⟨q, hq, h⟩
  · exact absurd h hf
  · exact ⟨q, hq, below_trans h hb⟩

/-- what is below a table that is about to be dropped -/
theorem ForestPlan.below_iff (hp : ForestPlan f g stmts) {a b : List Statement} {x : Statement} {q : SQName}
    (e : stmts = a ++ x :: b) (hx : x.ddl = .dropTable q) {n : String} :
    Below (forestAfter f g a) q.fq n ↔ ¬ Created a n ∧ ¬ Taken f a n ∧ Below f q.fq n := by
  obtain ⟨hq, hc, ht⟩ := hp.drop a x b q e hx
  have later : Taken f stmts q.fq := ⟨q.fq, ⟨x, by rw [e]; simp, q, hx, rfl⟩, .self⟩
  constructor
  · intro h
    induction h with
    | self => exact ⟨hc, ht, .self⟩
    | @part n p v k h _ ih =>
      obtain ⟨i1, i2, i3⟩ := ih
      by_cases hcn : Created a n
      · exfalso
        have ha : Attached a n := by
          by_contra hna
          unfold forestAfter at h
          rw [if_pos hcn, if_neg hna] at h
          cases hg : g n with
          | none => rw [hg] at h; cases h
          | some y => rw [hg] at h; cases h
        unfold forestAfter at h
        rw [if_pos hcn, if_pos ha] at h
        obtain ⟨s, hs, p', t, v', hd, rfl⟩ := ha
        obtain ⟨a1, a2, rfl⟩ := List.append_of_mem hs
        obtain ⟨_, _, ⟨k', hg⟩, hpp⟩ := hp.attach a1 s (a2 ++ x :: b) p' t v' (by rw [e]; simp) hd
        rw [hg] at h
        cases h
        rcases hpp with ⟨h1, _⟩ | ⟨_, _, h3⟩
        · exact i1 h1.mono
        · exact h3 ⟨q.fq, ⟨x, by rw [e]; simp, q, hx, rfl⟩, i3⟩
      · by_cases htn : Taken f a n
        · unfold forestAfter at h
          rw [if_neg hcn, if_pos htn] at h
          cases h
        · unfold forestAfter at h
          rw [if_neg hcn, if_neg htn] at h
          exact ⟨hcn, htn, .part h i3⟩
  · rintro ⟨h1, h2, h3⟩
    induction h3 with
    | self => exact .self
    | @part n p v k h hb ih =>
      have hf : f p ≠ none := by
        cases hb with
        | self => exact hq
        | part h' _ => rw [h']; simp
      refine .part (p := p) (v := v) (k := k) ?_ (ih ?_ ?_)
      · unfold forestAfter
        rw [if_neg h1, if_neg h2]; exact h
      · intro hcp
        exact h2 (hp.below_created e hcp hf (.part h .self))
      · rintro ⟨q', h4, h5⟩
        exact h2 ⟨q', h4, .part h h5⟩

/-- statements that concern no table as such -/
def Ddl.forestOther : Ddl → Bool
  | .createTable .. | .dropTable .. | .alterTable _ (.attachPartition ..) => false
  | _ => true

theorem forestStep_other {x : Ddl} (h : x.forestOther = true) : forestStep f x = some f := by
  cases x with
  | createTable => cases h
  | dropTable => cases h
  | alterTable t a => cases a <;> first | rfl | cases h
  | _ => rfl

theorem forestAfter_step (hp : ForestPlan f g stmts) {a b : List Statement} {x : Statement} (e : stmts = a ++ x :: b) :
    forestStep (forestAfter f g a) x.ddl = some (forestAfter f g (a ++ [x])) := by
  by_cases ho : x.ddl.forestOther = true
  · rw [forestStep_other ho]
    congr 1
    funext n
    have c : Created (a ++ [x]) n ↔ Created a n := by
      rw [created_snoc]
      constructor
      · rintro (h | ⟨t, c, k, hd, _⟩)
        · exact h
        · rw [hd] at ho; cases ho
      · exact Or.inl
    have t : Attached (a ++ [x]) n ↔ Attached a n := by
      rw [attached_snoc]
      constructor
      · rintro (h | ⟨t, c, k, hd, _⟩)
        · exact h
        · rw [hd] at ho; cases ho
      · exact Or.inl
    have k : Taken f (a ++ [x]) n ↔ Taken f a n := by
      rw [taken_snoc]
      constructor
      · rintro (h | ⟨t, hd, _⟩)
        · exact h
        · rw [hd] at ho; cases ho
      · exact Or.inl
    exact forestAfter_congr c t k
  · cases hx : x.ddl with
    | createTable t c k =>
      obtain ⟨h1, h2, h3, i, h4⟩ := hp.create a x b t c k e hx
      have hnone : forestAfter f g a t.fq = none := by
        unfold forestAfter
        rw [if_neg h1]
        by_cases ht : Taken f a t.fq
        · rw [if_pos ht]
        · rw [if_neg ht]
          exact h3.resolve_right ht
      refine (if_pos hnone).trans ?_
      congr 1
      funext n
      have tk : Taken f (a ++ [x]) n ↔ Taken f a n := by
        rw [taken_snoc]
        constructor
        · rintro (h | ⟨t, hd, _⟩)
          · exact h
          · rw [hx] at hd; cases hd
        · exact Or.inl
      have at' : Attached (a ++ [x]) n ↔ Attached a n := by
        rw [attached_snoc]
        constructor
        · rintro (h | ⟨t, c, k, hd, _⟩)
          · exact h
          · rw [hx] at hd; cases hd
        · exact Or.inl
      by_cases hn : n = t.fq
      · subst hn
        rw [if_pos rfl]
        unfold forestAfter
        rw [if_pos (created_snoc.mpr (Or.inr ⟨t, c, k, hx, rfl⟩)), if_neg (fun h => h2 (at'.mp h)), h4]
        rfl
      · rw [if_neg hn]
        have cr : Created (a ++ [x]) n ↔ Created a n := by
          rw [created_snoc]
          constructor
          · rintro (h | ⟨t', c', k', hd, e'⟩)
            · exact h
            · rw [hx] at hd; cases hd
              exact absurd e'.symm hn
          · exact Or.inl
        exact forestAfter_congr cr at' tk
    | dropTable q =>
      obtain ⟨h1, h2, h3⟩ := hp.drop a x b q e hx
      have hsome : forestAfter f g a q.fq ≠ none := by
        unfold forestAfter
        rw [if_neg h2, if_neg h3]
        exact h1
      refine (if_neg hsome).trans ?_
      congr 1
      funext n
      have cr : Created (a ++ [x]) n ↔ Created a n := by
        rw [created_snoc]
        constructor
        · rintro (h | ⟨t, c, k, hd, _⟩)
          · exact h
          · rw [hx] at hd; cases hd
        · exact Or.inl
      have at' : Attached (a ++ [x]) n ↔ Attached a n := by
        rw [attached_snoc]
        constructor
        · rintro (h | ⟨t, c, k, hd, _⟩)
          · exact h
          · rw [hx] at hd; cases hd
        · exact Or.inl
      have tk : Taken f (a ++ [x]) n ↔ Taken f a n ∨ Below f q.fq n := by
        rw [taken_snoc]
        constructor
        · rintro (h | ⟨t, hd, h⟩)
          · exact Or.inl h
          · rw [hx] at hd; cases hd
            exact Or.inr h
        · rintro (h | h)
          · exact Or.inl h
          · exact Or.inr ⟨q, hx, h⟩
      have hb := hp.below_iff e hx (n := n)
      by_cases hbn : Below (forestAfter f g a) q.fq n
      · rw [if_pos hbn]
        obtain ⟨b1, b2, b3⟩ := hb.mp hbn
        unfold forestAfter
        rw [if_neg (fun h => b1 (cr.mp h)), if_pos (tk.mpr (Or.inr b3))]
      · rw [if_neg hbn]
        unfold forestAfter
        by_cases hc : Created a n
        · rw [if_pos hc, if_pos (cr.mpr hc)]
          rw [propext at']
        · rw [if_neg hc, if_neg (fun h => hc (cr.mp h))]
          by_cases ht : Taken f a n
          · rw [if_pos ht, if_pos (tk.mpr (Or.inl ht))]
          · rw [if_neg ht, if_neg]
            intro h
            rcases tk.mp h with h | h
            · exact ht h
            · exact hbn (hb.mpr ⟨hc, ht, h⟩)
    | alterTable p ac =>
      cases ac with
      | attachPartition t v =>
        obtain ⟨h1, h2, ⟨k, h3⟩, h4⟩ := hp.attach a x b p t v e hx
        have hpar : ∃ k i, forestAfter f g a p.fq = some ⟨some k, i⟩ := by
          unfold forestAfter
          rcases h4 with ⟨h4, k', h5⟩ | ⟨⟨k', i, h5⟩, h6, h7⟩
          · rw [if_pos h4, h5]
            refine ⟨k', none, ?_⟩
            by_cases ha : Attached a p.fq
            · rw [if_pos ha]
            · rw [if_neg ha]; rfl
          · rw [if_neg (fun h => h6 (by rw [e]; exact h.mono)), if_neg (fun h => h7 (by rw [e]; exact h.mono)), h5]
            exact ⟨k', i, rfl⟩
        have hch : forestAfter f g a t.fq = some ⟨k, none⟩ := by
          unfold forestAfter
          rw [if_pos h1, if_neg h2, h3]; rfl
        refine (if_pos hpar).trans ?_
        rw [hch]
        dsimp only
        congr 1
        funext n
        have cr : Created (a ++ [x]) n ↔ Created a n := by
          rw [created_snoc]
          constructor
          · rintro (h | ⟨t, c, k, hd, _⟩)
            · exact h
            · rw [hx] at hd; cases hd
          · exact Or.inl
        have tk : Taken f (a ++ [x]) n ↔ Taken f a n := by
          rw [taken_snoc]
          constructor
          · rintro (h | ⟨t, hd, _⟩)
            · exact h
            · rw [hx] at hd; cases hd
          · exact Or.inl
        by_cases hn : n = t.fq
        · subst hn
          rw [if_pos rfl]
          unfold forestAfter
          rw [if_pos (cr.mpr h1), if_pos (attached_snoc.mpr (Or.inr ⟨p, t, v, hx, rfl⟩)), h3]
        · rw [if_neg hn]
          have at' : Attached (a ++ [x]) n ↔ Attached a n := by
            rw [attached_snoc]
            constructor
            · rintro (h | ⟨p', t', v', hd, e'⟩)
              · exact h
              · rw [hx] at hd; cases hd
                exact absurd e'.symm hn
            · exact Or.inl
          exact forestAfter_congr cr at' tk
      | _ => rw [hx] at ho; exact absurd rfl ho
    | _ => rw [hx] at ho; exact absurd rfl ho

/-- the tables after a part of the plan -/
theorem ForestPlan.after (hp : ForestPlan f g stmts) : ∀ (a b : List Statement), stmts = a ++ b →
    runForest f a = some (forestAfter f g a) := by
  intro a
  induction a using List.reverseRecOn with
  | nil =>
    intro b _
    show some f = _
    congr 1
    funext n
    unfold forestAfter
    rw [if_neg, if_neg]
    · rintro ⟨q, ⟨s, hs, _⟩, _⟩; cases hs
    · rintro ⟨s, hs, _⟩; cases hs
  | append_singleton a x ih =>
    intro b e
    have e' : stmts = a ++ x :: b := by rw [e]; simp
    have := ih (x :: b) e'
    unfold runForest at this ⊢
    rw [runWith_append, this]
    show (forestStep _ x.ddl).bind _ = _
    rw [forestAfter_step hp e']
    rfl

theorem ForestPlan.run (hp : ForestPlan f g stmts) : runForest f stmts = some g := by
  rw [hp.after stmts [] (by simp)]
  congr 1
  funext n
  unfold forestAfter
  by_cases hc : Created stmts n
  · rw [if_pos hc]
    by_cases ha : Attached stmts n
    · rw [if_pos ha]
    · rw [if_neg ha]
      cases hg : g n with
      | none => rfl
      | some x =>
        obtain ⟨k, i⟩ := x
        rcases hp.made n hc k i hg with rfl | h
        · rfl
        · exact absurd h ha
  · rw [if_neg hc]
    by_cases ht : Taken f stmts n
    · rw [if_pos ht]; exact (hp.gone n hc ht).symm
    · rw [if_neg ht]; exact hp.kept n hc ht

end
end Verif
