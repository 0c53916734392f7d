import Verif.Model.Gen.Check
import Verif.Spec.Expr
import Mathlib.Data.List.Infix

/-!
# Constraints recognised as NOT NULL checks (C22)
-/

namespace Verif

open Spec (Scalar Cond Cmp Funs Val plainName plainChar quoteIdent Strict)

theorem dropPrefix?_some {p s r : List Char} (h : dropPrefix? p s = some r) : s = p ++ r := by
  induction p generalizing s with
  | nil => cases h; rfl
  | cons a p ih =>
    cases s with
    | nil => cases h
    | cons b s =>
      unfold dropPrefix? at h
      split at h
      · rename_i e
        rw [ih h, e]; rfl
      · cases h

theorem dropSuffix?_some {p s r : List Char} (h : dropSuffix? p s = some r) : s = r ++ p := by
  unfold dropSuffix? at h
  rw [Option.map_eq_some_iff] at h
  obtain ⟨a, ha, rfl⟩ := h
  have := dropPrefix?_some ha
  have := congrArg List.reverse this
  simpa using this

/-- a recognised text without quotes: no blank in front of ` IS NOT NULL`, closing parentheses behind it -/
theorem isNotNullText_plain {t : List Char} (h : isNotNullText (String.ofList t) = true) (hq : '"' ∉ t) :
    ∃ a z : List Char, t = a ++ (" IS NOT NULL".toList ++ z) ∧ ' ' ∉ a ∧ ∀ c ∈ z, c = ')' := by
  unfold isNotNullText at h
  split at h
  case h_2 => cases h
  case h_1 r hr =>
  have e := dropSuffix?_some hr
  rw [String.toList_ofList] at e
  refine ⟨r, (t.reverse.takeWhile (· = ')')).reverse, ?_, ?_, ?_⟩
  · have h1 := congrArg List.reverse (List.takeWhile_append_dropWhile (p := (· = ')')) (l := t.reverse))
    rw [List.reverse_append, e, List.reverse_reverse, List.append_assoc] at h1
    exact h1.symm
  · intro hb
    unfold notNullHead at h
    rw [Bool.or_eq_true] at h
    rcases h with h | h
    · rw [List.all_eq_true] at h
      exact absurd (h _ hb) (by decide)
    · split at h
      · rename_i q hd
        apply hq
        have h1 : '"' ∈ r := (List.dropWhile_sublist (· = '(')).subset (by rw [hd]; exact List.mem_cons_self)
        have h2 : '"' ∈ (t.reverse.dropWhile (· = ')')).reverse := by rw [e]; exact List.mem_append_left _ h1
        exact List.mem_reverse.mp ((List.dropWhile_sublist _).subset (List.mem_reverse.mp h2))
      · cases h
  · intro c hc
    have := List.all_takeWhile (p := (· = ')')) (l := t.reverse)
    rw [List.all_eq_true] at this
    exact of_decide_eq_true (this c (List.mem_reverse.mp hc))

theorem plain_ne {c : Char} (h : plainChar c = true) : c ≠ ' ' ∧ c ≠ '"' := by
  constructor <;> (rintro rfl; revert h; decide)

theorem quoteIdent_plain {n : String} (h : plainName n = true) : ∀ c ∈ quoteIdent n, c ≠ ' ' ∧ c ≠ '"' := by
  intro c hc
  rw [quoteIdent, if_pos h] at hc
  rw [plainName, Bool.and_eq_true, List.all_eq_true] at h
  exact plain_ne (h.1 c hc)

theorem digits_plain (n : Nat) : ∀ c ∈ Nat.toDigits 10 n, c ≠ ' ' ∧ c ≠ '"' := by
  intro c hc
  have := Nat.isDigit_of_mem_toDigits (by decide) (by decide) hc
  constructor <;> (rintro rfl; revert this; decide)

theorem scalar_plain : ∀ {s : Scalar}, (∀ n ∈ s.columns ++ s.calls, plainName n = true) → ∀ c ∈ s.render, c ≠ ' ' ∧ c ≠ '"'
  | .col n, h, c, hc => quoteIdent_plain (h n (by simp [Scalar.columns])) c hc
  | .int n, _, c, hc => digits_plain n c hc
  | .call f a, h, c, hc => by
    rw [Scalar.render, List.append_assoc, List.mem_append, List.cons_append, List.mem_cons, List.mem_append,
      List.mem_singleton] at hc
    rcases hc with hc | rfl | hc | rfl
    · exact quoteIdent_plain (h f (by simp [Scalar.calls])) c hc
    · decide
    · exact scalar_plain (fun n hn => h n (by
        simp only [Scalar.columns, Scalar.calls, List.mem_append, List.mem_cons] at hn ⊢
        rcases hn with hn | hn
        · exact .inl hn
        · exact .inr (.inr hn))) c hc
    · decide

theorem scalar_count {s : Scalar} (h : ∀ n ∈ s.columns ++ s.calls, plainName n = true) : s.render.count ' ' = 0 :=
  List.count_eq_zero.mpr fun hc => (scalar_plain h _ hc).1 rfl

/-- every condition is printed with at least two blanks -/
theorem two_le_count (e : Cond) : 2 ≤ e.render.count ' ' := by
  induction e with
  | isNull s =>
    rw [Cond.render, List.cons_append, List.count_cons, List.count_append]
    have : (" IS NULL)".toList).count ' ' = 2 := by decide
    omega
  | isNotNull s =>
    rw [Cond.render, List.cons_append, List.count_cons, List.count_append]
    have : (" IS NOT NULL)".toList).count ' ' = 3 := by decide
    omega
  | cmp op a b =>
    simp only [Cond.render, List.cons_append, List.count_cons, List.count_append, List.append_assoc]
    simp
    omega
  | not c ih =>
    rw [Cond.render, List.count_append, List.count_append]
    omega
  | and a b iha ihb =>
    rw [Cond.render, List.cons_append, List.cons_append, List.cons_append, List.count_cons, List.count_append,
      List.count_append, List.count_append]
    omega
  | or a b iha ihb =>
    rw [Cond.render, List.cons_append, List.cons_append, List.cons_append, List.count_cons, List.count_append,
      List.count_append, List.count_append]
    omega

theorem cond_head (e : Cond) : ∃ t, e.render = '(' :: t := by
  cases e <;> exact ⟨_, rfl⟩

theorem cond_noQuote {e : Cond} (h : ∀ n ∈ e.columns ++ e.calls, plainName n = true) : '"' ∉ e.render := by
  induction e with
  | isNull s =>
    intro hq
    rw [Cond.render, List.cons_append, List.mem_cons, List.mem_append] at hq
    rcases hq with hq | hq | hq
    · exact absurd hq (by decide)
    · exact (scalar_plain h _ hq).2 rfl
    · exact absurd hq (by decide)
  | isNotNull s =>
    intro hq
    rw [Cond.render, List.cons_append, List.mem_cons, List.mem_append] at hq
    rcases hq with hq | hq | hq
    · exact absurd hq (by decide)
    · exact (scalar_plain h _ hq).2 rfl
    · exact absurd hq (by decide)
  | cmp op a b =>
    intro hq
    simp only [Cond.render, List.cons_append, List.append_assoc, List.mem_cons, List.mem_append, List.mem_singleton] at hq
    have ha := scalar_plain (s := a) fun n hn => h n (by
      simp only [Cond.columns, Cond.calls, List.mem_append] at hn ⊢; tauto)
    have hb := scalar_plain (s := b) fun n hn => h n (by
      simp only [Cond.columns, Cond.calls, List.mem_append] at hn ⊢; tauto)
    rcases hq with hq | hq | hq | hq | hq | hq | hq
    · exact absurd hq (by decide)
    · exact (ha _ hq).2 rfl
    · exact absurd hq (by decide)
    · cases op <;> exact absurd hq (by decide)
    · exact absurd hq (by decide)
    · exact (hb _ hq).2 rfl
    · exact absurd hq (by simp)
  | not c ih =>
    intro hq
    rw [Cond.render, List.mem_append, List.mem_append] at hq
    rcases hq with (hq | hq) | hq
    · exact absurd hq (by decide)
    · exact ih h hq
    · exact absurd hq (by decide)
  | and a b iha ihb =>
    intro hq
    rw [Cond.render, List.mem_append, List.mem_append, List.mem_append, List.mem_cons] at hq
    rcases hq with (((hq | hq) | hq) | hq) | hq
    · exact absurd hq (by decide)
    · exact iha (fun n hn => h n (by simp only [Cond.columns, Cond.calls, List.mem_append] at hn ⊢; tauto)) hq
    · exact absurd hq (by decide)
    · exact ihb (fun n hn => h n (by simp only [Cond.columns, Cond.calls, List.mem_append] at hn ⊢; tauto)) hq
    · exact absurd hq (by decide)
  | or a b iha ihb =>
    intro hq
    rw [Cond.render, List.mem_append, List.mem_append, List.mem_append, List.mem_cons] at hq
    rcases hq with (((hq | hq) | hq) | hq) | hq
    · exact absurd hq (by decide)
    · exact iha (fun n hn => h n (by simp only [Cond.columns, Cond.calls, List.mem_append] at hn ⊢; tauto)) hq
    · exact absurd hq (by decide)
    · exact ihb (fun n hn => h n (by simp only [Cond.columns, Cond.calls, List.mem_append] at hn ⊢; tauto)) hq
    · exact absurd hq (by decide)

/-- a recognised condition whose names need no quotes is an `IS NOT NULL` at the top -/
theorem recognised_plain {e : Cond} (h : isNotNullText (String.ofList e.render) = true)
    (hp : ∀ n ∈ e.columns ++ e.calls, plainName n = true) : ∃ s, e = .isNotNull s := by
  obtain ⟨a, z, e1, ha, hz⟩ := isNotNullText_plain h (cond_noQuote hp)
  have hc : e.render.count ' ' = 3 := by
    rw [e1, List.count_append, List.count_append, List.count_eq_zero.mpr ha,
      List.count_eq_zero.mpr (fun hm => absurd (hz _ hm) (by decide))]
    decide
  cases e with
  | isNotNull s => exact ⟨s, rfl⟩
  | isNull s =>
    rw [Cond.render, List.cons_append, List.count_cons, List.count_append, scalar_count hp] at hc
    exact absurd hc (by decide)
  | cmp op x y =>
    have hx := scalar_count (s := x) fun n hn => hp n (by
      simp only [Cond.columns, Cond.calls, List.mem_append] at hn ⊢; tauto)
    have hy := scalar_count (s := y) fun n hn => hp n (by
      simp only [Cond.columns, Cond.calls, List.mem_append] at hn ⊢; tauto)
    simp only [Cond.render, List.cons_append, List.count_cons, List.count_append, List.append_assoc, hx, hy] at hc
    cases op <;> exact absurd hc (by decide)
  | and x y =>
    rw [Cond.render, List.cons_append, List.cons_append, List.cons_append, List.count_cons, List.count_append,
      List.count_append, List.count_append] at hc
    have h1 := two_le_count x
    have h2 := two_le_count y
    omega
  | or x y =>
    rw [Cond.render, List.cons_append, List.cons_append, List.cons_append, List.count_cons, List.count_append,
      List.count_append, List.count_append] at hc
    have h1 := two_le_count x
    have h2 := two_le_count y
    omega
  | not c =>
    exfalso
    obtain ⟨t, ht⟩ := cond_head c
    rw [Cond.render, ht] at e1
    have hw := congrArg (List.dropWhile (· ≠ ' ')) e1
    rw [List.dropWhile_append_of_pos (l₁ := a) (by
      intro c hc
      simp only [decide_eq_true_eq, ne_eq]
      rintro rfl
      exact ha hc)] at hw
    have hl : List.dropWhile (· ≠ ' ') ("(NOT ".toList ++ '(' :: t ++ [')']) = ' ' :: '(' :: (t ++ [')']) := rfl
    rw [hl] at hw
    have hr : List.dropWhile (· ≠ ' ') (" IS NOT NULL".toList ++ z) = ' ' :: 'I' :: ("S NOT NULL".toList ++ z) := rfl
    rw [hr] at hw
    injection hw with _ hw
    injection hw with hw _
    exact absurd hw (by decide)

/-- strict functions pass NULL on -/
theorem strict_eval {F : Funs} {row : String → Val} {c : String} (hrow : row c = none) : ∀ {s : Scalar},
    (∀ f ∈ s.calls, Strict F f) → c ∈ s.columns → s.eval F row = none
  | .col n, _, hc => by
    rw [Scalar.columns, List.mem_singleton] at hc
    rw [Scalar.eval, ← hc, hrow]
  | .int n, _, hc => by cases hc
  | .call f a, hs, hc => by
    rw [Scalar.eval, strict_eval hrow (s := a) (fun g hg => hs g (List.mem_cons_of_mem _ hg)) hc]
    exact hs f List.mem_cons_self

/-- **C22 (partial).**  A check constraint recognised as a valid NOT NULL check for a column is violated by every row
with NULL in this column, when the names it mentions are printed without quotes and the functions it calls return NULL
for NULL.  Both restrictions are needed, see `C22_quoted_violated` and `C22_not_strict_violated`. -/
theorem C22_recognised_check_partial {cc : CheckConstraint} {e : Cond} {c : String} (F : Funs) (row : String → Val)
    (hcc : isValidNotNullCC cc = true) (htext : cc.expression = String.ofList e.render)
    (hkeys : ∀ n, n ∈ cc.keyColumns ↔ n ∈ e.columns) (hc : c ∈ cc.keyColumns)
    (hplain : ∀ n ∈ e.columns ++ e.calls, plainName n = true) (hstrict : ∀ f ∈ e.calls, Strict F f)
    (hrow : row c = none) : ¬ e.SatisfiedBy F row := by
  rw [isValidNotNullCC, Bool.and_eq_true, htext] at hcc
  obtain ⟨s, rfl⟩ := recognised_plain hcc.2 hplain
  intro hs
  apply hs
  rw [Cond.eval, strict_eval hrow hstrict ((hkeys c).mp hc)]
  rfl

/-- the text of the constraints the planner builds itself is recognised, unless the name contains a newline -/
theorem temporary_recognised {n : String} (h : '\n' ∉ n.toList) :
    isNotNullText (escapeIdentifier n ++ " IS NOT NULL") = true := by
  have hr : dropSuffix? " IS NOT NULL".toList
      (((escapeIdentifier n ++ " IS NOT NULL").toList.reverse.dropWhile (· = ')')).reverse) =
      some (escapeIdentifier n).toList := by
    rw [String.toList_append, List.reverse_append]
    have e : List.dropWhile (fun c : Char => decide (c = ')')) (" IS NOT NULL".toList.reverse ++ (escapeIdentifier n).toList.reverse) =
      " IS NOT NULL".toList.reverse ++ (escapeIdentifier n).toList.reverse := rfl
    rw [e]
    unfold dropSuffix?
    rw [List.reverse_reverse]
    show Option.map List.reverse (some ((escapeIdentifier n).toList.reverse)) = _
    rw [Option.map_some, List.reverse_reverse]
  unfold isNotNullText
  rw [hr]
  show notNullHead (escapeIdentifier n).toList = true
  rw [escapeIdentifier, quoteWith, String.toList_ofList]
  unfold notNullHead
  rw [Bool.or_eq_true]
  refine .inr ?_
  rw [List.dropWhile_cons_of_neg (by decide)]
  generalize hx : List.flatMap (fun c => if c = '"' then ['"', '"'] else [c]) (List.filter (fun c => decide (c ≠ '\x00')) n.toList) = x
  show (match (x ++ ['"']).reverse with
    | '"' :: m => m.all (· ≠ '\n')
    | _ => false) = true
  rw [List.reverse_append]
  show List.all (List.reverse _) _ = true
  rw [List.all_reverse, List.all_eq_true]
  intro c hc
  rw [← hx, List.mem_flatMap] at hc
  obtain ⟨a, ha, hc⟩ := hc
  have ha := (List.mem_filter.mp ha).1
  split at hc
  · simp only [List.mem_cons, List.not_mem_nil, or_false, or_self] at hc
    subst hc; decide
  · rw [List.mem_singleton] at hc
    subst hc
    simp only [ne_eq, decide_eq_true_eq]
    rintro rfl
    exact h ha

namespace Samples

/-- `CHECK ("Foo" = 5 OR "Foo" IS NOT NULL)` -/
def quotedCheck : Cond := .or (.cmp .eq (.col "Foo") (.int 5)) (.isNotNull (.col "Foo"))

/-- `CHECK (num_nulls(foo) IS NOT NULL)` -/
def nullsCheck : Cond := .isNotNull (.call "num_nulls" (.col "foo"))

/-- a valid constraint with the given expression -/
def checkOn (c : String) (e : Cond) : CheckConstraint where
  name := "chk"
  keyColumns := [c]
  expression := String.ofList e.render
  isValid := true
  isInheritable := true
  dependsOnFunctions := []

/-- `num_nulls` -/
def numNulls : Funs := fun f v => if f = "num_nulls" then some (if v.isNone then 1 else 0) else none

/-- a recognised constraint that meets the hypotheses of `C22_recognised_check_partial` -/
example : ¬ (Cond.isNotNull (.call "abs" (.col "foo"))).SatisfiedBy (fun _ v => v.map fun n => (n.natAbs : Int)) (fun _ => none) :=
  C22_recognised_check_partial (cc := checkOn "foo" (.isNotNull (.call "abs" (.col "foo")))) (c := "foo") _ _ (by decide) rfl
    (fun _ => Iff.rfl) (by decide) (by decide) (by intro f _; rfl) rfl

/-- other constraints are not taken for a NOT NULL check -/
example : isValidNotNullCC (checkOn "foo" (.or (.cmp .eq (.col "foo") (.int 5)) (.isNotNull (.col "foo")))) = false := by decide

end Samples

/-- **C22 violated** by names in quotes: `("Foo" = 5 OR "Foo" IS NOT NULL)` is recognised as a NOT NULL check of
`Foo`, and a row with NULL in `Foo` satisfies it. -/
theorem C22_quoted_violated :
    ∃ (cc : CheckConstraint) (e : Cond) (c : String), isValidNotNullCC cc = true ∧ cc.expression = String.ofList e.render ∧
      (∀ n, n ∈ cc.keyColumns ↔ n ∈ e.columns) ∧ c ∈ cc.keyColumns ∧ e.calls = [] ∧
      ∀ (F : Funs) (row : String → Val), row c = none → e.SatisfiedBy F row := by
  refine ⟨Samples.checkOn "Foo" Samples.quotedCheck, Samples.quotedCheck, "Foo", by decide, rfl, ?_, by decide, rfl, ?_⟩
  · intro n
    simp [Samples.checkOn, Samples.quotedCheck, Cond.columns, Scalar.columns]
  · intro F row h
    simp [Cond.SatisfiedBy, Samples.quotedCheck, Cond.eval, Scalar.eval, h, Spec.or3]

/-- **C22 violated** by functions that are not strict: `(num_nulls(foo) IS NOT NULL)` is recognised as a NOT NULL check
of `foo`, and every row satisfies it. -/
theorem C22_not_strict_violated :
    ∃ (cc : CheckConstraint) (e : Cond) (c : String) (F : Funs), isValidNotNullCC cc = true ∧
      cc.expression = String.ofList e.render ∧ (∀ n, n ∈ cc.keyColumns ↔ n ∈ e.columns) ∧ c ∈ cc.keyColumns ∧
      (∀ n ∈ e.columns ++ e.calls, plainName n = true) ∧ ∀ row : String → Val, e.SatisfiedBy F row := by
  refine ⟨Samples.checkOn "foo" Samples.nullsCheck, Samples.nullsCheck, "foo", Samples.numNulls, by decide, rfl, ?_,
    by decide, by decide, ?_⟩
  · intro n
    simp [Samples.checkOn, Samples.nullsCheck, Cond.columns, Scalar.columns]
  · intro row
    simp [Cond.SatisfiedBy, Samples.nullsCheck, Cond.eval, Scalar.eval, Samples.numNulls]

end Verif
