import Verif.Spec.Run
import Verif.Lemmas.Fate
import Verif.Lemmas.Family

/-!
# Running plans: lemmas
-/

namespace Verif

open Spec

section
variable {σ : Type} {step : σ → Ddl → Option σ}

theorem runWith_append (s : σ) (a b : List Statement) :
    runWith step s (a ++ b) = (runWith step s a).bind fun s' => runWith step s' b := by
  induction a generalizing s with
  | nil => rfl
  | cons x a ih =>
    simp only [List.cons_append, runWith]
    cases step s x.ddl with
    | none => rfl
    | some s' => exact ih s'

/-- statements that do not change the state -/
theorem runWith_keeps {s : σ} {l : List Statement} (h : ∀ x ∈ l, step s x.ddl = some s) : runWith step s l = some s := by
  induction l with
  | nil => rfl
  | cons x l ih =>
    simp only [runWith, h x List.mem_cons_self, Option.bind_some]
    exact ih fun y hy => h y (List.mem_cons_of_mem _ hy)

theorem runWith_cons {s s' : σ} {x : Statement} {l : List Statement} (h : step s x.ddl = some s') :
    runWith step s (x :: l) = runWith step s' l := by
  simp only [runWith, h, Option.bind_some]

/-- before the statement nothing happens, then the statement -/
theorem runWith_at {s s' : σ} {a b : List Statement} {x : Statement} (ha : ∀ y ∈ a, step s y.ddl = some s)
    (hx : step s x.ddl = some s') : runWith step s (a ++ x :: b) = runWith step s' b := by
  rw [runWith_append, runWith_keeps ha, Option.bind_some, runWith_cons hx]

end

/-! ### finding the statements of a kind -/

section
variable {α : Type} {P Q : α → Prop}

theorem split_once {p : α → Bool} {l : List α} {x : α} (h : l.filter p = [x]) :
    ∃ a b, l = a ++ x :: b ∧ p x = true ∧ (∀ y ∈ a, p y = false) ∧ ∀ y ∈ b, p y = false := by
  induction l with
  | nil => cases h
  | cons z l ih =>
    rw [List.filter_cons] at h
    split at h
    · rename_i hz
      injection h with h1 h2
      subst h1
      exact ⟨[], l, rfl, hz, by simp, fun y hy => by
        have := List.filter_eq_nil_iff.mp h2 y hy
        simpa using this⟩
    · rename_i hz
      obtain ⟨a, b, e, h1, h2, h3⟩ := ih h
      refine ⟨z :: a, b, by rw [e]; rfl, h1, ?_, h3⟩
      intro y hy
      rcases List.mem_cons.mp hy with rfl | hy
      · simpa using hz
      · exact h2 y hy

/-- the first statement of a kind -/
theorem split_first {p : α → Bool} {l : List α} {x : α} (hx : x ∈ l) (h : p x = true) :
    ∃ a y b, l = a ++ y :: b ∧ p y = true ∧ ∀ z ∈ a, p z = false := by
  induction l with
  | nil => cases hx
  | cons z l ih =>
    cases hz : p z with
    | true => exact ⟨[], z, l, rfl, hz, by simp⟩
    | false =>
      rcases List.mem_cons.mp hx with rfl | hx
      · rw [h] at hz; cases hz
      · obtain ⟨a, y, b, e, h1, h2⟩ := ih hx
        refine ⟨z :: a, y, b, by rw [e]; rfl, h1, ?_⟩
        intro w hw
        rcases List.mem_cons.mp hw with rfl | hw
        · exact hz
        · exact h2 w hw

theorem AllBefore.not_after {a b : List α} {x : α} (h : AllBefore P Q (a ++ x :: b)) (hx : Q x) : ∀ y ∈ b, ¬ P y := by
  intro y hy hp
  exact (List.pairwise_cons.mp (List.pairwise_append.mp h).2.1).1 y hy ⟨hx, hp⟩

theorem AllBefore.not_before {a b : List α} {x : α} (h : AllBefore P Q (a ++ x :: b)) (hx : P x) : ∀ y ∈ a, ¬ Q y := by
  intro y hy hq
  exact (List.pairwise_append.mp h).2.2 y hy x List.mem_cons_self ⟨hq, hx⟩

end

/-! ### what a generator contributes about one name -/

section
variable {S D : Type} {m : Type → Type} [Monad m] [Yields m] [GoZero S] [IsDiff D S] [Obj S] {g : LegacyGen m S D}
  {ld : ListDiff S D} {pg : PartialGraph Statement}

/-- the statements with `P`, which only objects with the name `n` give rise to -/
theorem legacy_focus (hg : yields (generatePartialGraph g.toNew ld) pg) {key : D → String}
    (n1 : (ld.adds.map Obj.getName).Nodup) (n2 : (ld.deletes.map Obj.getName).Nodup) (n3 : (ld.alters.map key).Nodup)
    {n : String} {P : Statement → Bool}
    (ha : ∀ o ∈ ld.adds, ∀ l, yields (g.add o) l → Obj.getName o ≠ n → l.filter P = [])
    (hd : ∀ o ∈ ld.deletes, ∀ l, yields (g.delete o) l → Obj.getName o ≠ n → l.filter P = [])
    (hc : ∀ o ∈ ld.alters, ∀ l, yields (g.alter o) l → key o ≠ n → l.filter P = []) :
    ∃ A B C, pg.statements.filter P = A ++ B ++ C ∧
      (n ∉ ld.adds.map Obj.getName → A = []) ∧
      (n ∉ ld.deletes.map Obj.getName → B = []) ∧
      (n ∉ ld.alters.map key → C = []) ∧
      (∀ x ∈ ld.adds, Obj.getName x = n → ∃ l, yields (g.add x) l ∧ A = l.filter P) ∧
      (∀ x ∈ ld.deletes, Obj.getName x = n → ∃ l, yields (g.delete x) l ∧ B = l.filter P) ∧
      (∀ x ∈ ld.alters, key x = n → ∃ l, yields (g.alter x) l ∧ C = l.filter P) := by
  obtain ⟨as, ds, cs, f1, f2, f3, e⟩ := legacy_statements hg
  refine ⟨as.flatten.filter P, ds.flatten.filter P, cs.flatten.filter P, by rw [e, List.filter_append, List.filter_append],
    ?_, ?_, ?_, ?_, ?_, ?_⟩
  · exact fun hx => flatten_filter_nil f1 fun a haa b hr => ha a haa b hr fun e => hx (e ▸ List.mem_map_of_mem haa)
  · exact fun hx => flatten_filter_nil f2 fun a haa b hr => hd a haa b hr fun e => hx (e ▸ List.mem_map_of_mem haa)
  · exact fun hx => flatten_filter_nil f3 fun a haa b hr => hc a haa b hr fun e => hx (e ▸ List.mem_map_of_mem haa)
  · exact fun x hx en => flatten_filter_focus (key := Obj.getName) f1 n1 hx fun y hy b hr hne =>
      ha y hy b hr fun e2 => hne (e2.trans en.symm)
  · exact fun x hx en => flatten_filter_focus (key := Obj.getName) f2 n2 hx fun y hy b hr hne =>
      hd y hy b hr fun e2 => hne (e2.trans en.symm)
  · exact fun x hx en => flatten_filter_focus (key := key) f3 n3 hx fun y hy b hr hne =>
      hc y hy b hr fun e2 => hne (e2.trans en.symm)

end
end Verif
