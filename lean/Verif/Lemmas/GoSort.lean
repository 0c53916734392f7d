import Verif.Model.GoSort
import Mathlib.Data.List.Nodup

/-! # Lemmas about sorting by a string key -/

namespace Verif

theorem sortBy_perm {α : Type} (key : α → String) (l : List α) : (sortBy key l).Perm l :=
  List.perm_insertionSort _ _

theorem sortBy_sorted {α : Type} (key : α → String) (l : List α) :
    (sortBy key l).Pairwise (fun a b => key a ≤ key b) := by
  have : IsTrans α (fun a b => key a ≤ key b) := ⟨fun _ _ _ h1 h2 => le_trans h1 h2⟩
  have : Std.Total (fun a b : α => key a ≤ key b) := ⟨fun a b => le_total _ _⟩
  exact List.pairwise_insertionSort _ _

/-- sorting by distinct keys depends on the elements only -/
theorem sortBy_eq_of_perm {α : Type} {key : α → String} {l l' : List α} (hp : l.Perm l')
    (hn : (l.map key).Nodup) : sortBy key l = sortBy key l' := by
  have p : (sortBy key l).Perm (sortBy key l') :=
    ((sortBy_perm key l).trans hp).trans (sortBy_perm key l').symm
  refine p.eq_of_pairwise ?_ (sortBy_sorted key l) (sortBy_sorted key l')
  intro a b ha hb h1 h2
  have ha' : a ∈ l := (sortBy_perm key l).mem_iff.mp ha
  have hb' : b ∈ l := hp.mem_iff.mpr ((sortBy_perm key l').mem_iff.mp hb)
  exact List.inj_on_of_nodup_map hn ha' hb' (le_antisymm h1 h2)

end Verif
