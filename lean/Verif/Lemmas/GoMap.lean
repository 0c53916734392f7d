import Verif.Model.GoMap
import Mathlib.Data.List.Nodup
import Mathlib.Data.List.Perm.Basic

set_option linter.unusedSectionVars false

namespace Verif
namespace GoMap

variable {K V : Type} [DecidableEq K]

@[simp] theorem keys_nil : keys ([] : GoMap K V) = [] := rfl
@[simp] theorem keys_cons (p : K × V) (m : GoMap K V) : keys (p :: m) = p.1 :: keys m := rfl
@[simp] theorem get?_nil (k : K) : get? ([] : GoMap K V) k = none := rfl

theorem get?_cons (p : K × V) (m : GoMap K V) (k : K) :
    get? (p :: m) k = if p.1 = k then some p.2 else get? m k := rfl

theorem get?_eq_none {m : GoMap K V} {k : K} : get? m k = none ↔ k ∉ keys m := by
  induction m with
  | nil => simp
  | cons p m ih =>
    rw [get?_cons]
    by_cases h : p.1 = k
    · simp [h]
    · simp [h, ih, Ne.symm h]

theorem get?_isSome {m : GoMap K V} {k : K} : (get? m k).isSome ↔ k ∈ keys m := by
  rw [← not_iff_not, Bool.not_eq_true, Option.isSome_eq_false_iff, Option.isNone_iff_eq_none, get?_eq_none]

theorem has_iff {m : GoMap K V} {k : K} : has m k = true ↔ k ∈ keys m := get?_isSome

theorem mem_of_get? {m : GoMap K V} {k : K} {v : V} (h : get? m k = some v) : (k, v) ∈ m := by
  induction m with
  | nil => simp at h
  | cons p m ih =>
    rw [get?_cons] at h
    by_cases hk : p.1 = k
    · simp [hk] at h; subst hk; subst h; simp
    · simp [hk] at h; exact List.mem_cons_of_mem _ (ih h)

theorem mem_keys_of_mem {m : GoMap K V} {p : K × V} (h : p ∈ m) : p.1 ∈ keys m :=
  List.mem_map_of_mem (f := Prod.fst) h

theorem mem_keys_iff {m : GoMap K V} {k : K} : k ∈ keys m ↔ ∃ v, (k, v) ∈ m := by
  simp [keys]

theorem get?_of_mem {m : GoMap K V} (hn : (keys m).Nodup) {k : K} {v : V} (h : (k, v) ∈ m) :
    get? m k = some v := by
  induction m with
  | nil => simp at h
  | cons p m ih =>
    rw [keys_cons, List.nodup_cons] at hn
    rw [get?_cons]
    rcases List.mem_cons.mp h with h | h
    · subst h; simp
    · have : p.1 ≠ k := by
        intro e; subst e; exact hn.1 (mem_keys_of_mem (p := (p.1, v)) h)
      simp [this, ih hn.2 h]

theorem get?_eq_some_iff {m : GoMap K V} (hn : (keys m).Nodup) {k : K} {v : V} :
    get? m k = some v ↔ (k, v) ∈ m := ⟨mem_of_get?, get?_of_mem hn⟩

theorem get?_perm {m m' : GoMap K V} (hn : (keys m).Nodup) (hp : m.Perm m') (k : K) :
    get? m k = get? m' k := by
  have hn' : (keys m').Nodup := (hp.map Prod.fst).nodup_iff.mp hn
  apply Option.ext
  intro v
  rw [get?_eq_some_iff hn, get?_eq_some_iff hn']
  exact hp.mem_iff

theorem get?_set (m : GoMap K V) (k k' : K) (v : V) :
    get? (set m k v) k' = if k = k' then some v else get? m k' := by
  induction m with
  | nil => rfl
  | cons p m ih =>
    obtain ⟨a, b⟩ := p
    unfold set
    by_cases h : a = k
    · subst h; by_cases h' : a = k' <;> simp [get?_cons, h']
    · simp only [h, if_false, get?_cons, ih]
      by_cases h1 : a = k'
      · subst h1; simp [Ne.symm h]
      · simp [h1]

@[simp] theorem get?_set_self (m : GoMap K V) (k : K) (v : V) : get? (set m k v) k = some v := by
  simp [get?_set]

theorem keys_set_of_mem {m : GoMap K V} {k : K} {v : V} (h : k ∈ keys m) :
    keys (set m k v) = keys m := by
  induction m with
  | nil => simp at h
  | cons p m ih =>
    obtain ⟨a, b⟩ := p
    unfold set
    by_cases h' : a = k
    · simp [h']
    · simp only [h', if_false, keys_cons]
      rw [ih]
      simpa [Ne.symm h'] using h

theorem set_of_not_mem {m : GoMap K V} {k : K} {v : V} (h : k ∉ keys m) :
    set m k v = m ++ [(k, v)] := by
  induction m with
  | nil => rfl
  | cons p m ih =>
    obtain ⟨a, b⟩ := p
    simp at h
    unfold set
    rw [if_neg (Ne.symm h.1), ih h.2]; rfl

theorem keys_set_of_not_mem {m : GoMap K V} {k : K} {v : V} (h : k ∉ keys m) :
    keys (set m k v) = keys m ++ [k] := by
  rw [set_of_not_mem h]; simp [keys]

theorem mem_keys_set {m : GoMap K V} {k k' : K} {v : V} :
    k' ∈ keys (set m k v) ↔ k' = k ∨ k' ∈ keys m := by
  by_cases h : k ∈ keys m
  · rw [keys_set_of_mem h]
    constructor
    · exact Or.inr
    · rintro (rfl | h') <;> assumption
  · rw [keys_set_of_not_mem h]; simp [or_comm]

theorem nodup_set {m : GoMap K V} (hn : (keys m).Nodup) (k : K) (v : V) : (keys (set m k v)).Nodup := by
  by_cases h : k ∈ keys m
  · rwa [keys_set_of_mem h]
  · rw [keys_set_of_not_mem h]
    exact List.nodup_append.mpr ⟨hn, by simp, by
      intro a ha b hb; simp at hb; subst hb; intro e; subst e; exact h ha⟩

theorem mem_set {m : GoMap K V} {k : K} {v : V} {p : K × V} (hn : (keys m).Nodup) :
    p ∈ set m k v ↔ p = (k, v) ∨ (p ∈ m ∧ p.1 ≠ k) := by
  obtain ⟨a, b⟩ := p
  rw [← get?_eq_some_iff (nodup_set hn k v), get?_set, ← get?_eq_some_iff hn]
  by_cases h : k = a
  · subst h; simp [eq_comm]
  · simp [h, Ne.symm h]

theorem keys_delete (m : GoMap K V) (k : K) :
    keys (delete m k) = (keys m).filter (fun a => decide (a ≠ k)) := by
  simp [keys, delete, List.filter_map, Function.comp_def]

theorem nodup_delete {m : GoMap K V} (hn : (keys m).Nodup) (k : K) : (keys (delete m k)).Nodup := by
  rw [keys_delete]; exact hn.filter _

theorem mem_keys_delete {m : GoMap K V} {k k' : K} :
    k' ∈ keys (delete m k) ↔ k' ∈ keys m ∧ k' ≠ k := by
  rw [keys_delete]; simp

theorem get?_delete (m : GoMap K V) (k k' : K) :
    get? (delete m k) k' = if k = k' then none else get? m k' := by
  induction m with
  | nil => simp [delete]
  | cons p m ih =>
    obtain ⟨a, b⟩ := p
    unfold delete at ih ⊢
    by_cases h : a = k
    · subst h
      simp only [List.filter_cons, ne_eq, not_true_eq_false, decide_false, Bool.false_eq_true,
        if_false]
      rw [ih]
      by_cases h' : a = k' <;> simp [get?_cons, h']
    · simp only [List.filter_cons, ne_eq, h, not_false_eq_true, decide_true, if_true, get?_cons]
      rw [ih]
      by_cases h' : a = k'
      · subst h'; simp [Ne.symm h]
      · simp [h']

theorem length_delete {m : GoMap K V} (hn : (keys m).Nodup) {k : K} (h : k ∈ keys m) :
    (delete m k).length + 1 = m.length := by
  induction m with
  | nil => simp at h
  | cons p m ih =>
    obtain ⟨a, b⟩ := p
    rw [keys_cons, List.nodup_cons] at hn
    unfold delete at ih ⊢
    by_cases h' : a = k
    · subst h'
      simp only [List.filter_cons, ne_eq, not_true_eq_false, decide_false, Bool.false_eq_true,
        if_false, List.length_cons]
      have : List.filter (fun p : K × V => decide (p.1 ≠ a)) m = m := by
        apply List.filter_eq_self.mpr
        intro q hq
        have : q.1 ≠ a := by
          intro e
          have h3 : q.1 ∈ keys m := mem_keys_of_mem hq
          rw [e] at h3
          exact hn.1 h3
        simp [this]
      rw [this]
    · simp only [List.filter_cons, ne_eq, h', not_false_eq_true, decide_true, if_true,
        List.length_cons]
      have := ih hn.2 (by simpa [Ne.symm h'] using h)
      simp only [ne_eq] at this
      omega

/-- rebuilding a map entry by entry gives the map back -/
theorem foldl_set_append {m acc : GoMap K V} (hn : (keys (acc ++ m)).Nodup) :
    m.foldl (fun a p => set a p.1 p.2) acc = acc ++ m := by
  induction m generalizing acc with
  | nil => simp
  | cons p m ih =>
    have hk : p.1 ∉ keys acc := by
      simp only [keys, List.map_append, List.map_cons] at hn
      have := (List.nodup_append.mp hn).2.2
      intro h
      exact this p.1 (by simpa [keys] using h) p.1 (by simp) rfl
    simp only [List.foldl_cons]
    rw [set_of_not_mem hk, ih]
    · simp
    · simpa using hn

theorem foldl_set_nil {m : GoMap K V} (hn : (keys m).Nodup) :
    m.foldl (fun a p => set a p.1 p.2) [] = m := by
  simpa using foldl_set_append (acc := []) (m := m) (by simpa using hn)

/-- two maps with the same lookups and distinct keys are permutations of each other -/
theorem perm_of_get?_eq {m m' : GoMap K V} (hn : (keys m).Nodup) (hn' : (keys m').Nodup)
    (h : ∀ k, get? m k = get? m' k) : m.Perm m' := by
  have nd : m.Nodup := List.Nodup.of_map Prod.fst hn
  have nd' : m'.Nodup := List.Nodup.of_map Prod.fst hn'
  refine (List.perm_ext_iff_of_nodup nd nd').mpr ?_
  rintro ⟨k, v⟩
  rw [← get?_eq_some_iff hn, ← get?_eq_some_iff hn', h]

end GoMap
end Verif
