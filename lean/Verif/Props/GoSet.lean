import Verif.Model.GoSet
import Verif.Lemmas.GoMap
import Mathlib.Data.List.Nodup
import Mathlib.Data.String.Basic

/-!
# C09: sets
-/

namespace Verif
namespace GoSet

variable {K V : Type} [LinearOrder K]

/-- the value a sequence of additions leaves for a key: the last one with this key -/
def lastFor (getKey : V → K) (vals : List V) (k : K) : Option V :=
  vals.reverse.find? (fun v => getKey v = k)

/-- a set obtained by any sequence of `Add` calls -/
def IsSetOf (s : GoSet K V) (vals : List V) : Prop :=
  (s.valuesByKey.keys).Nodup ∧ (∀ k, s.valuesByKey.get? k = lastFor s.getKey vals k)

theorem foldl_set_spec (getKey : V → K) (vals : List V) : ∀ (m : GoMap K V), m.keys.Nodup →
    (vals.foldl (fun m v => m.set (getKey v) v) m).keys.Nodup ∧
    ∀ k, (vals.foldl (fun m v => m.set (getKey v) v) m).get? k = (lastFor getKey vals k).or (m.get? k) := by
  induction vals with
  | nil => intro m h; simp [h, lastFor]
  | cons v vals ih =>
    intro m h
    obtain ⟨h1, h2⟩ := ih (m.set (getKey v) v) (GoMap.nodup_set h _ _)
    refine ⟨h1, fun k => ?_⟩
    rw [List.foldl_cons, h2, GoMap.get?_set]
    unfold lastFor
    rw [List.reverse_cons, List.find?_append]
    cases vals.reverse.find? (fun v => decide (getKey v = k)) with
    | some w => simp
    | none =>
      by_cases e : getKey v = k
      · simp [e]
      · simp [e]

/-- C09.  However the values were added (in one `NewSet` call and any number of `Add` calls), the set has for
each key the last value added. -/
theorem C09_add (s : GoSet K V) (before vals : List V) (h : s.IsSetOf before) :
    (s.add vals).IsSetOf (before ++ vals) := by
  obtain ⟨h1, h2⟩ := foldl_set_spec s.getKey vals s.valuesByKey h.1
  refine ⟨h1, fun k => ?_⟩
  show (vals.foldl (fun m v => m.set (s.getKey v) v) s.valuesByKey).get? k = lastFor s.getKey (before ++ vals) k
  rw [h2, h.2]
  simp [lastFor, List.reverse_append, List.find?_append]

theorem C09_new (getKey : V → K) (vals : List V) :
    (newWithKey getKey vals).IsSetOf vals ∧ (newWithKey getKey vals).getKey = getKey := by
  have := C09_add (⟨[], getKey⟩ : GoSet K V) [] vals ⟨by simp, fun k => by simp [lastFor]⟩
  exact ⟨this, rfl⟩

theorem lastFor_some {getKey : V → K} {vals : List V} {k : K} {v : V} (h : lastFor getKey vals k = some v) :
    v ∈ vals ∧ getKey v = k := by
  unfold lastFor at h
  have h1 := List.mem_of_find?_eq_some h
  have h2 := List.find?_some h
  exact ⟨List.mem_reverse.mp h1, by simpa using h2⟩

/-- C09.  Membership holds iff a value with the same key was added. -/
theorem C09_has {s : GoSet K V} {vals : List V} (h : s.IsSetOf vals) (x : V) :
    s.has x = true ↔ ∃ v ∈ vals, s.getKey v = s.getKey x := by
  unfold has
  rw [GoMap.has, h.2]
  constructor
  · intro hs
    obtain ⟨v, hv⟩ := Option.isSome_iff_exists.mp hs
    exact ⟨v, lastFor_some hv⟩
  · rintro ⟨v, hv, e⟩
    unfold lastFor
    rw [List.find?_isSome]
    exact ⟨v, List.mem_reverse.mpr hv, by simpa using e⟩

theorem keys_values {s : GoSet K V} {vals : List V} (h : s.IsSetOf vals) :
    s.valuesByKey.values.map s.getKey = s.valuesByKey.keys := by
  unfold GoMap.values GoMap.keys
  rw [List.map_map]
  apply List.map_congr_left
  rintro ⟨k, v⟩ hm
  have := GoMap.get?_of_mem h.1 hm
  rw [h.2] at this
  exact (lastFor_some this).2

/-- C09.  `Values` returns for every key that was added exactly one value, the last one added, in strictly
increasing order of keys. -/
theorem C09_values {s : GoSet K V} {vals : List V} (h : s.IsSetOf vals) :
    s.values.Pairwise (fun a b => s.getKey a < s.getKey b) ∧
    ∀ v, v ∈ s.values ↔ lastFor s.getKey vals (s.getKey v) = some v := by
  have hp : s.values.Perm s.valuesByKey.values := List.perm_insertionSort _ _
  have hk := keys_values h
  constructor
  · have : IsTrans V (fun a b => s.getKey a ≤ s.getKey b) := ⟨fun _ _ _ h1 h2 => le_trans h1 h2⟩
    have : Std.Total (fun a b : V => s.getKey a ≤ s.getKey b) := ⟨fun a b => le_total _ _⟩
    have hs : s.values.Pairwise (fun a b => s.getKey a ≤ s.getKey b) := List.pairwise_insertionSort _ _
    have hnd : (s.values.map s.getKey).Nodup := (hp.map s.getKey).nodup_iff.mpr (hk ▸ h.1)
    exact (hs.and (List.pairwise_map.mp hnd)).imp (fun ⟨h1, h2⟩ => lt_of_le_of_ne h1 h2)
  · intro v
    rw [hp.mem_iff]
    constructor
    · intro hv
      obtain ⟨⟨k, w⟩, hm, rfl⟩ := List.mem_map.mp hv
      have hg := GoMap.get?_of_mem h.1 hm
      rw [h.2] at hg
      simp only
      rw [(lastFor_some hg).2]; exact hg
    · intro hl
      rw [← h.2] at hl
      exact List.mem_map.mpr ⟨_, GoMap.mem_of_get? hl, rfl⟩

/-- C09, C04.  `Values` does not depend on the iteration order of the map: it is the only list with these
two properties. -/
theorem C09_values_deterministic {s s' : GoSet K V} {vals : List V} (h : s.IsSetOf vals) (h' : s'.IsSetOf vals)
    (hk : s.getKey = s'.getKey) : s.values = s'.values := by
  obtain ⟨h1, h2⟩ := C09_values h
  obtain ⟨h1', h2'⟩ := C09_values h'
  rw [← hk] at h1' h2'
  have hn : s.values.Nodup := List.Pairwise.imp (fun h e => (ne_of_lt h) (congrArg s.getKey e)) h1
  have hn' : s'.values.Nodup := List.Pairwise.imp (fun h e => (ne_of_lt h) (congrArg s.getKey e)) h1'
  have hp : s.values.Perm s'.values := (List.perm_ext_iff_of_nodup hn hn').mpr (fun v => by rw [h2, h2'])
  exact hp.eq_of_pairwise (fun a b _ _ x y => absurd (lt_trans x y) (lt_irrefl _)) h1 h1'

/-- C09.  `Difference` returns the values of `a` whose key is not in `b`, in key order. -/
theorem C09_difference {a b : GoSet K V} {as bs : List V} (ha : a.IsSetOf as) (hb : b.IsSetOf bs) :
    (∀ v, v ∈ difference a b ↔ lastFor a.getKey as (a.getKey v) = some v ∧ ∀ w ∈ bs, b.getKey w ≠ b.getKey v) ∧
    (difference a b).Pairwise (fun x y => a.getKey x < a.getKey y) := by
  obtain ⟨h1, h2⟩ := C09_values ha
  refine ⟨fun v => ?_, h1.sublist List.filter_sublist⟩
  unfold difference
  rw [List.mem_filter, h2, Bool.not_eq_true', ← Bool.not_eq_true, C09_has hb]
  simp

/-! ### non-vacuity -/

example : (newWithKey Prod.fst [("b", 1), ("a", 2), ("b", 3)] : GoSet String (String × Nat)).values =
    [("a", 2), ("b", 3)] := by decide

example : difference (new ["x", "y", "z"]) (new ["y"]) = ["x", "z"] := by decide

end GoSet
end Verif
