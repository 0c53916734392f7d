import Verif.Model.Gen.Framework
import Verif.Lemmas.GoMap

/-!
# Maps built from lists (`buildMap`)
-/

namespace Verif

section
variable {K V : Type} [DecidableEq K] {key : V → K}

theorem buildMap_fold_get? (l : List V) : ∀ (m : GoMap K V) (k : K),
    GoMap.get? (l.foldl (fun m v => m.set (key v) v) m) k =
      match (l.reverse.find? (fun v => key v = k)) with
      | some v => some v
      | none => m.get? k := by
  induction l with
  | nil => intro m k; rfl
  | cons a l ih =>
    intro m k
    rw [List.foldl_cons, ih, List.reverse_cons, List.find?_append]
    cases h : l.reverse.find? (fun v => decide (key v = k)) with
    | some v => simp
    | none =>
      by_cases hk : key a = k
      · simp [hk]
      · simp [hk, GoMap.get?_set]

/-- a map built from a list returns the last element with the key -/
theorem buildMap_get? (l : List V) (k : K) :
    (buildMap key l).get? k = l.reverse.find? (fun v => key v = k) := by
  unfold buildMap
  rw [buildMap_fold_get?]
  cases l.reverse.find? (fun v => decide (key v = k)) <;> rfl

theorem buildMap_get?_some {l : List V} {k : K} {v : V} (h : (buildMap key l).get? k = some v) :
    v ∈ l ∧ key v = k := by
  rw [buildMap_get?] at h
  have h1 := List.mem_of_find?_eq_some h
  have h2 := List.find?_some h
  exact ⟨List.mem_reverse.mp h1, by simpa using h2⟩

theorem buildMap_get?_none {l : List V} {k : K} : (buildMap key l).get? k = none ↔ k ∉ l.map key := by
  rw [buildMap_get?, List.find?_eq_none]
  simp

theorem buildMap_has {l : List V} {k : K} : (buildMap key l).has k = true ↔ k ∈ l.map key := by
  unfold GoMap.has
  rw [← not_iff_not, Bool.not_eq_true, Option.isSome_eq_false_iff, Option.isNone_iff_eq_none, buildMap_get?_none]

theorem buildMap_get?_of_mem {l : List V} (hn : (l.map key).Nodup) {v : V} (hv : v ∈ l) :
    (buildMap key l).get? (key v) = some v := by
  cases h : (buildMap key l).get? (key v) with
  | none => exact absurd (List.mem_map_of_mem hv) (buildMap_get?_none.mp h)
  | some w =>
    obtain ⟨h1, h2⟩ := buildMap_get?_some h
    rw [List.inj_on_of_nodup_map hn h1 hv h2]

end

section
variable {S : Type} [Obj S]

theorem byName_get?_some {l : List S} {k : String} {v : S} (h : (byName l).get? k = some v) :
    v ∈ l ∧ Obj.getName v = k := buildMap_get?_some h

theorem byName_get?_none {l : List S} {k : String} : (byName l).get? k = none ↔ k ∉ l.map Obj.getName :=
  buildMap_get?_none

theorem byName_has {l : List S} {k : String} : (byName l).has k = true ↔ k ∈ l.map Obj.getName := buildMap_has

theorem byName_get?_of_mem {l : List S} (hn : (l.map Obj.getName).Nodup) {v : S} (hv : v ∈ l) :
    (byName l).get? (Obj.getName v) = some v := buildMap_get?_of_mem hn hv

theorem byName_has_congr {l l' : List S} (h : l.map Obj.getName = l'.map Obj.getName) (k : String) :
    (byName l).has k = (byName l').has k := by
  rw [Bool.eq_iff_iff, byName_has, byName_has, h]

end

section
variable {S D : Type} [Obj S] [IsDiff D S]

theorem diffByName_get?_some {l : List D} {k : String} {d : D} (h : (diffByName l).get? k = some d) :
    d ∈ l ∧ Obj.getName (IsDiff.getNew d) = k := buildMap_get?_some h

theorem diffByName_get?_none {l : List D} {k : String} :
    (diffByName l).get? k = none ↔ k ∉ l.map (fun d => Obj.getName (IsDiff.getNew d)) := buildMap_get?_none

theorem diffByName_get?_of_mem {l : List D} (hn : (l.map (fun d => Obj.getName (IsDiff.getNew d))).Nodup) {d : D}
    (hv : d ∈ l) : (diffByName l).get? (Obj.getName (IsDiff.getNew d)) = some d :=
  buildMap_get?_of_mem (key := fun d : D => Obj.getName (IsDiff.getNew d)) hn hv

end
end Verif
