import Verif.Lemmas.Effect
import Verif.Lemmas.GoSort
import Verif.Model.Cli
import Verif.Spec.Hazards
import Verif.Samples.Basic

/-!
# C35: the hazard gate of `apply`
-/

namespace Verif

open Spec Eff Cli

/-- the hazard types of the statement that no allowed type, in upper case, equals -/
def Spec.offending (toUpper : String → String) (allowed : List String) (s : Statement) : List HazardType :=
  s.hazardTypes.filter fun t => !(allowed.any fun a => toUpper a == t)

theorem disallowedTypes_eq (toUpper : String → String) (allowed : List String) (s : Statement) :
    disallowedTypes (fun t => decide (t ∈ allowed.map toUpper)) s = offending toUpper allowed s := by
  unfold disallowedTypes offending Statement.hazardTypes
  congr 1
  funext t
  congr 1
  simp only [List.mem_map]
  rw [Bool.eq_iff_iff]
  simp

theorem disallowedHazards_eq (toUpper : String → String) (allowed : List String) (ss : List Statement) (i : Nat) :
    disallowedHazards (fun t => decide (t ∈ allowed.map toUpper)) i ss =
      ((ss.zipIdx i).filter fun x => offending toUpper allowed x.1 ≠ []).map
        fun x => (x.2 + 1, offending toUpper allowed x.1) := by
  induction ss generalizing i with
  | nil => rfl
  | cons s ss ih =>
    rw [disallowedHazards]
    simp only [disallowedTypes_eq]
    rw [List.zipIdx_cons, ih]
    by_cases h : offending toUpper allowed s = []
    · simp [h]
    · rw [if_pos (List.length_pos_iff.mpr h), List.filter_cons_of_pos (by simpa using h)]
      rfl

theorem bad_ne_nil {toUpper : String → String} {allowed : List String} {ss : List Statement} {i : Nat} :
    ((ss.zipIdx i).filter fun x => offending toUpper allowed x.1 ≠ []) ≠ [] ↔
      ∃ s ∈ ss, ∃ t ∈ s.hazardTypes, ∀ a ∈ allowed, toUpper a ≠ t := by
  constructor
  · intro h
    obtain ⟨x, hx⟩ := List.exists_mem_of_ne_nil _ h
    obtain ⟨h1, h2⟩ := List.mem_filter.mp hx
    obtain ⟨t, ht⟩ := List.exists_mem_of_ne_nil _ (by simpa using h2)
    obtain ⟨h3, h4⟩ := List.mem_filter.mp ht
    refine ⟨x.1, List.mem_of_getElem? (List.mem_zipIdx_iff_le_and_getElem?_sub.mp h1).2, t, h3, ?_⟩
    simpa using h4
  · rintro ⟨s, hs, t, ht, ha⟩
    obtain ⟨n, hn⟩ := List.mem_iff_getElem?.mp hs
    refine List.ne_nil_of_mem (a := (s, i + n)) (List.mem_filter.mpr ⟨?_, ?_⟩)
    · rw [List.mem_zipIdx_iff_le_and_getElem?_sub]
      exact ⟨by simp, by simpa using hn⟩
    · simp only [ne_eq, decide_not, Bool.not_eq_true', decide_eq_false_iff_not]
      exact List.ne_nil_of_mem (List.mem_filter.mpr ⟨ht, by simpa using ha⟩)

/-- **C35**: `apply` refuses iff some statement carries a hazard whose type is none of the allowed types (which are
compared in upper case). -/
theorem C35_refuses_iff (toUpper : String → String) (p : Plan) (allowed : List String) :
    (failIfHazardsNotAllowed toUpper p allowed).isSome ↔
      ∃ s ∈ p.statements, ∃ t ∈ s.hazardTypes, ∀ a ∈ allowed, toUpper a ≠ t := by
  rw [← bad_ne_nil (i := 0)]
  unfold failIfHazardsNotAllowed
  dsimp only
  rw [disallowedHazards_eq]
  simp only [List.length_map, List.length_pos_iff]
  split
  · rename_i h; simpa using h
  · rename_i h; simpa using h

/-- **C35**: the message lists exactly the offending statements, by their position counted from one, each with exactly
the types that are not allowed, in plan order. -/
theorem C35_lists_offending (toUpper : String → String) (p : Plan) (allowed : List String) (msg : String)
    (h : failIfHazardsNotAllowed toUpper p allowed = some msg) :
    ∃ hint, msg = hint ++ "\nProhibited hazards in the following statements:\n" ++ "\n".intercalate
      ((p.statements.zipIdx.filter fun x => offending toUpper allowed x.1 ≠ []).map fun x =>
        "- Statement " ++ toString (x.2 + 1) ++ ": " ++ ", ".intercalate (offending toUpper allowed x.1)) := by
  unfold failIfHazardsNotAllowed at h
  dsimp only at h
  rw [disallowedHazards_eq] at h
  split at h
  · simp only [Option.some.injEq] at h
    rw [List.map_map] at h
    exact ⟨_, h.symm⟩
  · cases h

theorem mem_collectTypes {seen l : List HazardType} {t : HazardType} : t ∈ collectTypes seen l ↔ t ∈ seen ∨ t ∈ l := by
  induction l generalizing seen with
  | nil => simp [collectTypes]
  | cons x l ih =>
    rw [collectTypes, ih]
    split
    · rename_i hx
      simp only [List.mem_cons]
      constructor
      · rintro (h | h)
        · exact Or.inl h
        · exact Or.inr (Or.inr h)
      · rintro (h | rfl | h)
        · exact Or.inl h
        · exact Or.inl hx
        · exact Or.inr h
    · simp [or_assoc]

theorem nodup_collectTypes {seen l : List HazardType} (h : seen.Nodup) : (collectTypes seen l).Nodup := by
  induction l generalizing seen with
  | nil => exact h
  | cons x l ih =>
    rw [collectTypes]
    split
    · exact ih h
    · rename_i hx
      exact ih (List.nodup_append.mpr ⟨h, List.nodup_singleton x, by
        intro a ha b hb e
        rw [List.mem_singleton] at hb
        exact hx (hb ▸ e ▸ ha)⟩)

/-- **C35**: the types the user is told to allow are exactly those of the plan, each once, in order. -/
theorem C35_suggested_types (p : Plan) :
    (∀ t, t ∈ getHazardTypes p ↔ ∃ s ∈ p.statements, t ∈ s.hazardTypes) ∧ (getHazardTypes p).Pairwise (· < ·) := by
  unfold getHazardTypes
  refine ⟨fun t => ?_, ?_⟩
  · rw [sortStrings, (sortBy_perm _ _).mem_iff, mem_collectTypes]
    simp [Statement.hazardTypes]
  · have h1 := sortBy_sorted id (collectTypes [] (p.statements.flatMap fun s => s.hazards.map (·.type)))
    have h2 : (sortStrings (collectTypes [] (p.statements.flatMap fun s => s.hazards.map (·.type)))).Nodup :=
      (sortBy_perm _ _).nodup_iff.mpr (nodup_collectTypes List.nodup_nil)
    exact (h1.and h2).imp fun h => lt_of_le_of_ne h.1 h.2

/-- **C35**: a refused plan is not run: `apply` fails and makes no call at all. -/
theorem C35_refused_runs_nothing (toUpper : String → String) (db : String) (skip : Bool) (allowed : List String) (p : Plan)
    (env : Env) (h : History)
    (hbad : ∃ s ∈ p.statements, ∃ t ∈ s.hazardTypes, ∀ a ∈ allowed, toUpper a ≠ t) :
    ∃ msg, applyPlan toUpper db skip allowed p env h = (.err (.other msg), h) := by
  obtain ⟨msg, hm⟩ := Option.isSome_iff_exists.mp ((C35_refuses_iff toUpper p allowed).mpr hbad)
  obtain ⟨s, hs, -⟩ := hbad
  unfold applyPlan
  rw [if_neg (by intro he; rw [List.length_eq_zero_iff.mp he] at hs; cases hs), eff_bind]
  unfold gate
  rw [hm]
  exact ⟨msg, rfl⟩

/-- **C35**: a plan that is not refused and is confirmed (or the prompt skipped) is run; an empty one is not. -/
theorem C35_allowed_runs (toUpper : String → String) (db : String) (allowed : List String) (p : Plan) (hne : p.statements ≠ [])
    (hgood : ∀ s ∈ p.statements, ∀ t ∈ s.hazardTypes, ∃ a ∈ allowed, toUpper a = t) :
    applyPlan toUpper db true allowed p = runPlan db p := by
  have hnone : failIfHazardsNotAllowed toUpper p allowed = none := by
    rw [← Option.not_isSome_iff_eq_none, C35_refuses_iff]
    rintro ⟨s, hs, t, ht, ha⟩
    obtain ⟨a, ha', e⟩ := hgood s hs t ht
    exact ha a ha' e
  unfold applyPlan
  rw [if_neg (by simpa using hne)]
  unfold gate confirm
  rw [hnone]
  rfl

/-- a generated plan with three kinds of hazards: allowing one of them is not enough -/
example : ∃ stmts r', generateMigrationStatements Samples.rand Samples.old1 Samples.new1 Samples.opts = .ok (stmts, r') ∧
    (failIfHazardsNotAllowed String.toUpper ⟨stmts, ""⟩ ["deletes_data"]).isSome ∧
    failIfHazardsNotAllowed String.toUpper ⟨stmts, ""⟩ ["deletes_data", "authz_update", "Has_Untrackable_Dependencies"] = none ∧
    getHazardTypes ⟨stmts, ""⟩ = ["AUTHZ_UPDATE", "DELETES_DATA", "HAS_UNTRACKABLE_DEPENDENCIES"] :=
  Samples.exists_plan (by decide +kernel)

end Verif
