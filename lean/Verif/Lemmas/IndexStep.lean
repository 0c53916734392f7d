import Verif.Spec.Index
import Verif.Lemmas.Run
import Verif.Props.Escape

/-!
# The steps of the machines of one index
-/

namespace Verif

open Spec

/-- a statement that renames the index `n` -/
def Ddl.renamesIndex (n : String) : Ddl → Bool
  | .renameIndex q _ => q.fq = n
  | _ => false

/-- a statement that gives an index the name `n` -/
def Ddl.renamesOnto (n : String) : Ddl → Bool
  | .renameIndex q m => beside q (escapeIdentifier m) = n
  | _ => false

/-- a statement that builds the index `n`, or a constraint on it -/
def Ddl.makesIndex (n : String) : Ddl → Bool
  | .createIndex i _ _ => beside i.owningRelName (escapeIdentifier i.name) = n
  | .addConstraintOnly t c _ => beside t c = n
  | .alterTable t (.addUsingIndex c _ i) => beside t i = n || beside t c = n
  | _ => false

/-- a statement that drops the index `n` -/
def Ddl.dropsIndexNamed (n : String) : Ddl → Bool
  | .dropIndex q _ => q.fq = n
  | .alterTable t (.dropConstraint c) => beside t c = n
  | _ => false

/-- a statement that takes the index along -/
def Ddl.takesIndex (tx : IndexTexts) (x : IndexState) : Ddl → Bool
  | .dropTable t => !x.onView && decide (x.owner = t.fq)
  | .dropMaterializedView v => x.onView && decide (x.owner = v.fq)
  | .alterTable t (.dropColumn c) => !x.onView && (decide (x.owner = t.fq) && decide (c ∈ tx.uses x.definition))
  | _ => false

/-- a statement that mentions the name of the index `n` -/
def Ddl.namesIndex (n : String) (x : Ddl) : Bool :=
  x.renamesIndex n || (x.renamesOnto n || (x.makesIndex n || x.dropsIndexNamed n))

section
variable {tx : IndexTexts} {q n : String} {x : IndexState}

theorem namesIndex_false {y : Ddl} (h : y.namesIndex n = false) : y.renamesIndex n = false ∧ y.renamesOnto n = false ∧
    y.makesIndex n = false ∧ y.dropsIndexNamed n = false := by
  unfold Ddl.namesIndex at h
  simpa [Bool.or_eq_false_iff] using h

theorem indexEffect_keeps {y : Ddl} (h : y.namesIndex q = false) (ht : y.takesIndex tx x = false) :
    indexEffect tx q x y = some (some (q, x)) := by
  obtain ⟨h1, h2, h3, h4⟩ := namesIndex_false h
  cases y with
  | createIndex i c t => exact if_neg (of_decide_eq_false h3)
  | addConstraintOnly t c d => exact if_neg (of_decide_eq_false h3)
  | renameIndex a m => exact (if_neg (of_decide_eq_false h1)).trans (if_neg (of_decide_eq_false h2))
  | dropIndex a c => exact if_neg (of_decide_eq_false h4)
  | dropTable t =>
    refine congrArg some (if_neg ?_)
    rintro ⟨e1, e2⟩
    simp [Ddl.takesIndex, e1, e2] at ht
  | dropMaterializedView t =>
    refine congrArg some (if_neg ?_)
    rintro ⟨e1, e2⟩
    simp [Ddl.takesIndex, e1, e2] at ht
  | alterTable t a =>
    cases a with
    | addUsingIndex c ty i =>
      rw [Ddl.makesIndex, Bool.or_eq_false_iff] at h3
      exact (if_neg (of_decide_eq_false h3.1)).trans (if_neg (of_decide_eq_false h3.2))
    | dropConstraint c => exact if_neg (of_decide_eq_false h4)
    | dropColumn c =>
      refine congrArg some (if_neg ?_)
      rintro ⟨e1, e2, e3⟩
      simp [Ddl.takesIndex, e1, e2, e3] at ht
    | _ => rfl
  | _ => rfl

theorem indexEffect_takes {y : Ddl} (ht : y.takesIndex tx x = true) : indexEffect tx q x y = some none := by
  cases y with
  | dropTable t =>
    refine congrArg some (if_pos ?_)
    simpa [Ddl.takesIndex] using ht
  | dropMaterializedView t =>
    refine congrArg some (if_pos ?_)
    simpa [Ddl.takesIndex] using ht
  | alterTable t a =>
    cases a with
    | dropColumn c =>
      refine congrArg some (if_pos ?_)
      simpa [Ddl.takesIndex] using ht
    | _ => cases ht
  | _ => cases ht

theorem takes_namesIndex {y : Ddl} (ht : y.takesIndex tx x = true) : y.namesIndex n = false := by
  cases y with
  | dropTable t => rfl
  | dropMaterializedView t => rfl
  | alterTable t a =>
    cases a with
    | dropColumn c => rfl
    | _ => cases ht
  | _ => cases ht

theorem nameStep_keeps {y : Ddl} (h : y.namesIndex n = false) (ht : y.takesIndex tx x = false) :
    nameStep tx n (some x) y = some (some x) := by
  show (indexEffect tx n x y).map _ = _
  rw [indexEffect_keeps h ht]
  exact congrArg some (if_pos rfl)

theorem nameStep_takes {y : Ddl} (ht : y.takesIndex tx x = true) : nameStep tx n (some x) y = some none := by
  show (indexEffect tx n x y).map _ = _
  rw [indexEffect_takes ht]; rfl

theorem nameStep_none {y : Ddl} (h : y.namesIndex n = false) : nameStep tx n none y = some none := by
  obtain ⟨h1, h2, h3, h4⟩ := namesIndex_false h
  cases y with
  | createIndex i c t => exact if_neg (of_decide_eq_false h3)
  | addConstraintOnly t c d => exact if_neg (of_decide_eq_false h3)
  | renameIndex a m =>
    refine if_neg ?_
    rintro (e | e)
    · exact of_decide_eq_false h1 e
    · exact of_decide_eq_false h2 e
  | dropIndex a c => exact if_neg (of_decide_eq_false h4)
  | alterTable t a =>
    cases a with
    | addUsingIndex c ty i =>
      rw [Ddl.makesIndex, Bool.or_eq_false_iff] at h3
      refine if_neg ?_
      rintro (e | e)
      · exact of_decide_eq_false h3.1 e
      · exact of_decide_eq_false h3.2 e
    | dropConstraint c => exact if_neg (of_decide_eq_false h4)
    | _ => rfl
  | _ => rfl

/-- a renamed index has left its name -/
theorem nameStep_renamed {y : Ddl} (h : y.renamesIndex n = true) (ho : y.renamesOnto n = false) :
    nameStep tx n (some x) y = some none := by
  cases y with
  | renameIndex a m =>
    have e : indexEffect tx n x (.renameIndex a m) = some (some (beside a (escapeIdentifier m), x)) :=
      if_pos (of_decide_eq_true h)
    show (indexEffect tx n x (.renameIndex a m)).map _ = _
    rw [e]
    exact congrArg some (if_neg (of_decide_eq_false ho))
  | _ => cases h

end

/-! ### names -/

/-- the parts of a qualified name can be read off -/
theorem fq_parts {a b : SQName} (h : a.fq = b.fq) : escapeIdentifier a.schemaName = escapeIdentifier b.schemaName ∧
    a.escapedName = b.escapedName := by
  have h1 := C10_identifier_read_back a.schemaName ("." ++ a.escapedName) (by simp)
  have h2 := C10_identifier_read_back b.schemaName ("." ++ b.escapedName) (by simp)
  have e : escapeIdentifier a.schemaName ++ ("." ++ a.escapedName) = escapeIdentifier b.schemaName ++ ("." ++ b.escapedName) := by
    have : escapeIdentifier a.schemaName ++ "." ++ a.escapedName = escapeIdentifier b.schemaName ++ "." ++ b.escapedName := h
    rw [← String.append_assoc, ← String.append_assoc]; exact this
  rw [e, h2] at h1
  injection h1 with h1
  injection h1 with h3 h4
  constructor
  · unfold escapeIdentifier quoteWith
    rw [h3]
  · rw [String.toList_append, String.toList_append] at h4
    exact String.toList_inj.mp (List.append_cancel_left h4).symm

theorem beside_congr {a b : SQName} (h : a.fq = b.fq) (c : String) : beside a c = beside b c := by
  show escapeIdentifier a.schemaName ++ "." ++ c = escapeIdentifier b.schemaName ++ "." ++ c
  rw [(fq_parts h).1]

/-- a name that begins like the names the tool makes up is none that does not -/
theorem beside_prefix {p a n : String} (hp : NoNul p) (hn : NoNul n) {t u : SQName}
    (h : beside t (escapeIdentifier (p ++ a)) = beside u (escapeIdentifier n)) : p.toList <+: n.toList := by
  have e : escapeIdentifier (p ++ a) = escapeIdentifier n := (fq_parts h).2
  have h1 := C10_identifier_read_back (p ++ a) "" (by simp)
  have h2 := C10_identifier_exact n "" hn (by simp)
  rw [e, h2] at h1
  injection h1 with h1
  injection h1 with h1 _
  rw [h1, String.toList_append, List.filter_append]
  have : p.toList.filter (fun c => decide (c ≠ '\x00')) = p.toList := by
    rw [List.filter_eq_self]
    intro c hc
    exact decide_eq_true fun e => hp (e ▸ hc)
  rw [this]
  exact List.prefix_append _ _

theorem nonConflictingName_prefix (name uuid : String) : ∃ a, nonConflictingName name uuid = "pgschemadiff_tmpidx_" ++ a := by
  have hpe : tmpObjNamePrefix ++ "idx_" = "pgschemadiff_tmpidx_" := by decide
  unfold nonConflictingName
  simp only [hpe]
  split
  · exact ⟨_, String.append_assoc⟩
  · exact ⟨_, String.append_assoc⟩

end Verif
