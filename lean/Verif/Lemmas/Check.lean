import Verif.Spec.Check
import Verif.Lemmas.TableFate
import Verif.Lemmas.Inner
import Verif.Props.Escape
import Verif.Props.Names
import Verif.Props.NotNullCheck

/-!
# The statements about one check constraint
-/

namespace Verif

open Spec

section
variable {σ : Type} {step : σ → Ddl → Option σ}

/-- statements that change no state with `I` can be left out -/
theorem runWith_filter {I : σ → Prop} {P : Statement → Bool} {l : List Statement}
    (h : ∀ x ∈ l, P x = false → ∀ s, I s → step s x.ddl = some s)
    (hI : ∀ x ∈ l, P x = true → ∀ s s', I s → step s x.ddl = some s' → I s') {s : σ} (hs : I s) :
    runWith step s l = runWith step s (l.filter P) := by
  induction l generalizing s with
  | nil => rfl
  | cons x l ih =>
    have ih : ∀ {s : σ}, I s → runWith step s l = runWith step s (l.filter P) := fun hs =>
      ih (fun y hy => h y (List.mem_cons_of_mem _ hy)) (fun y hy => hI y (List.mem_cons_of_mem _ hy)) hs
    cases hp : P x with
    | false =>
      rw [List.filter_cons, if_neg (by simp [hp]), runWith_cons (h x List.mem_cons_self hp s hs), ih hs]
    | true =>
      rw [List.filter_cons, if_pos hp]
      simp only [runWith]
      cases hx : step s x.ddl with
      | none => rfl
      | some s' => exact ih (hI x List.mem_cons_self hp s s' hs hx)

end

/-! ### the statements -/

/-- a statement that drops the constraint `k` of the table `n` -/
def Ddl.dropsCheck (n k : String) : Ddl → Bool
  | .alterTable t (.dropConstraint q) => t.fq = n && readsAs q k
  | _ => false

/-- a statement that adds or validates the constraint `k` of the table `n` -/
def Ddl.makesCheck (n k : String) : Ddl → Bool
  | .alterTable t (.addCheck name ..) => t.fq = n && name = k
  | .alterTable t (.validateConstraint q) => t.fq = n && readsAs q k
  | _ => false

/-- a statement that drops a column of the table `n` -/
def Ddl.dropsColumnOf (n c : String) : Ddl → Bool
  | .alterTable t (.dropColumn c') => t.fq = n && c' = c
  | _ => false

/-- a statement that makes a column NOT NULL -/
def Ddl.setsNotNull (n c : String) : Ddl → Bool
  | .alterTable t (.alterColumn c' .setNotNull) => t.fq = n && c' = c
  | _ => false

/-- statements inside of the table `n` that matter for constraints of which the quoted names are in `K` -/
def Ddl.aroundCheck (n : String) (K : String → Bool) : Ddl → Bool
  | .createTable t _ _ => t.fq = n
  | .alterTable t (.addCheck ..) => t.fq = n
  | .alterTable t (.validateConstraint q) => t.fq = n && K q
  | .alterTable t (.dropConstraint q) => t.fq = n && K q
  | .alterTable t (.dropColumn _) => t.fq = n
  | .alterTable t (.alterColumn _ .setNotNull) => t.fq = n
  | _ => false

theorem nameOk_iff {s : String} : nameOk s = true ↔ NoNul s := by
  unfold nameOk NoNul; simp

theorem readsAs_escape {a : String} (ha : NoNul a) (k : String) : readsAs (escapeIdentifier a) k = decide (a = k) := by
  have h := C10_identifier_read_back a "" (by simp)
  rw [String.append_empty] at h
  unfold readsAs
  rw [h]
  have e : a.toList.filter (fun c => decide (c ≠ '\x00')) = a.toList := by
    rw [List.filter_eq_self]
    intro c hc
    exact decide_eq_true fun e => ha (e ▸ hc)
  rw [e]
  refine decide_eq_decide.mpr ⟨fun h => ?_, fun h => by rw [h]; rfl⟩
  injection h with h
  injection h with h1 h2
  exact String.toList_inj.mp h1

section
variable {cols : String → List String} {n k : String}

/-- nothing happens to the constraint -/
theorem checkStep_other {K : String → Bool} (hK : ∀ q, readsAs q k = true → K q = true) {x : Ddl}
    (h1 : x.aroundCheck n K = false) (h2 : x.dropsTable n = false) (s : Option CheckState) :
    checkStep cols n k s x = some s := by
  cases x with
  | createTable t c p =>
    have : ¬ t.fq = n := of_decide_eq_false h1
    exact if_neg this
  | dropTable t =>
    have : ¬ t.fq = n := of_decide_eq_false h2
    exact congrArg some (if_neg this)
  | alterTable t a =>
    by_cases ht : t.fq = n
    · refine (if_pos ht).trans ?_
      cases a with
      | addCheck name e ni nv => simp only [Ddl.aroundCheck, ht, decide_true] at h1; cases h1
      | validateConstraint q =>
        simp only [Ddl.aroundCheck, ht, decide_true, Bool.true_and] at h1
        exact if_neg fun h => by rw [hK q h] at h1; cases h1
      | dropConstraint q =>
        simp only [Ddl.aroundCheck, ht, decide_true, Bool.true_and] at h1
        exact if_neg fun h => by rw [hK q h] at h1; cases h1
      | dropColumn c => simp only [Ddl.aroundCheck, ht, decide_true] at h1; cases h1
      | _ => rfl
    · exact if_neg ht
  | _ => rfl

/-- the constraint stays as it is -/
theorem checkStep_keeps {x : Ddl} {st : Option CheckState} (h1 : x.dropsTable n = false)
    (h2 : ∀ t c p, x = .createTable t c p → t.fq ≠ n) (h3 : x.dropsCheck n k = false) (h4 : x.makesCheck n k = false)
    (h5 : ∀ y, st = some y → ∀ c ∈ cols y.expression, x.dropsColumnOf n c = false) :
    checkStep cols n k st x = some st := by
  cases x with
  | createTable t c p => exact if_neg (h2 t c p rfl)
  | alterTable t a =>
    by_cases ht : t.fq = n
    · cases a with
      | addCheck name e ni nv =>
        simp only [Ddl.makesCheck, ht, decide_true, Bool.true_and, decide_eq_false_iff_not] at h4
        exact (if_pos ht).trans (if_neg h4)
      | validateConstraint q =>
        refine checkStep_other (K := fun q => readsAs q k) (fun _ h => h) (Eq.trans ?_ h4) h1 st
        rfl
      | dropConstraint q =>
        refine checkStep_other (K := fun q => readsAs q k) (fun _ h => h) (Eq.trans ?_ h3) h1 st
        rfl
      | dropColumn c =>
        refine (if_pos ht).trans ?_
        cases st with
        | none => rfl
        | some y =>
          refine congrArg some (if_neg fun hm => ?_)
          have := h5 y rfl c hm
          simp [Ddl.dropsColumnOf, ht] at this
      | _ => exact if_pos ht
    · exact if_neg ht
  | _ => exact checkStep_other (K := fun q => readsAs q k) (fun _ h => h) rfl h1 st

/-- the columns `D` are not mentioned -/
def Unaffected (cols : String → List String) (D : List String) (s : Option CheckState) : Prop :=
  ∀ x, s = some x → ∀ c ∈ cols x.expression, c ∉ D

/-- inside of a table, dropping columns that are not mentioned does nothing -/
theorem runCheck_inside {D : List String} {l : List Statement}
    (h1 : ∀ s ∈ l, s.ddl.dropsTable n = false)
    (h2 : ∀ s ∈ l, ∀ t c p, s.ddl = .createTable t c p → t.fq ≠ n)
    (h3 : ∀ s ∈ l, ∀ c, s.ddl.dropsColumnOf n c = true → c ∈ D)
    (h4 : ∀ s ∈ l, ∀ t e a b, s.ddl = .alterTable t (.addCheck k e a b) → t.fq = n → ∀ c ∈ cols e, c ∉ D)
    {st : Option CheckState} (hst : Unaffected cols D st) :
    runCheck cols n k st l = runCheck cols n k st (l.filter fun s : Statement => s.ddl.dropsCheck n k || s.ddl.makesCheck n k) := by
  refine runWith_filter (I := Unaffected cols D) ?_ ?_ hst
  · intro s hs hp st hst
    rw [Bool.or_eq_false_iff] at hp
    refine checkStep_keeps (h1 s hs) (h2 s hs) hp.1 hp.2 fun y hy c hc => ?_
    cases hd : s.ddl.dropsColumnOf n c with
    | false => rfl
    | true => exact absurd (h3 s hs c hd) (hst y hy c hc)
  · intro s hs hp st st' hst hstep
    have h4 := h4 s hs
    generalize hx : s.ddl = x at *
    cases x with
    | alterTable t a =>
      cases a with
      | addCheck name e ni nv =>
        simp only [Ddl.dropsCheck, Ddl.makesCheck, Bool.false_or, Bool.and_eq_true, decide_eq_true_eq] at hp
        obtain ⟨ht, rfl⟩ := hp
        have e1 := (if_pos ht).symm.trans hstep
        unfold checkAction at e1
        dsimp only at e1
        rw [if_pos rfl] at e1
        cases st with
        | none => cases e1; intro x hx c hc; cases hx; exact h4 t e ni nv rfl ht c hc
        | some y => cases e1
      | validateConstraint q =>
        simp only [Ddl.dropsCheck, Ddl.makesCheck, Bool.false_or, Bool.and_eq_true, decide_eq_true_eq] at hp
        have e1 := (if_pos hp.1).symm.trans hstep
        unfold checkAction at e1
        dsimp only at e1
        rw [if_pos hp.2] at e1
        cases st with
        | none => cases e1
        | some y => cases e1; intro x hx c hc; cases hx; exact hst y rfl c hc
      | dropConstraint q =>
        simp only [Ddl.dropsCheck, Ddl.makesCheck, Bool.or_false, Bool.and_eq_true, decide_eq_true_eq] at hp
        have e1 := (if_pos hp.1).symm.trans hstep
        unfold checkAction at e1
        dsimp only at e1
        rw [if_pos hp.2] at e1
        cases st with
        | none => cases e1
        | some y => cases e1; intro x hx; cases hx
      | _ => simp [Ddl.dropsCheck, Ddl.makesCheck] at hp
    | _ => simp [Ddl.dropsCheck, Ddl.makesCheck] at hp

/-- dropping the constraint, before any column that it mentions and before it is added again -/
theorem runCheck_drop {D : List String} {l : List Statement} {x : Statement} {y : CheckState}
    (h1 : ∀ s ∈ l, s.ddl.dropsTable n = false)
    (h2 : ∀ s ∈ l, ∀ t c p, s.ddl = .createTable t c p → t.fq ≠ n)
    (h3 : ∀ s ∈ l, ∀ c, s.ddl.dropsColumnOf n c = true → c ∈ D)
    (h4 : ∀ s ∈ l, ∀ t e a b, s.ddl = .alterTable t (.addCheck k e a b) → t.fq = n → ∀ c ∈ cols e, c ∉ D)
    (hd : l.filter (fun s : Statement => s.ddl.dropsCheck n k) = [x])
    (hb : AllBefore (fun s : Statement => s.ddl.dropsCheck n k = true) (fun s => s.ddl.makesCheck n k = true) l)
    (hc : ∀ c ∈ cols y.expression, AllBefore (fun s : Statement => s.ddl.dropsCheck n k = true) (fun s => s.ddl.dropsColumnOf n c = true) l) :
    runCheck cols n k (some y) l = runCheck cols n k none (l.filter fun s : Statement => s.ddl.makesCheck n k) := by
  obtain ⟨a, b, e, hx, ha, hb'⟩ := split_once hd
  subst e
  have hkeep : ∀ z ∈ a, checkStep cols n k (some y) z.ddl = some (some y) := by
    intro z hz
    have hm : z.ddl.makesCheck n k = false := by simpa using hb.not_before hx z hz
    refine checkStep_keeps (h1 z (by simp [hz])) (h2 z (by simp [hz])) (ha z hz) hm fun y' hy c hcc => ?_
    cases hy
    simpa using (hc c hcc).not_before hx z hz
  have hstep : checkStep cols n k (some y) x.ddl = some none := by
    clear h1 h2 h3 h4 hd hb hc ha hb' hkeep
    generalize x.ddl = z at hx
    cases z with
    | alterTable t a =>
      cases a with
      | dropConstraint q =>
        simp only [Ddl.dropsCheck, Bool.and_eq_true, decide_eq_true_eq] at hx
        refine (if_pos hx.1).trans ?_
        exact if_pos hx.2
      | _ => cases hx
    | _ => cases hx
  have hnm : a.filter (fun s : Statement => s.ddl.makesCheck n k) = [] := by
    rw [List.filter_eq_nil_iff]
    intro z hz hm
    exact hb.not_before hx z hz hm
  have hxm : x.ddl.makesCheck n k = false := by
    clear h1 h2 h3 h4 hd hb hc ha hb' hkeep hstep
    generalize x.ddl = z at hx
    cases z with
    | alterTable t a => cases a <;> first | rfl | cases hx
    | _ => cases hx
  have hf : b.filter (fun s : Statement => s.ddl.dropsCheck n k || s.ddl.makesCheck n k) =
      b.filter fun s : Statement => s.ddl.makesCheck n k := by
    refine List.filter_congr fun z hz => ?_
    rw [hb' z hz]; rfl
  rw [List.filter_append, hnm, List.nil_append, List.filter_cons, if_neg (by simp [hxm])]
  unfold runCheck
  rw [runWith_at hkeep hstep, ← hf]
  refine runCheck_inside (D := D) (fun s hs => h1 s (by simp [hs])) (fun s hs => h2 s (by simp [hs]))
    (fun s hs => h3 s (by simp [hs])) (fun s hs => h4 s (by simp [hs])) ?_
  intro z hz; cases hz

end
end Verif
