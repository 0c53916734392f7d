import Verif.Lemmas.DiffLists

/-!
# C08 (and the `diffLists` part of C04)
-/

namespace Verif

variable {S D : Type} [Obj S]

local notation "nm" => Obj.getName

/-- C08.  `diffLists` succeeds iff old names are distinct and no diff function call on a matched pair fails. -/
theorem C08_succeeds_iff (old new : List S) (buildDiff : S → S → Nat → Nat → Except Err (D × Bool)) :
    (∃ r, diffLists old new buildDiff = .ok r) ↔
      (old.map nm).Nodup ∧ ∀ i x o j e, new[i]? = some x → matchOf old new x i = some (o, j) →
        buildDiff o x j i ≠ .error e := by
  have hfail : ∀ x i e, verdict buildDiff old new x i = .fail e ↔
      ∃ o j, matchOf old new x i = some (o, j) ∧ buildDiff o x j i = .error e := by
    intro x i e
    unfold verdict
    cases hm : matchOf old new x i with
    | none => simp
    | some p =>
      obtain ⟨o, j⟩ := p
      simp only
      cases hb : buildDiff o x j i with
      | error e' => simp [hb]
      | ok q => obtain ⟨d, b⟩ := q; cases b <;> simp [hb]
  rcases diffLists_spec buildDiff old new with ⟨h1, h2⟩ | ⟨h1, e, h2, p, hp, hv⟩ | ⟨h1, h2, r, h3, _⟩
  · constructor
    · rintro ⟨r, hr⟩; rw [h2] at hr; cases hr
    · rintro ⟨hn, _⟩; exact absurd hn h1
  · constructor
    · rintro ⟨r, hr⟩; rw [h2] at hr; cases hr
    · rintro ⟨_, hb⟩
      obtain ⟨o, j, k1, k2⟩ := (hfail _ _ _).mp hv
      exact absurd k2 (hb p.2 p.1 o j e (List.mem_zipIdx_iff_getElem?.mp hp) k1)
  · refine ⟨fun _ => ⟨h1, fun i x o j e hx hm hb => ?_⟩, fun _ => ⟨r, h3⟩⟩
    exact h2 (x, i) (List.mem_zipIdx_iff_getElem?.mpr hx) e ((hfail x i e).mpr ⟨o, j, hm, hb⟩)

/-- C08.  A repeated name among the old objects is always reported. -/
theorem C08_duplicate_old (old new : List S) (buildDiff : S → S → Nat → Nat → Except Err (D × Bool))
    (h : ¬ (old.map nm).Nodup) : diffLists old new buildDiff = .error .duplicateIdentifier := by
  rcases diffLists_spec buildDiff old new with ⟨_, h2⟩ | ⟨h1, _⟩ | ⟨h1, _⟩
  · exact h2
  · exact absurd h1 h
  · exact absurd h1 h

/-- C08, the general classification (also for repeated names among the new objects: the first occurrence is
compared with the old namesake, later ones are additions). -/
theorem C08_classification {old new : List S} {buildDiff : S → S → Nat → Nat → Except Err (D × Bool)}
    {r : ListDiff S D} (h : diffLists old new buildDiff = .ok r) :
    r.adds = new.zipIdx.filterMap (fun p => match verdict buildDiff old new p.1 p.2 with
      | .add => some p.1 | .recreate _ => some p.1 | _ => none) ∧
    r.alters = new.zipIdx.filterMap (fun p => match verdict buildDiff old new p.1 p.2 with
      | .alter d => some d | _ => none) ∧
    (r.deletes.map nm).Nodup ∧ r.deletes.Pairwise (fun a b => nm a ≤ nm b) ∧
    ∀ o, o ∈ r.deletes ↔ o ∈ old ∧ (nm o ∉ new.map nm ∨
      ∃ p ∈ new.zipIdx, verdict buildDiff old new p.1 p.2 = .recreate o) := by
  rcases diffLists_spec buildDiff old new with ⟨_, h2⟩ | ⟨_, e, h2, _⟩ | ⟨_, _, r', h3, h4, h5, h6, h7, h8⟩
  · rw [h2] at h; cases h
  · rw [h2] at h; cases h
  · rw [h3] at h; cases h
    refine ⟨?_, ?_, h6, h7, h8⟩
    · rw [h4]; congr 1; funext p; cases verdict buildDiff old new p.1 p.2 <;> rfl
    · rw [h5]; congr 1

/-- C08, in the words of the property, for lists without repeated names. -/
theorem C08_every_object_once {old new : List S} {buildDiff : S → S → Nat → Nat → Except Err (D × Bool)}
    {r : ListDiff S D} (h : diffLists old new buildDiff = .ok r) (hnew : (new.map nm).Nodup) :
    -- a new object is an addition iff it has no old namesake or its old namesake must be recreated
    (∀ i x, new[i]? = some x → (x ∈ r.adds ↔ nm x ∉ old.map nm ∨
      ∃ j o d, old[j]? = some o ∧ nm o = nm x ∧ buildDiff o x j i = .ok (d, true))) ∧
    -- an old object is deleted iff it has no new namesake or must be recreated
    (∀ j o, old[j]? = some o → (o ∈ r.deletes ↔ nm o ∉ new.map nm ∨
      ∃ i x d, new[i]? = some x ∧ nm o = nm x ∧ buildDiff o x j i = .ok (d, true))) ∧
    -- the alterations are the diffs of the other pairs, computed at the true positions
    (∀ d, d ∈ r.alters ↔ ∃ i x j o, new[i]? = some x ∧ old[j]? = some o ∧ nm o = nm x ∧
      buildDiff o x j i = .ok (d, false)) ∧
    -- nothing else, in the order of the new list; deletes in the order of their names
    r.adds.Sublist new ∧ (∀ o ∈ r.deletes, o ∈ old) ∧ r.deletes.Pairwise (fun a b => nm a < nm b) := by
  obtain ⟨c1, c2, c3, c4, c5⟩ := C08_classification h
  have hold : (old.map nm).Nodup := ((C08_succeeds_iff old new buildDiff).mp ⟨r, h⟩).1
  have hmatch : ∀ i x, new[i]? = some x → matchOf old new x i = namesake old (nm x) := by
    intro i x hx
    unfold matchOf
    rw [if_neg]
    intro hm
    obtain ⟨y, hy, e⟩ := List.mem_map.mp hm
    obtain ⟨k, hk⟩ := List.mem_iff_getElem?.mp hy
    rw [List.getElem?_take] at hk
    split at hk
    · rename_i hlt
      have e1 : (new.map nm)[i]? = some (nm x) := by simp [hx]
      have e2 : (new.map nm)[k]? = some (nm x) := by simp [hk, e]
      obtain ⟨hi, f1⟩ := List.getElem?_eq_some_iff.mp e1
      obtain ⟨hk', f2⟩ := List.getElem?_eq_some_iff.mp e2
      have := hnew.getElem_inj_iff.mp (f1.trans f2.symm)
      omega
    · cases hk
  have hver : ∀ i x, new[i]? = some x → ∀ v, verdict buildDiff old new x i = v →
      (match v with
       | .add => nm x ∉ old.map nm
       | .recreate o => ∃ j d, old[j]? = some o ∧ nm o = nm x ∧ buildDiff o x j i = .ok (d, true)
       | .alter d => ∃ j o, old[j]? = some o ∧ nm o = nm x ∧ buildDiff o x j i = .ok (d, false)
       | .fail _ => True) := by
    intro i x hx v hv
    unfold verdict at hv
    rw [hmatch i x hx] at hv
    cases hns : namesake old (nm x) with
    | none => rw [hns] at hv; subst hv; exact namesake_eq_none.mp hns
    | some p =>
      obtain ⟨o, j⟩ := p
      obtain ⟨k1, k2⟩ := namesake_some hns
      rw [hns] at hv
      simp only at hv
      cases hb : buildDiff o x j i with
      | error e => rw [hb] at hv; subst hv; trivial
      | ok q =>
        obtain ⟨d, b⟩ := q
        rw [hb] at hv
        cases b with
        | true => simp only at hv; subst hv; exact ⟨j, d, k1, k2, hb⟩
        | false => simp only at hv; subst hv; exact ⟨j, o, k1, k2, hb⟩
  have hver' : ∀ i x j o d b, new[i]? = some x → old[j]? = some o → nm o = nm x → buildDiff o x j i = .ok (d, b) →
      verdict buildDiff old new x i = if b then .recreate o else .alter d := by
    intro i x j o d b hx ho hn hb
    unfold verdict
    rw [hmatch i x hx, ← hn, namesake_of_mem hold ho]
    simp only [hb]
    cases b <;> rfl
  have hadd : ∀ i x, new[i]? = some x → nm x ∉ old.map nm → verdict buildDiff old new x i = .add := by
    intro i x hx hn
    unfold verdict
    rw [hmatch i x hx, namesake_eq_none.mpr hn]
  have huniq : ∀ (i i' : Nat) (x x' : S), new[i]? = some x → new[i']? = some x' → nm x = nm x' → i = i' ∧ x = x' := by
    intro i i' x x' hx hx' e
    have e1 : (new.map nm)[i]? = some (nm x) := by simp [hx]
    have e2 : (new.map nm)[i']? = some (nm x) := by simp [hx', e]
    obtain ⟨_, f1⟩ := List.getElem?_eq_some_iff.mp e1
    obtain ⟨_, f2⟩ := List.getElem?_eq_some_iff.mp e2
    have := hnew.getElem_inj_iff.mp (f1.trans f2.symm)
    subst this
    rw [hx] at hx'; cases hx'; exact ⟨rfl, rfl⟩
  refine ⟨fun i x hx => ?_, fun j o ho => ?_, fun d => ?_, ?_, fun o ho => ((c5 o).mp ho).1, ?_⟩
  · rw [c1, List.mem_filterMap]
    constructor
    · rintro ⟨⟨y, k⟩, hp, hv⟩
      have hy := List.mem_zipIdx_iff_getElem?.mp hp
      simp only at hy hv
      have hh := hver k y hy _ rfl
      cases hvv : verdict buildDiff old new y k with
      | add => rw [hvv] at hv hh; simp only [Option.some.injEq] at hv; subst hv; exact Or.inl hh
      | recreate o =>
        rw [hvv] at hv hh; simp only [Option.some.injEq] at hv; subst hv
        obtain ⟨j, d, k1, k2, k3⟩ := hh
        obtain ⟨rfl, _⟩ := huniq i k _ _ hx hy rfl
        exact Or.inr ⟨j, o, d, k1, k2, k3⟩
      | alter d => rw [hvv] at hv; cases hv
      | fail e => rw [hvv] at hv; cases hv
    · rintro (hn | ⟨j, o, d, k1, k2, k3⟩)
      · exact ⟨(x, i), List.mem_zipIdx_iff_getElem?.mpr hx, by simp only [hadd i x hx hn]⟩
      · exact ⟨(x, i), List.mem_zipIdx_iff_getElem?.mpr hx, by simp only [hver' i x j o d true hx k1 k2 k3, if_true]⟩
  · rw [c5]
    constructor
    · rintro ⟨_, hn | ⟨⟨x, i⟩, hp, hv⟩⟩
      · exact Or.inl hn
      · right
        have hx := List.mem_zipIdx_iff_getElem?.mp hp
        simp only at hx hv
        obtain ⟨j', d, k1, k2, k3⟩ := hver i x hx _ hv
        have : j = j' := by
          have e1 : (old.map nm)[j]? = some (nm o) := by simp [ho]
          have e2 : (old.map nm)[j']? = some (nm o) := by simp [k1]
          obtain ⟨_, f1⟩ := List.getElem?_eq_some_iff.mp e1
          obtain ⟨_, f2⟩ := List.getElem?_eq_some_iff.mp e2
          exact hold.getElem_inj_iff.mp (f1.trans f2.symm)
        subst this
        exact ⟨i, x, d, hx, k2, k3⟩
    · rintro (hn | ⟨i, x, d, hx, k2, k3⟩)
      · exact ⟨List.mem_of_getElem? ho, Or.inl hn⟩
      · exact ⟨List.mem_of_getElem? ho, Or.inr ⟨(x, i), List.mem_zipIdx_iff_getElem?.mpr hx, by
          simp only [hver' i x j o d true hx ho k2 k3, if_true]⟩⟩
  · rw [c2, List.mem_filterMap]
    constructor
    · rintro ⟨⟨x, i⟩, hp, hv⟩
      have hx := List.mem_zipIdx_iff_getElem?.mp hp
      simp only at hx hv
      have hh := hver i x hx _ rfl
      cases hvv : verdict buildDiff old new x i with
      | alter d' =>
        rw [hvv] at hv hh; simp only [Option.some.injEq] at hv; subst hv
        obtain ⟨j, o, k1, k2, k3⟩ := hh
        exact ⟨i, x, j, o, hx, k1, k2, k3⟩
      | add => rw [hvv] at hv; cases hv
      | recreate o => rw [hvv] at hv; cases hv
      | fail e => rw [hvv] at hv; cases hv
    · rintro ⟨i, x, j, o, hx, k1, k2, k3⟩
      exact ⟨(x, i), List.mem_zipIdx_iff_getElem?.mpr hx, by simp [hver' i x j o d false hx k1 k2 k3]⟩
  · rw [c1]
    have : ∀ (l : List S) (i : Nat) (f : S × Nat → Option S), (∀ p, f p = some p.1 ∨ f p = none) →
        ((l.zipIdx i).filterMap f).Sublist l := by
      intro l
      induction l with
      | nil => intro i f _; simp
      | cons a l ih =>
        intro i f hf
        rw [List.zipIdx_cons, List.filterMap_cons]
        rcases hf (a, i) with e | e
        · rw [e]; exact (ih (i+1) f hf).cons_cons a
        · rw [e]; exact (ih (i+1) f hf).cons a
    refine this new 0 _ (fun p => ?_)
    cases verdict buildDiff old new p.1 p.2 <;> simp
  · have hne : r.deletes.Pairwise (fun a b => nm a ≠ nm b) := List.pairwise_map.mp c3
    exact (c4.and hne).imp (fun ⟨h1, h2⟩ => lt_of_le_of_ne h1 h2)

/-- C04 (`diffLists`).  The deletions are collected by iterating over a map; whatever order that gives, sorting
yields the same list. -/
theorem C04_diffLists_deterministic {old new : List S} {buildDiff : S → S → Nat → Nat → Except Err (D × Bool)}
    {r : ListDiff S D} (h : diffLists old new buildDiff = .ok r) (collected : List S)
    (hp : collected.Perm r.deletes) : sortBy Obj.getName collected = r.deletes := by
  obtain ⟨_, _, c3, c4, _⟩ := C08_classification h
  rw [sortBy_eq_of_perm hp ((hp.map nm).nodup_iff.mpr c3)]
  refine (sortBy_perm Obj.getName r.deletes).eq_of_pairwise ?_ (sortBy_sorted _ _) c4
  intro a b ha hb h1 h2
  exact List.inj_on_of_nodup_map c3 ((sortBy_perm Obj.getName _).mem_iff.mp ha) hb (le_antisymm h1 h2)

/-! ### non-vacuity -/

/-- old `b c a`, new `d a b`: `b` is recreated, `a` altered, `c` dropped, `d` added -/
example : diffLists (D := Nat × Nat) [⟨"b"⟩, ⟨"c"⟩, (⟨"a"⟩ : NamedSchema)] [⟨"d"⟩, ⟨"a"⟩, ⟨"b"⟩]
    (fun o _ j i => .ok ((j, i), o.name = "b")) =
    .ok { adds := [⟨"d"⟩, ⟨"b"⟩], deletes := [⟨"b"⟩, ⟨"c"⟩], alters := [(2, 1)] } := by decide

example : (([⟨"d"⟩, ⟨"a"⟩, ⟨"b"⟩] : List NamedSchema).map Obj.getName).Nodup := by decide

end Verif
