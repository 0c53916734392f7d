import Verif.Spec.Diff
import Verif.Lemmas.GoMap
import Verif.Lemmas.GoSort
import Mathlib.Data.List.Perm.Basic

/-! # Lemmas about `diffLists` -/

namespace Verif

set_option linter.unusedSectionVars false

variable {S D : Type} [Obj S]

local notation "nm" => Obj.getName

/-- the map entries of the objects -/
def entries (i : Nat) (old : List S) : GoMap String (Entry S) :=
  (old.zipIdx i).map (fun p => (nm p.1, ⟨p.2, p.1⟩))

theorem keys_entries (i : Nat) (old : List S) : (entries i old).keys = old.map nm := by
  induction old generalizing i with
  | nil => rfl
  | cons o old ih => simp only [entries, List.zipIdx_cons, List.map_cons, GoMap.keys_cons]; rw [← ih (i+1)]; rfl

theorem indexOld_spec (old : List S) : ∀ (i : Nat) (m : GoMap String (Entry S)), m.keys.Nodup →
    ((m.keys ++ old.map nm).Nodup → indexOld i old m = .ok (m ++ entries i old)) ∧
    (¬ (m.keys ++ old.map nm).Nodup → indexOld i old m = .error .duplicateIdentifier) := by
  induction old with
  | nil => intro i m hm; simp [indexOld, entries, hm]
  | cons o old ih =>
    intro i m hm
    by_cases h : nm o ∈ m.keys
    · have : GoMap.has m (nm o) = true := GoMap.has_iff.mpr h
      simp only [indexOld, this, if_true]
      refine ⟨fun hn => ?_, fun _ => trivial⟩
      exfalso
      rw [List.nodup_append] at hn
      exact hn.2.2 _ h _ (by simp) rfl
    · have h' : ¬ GoMap.has m (nm o) = true := fun hh => h (GoMap.has_iff.mp hh)
      simp only [indexOld, if_neg h', GoMap.set_of_not_mem h]
      have hk : GoMap.keys (m ++ [(nm o, (⟨i, o⟩ : Entry S))]) = m.keys ++ [nm o] := by simp [GoMap.keys]
      have hnd : (GoMap.keys (m ++ [(nm o, (⟨i, o⟩ : Entry S))])).Nodup := by
        rw [hk, List.nodup_append]
        refine ⟨hm, by simp, ?_⟩
        intro a ha b hb e; simp at hb; subst hb; subst e; exact h ha
      obtain ⟨h1, h2⟩ := ih (i+1) _ hnd
      have e : GoMap.keys (m ++ [(nm o, (⟨i, o⟩ : Entry S))]) ++ old.map nm = m.keys ++ (o :: old).map nm := by
        rw [hk]; simp
      rw [e] at h1 h2
      refine ⟨fun hn => ?_, h2⟩
      rw [h1 hn]; simp [entries]

theorem namesake_eq_none {old : List S} {n : String} : namesake old n = none ↔ n ∉ old.map nm := by
  unfold namesake
  rw [List.find?_eq_none]
  constructor
  · intro h hm
    obtain ⟨o, ho, rfl⟩ := List.mem_map.mp hm
    obtain ⟨j, hj⟩ := List.mem_iff_getElem?.mp ho
    exact h (o, j) (List.mem_zipIdx_iff_getElem?.mpr hj) (by simp)
  · rintro h ⟨o, j⟩ hp
    simp only [decide_eq_true_eq]
    rintro rfl
    exact h (List.mem_map_of_mem (List.mem_of_getElem? (List.mem_zipIdx_iff_getElem?.mp hp)))

theorem namesake_some {old : List S} {n : String} {o : S} {j : Nat} (h : namesake old n = some (o, j)) :
    old[j]? = some o ∧ nm o = n := by
  unfold namesake at h
  have h1 := List.mem_of_find?_eq_some h
  have h2 := List.find?_some h
  exact ⟨List.mem_zipIdx_iff_getElem?.mp h1, by simpa using h2⟩

theorem namesake_of_mem {old : List S} (hn : (old.map nm).Nodup) {o : S} {j : Nat} (h : old[j]? = some o) :
    namesake old (nm o) = some (o, j) := by
  cases e : namesake old (nm o) with
  | none => exact absurd (List.mem_map_of_mem (List.mem_of_getElem? h)) (namesake_eq_none.mp e)
  | some p =>
    obtain ⟨o', j'⟩ := p
    obtain ⟨h1, h2⟩ := namesake_some e
    have e1 : (old.map nm)[j]? = some (nm o) := by simp [h]
    have e2 : (old.map nm)[j']? = some (nm o) := by simp [h1, h2]
    obtain ⟨hj, f1⟩ := List.getElem?_eq_some_iff.mp e1
    obtain ⟨hj', f2⟩ := List.getElem?_eq_some_iff.mp e2
    have : j = j' := hn.getElem_inj_iff.mp (f1.trans f2.symm)
    subst this
    rw [h] at h1; cases h1; rfl

theorem get?_entries (old : List S) (hn : (old.map nm).Nodup) (n : String) :
    (entries 0 old).get? n = (namesake old n).map (fun p => ⟨p.2, p.1⟩) := by
  have hk : (entries 0 old).keys.Nodup := by rw [keys_entries]; exact hn
  cases e : namesake old n with
  | none =>
    rw [Option.map_none, GoMap.get?_eq_none, keys_entries]; exact namesake_eq_none.mp e
  | some p =>
    obtain ⟨o, j⟩ := p
    obtain ⟨h1, h2⟩ := namesake_some e
    refine GoMap.get?_of_mem hk ?_
    exact List.mem_map.mpr ⟨(o, j), List.mem_zipIdx_iff_getElem?.mpr h1, by simp [h2]⟩

/-- what a verdict contributes -/
def Verdict.isAdd : Verdict S D → Bool
  | .add => true
  | .recreate _ => true
  | _ => false

def Verdict.alter? : Verdict S D → Option D
  | .alter d => some d
  | _ => none

def Verdict.recreate? : Verdict S D → Option S
  | .recreate o => some o
  | _ => none

variable (buildDiff : S → S → Nat → Nat → Except Err (D × Bool))

/-- the old objects that were altered in place -/
def alteredOld (old new : List S) (x : S) (i : Nat) : Option S :=
  match matchOf old new x i with
  | none => none
  | some (o, j) =>
    match buildDiff o x j i with
    | .ok (_, false) => some o
    | _ => none

/-- invariant of the second loop after the prefix `pre` of `new` -/
structure DiffInv (old new pre : List S) (st : DiffState S D) : Prop where
  nodup : st.nameToOld.keys.Nodup
  get? : ∀ n, st.nameToOld.get? n = if n ∈ pre.map nm then none else (namesake old n).map (fun p => ⟨p.2, p.1⟩)
  adds : st.adds = pre.zipIdx.filterMap
    (fun p => if (verdict buildDiff old new p.1 p.2).isAdd then some p.1 else none)
  alters : st.alters = pre.zipIdx.filterMap (fun p => (verdict buildDiff old new p.1 p.2).alter?)
  deletes : st.deletes = pre.zipIdx.filterMap (fun p => (verdict buildDiff old new p.1 p.2).recreate?)
  all : (st.deletes ++ pre.zipIdx.filterMap (fun p => alteredOld buildDiff old new p.1 p.2) ++
    st.nameToOld.values.map (·.obj)).Perm old

theorem values_delete_perm {m : GoMap String (Entry S)} (hn : m.keys.Nodup) {n : String} {e : Entry S}
    (h : m.get? n = some e) : (e.obj :: (GoMap.values (m.delete n)).map (·.obj)).Perm (m.values.map (·.obj)) := by
  induction m with
  | nil => cases h
  | cons p m ih =>
    obtain ⟨k, v⟩ := p
    rw [GoMap.get?_cons] at h
    simp only [GoMap.keys_cons, List.nodup_cons] at hn
    by_cases hk : k = n
    · subst hk
      simp only [if_true, Option.some.injEq] at h; subst h
      have : GoMap.delete ((k, v) :: m) k = m := by
        unfold GoMap.delete
        rw [List.filter_cons, if_neg (by simp), List.filter_eq_self]
        rintro ⟨k', v'⟩ hm
        simp only [ne_eq, decide_eq_true_eq]
        rintro rfl
        exact hn.1 (GoMap.mem_keys_of_mem (p := (k', v')) hm)
      rw [this]; exact List.Perm.refl _
    · rw [if_neg hk] at h
      have e1 : GoMap.delete ((k, v) :: m) n = (k, v) :: GoMap.delete m n := by
        unfold GoMap.delete; rw [List.filter_cons, if_pos (by simpa using hk)]
      rw [e1]
      simp only [GoMap.values, List.map_cons]
      exact (List.Perm.swap _ _ _).trans (List.Perm.cons _ (ih hn.2 h))

theorem take_eq_pre {new pre rest : List S} {x : S} (h : new = pre ++ x :: rest) : new.take pre.length = pre := by
  rw [h]; simp

theorem zipIdx_snoc (pre : List S) (x : S) : (pre ++ [x]).zipIdx = pre.zipIdx ++ [(x, pre.length)] := by
  simp [List.zipIdx_append]

theorem DiffInv.step {old new pre rest : List S} {x : S} (hnew : new = pre ++ x :: rest) {st : DiffState S D}
    (inv : DiffInv buildDiff old new pre st) :
    match verdict buildDiff old new x pre.length with
    | .fail e => diffNew buildDiff pre.length (x :: rest) st = .error e
    | _ => ∃ st', diffNew buildDiff pre.length (x :: rest) st = diffNew buildDiff (pre.length + 1) rest st' ∧
        DiffInv buildDiff old new (pre ++ [x]) st' := by
  have hm : matchOf old new x pre.length = (st.nameToOld.get? (nm x)).map (fun e => (e.obj, e.index)) := by
    unfold matchOf
    rw [take_eq_pre hnew, inv.get?]
    split
    · rfl
    · simp [Option.map_map, Function.comp_def]
  have hget' : ∀ n, (st.nameToOld.delete (nm x)).get? n =
      if n ∈ (pre ++ [x]).map nm then none else (namesake old n).map (fun p => ⟨p.2, p.1⟩) := by
    intro n
    rw [GoMap.get?_delete, inv.get?]
    by_cases e : n = nm x
    · subst e; simp
    · simp [e, Ne.symm e]
  cases hg : st.nameToOld.get? (nm x) with
  | none =>
    rw [hg, Option.map_none] at hm
    have hv : verdict buildDiff old new x pre.length = .add := by unfold verdict; rw [hm]
    rw [hv]
    refine ⟨{ st with adds := st.adds ++ [x] }, by simp only [diffNew, hg], ⟨inv.nodup, ?_, ?_, ?_, ?_, ?_⟩⟩
    · intro n
      rw [inv.get?]
      by_cases e : n = nm x
      · subst e
        have := inv.get? (nm x)
        rw [hg] at this
        rw [← this]; simp
      · simp [e]
    · simp [zipIdx_snoc, hv, Verdict.isAdd, inv.adds]
    · simp [zipIdx_snoc, hv, Verdict.alter?, inv.alters]
    · simp [zipIdx_snoc, hv, Verdict.recreate?, inv.deletes]
    · have : alteredOld buildDiff old new x pre.length = none := by unfold alteredOld; rw [hm]
      simpa [zipIdx_snoc, this] using inv.all
  | some e =>
    rw [hg, Option.map_some] at hm
    have hperm := values_delete_perm inv.nodup hg
    cases hb : buildDiff e.obj x e.index pre.length with
    | error err =>
      have hv : verdict buildDiff old new x pre.length = .fail err := by unfold verdict; simp [hm, hb]
      rw [hv]; simp only [diffNew, hg, hb]
    | ok p =>
      obtain ⟨d, b⟩ := p
      cases b with
      | true =>
        have hv : verdict buildDiff old new x pre.length = .recreate e.obj := by unfold verdict; simp [hm, hb]
        rw [hv]
        refine ⟨{ st with nameToOld := st.nameToOld.delete (nm x), deletes := st.deletes ++ [e.obj], adds := st.adds ++ [x] },
          by simp [diffNew, hg, hb], ⟨GoMap.nodup_delete inv.nodup _, hget', ?_, ?_, ?_, ?_⟩⟩
        · simp [zipIdx_snoc, hv, Verdict.isAdd, inv.adds]
        · simp [zipIdx_snoc, hv, Verdict.alter?, inv.alters]
        · simp [zipIdx_snoc, hv, Verdict.recreate?, inv.deletes]
        · have : alteredOld buildDiff old new x pre.length = none := by unfold alteredOld; simp [hm, hb]
          simp only [zipIdx_snoc, List.filterMap_append, List.filterMap_cons, this, List.filterMap_nil, List.append_nil]
          refine List.Perm.trans ?_ inv.all
          rw [List.append_assoc, List.append_assoc, List.append_assoc]
          refine List.Perm.append_left _ ?_
          rw [List.singleton_append]
          refine List.Perm.trans List.perm_middle.symm ?_
          exact List.Perm.append_left _ hperm
      | false =>
        have hv : verdict buildDiff old new x pre.length = .alter d := by unfold verdict; simp [hm, hb]
        rw [hv]
        refine ⟨{ st with nameToOld := st.nameToOld.delete (nm x), alters := st.alters ++ [d] },
          by simp [diffNew, hg, hb], ⟨GoMap.nodup_delete inv.nodup _, hget', ?_, ?_, ?_, ?_⟩⟩
        · simp [zipIdx_snoc, hv, Verdict.isAdd, inv.adds]
        · simp [zipIdx_snoc, hv, Verdict.alter?, inv.alters]
        · simp [zipIdx_snoc, hv, Verdict.recreate?, inv.deletes]
        · have : alteredOld buildDiff old new x pre.length = some e.obj := by unfold alteredOld; simp [hm, hb]
          simp only [zipIdx_snoc, List.filterMap_append, List.filterMap_cons, this, List.filterMap_nil]
          refine List.Perm.trans ?_ inv.all
          rw [List.append_assoc, List.append_assoc, List.append_assoc]
          refine List.Perm.append_left _ (List.Perm.append_left _ ?_)
          rw [List.singleton_append]; exact hperm

theorem diffNew_spec (old new : List S) (rest : List S) : ∀ (pre : List S) (st : DiffState S D), new = pre ++ rest →
    DiffInv buildDiff old new pre st →
    (∃ st', diffNew buildDiff pre.length rest st = .ok st' ∧ DiffInv buildDiff old new new st' ∧
      ∀ p ∈ rest.zipIdx pre.length, ∀ e, verdict buildDiff old new p.1 p.2 ≠ .fail e) ∨
    (∃ e, diffNew buildDiff pre.length rest st = .error e ∧
      ∃ p ∈ rest.zipIdx pre.length, verdict buildDiff old new p.1 p.2 = .fail e) := by
  induction rest with
  | nil =>
    intro pre st h inv
    left
    rw [List.append_nil] at h
    exact ⟨st, rfl, h ▸ inv, by simp⟩
  | cons x rest ih =>
    intro pre st h inv
    have hs := inv.step buildDiff h
    have go : (∀ e, verdict buildDiff old new x pre.length ≠ .fail e) →
        (∃ st', diffNew buildDiff pre.length (x :: rest) st = diffNew buildDiff (pre.length + 1) rest st' ∧
        DiffInv buildDiff old new (pre ++ [x]) st') →
        (∃ st', diffNew buildDiff pre.length (x :: rest) st = .ok st' ∧ DiffInv buildDiff old new new st' ∧
          ∀ p ∈ (x :: rest).zipIdx pre.length, ∀ e, verdict buildDiff old new p.1 p.2 ≠ .fail e) ∨
        (∃ e, diffNew buildDiff pre.length (x :: rest) st = .error e ∧
          ∃ p ∈ (x :: rest).zipIdx pre.length, verdict buildDiff old new p.1 p.2 = .fail e) := by
      rintro hne ⟨st', h1, h2⟩
      have := ih (pre ++ [x]) st' (by simp [h]) h2
      rw [List.length_append, List.length_singleton, ← h1] at this
      rcases this with ⟨st'', k1, k2, k3⟩ | ⟨e, k1, p, k2, k3⟩
      · left
        refine ⟨st'', k1, k2, fun p hp e => ?_⟩
        rw [List.zipIdx_cons] at hp
        rcases List.mem_cons.mp hp with rfl | hp
        · exact hne e
        · exact k3 p hp e
      · right
        exact ⟨e, k1, p, by rw [List.zipIdx_cons]; exact List.mem_cons_of_mem _ k2, k3⟩
    cases hv : verdict buildDiff old new x pre.length with
    | fail e =>
      rw [hv] at hs
      right
      exact ⟨e, hs, (x, pre.length), by rw [List.zipIdx_cons]; exact List.mem_cons_self .., hv⟩
    | add => rw [hv] at hs; exact go (by intro e; rw [hv]; exact nofun) hs
    | recreate o => rw [hv] at hs; exact go (by intro e; rw [hv]; exact nofun) hs
    | alter d => rw [hv] at hs; exact go (by intro e; rw [hv]; exact nofun) hs

/-- complete description of `diffLists` -/
theorem diffLists_spec (old new : List S) :
    (¬ (old.map nm).Nodup ∧ diffLists old new buildDiff = .error .duplicateIdentifier) ∨
    ((old.map nm).Nodup ∧ (∃ e, diffLists old new buildDiff = .error e ∧
      ∃ p ∈ new.zipIdx, verdict buildDiff old new p.1 p.2 = .fail e)) ∨
    ((old.map nm).Nodup ∧ (∀ p ∈ new.zipIdx, ∀ e, verdict buildDiff old new p.1 p.2 ≠ .fail e) ∧
      ∃ r, diffLists old new buildDiff = .ok r ∧
        r.adds = new.zipIdx.filterMap
          (fun p => if (verdict buildDiff old new p.1 p.2).isAdd then some p.1 else none) ∧
        r.alters = new.zipIdx.filterMap (fun p => (verdict buildDiff old new p.1 p.2).alter?) ∧
        (r.deletes.map nm).Nodup ∧ r.deletes.Pairwise (fun a b => nm a ≤ nm b) ∧
        ∀ o, o ∈ r.deletes ↔ o ∈ old ∧ (nm o ∉ new.map nm ∨
          ∃ p ∈ new.zipIdx, verdict buildDiff old new p.1 p.2 = .recreate o)) := by
  obtain ⟨i1, i2⟩ := indexOld_spec old 0 [] (by simp)
  simp only [GoMap.keys_nil, List.nil_append] at i1 i2
  by_cases hn : (old.map nm).Nodup
  · right
    have hinv : DiffInv buildDiff old new [] (⟨entries 0 old, [], [], []⟩ : DiffState S D) := by
      refine ⟨by rw [keys_entries]; exact hn, fun n => by simp [get?_entries old hn], by simp, by simp, by simp, ?_⟩
      have : (entries 0 old).values.map (·.obj) = old := by
        unfold GoMap.values entries
        rw [List.map_map, List.map_map]
        show List.map Prod.fst (old.zipIdx 0) = old
        exact List.zipIdx_map_fst 0 old
      simp [this]
    rcases diffNew_spec buildDiff old new new [] _ rfl hinv with ⟨st, h1, h2, h3⟩ | ⟨e, h1, h2⟩
    · right
      refine ⟨hn, h3, ⟨st.adds, sortBy Obj.getName (st.deletes ++ st.nameToOld.values.map (·.obj)), st.alters⟩,
        ?_, h2.adds, h2.alters, ?_, sortBy_sorted _ _, fun o => ?_⟩
      · unfold diffLists
        rw [i1 hn]
        simp only [bind, Except.bind]
        simp only [List.length_nil] at h1
        rw [h1]
        rfl
      · have hsub : (st.deletes ++ st.nameToOld.values.map (·.obj)).Sublist
            (st.deletes ++ new.zipIdx.filterMap (fun p => alteredOld buildDiff old new p.1 p.2) ++
              st.nameToOld.values.map (·.obj)) := by
          rw [List.append_assoc]
          exact List.Sublist.append_left (List.sublist_append_right _ _) _
        have hnd := (h2.all.map nm).nodup_iff.mpr hn
        have := (hsub.map nm).nodup hnd
        exact ((sortBy_perm Obj.getName _).map nm).nodup_iff.mpr this
      · show o ∈ sortBy Obj.getName _ ↔ _
        rw [(sortBy_perm Obj.getName _).mem_iff, List.mem_append, h2.deletes]
        have hold : o ∈ st.deletes ++ new.zipIdx.filterMap (fun p => alteredOld buildDiff old new p.1 p.2) ++
              st.nameToOld.values.map (·.obj) → o ∈ old := fun h => h2.all.mem_iff.mp h
        rw [h2.deletes] at hold
        have hrem : o ∈ st.nameToOld.values.map (·.obj) ↔ o ∈ old ∧ nm o ∉ new.map nm := by
          constructor
          · intro hm
            refine ⟨hold (List.mem_append_right _ hm), ?_⟩
            obtain ⟨e, he, rfl⟩ := List.mem_map.mp hm
            obtain ⟨⟨k, e'⟩, hp, rfl⟩ := List.mem_map.mp he
            have hg := GoMap.get?_of_mem h2.nodup hp
            rw [h2.get?] at hg
            split at hg
            · cases hg
            · rename_i hk
              cases hns : namesake old k with
              | none => rw [hns] at hg; cases hg
              | some p =>
                obtain ⟨o', j⟩ := p
                rw [hns] at hg
                simp only [Option.map_some, Option.some.injEq] at hg
                subst hg
                simp only
                rw [(namesake_some hns).2]; exact hk
          · rintro ⟨ho, hno⟩
            obtain ⟨j, hj⟩ := List.mem_iff_getElem?.mp ho
            have hg := h2.get? (nm o)
            rw [if_neg hno, namesake_of_mem hn hj] at hg
            exact List.mem_map.mpr ⟨⟨j, o⟩, List.mem_map.mpr ⟨_, GoMap.mem_of_get? hg, rfl⟩, rfl⟩
        rw [hrem]
        have hrec : o ∈ new.zipIdx.filterMap (fun p => (verdict buildDiff old new p.1 p.2).recreate?) ↔
            ∃ p ∈ new.zipIdx, verdict buildDiff old new p.1 p.2 = .recreate o := by
          rw [List.mem_filterMap]
          refine exists_congr fun p => and_congr Iff.rfl ?_
          cases verdict buildDiff old new p.1 p.2 <;> simp [Verdict.recreate?]
        constructor
        · rintro (h | ⟨h1, h2⟩)
          · exact ⟨hold (List.mem_append_left _ (List.mem_append_left _ h)), Or.inr (hrec.mp h)⟩
          · exact ⟨h1, Or.inl h2⟩
        · rintro ⟨h1, h | h⟩
          · exact Or.inr ⟨h1, h⟩
          · exact Or.inl (hrec.mpr h)
    · left
      refine ⟨hn, e, ?_, h2⟩
      unfold diffLists
      rw [i1 hn]
      simp only [bind, Except.bind]
      simp only [List.length_nil] at h1
      rw [h1]
  · left
    refine ⟨hn, ?_⟩
    unfold diffLists
    rw [i2 hn]; rfl

end Verif
