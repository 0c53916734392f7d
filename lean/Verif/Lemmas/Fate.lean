import Verif.Lemmas.Chain

/-!
# What becomes of one object

A diff decides about every object on its own.  Here the decision about one name, and the statements generated for it.
-/

namespace Verif

section
variable {S D : Type} [Obj S] {old new : List S} {buildDiff : S → S → Nat → Nat → Except Err (D × Bool)} {r : ListDiff S D}

/-- what a diff decides about a name; `key` is the name a diff of objects is about -/
inductive Decision (old new : List S) (buildDiff : S → S → Nat → Nat → Except Err (D × Bool)) (r : ListDiff S D)
    (n : String) : Prop where
  | absent (ho : n ∉ old.map Obj.getName) (hn : n ∉ new.map Obj.getName)
  | dropped (o : S) (ho : o ∈ old) (e : Obj.getName o = n) (hn : n ∉ new.map Obj.getName) (h : o ∈ r.deletes)
  | added (x : S) (hx : x ∈ new) (e : Obj.getName x = n) (ho : n ∉ old.map Obj.getName) (h : x ∈ r.adds)
  | recreated (o x : S) (ho : o ∈ old) (hx : x ∈ new) (eo : Obj.getName o = n) (ex : Obj.getName x = n)
      (hb : ∃ i j d, buildDiff o x j i = .ok (d, true)) (h : o ∈ r.deletes) (h' : x ∈ r.adds)
  | altered (o x : S) (d : D) (ho : o ∈ old) (hx : x ∈ new) (eo : Obj.getName o = n) (ex : Obj.getName x = n)
      (hb : ∃ i j, buildDiff o x j i = .ok (d, false)) (h : d ∈ r.alters)

theorem index_unique {l : List S} (hn : (l.map Obj.getName).Nodup) {i j : Nat} {x y : S} (hx : l[i]? = some x)
    (hy : l[j]? = some y) (e : Obj.getName x = Obj.getName y) : i = j := by
  have e1 : (l.map Obj.getName)[i]? = some (Obj.getName x) := by simp [hx]
  have e2 : (l.map Obj.getName)[j]? = some (Obj.getName x) := by simp [hy, e]
  obtain ⟨hi, f1⟩ := List.getElem?_eq_some_iff.mp e1
  obtain ⟨hj, f2⟩ := List.getElem?_eq_some_iff.mp e2
  exact hn.getElem_inj_iff.mp (f1.trans f2.symm)

/-- the decision, and that only the objects it names are touched -/
theorem diffLists_decision (h : diffLists old new buildDiff = .ok r) (hn : (new.map Obj.getName).Nodup) {key : D → String}
    (hkey : ∀ o x j i d, Obj.getName o = Obj.getName x → buildDiff o x j i = .ok (d, false) → key d = Obj.getName x)
    (n : String) :
    Decision old new buildDiff r n ∧ (r.adds.map Obj.getName).Nodup ∧ (r.deletes.map Obj.getName).Nodup ∧
      (r.alters.map key).Nodup ∧
      (n ∈ r.adds.map Obj.getName → n ∉ r.alters.map key) ∧
      (n ∈ r.deletes.map Obj.getName → n ∉ r.alters.map key) ∧
      (n ∈ r.alters.map key → n ∈ old.map Obj.getName ∧ n ∈ new.map Obj.getName) := by
  obtain ⟨c1, c2, c3, c4, c5, _⟩ := C08_every_object_once h hn
  have hold := diffLists_old_nodup h
  have hpair : ∀ d ∈ r.alters, ∃ i x j o, new[i]? = some x ∧ old[j]? = some o ∧ Obj.getName o = Obj.getName x ∧
      buildDiff o x j i = .ok (d, false) ∧ key d = Obj.getName x := by
    intro d hd
    obtain ⟨i, x, j, o, h1, h2, h3, h4⟩ := (c3 d).mp hd
    exact ⟨i, x, j, o, h1, h2, h3, h4, hkey o x j i d h3 h4⟩
  refine ⟨?_, ?_, diffLists_deletes_nodup h, ?_, ?_, ?_, ?_⟩
  · by_cases ho : n ∈ old.map Obj.getName
    · obtain ⟨o, ho', rfl⟩ := List.mem_map.mp ho
      obtain ⟨j, hj⟩ := List.mem_iff_getElem?.mp ho'
      by_cases hx : Obj.getName o ∈ new.map Obj.getName
      · obtain ⟨x, hx', e⟩ := List.mem_map.mp hx
        obtain ⟨i, hi⟩ := List.mem_iff_getElem?.mp hx'
        by_cases hb : ∃ d, buildDiff o x j i = .ok (d, true)
        · obtain ⟨d, hb⟩ := hb
          exact .recreated o x ho' hx' rfl e ⟨i, j, d, hb⟩ ((c2 j o hj).mpr (Or.inr ⟨i, x, d, hi, e.symm, hb⟩))
            ((c1 i x hi).mpr (Or.inr ⟨j, o, d, hj, e.symm, hb⟩))
        · rcases diffLists_new_cases h hn hx' with ha | ⟨o', ho'', d, hd, j', i', hi', e', hb'⟩
          · rcases (c1 i x hi).mp ha with h1 | ⟨j', o', d, hj', e', hb'⟩
            · exact absurd (e ▸ ho) h1
            · obtain rfl := index_unique hold hj' hj (e'.trans e)
              rw [hj] at hj'; cases hj'
              exact absurd ⟨d, hb'⟩ hb
          · have : o' = o := List.inj_on_of_nodup_map hold ho'' ho' (e'.trans e)
            subst this
            exact .altered o' x d ho' hx' rfl e ⟨i', j', hb'⟩ hd
      · exact .dropped o ho' rfl hx ((c2 j o hj).mpr (Or.inl hx))
    · by_cases hx : n ∈ new.map Obj.getName
      · obtain ⟨x, hx', rfl⟩ := List.mem_map.mp hx
        obtain ⟨i, hi⟩ := List.mem_iff_getElem?.mp hx'
        exact .added x hx' rfl ho ((c1 i x hi).mpr (Or.inl ho))
      · exact .absent ho hx
  · exact List.Nodup.sublist (c4.map _) hn
  · refine List.Nodup.sublist (diffLists_alters_sublist (nm := key) h hkey) hn
  · intro ha hd
    obtain ⟨y, hy, rfl⟩ := List.mem_map.mp ha
    obtain ⟨d, hd, e⟩ := List.mem_map.mp hd
    obtain ⟨i, x, j, o, h1, h2, h3, h4, h5⟩ := hpair d hd
    exact diffLists_adds_not_altered h hn hy h1 h2 h3 h4 (e.symm.trans h5)
  · intro ha hd
    obtain ⟨y, hy, rfl⟩ := List.mem_map.mp ha
    obtain ⟨d, hd, e⟩ := List.mem_map.mp hd
    obtain ⟨i, x, j, o, h1, h2, h3, h4, h5⟩ := hpair d hd
    have hyo : y = o := List.inj_on_of_nodup_map hold (c5 y hy) (List.mem_of_getElem? h2) (e.symm.trans (h5.trans h3.symm))
    subst hyo
    rcases (c2 j y h2).mp hy with h6 | ⟨i', x', d', h6, h7, h8⟩
    · exact h6 (h3 ▸ List.mem_map_of_mem (List.mem_of_getElem? h1))
    · obtain rfl := index_unique hn h1 h6 (h3.symm.trans h7)
      rw [h1] at h6; cases h6
      rw [h4] at h8; cases h8
  · intro hd
    obtain ⟨d, hm, rfl⟩ := List.mem_map.mp hd
    obtain ⟨i, x, j, o, h1, h2, h3, h4, h5⟩ := hpair d hm
    exact ⟨h5 ▸ h3 ▸ List.mem_map_of_mem (List.mem_of_getElem? h2), h5 ▸ List.mem_map_of_mem (List.mem_of_getElem? h1)⟩

end

/-! ### the statements for one name -/

section
variable {S D : Type} {m : Type → Type} [Monad m] [Yields m] [GoZero S] [IsDiff D S] {g : LegacyGen m S D}
  {ld : ListDiff S D} {pg : PartialGraph Statement}

/-- the statements of a group are those of its objects -/
theorem legacy_statements (h : yields (generatePartialGraph g.toNew ld) pg) :
    ∃ as ds cs : List (List Statement), List.Forall₂ (fun o l => yields (g.add o) l) ld.adds as ∧
      List.Forall₂ (fun o l => yields (g.delete o) l) ld.deletes ds ∧
      List.Forall₂ (fun d l => yields (g.alter d) l) ld.alters cs ∧
      pg.statements = as.flatten ++ ds.flatten ++ cs.flatten := by
  obtain ⟨adds, deletes, alters, h1, h2, h3, rfl⟩ := yields_generatePartialGraph h
  refine ⟨adds.map (·.statements), deletes.map (·.statements), alters.map (·.statements), ?_, ?_, ?_, ?_⟩
  · rw [List.forall₂_map_right_iff]
    refine h1.imp fun o p hp => ?_
    obtain ⟨l, deps, h, _, rfl⟩ := toNew_add hp
    rw [single_statements]; exact h
  · rw [List.forall₂_map_right_iff]
    refine h2.imp fun o p hp => ?_
    obtain ⟨l, deps, h, _, rfl⟩ := toNew_delete hp
    rw [single_statements]; exact h
  · rw [List.forall₂_map_right_iff]
    refine h3.imp fun o p hp => ?_
    obtain ⟨l, deps, h, _, rfl⟩ := toNew_alter hp
    rw [single_statements]; exact h
  · rw [PartialGraph.statements_concat]
    simp [List.flatMap]

theorem flatten_filter_nil {α : Type} {R : α → List Statement → Prop} {P : Statement → Bool} {l : List α}
    {bs : List (List Statement)} (h : List.Forall₂ R l bs) (hn : ∀ a ∈ l, ∀ b, R a b → b.filter P = []) :
    bs.flatten.filter P = [] := by
  rw [List.filter_eq_nil_iff]
  intro s hs hp
  obtain ⟨b, hb, hs⟩ := List.mem_flatten.mp hs
  obtain ⟨a, ha, hr⟩ := forall₂_mem_right h b hb
  have := hn a ha b hr
  rw [List.filter_eq_nil_iff] at this
  exact this s hs hp

theorem flatten_filter_focus {α κ : Type} {R : α → List Statement → Prop} {P : Statement → Bool} {key : α → κ} {l : List α}
    {bs : List (List Statement)} (h : List.Forall₂ R l bs) (hn : (l.map key).Nodup) {a : α} (ha : a ∈ l)
    (hf : ∀ x ∈ l, ∀ b, R x b → key x ≠ key a → b.filter P = []) : ∃ b, R a b ∧ bs.flatten.filter P = b.filter P := by
  obtain ⟨b, h1, h2⟩ := forall₂_focus (f := fun b : List Statement => b.filter P) h hn ha hf
  refine ⟨b, h1, ?_⟩
  rw [← h2, ← filter_flatMap]
  simp [List.flatMap]

variable [Obj S] {old new : List S} {buildDiff : S → S → Nat → Nat → Except Err (D × Bool)}

/-- the statements for one name: of the statements with `P`, which only the object of this name has -/
inductive Fate (g : LegacyGen m S D) (old new : List S) (buildDiff : S → S → Nat → Nat → Except Err (D × Bool))
    (ld : ListDiff S D) (n : String) (pg : PartialGraph Statement) (P : Statement → Bool) : Prop where
  | absent (ho : n ∉ old.map Obj.getName) (hn : n ∉ new.map Obj.getName) (hs : pg.statements.filter P = [])
  | dropped (o : S) (ho : o ∈ old) (e : Obj.getName o = n) (hn : n ∉ new.map Obj.getName) (h : o ∈ ld.deletes)
      (l : List Statement) (hl : yields (g.delete o) l) (hs : pg.statements.filter P = l.filter P)
  | added (x : S) (hx : x ∈ new) (e : Obj.getName x = n) (ho : n ∉ old.map Obj.getName) (h : x ∈ ld.adds)
      (l : List Statement) (hl : yields (g.add x) l) (hs : pg.statements.filter P = l.filter P)
  | recreated (o x : S) (ho : o ∈ old) (hx : x ∈ new) (eo : Obj.getName o = n) (ex : Obj.getName x = n)
      (hb : ∃ i j d, buildDiff o x j i = .ok (d, true)) (h : o ∈ ld.deletes) (h' : x ∈ ld.adds)
      (l l' : List Statement) (hl : yields (g.delete o) l) (hl' : yields (g.add x) l')
      (hs : pg.statements.filter P = l'.filter P ++ l.filter P)
  | altered (o x : S) (d : D) (ho : o ∈ old) (hx : x ∈ new) (eo : Obj.getName o = n) (ex : Obj.getName x = n)
      (hb : ∃ i j, buildDiff o x j i = .ok (d, false)) (h : d ∈ ld.alters)
      (l : List Statement) (hl : yields (g.alter d) l) (hs : pg.statements.filter P = l.filter P)

theorem legacy_fate (h : diffLists old new buildDiff = .ok ld) (hn : (new.map Obj.getName).Nodup)
    (hg : yields (generatePartialGraph g.toNew ld) pg) {key : D → String}
    (hkey : ∀ o x j i d, Obj.getName o = Obj.getName x → buildDiff o x j i = .ok (d, false) → key d = Obj.getName x)
    {n : String} {P : Statement → Bool}
    (ha : ∀ o ∈ ld.adds, ∀ l, yields (g.add o) l → Obj.getName o ≠ n → l.filter P = [])
    (hd : ∀ o ∈ ld.deletes, ∀ l, yields (g.delete o) l → Obj.getName o ≠ n → l.filter P = [])
    (hc : ∀ o ∈ ld.alters, ∀ l, yields (g.alter o) l → key o ≠ n → l.filter P = []) :
    Fate g old new buildDiff ld n pg P := by
  obtain ⟨dec, n1, n2, n3, k1, k2, k3⟩ := diffLists_decision h hn hkey n
  obtain ⟨as, ds, cs, f1, f2, f3, e⟩ := legacy_statements hg
  have e' : pg.statements.filter P = as.flatten.filter P ++ ds.flatten.filter P ++ cs.flatten.filter P := by
    rw [e, List.filter_append, List.filter_append]
  have noAdd : n ∉ ld.adds.map Obj.getName → as.flatten.filter P = [] := fun hx =>
    flatten_filter_nil f1 fun a haa b hr => ha a haa b hr fun e => hx (e ▸ List.mem_map_of_mem haa)
  have noDel : n ∉ ld.deletes.map Obj.getName → ds.flatten.filter P = [] := fun hx =>
    flatten_filter_nil f2 fun a haa b hr => hd a haa b hr fun e => hx (e ▸ List.mem_map_of_mem haa)
  have noAlt : n ∉ ld.alters.map key → cs.flatten.filter P = [] := fun hx =>
    flatten_filter_nil f3 fun a haa b hr => hc a haa b hr fun e => hx (e ▸ List.mem_map_of_mem haa)
  have addNew : ∀ {y}, y ∈ ld.adds.map Obj.getName → y ∈ new.map Obj.getName := by
    intro y hy
    obtain ⟨z, hz, rfl⟩ := List.mem_map.mp hy
    exact List.mem_map_of_mem (diffLists_adds_mem h hz)
  have delOld : ∀ {y}, y ∈ ld.deletes.map Obj.getName → y ∈ old.map Obj.getName := by
    intro y hy
    obtain ⟨z, hz, rfl⟩ := List.mem_map.mp hy
    exact List.mem_map_of_mem (diffLists_deletes_mem h hz)
  cases dec with
  | absent ho hx =>
    refine .absent ho hx ?_
    rw [e', noAdd fun hh => hx (addNew hh), noDel fun hh => ho (delOld hh), noAlt fun hh => ho (k3 hh).1]; rfl
  | dropped o ho en hx hm =>
    obtain ⟨l, hl, hf⟩ := flatten_filter_focus (key := Obj.getName) f2 n2 hm fun x hx b hr hne =>
      hd x hx b hr fun e2 => hne (e2.trans en.symm)
    refine .dropped o ho en hx hm l hl ?_
    rw [e', noAdd fun hh => hx (addNew hh), hf, noAlt fun hh => hx (k3 hh).2]; simp
  | added x hx en ho hm =>
    obtain ⟨l, hl, hf⟩ := flatten_filter_focus (key := Obj.getName) f1 n1 hm fun x hx b hr hne =>
      ha x hx b hr fun e2 => hne (e2.trans en.symm)
    refine .added x hx en ho hm l hl ?_
    rw [e', noDel fun hh => ho (delOld hh), hf, noAlt fun hh => ho (k3 hh).1]; simp
  | recreated o x ho hx eo ex hb hm hm' =>
    obtain ⟨l, hl, hf⟩ := flatten_filter_focus (key := Obj.getName) f2 n2 hm fun x hx b hr hne =>
      hd x hx b hr fun e2 => hne (e2.trans eo.symm)
    obtain ⟨l', hl', hf'⟩ := flatten_filter_focus (key := Obj.getName) f1 n1 hm' fun x hx b hr hne =>
      ha x hx b hr fun e2 => hne (e2.trans ex.symm)
    refine .recreated o x ho hx eo ex hb hm hm' l l' hl hl' ?_
    rw [e', hf, hf', noAlt (k1 (ex ▸ List.mem_map_of_mem hm'))]; simp
  | altered o x d ho hx eo ex hb hm =>
    obtain ⟨i, j, hb'⟩ := hb
    have ek : key d = n := (hkey o x j i d (eo.trans ex.symm) hb').trans ex
    obtain ⟨l, hl, hf⟩ := flatten_filter_focus (key := key) f3 n3 hm fun x hx b hr hne =>
      hc x hx b hr fun e2 => hne (e2.trans ek.symm)
    refine .altered o x d ho hx eo ex ⟨i, j, hb'⟩ hm l hl ?_
    have hmem : n ∈ ld.alters.map key := ek ▸ List.mem_map_of_mem hm
    rw [e', noAdd fun hh => k1 hh hmem, noDel fun hh => k2 hh hmem, hf]; simp

end
end Verif
