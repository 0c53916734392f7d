import Verif.Lemmas.Fate
import Verif.Lemmas.Family
import Verif.Lemmas.Run

/-!
# What a plan does about one name, for any generator
-/

namespace Verif

section
variable {S D : Type} {m : Type → Type} [Monad m] [Yields m] {g : VertexGen m S D}
  {ld : ListDiff S D} {pg : PartialGraph Statement}

/-- the statements of a group are those of its objects -/
theorem gen_statements (h : yields (generatePartialGraph g ld) pg) :
    ∃ as ds cs : List (List Statement),
      List.Forall₂ (fun o l => ∃ p, yields (g.add o) p ∧ p.statements = l) ld.adds as ∧
      List.Forall₂ (fun o l => ∃ p, yields (g.delete o) p ∧ p.statements = l) ld.deletes ds ∧
      List.Forall₂ (fun d l => ∃ p, yields (g.alter d) p ∧ p.statements = l) ld.alters cs ∧
      pg.statements = as.flatten ++ ds.flatten ++ cs.flatten := by
  obtain ⟨adds, deletes, alters, h1, h2, h3, rfl⟩ := yields_generatePartialGraph h
  refine ⟨adds.map (·.statements), deletes.map (·.statements), alters.map (·.statements), ?_, ?_, ?_, ?_⟩
  · rw [List.forall₂_map_right_iff]
    exact h1.imp fun o p hp => ⟨p, hp, rfl⟩
  · rw [List.forall₂_map_right_iff]
    exact h2.imp fun o p hp => ⟨p, hp, rfl⟩
  · rw [List.forall₂_map_right_iff]
    exact h3.imp fun o p hp => ⟨p, hp, rfl⟩
  · rw [PartialGraph.statements_concat]
    simp [List.flatMap]

variable [Obj S] {old new : List S} {buildDiff : S → S → Nat → Nat → Except Err (D × Bool)}

/-- what the statements `L` do about one name, of the statements with `P` -/
inductive PlanFate (g : VertexGen m S D) (old new : List S) (buildDiff : S → S → Nat → Nat → Except Err (D × Bool))
    (ld : ListDiff S D) (n : String) (P : Statement → Bool) (L : List Statement) : Prop where
  | absent (ho : n ∉ old.map Obj.getName) (hn : n ∉ new.map Obj.getName) (hs : L.filter P = [])
  | dropped (o : S) (ho : o ∈ old) (e : Obj.getName o = n) (hn : n ∉ new.map Obj.getName) (h : o ∈ ld.deletes)
      (p : PartialGraph Statement) (hp : yields (g.delete o) p) (hs : (L.filter P).Perm (p.statements.filter P))
  | added (x : S) (hx : x ∈ new) (e : Obj.getName x = n) (ho : n ∉ old.map Obj.getName) (h : x ∈ ld.adds)
      (p : PartialGraph Statement) (hp : yields (g.add x) p) (hs : (L.filter P).Perm (p.statements.filter P))
  | recreated (o x : S) (ho : o ∈ old) (hx : x ∈ new) (eo : Obj.getName o = n) (ex : Obj.getName x = n)
      (hb : ∃ i j d, buildDiff o x j i = .ok (d, true)) (h : o ∈ ld.deletes) (h' : x ∈ ld.adds)
      (p p' : PartialGraph Statement) (hp : yields (g.delete o) p) (hp' : yields (g.add x) p')
      (hs : (L.filter P).Perm (p.statements.filter P ++ p'.statements.filter P))
  | altered (o x : S) (d : D) (ho : o ∈ old) (hx : x ∈ new) (eo : Obj.getName o = n) (ex : Obj.getName x = n)
      (hb : ∃ i j, buildDiff o x j i = .ok (d, false)) (h : d ∈ ld.alters)
      (p : PartialGraph Statement) (hp : yields (g.alter d) p) (hs : (L.filter P).Perm (p.statements.filter P))

theorem plan_fate (h : diffLists old new buildDiff = .ok ld) (hn : (new.map Obj.getName).Nodup)
    (hg : yields (generatePartialGraph g ld) pg) {key : D → String}
    (hkey : ∀ o x j i d, Obj.getName o = Obj.getName x → buildDiff o x j i = .ok (d, false) → key d = Obj.getName x)
    {n : String} {P : Statement → Bool} {L : List Statement} (hL : (L.filter P).Perm (pg.statements.filter P))
    (ha : ∀ o ∈ ld.adds, ∀ p, yields (g.add o) p → Obj.getName o ≠ n → p.statements.filter P = [])
    (hd : ∀ o ∈ ld.deletes, ∀ p, yields (g.delete o) p → Obj.getName o ≠ n → p.statements.filter P = [])
    (hc : ∀ o ∈ ld.alters, ∀ p, yields (g.alter o) p → key o ≠ n → p.statements.filter P = []) :
    PlanFate g old new buildDiff ld n P L := by
  obtain ⟨dec, n1, n2, n3, k1, k2, k3⟩ := diffLists_decision h hn hkey n
  obtain ⟨as, ds, cs, f1, f2, f3, e⟩ := gen_statements hg
  have e' : (L.filter P).Perm (as.flatten.filter P ++ ds.flatten.filter P ++ cs.flatten.filter P) := by
    rw [e, List.filter_append, List.filter_append] at hL
    exact hL
  have noAdd : n ∉ ld.adds.map Obj.getName → as.flatten.filter P = [] := fun hx =>
    flatten_filter_nil f1 fun a haa b hr => by
      obtain ⟨p, hp, rfl⟩ := hr
      exact ha a haa p hp fun e => hx (e ▸ List.mem_map_of_mem haa)
  have noDel : n ∉ ld.deletes.map Obj.getName → ds.flatten.filter P = [] := fun hx =>
    flatten_filter_nil f2 fun a haa b hr => by
      obtain ⟨p, hp, rfl⟩ := hr
      exact hd a haa p hp fun e => hx (e ▸ List.mem_map_of_mem haa)
  have noAlt : n ∉ ld.alters.map key → cs.flatten.filter P = [] := fun hx =>
    flatten_filter_nil f3 fun a haa b hr => by
      obtain ⟨p, hp, rfl⟩ := hr
      exact hc a haa p hp fun e => hx (e ▸ List.mem_map_of_mem haa)
  have addNew : ∀ {y}, y ∈ ld.adds.map Obj.getName → y ∈ new.map Obj.getName := by
    intro y hy
    obtain ⟨z, hz, rfl⟩ := List.mem_map.mp hy
    exact List.mem_map_of_mem (diffLists_adds_mem h hz)
  have delOld : ∀ {y}, y ∈ ld.deletes.map Obj.getName → y ∈ old.map Obj.getName := by
    intro y hy
    obtain ⟨z, hz, rfl⟩ := List.mem_map.mp hy
    exact List.mem_map_of_mem (diffLists_deletes_mem h hz)
  have focusDel : ∀ {o}, o ∈ ld.deletes → Obj.getName o = n → ∃ p, yields (g.delete o) p ∧
      ds.flatten.filter P = p.statements.filter P := by
    intro o hm en
    obtain ⟨l, ⟨p, hp, rfl⟩, hf⟩ := flatten_filter_focus (key := Obj.getName) f2 n2 hm fun x hx b hr hne => by
      obtain ⟨p, hp, rfl⟩ := hr
      exact hd x hx p hp fun e2 => hne (e2.trans en.symm)
    exact ⟨p, hp, hf⟩
  have focusAdd : ∀ {o}, o ∈ ld.adds → Obj.getName o = n → ∃ p, yields (g.add o) p ∧
      as.flatten.filter P = p.statements.filter P := by
    intro o hm en
    obtain ⟨l, ⟨p, hp, rfl⟩, hf⟩ := flatten_filter_focus (key := Obj.getName) f1 n1 hm fun x hx b hr hne => by
      obtain ⟨p, hp, rfl⟩ := hr
      exact ha x hx p hp fun e2 => hne (e2.trans en.symm)
    exact ⟨p, hp, hf⟩
  cases dec with
  | absent ho hx =>
    refine .absent ho hx ?_
    rw [noAdd fun hh => hx (addNew hh), noDel fun hh => ho (delOld hh), noAlt fun hh => ho (k3 hh).1] at e'
    exact List.perm_nil.mp e'
  | dropped o ho en hx hm =>
    obtain ⟨p, hp, hf⟩ := focusDel hm en
    refine .dropped o ho en hx hm p hp ?_
    rw [noAdd fun hh => hx (addNew hh), hf, noAlt fun hh => hx (k3 hh).2] at e'
    simpa using e'
  | added x hx en ho hm =>
    obtain ⟨p, hp, hf⟩ := focusAdd hm en
    refine .added x hx en ho hm p hp ?_
    rw [noDel fun hh => ho (delOld hh), hf, noAlt fun hh => ho (k3 hh).1] at e'
    simpa using e'
  | recreated o x ho hx eo ex hb hm hm' =>
    obtain ⟨p, hp, hf⟩ := focusDel hm eo
    obtain ⟨p', hp', hf'⟩ := focusAdd hm' ex
    refine .recreated o x ho hx eo ex hb hm hm' p p' hp hp' ?_
    rw [hf, hf', noAlt (k1 (ex ▸ List.mem_map_of_mem hm'))] at e'
    refine e'.trans ?_
    rw [List.append_nil]
    exact List.perm_append_comm
  | altered o x d ho hx eo ex hb hm =>
    obtain ⟨i, j, hb'⟩ := hb
    have ek : key d = n := (hkey o x j i d (eo.trans ex.symm) hb').trans ex
    obtain ⟨l, ⟨p, hp, rfl⟩, hf⟩ := flatten_filter_focus (key := key) f3 n3 hm fun x hx b hr hne => by
      obtain ⟨p, hp, rfl⟩ := hr
      exact hc x hx p hp fun e2 => hne (e2.trans ek.symm)
    refine .altered o x d ho hx eo ex ⟨i, j, hb'⟩ hm p hp ?_
    have hmem : n ∈ ld.alters.map key := ek ▸ List.mem_map_of_mem hm
    rw [noAdd fun hh => k1 hh hmem, noDel fun hh => k2 hh hmem, hf] at e'
    simpa using e'

end

section
variable {S D : Type} {m : Type → Type} [Monad m] [Yields m] [GoZero S] [IsDiff D S] {g : LegacyGen m S D}
  {p : PartialGraph Statement}

theorem toNew_add_statements {o : S} (h : yields (g.toNew.add o) p) : yields (g.add o) p.statements := by
  obtain ⟨l, deps, h1, _, rfl⟩ := toNew_add h
  rw [single_statements]; exact h1

theorem toNew_delete_statements {o : S} (h : yields (g.toNew.delete o) p) : yields (g.delete o) p.statements := by
  obtain ⟨l, deps, h1, _, rfl⟩ := toNew_delete h
  rw [single_statements]; exact h1

theorem toNew_alter_statements {d : D} (h : yields (g.toNew.alter d) p) : yields (g.alter d) p.statements := by
  obtain ⟨l, deps, h1, _, rfl⟩ := toNew_alter h
  rw [single_statements]; exact h1

end

/-- two statements of which one is before the other -/
theorem filter_two_of_before {P : Statement → Bool} {L : List Statement} {a b : Statement} {A B : Statement → Prop}
    (h : (L.filter P).Perm [a, b]) (hb : AllBefore A B L) (ha : A a) (hB : B b) :
    L.filter P = [a, b] := by
  have hs : AllBefore A B (L.filter P) := hb.sublist List.filter_sublist
  match hl : L.filter P with
  | [] => rw [hl] at h; exact absurd h.length_eq (by simp)
  | [x] => rw [hl] at h; exact absurd h.length_eq (by simp)
  | [x, y] =>
    rw [hl] at h hs
    rcases List.mem_cons.mp (h.mem_iff.mp (List.mem_cons_self (a := x))) with rfl | hx
    · have := (List.perm_cons x).mp h
      rw [List.perm_singleton.mp this]
    · rw [List.mem_singleton] at hx
      subst hx
      have : [x, y].Perm [x, a] := h.trans (List.Perm.swap _ _ _)
      have := List.perm_singleton.mp ((List.perm_cons x).mp this)
      cases this
      exact absurd ⟨hB, ha⟩ ((List.pairwise_cons.mp hs).1 a (by simp))
  | x :: y :: z :: l => rw [hl] at h; exact absurd h.length_eq (by simp)

end Verif
