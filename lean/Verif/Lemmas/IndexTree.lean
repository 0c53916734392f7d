import Verif.Model.Gen.ForeignKey
import Verif.Spec.IndexTree
import Verif.Lemmas.GoMap
import Mathlib.Data.List.Perm.Subperm

/-!
# `buildChildrenByPartitionedIndexNameMap` finds every descendant
-/

namespace Verif

open Spec

theorem SQName.getName_ne_empty (n : SQName) : n.getName ≠ "" := by
  intro h
  have : (n.getName).toList = [] := by rw [h]; rfl
  simp [SQName.getName, SQName.fq] at this

theorem mem_directChildren {l : List Index} {name : String} {i : Index} :
    i ∈ directChildren l name ↔ i ∈ l ∧ (match i.parentIdx with | some p => p.getName | none => "") = name := by
  unfold directChildren
  rw [List.mem_filter]
  cases i.parentIdx <;> simp

theorem rootsLoop_step {l : List Index} {fuel : Nat} {i r : Index} {rest : List Index} {m : GoMap String Index}
    (h1 : i.parentIdx = none → r = i) (h2 : ∀ p, i.parentIdx = some p → r = (m.get? p.getName).getD GoZero.zero) :
    rootsLoop l (fuel + 1) (i :: rest) m =
      rootsLoop l fuel (rest ++ directChildren l (Obj.getName i)) (m.set (Obj.getName i) r) := by
  rw [rootsLoop]
  cases h : i.parentIdx with
  | none => rw [h1 h]
  | some p => rw [h2 p h]

theorem RootOf.unique {l : List Index} (hn : (l.map Obj.getName).Nodup) {i r r' : Index} (h : RootOf l i r)
    (h' : RootOf l i r') : r = r' := by
  induction h with
  | root hi hr =>
    cases h' with
    | root => rfl
    | child hi' h => rw [hr] at h; cases h
  | @child i p r n hi h hp e hr ih =>
    cases h' with
    | root hi' h0 => rw [h0] at h; cases h
    | @child _ p' r' n' hi' h0 hp' e' hr' =>
      rw [h] at h0; cases h0
      cases List.inj_on_of_nodup_map hn hp hp' (e.trans e'.symm)
      exact ih hr'

/-- the invariant of the walk -/
structure WalkInv (l : List Index) (done queue : List Index) (m : GoMap String Index) : Prop where
  nodup : (done ++ queue).Nodup
  sub : ∀ i ∈ done ++ queue, i ∈ l
  from_ : ∀ i ∈ done ++ queue, i.parentIdx = none ∨ ∃ n, i.parentIdx = some n ∧ ∃ p ∈ done, Obj.getName p = n.getName
  roots : ∀ i ∈ l, i.parentIdx = none → i ∈ done ++ queue
  closed : ∀ p ∈ done, ∀ i ∈ l, ∀ n, i.parentIdx = some n → Obj.getName p = n.getName → i ∈ done ++ queue
  map : ∀ i ∈ done, ∃ r, RootOf l i r ∧ m.get? (Obj.getName i) = some r

theorem rootsLoop_inv {l : List Index} (hn : (l.map Obj.getName).Nodup) :
    ∀ (fuel : Nat) (done queue : List Index) (m : GoMap String Index), WalkInv l done queue m →
      l.length + 1 ≤ done.length + fuel → ∃ done', WalkInv l done' [] (rootsLoop l fuel queue m) := by
  intro fuel
  induction fuel with
  | zero =>
    intro done queue m inv hf
    have := (List.subperm_of_subset inv.nodup (fun i hi => inv.sub i hi)).length_le
    simp at this; omega
  | succ fuel ih =>
    intro done queue m inv hf
    cases queue with
    | nil => exact ⟨done, by simpa [rootsLoop] using inv⟩
    | cons i rest =>
      have inj : ∀ {x y}, x ∈ l → y ∈ l → Obj.getName x = Obj.getName y → x = y := fun hx hy e =>
        List.inj_on_of_nodup_map hn hx hy e
      have hil : i ∈ l := inv.sub i (by simp)
      have hid : i ∉ done := by
        have := inv.nodup
        rw [List.nodup_append] at this
        intro h; exact this.2.2 i h i List.mem_cons_self rfl
      have hnew : ∀ x ∈ directChildren l (Obj.getName i), x ∉ done ++ i :: rest := by
        intro x hx hm
        obtain ⟨hxl, hxp⟩ := mem_directChildren.mp hx
        rcases inv.from_ x hm with h0 | ⟨n, h0, p, hp, e⟩
        · rw [h0] at hxp
          exact SQName.getName_ne_empty i.sqName hxp.symm
        · rw [h0] at hxp
          have := inj (inv.sub p (List.mem_append_left _ hp)) hil (e.trans hxp)
          exact hid (this ▸ hp)
      have hroot : ∃ r, RootOf l i r ∧ (i.parentIdx = none → r = i) ∧
          ∀ p, i.parentIdx = some p → r = (m.get? p.getName).getD GoZero.zero := by
        rcases inv.from_ i (by simp) with h0 | ⟨n, h0, p, hp, e⟩
        · exact ⟨i, .root hil h0, fun _ => rfl, fun p hp => (by rw [h0] at hp; cases hp)⟩
        · obtain ⟨r, hr, hm⟩ := inv.map p hp
          refine ⟨r, .child hil h0 (inv.sub p (List.mem_append_left _ hp)) e hr,
            fun h => (by rw [h0] at h; cases h), fun q hq => ?_⟩
          rw [h0] at hq; cases hq
          rw [← e, hm]; rfl
      obtain ⟨r, hr, er1, er2⟩ := hroot
      have e1 : done ++ [i] ++ (rest ++ directChildren l (Obj.getName i)) =
          (done ++ i :: rest) ++ directChildren l (Obj.getName i) := by simp
      have mem1 : ∀ x, x ∈ done ++ [i] ++ (rest ++ directChildren l (Obj.getName i)) ↔
          x ∈ done ++ i :: rest ∨ x ∈ directChildren l (Obj.getName i) := by
        intro x; rw [e1, List.mem_append]
      have hl : l.Nodup := List.Nodup.of_map _ hn
      obtain ⟨done', h'⟩ := ih (done ++ [i]) (rest ++ directChildren l (Obj.getName i)) (m.set (Obj.getName i) r) (by
        refine ⟨?_, ?_, ?_, ?_, ?_, ?_⟩
        · rw [e1, List.nodup_append]
          refine ⟨inv.nodup, hl.filter _, ?_⟩
          rintro a ha b hb rfl
          exact hnew a hb ha
        · intro x hx
          rcases (mem1 x).mp hx with h | h
          · exact inv.sub x h
          · exact (mem_directChildren.mp h).1
        · intro x hx
          rcases (mem1 x).mp hx with h | h
          · rcases inv.from_ x h with h0 | ⟨n, h0, p, hp, e⟩
            · exact Or.inl h0
            · exact Or.inr ⟨n, h0, p, List.mem_append_left _ hp, e⟩
          · obtain ⟨hxl, hxp⟩ := mem_directChildren.mp h
            cases h0 : x.parentIdx with
            | none => exact Or.inl rfl
            | some n =>
              rw [h0] at hxp
              exact Or.inr ⟨n, rfl, i, by simp, hxp.symm⟩
        · intro x hx h0
          exact (mem1 x).mpr (Or.inl (inv.roots x hx h0))
        · intro p hp x hx n h0 e
          rcases List.mem_append.mp hp with hp | hp
          · exact (mem1 x).mpr (Or.inl (inv.closed p hp x hx n h0 e))
          · rw [List.mem_singleton.mp hp] at e
            exact (mem1 x).mpr (Or.inr (mem_directChildren.mpr ⟨hx, by rw [h0]; exact e.symm⟩))
        · intro x hx
          by_cases hxi : x = i
          · subst hxi
            exact ⟨r, hr, by rw [GoMap.get?_set]; simp⟩
          · have hx' : x ∈ done := by
              rcases List.mem_append.mp hx with hx | hx
              · exact hx
              · exact absurd (List.mem_singleton.mp hx) hxi
            obtain ⟨r', hr', hm⟩ := inv.map x hx'
            refine ⟨r', hr', ?_⟩
            rw [GoMap.get?_set]
            split
            · rename_i e
              exact absurd (inj (inv.sub x (List.mem_append_left _ hx')) hil (by first | exact e | exact e.symm)) hxi
            · exact hm) (by simp; omega)
      refine ⟨done', ?_⟩
      rw [rootsLoop_step er1 er2]
      exact h'

/-- the map of the roots is right -/
theorem rootsByChild_get? {l : List Index} (hn : (l.map Obj.getName).Nodup) {i r : Index} (h : RootOf l i r) :
    (rootsByChild l).get? (Obj.getName i) = some r := by
  obtain ⟨done, inv⟩ := rootsLoop_inv hn (l.length + 1) [] (directChildren l "") [] (by
    refine ⟨?_, ?_, ?_, ?_, ?_, ?_⟩
    · exact (List.Nodup.of_map _ hn).filter _
    · intro i hi; exact (mem_directChildren.mp hi).1
    · intro i hi
      obtain ⟨_, h⟩ := mem_directChildren.mp hi
      cases h0 : i.parentIdx with
      | none => exact Or.inl rfl
      | some n => rw [h0] at h; exact absurd h (SQName.getName_ne_empty n)
    · intro i hi h0
      exact mem_directChildren.mpr ⟨hi, by rw [h0]⟩
    · intro p hp; cases hp
    · intro p hp; cases hp) (by simp)
  have hd : i ∈ done := by
    induction h with
    | root hi h0 => simpa using inv.roots _ hi h0
    | child hi h0 hp e _ ih => simpa using inv.closed _ ih _ hi _ h0 e
  obtain ⟨r', hr', hm⟩ := inv.map i hd
  rw [RootOf.unique hn h hr']
  exact hm

/-- every descendant is found -/
theorem mem_descendants {l : List Index} (hn : (l.map Obj.getName).Nodup) {i r : Index} (h : RootOf l i r)
    (hi : i.parentIdx ≠ none) : i ∈ descendants l (Obj.getName r) := by
  unfold descendants
  rw [List.mem_filter]
  refine ⟨?_, ?_⟩
  · cases h <;> assumption
  · rw [rootsByChild_get? hn h]
    simp only [Option.getD_some, decide_true, Bool.and_true]
    cases hp : i.parentIdx with
    | none => exact absurd hp hi
    | some _ => rfl

end Verif
