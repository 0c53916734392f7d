import Verif.Lemmas.ForeignKey

/-!
# What becomes of one foreign key
-/

namespace Verif

open Spec

/-! ### the foreign key of a schema -/

section
variable {s : Schema} {n : SQName} {k : String}

/-- all foreign keys have quoted names -/
def FksQuoted (s : Schema) : Prop :=
  ∀ f ∈ s.foreignKeyConstraints, Quoted f.owningTable ∧ ∃ x, nameOk x = true ∧ f.escapedName = escapeIdentifier x

theorem fkOf_none (hq : FksQuoted s) (hn : Quoted n) (hk : nameOk k = true) (h : fkKey n k ∉ s.foreignKeyConstraints.map Obj.getName) :
    fkOf s n.fq k = none := by
  unfold fkOf
  rw [List.find?_eq_none.mpr]
  · rfl
  · intro f hf hb
    obtain ⟨q1, q2⟩ := hq f hf
    obtain ⟨h1, h2⟩ := Bool.and_eq_true_iff.mp hb
    exact h (List.mem_map.mpr ⟨f, hf, (fk_name_injective q1 q2 hn hk).mpr ⟨of_decide_eq_true h1, h2⟩⟩)

theorem fkOf_some (hq : FksQuoted s) (hn : Quoted n) (hk : nameOk k = true) (hu : NamesUnique s.foreignKeyConstraints)
    {f : ForeignKeyConstraint} (hf : f ∈ s.foreignKeyConstraints) (e : Obj.getName f = fkKey n k) :
    fkOf s n.fq k = some (fkState f) := by
  unfold fkOf
  cases hx : s.foreignKeyConstraints.find? fun f => f.owningTable.fq = n.fq && readsAs f.escapedName k with
  | none =>
    have := List.find?_eq_none.mp hx f hf
    obtain ⟨q1, q2⟩ := hq f hf
    obtain ⟨h1, h2⟩ := (fk_name_injective q1 q2 hn hk).mp e
    rw [decide_eq_true h1, h2] at this
    exact absurd rfl this
  | some g =>
    have hg := List.mem_of_find?_eq_some hx
    have hb := List.find?_some hx
    obtain ⟨q1, q2⟩ := hq g hg
    obtain ⟨h1, h2⟩ := Bool.and_eq_true_iff.mp hb
    have e' := (fk_name_injective q1 q2 hn hk).mpr ⟨of_decide_eq_true h1, h2⟩
    have : g = f := List.inj_on_of_nodup_map hu hg hf (Eq.trans e' e.symm)
    rw [this]; rfl

theorem fkOf_normalize (hq : FksQuoted s) (hn : Quoted n) (hk : nameOk k = true) (hu : NamesUnique s.foreignKeyConstraints) :
    fkOf s n.fq k = fkOf s.normalize n.fq k := by
  have hq' : FksQuoted s.normalize := fun f hf => hq f (mem_normalize_fks.mp hf)
  have hu' : NamesUnique s.normalize.foreignKeyConstraints := (normalize_fks_names s).nodup_iff.mpr hu
  by_cases h : fkKey n k ∈ s.foreignKeyConstraints.map Obj.getName
  · obtain ⟨f, hf, e⟩ := List.mem_map.mp h
    rw [fkOf_some hq hn hk hu hf e, fkOf_some hq' hn hk hu' (mem_normalize_fks.mpr hf) e]
  · rw [fkOf_none hq hn hk h, fkOf_none hq' hn hk fun h' => h ((normalize_fks_names s).mem_iff.mp h')]

end

/-! ### running -/

theorem split_head {α : Type} {p : α → Bool} {l : List α} {x : α} {xs : List α} (h : l.filter p = x :: xs) :
    ∃ a b, l = a ++ x :: b ∧ p x = true ∧ (∀ y ∈ a, p y = false) ∧ b.filter p = xs := by
  induction l with
  | nil => cases h
  | cons z l ih =>
    rw [List.filter_cons] at h
    split at h
    · rename_i hz
      injection h with h1 h2
      subst h1
      exact ⟨[], l, rfl, hz, by simp, h2⟩
    · rename_i hz
      obtain ⟨a, b, e, h1, h2, h3⟩ := ih h
      refine ⟨z :: a, b, by rw [e]; rfl, h1, ?_, h3⟩
      intro y hy
      rcases List.mem_cons.mp hy with rfl | hy
      · simpa using hz
      · exact h2 y hy

section
variable {tx : FkTexts} {n k : String} {l : List Statement}

/-- nothing happens to a foreign key that no statement is about -/
theorem runFk_kept {y : FkState} (h1 : ∀ s ∈ l, s.ddl.makesFk n k = false) (h2 : ∀ s ∈ l, s.ddl.dropsCheck n k = false)
    (h3 : ∀ s ∈ l, s.ddl.clashesFk n k = false) (h4 : ∀ s ∈ l, s.ddl.hurtsFk tx n y.definition = false) :
    runFk tx n k (some y) l = some (some y) :=
  runWith_keeps fun s hs => fkStep_some (h1 s hs) (h2 s hs) (h3 s hs) (h4 s hs)

theorem runFk_absent (h1 : ∀ s ∈ l, s.ddl.makesFk n k = false) (h2 : ∀ s ∈ l, s.ddl.dropsCheck n k = false)
    (h3 : ∀ s ∈ l, s.ddl.clashesFk n k = false) : runFk tx n k none l = some none :=
  runWith_keeps fun s hs => fkStep_none (h1 s hs) (h2 s hs) (h3 s hs)

/-- a foreign key is validated -/
theorem runFk_validated {y : FkState} {v : Statement} (hM : l.filter (fun s : Statement => s.ddl.makesFk n k) = [v]) {t : SQName}
    {q : String} (hv : v.ddl = .alterTable t (.validateConstraint q))
    (h2 : ∀ s ∈ l, s.ddl.dropsCheck n k = false) (h3 : ∀ s ∈ l, s.ddl.clashesFk n k = false)
    (h4 : ∀ s ∈ l, s.ddl.hurtsFk tx n y.definition = false) :
    runFk tx n k (some y) l = some (some { y with valid := true }) := by
  obtain ⟨a, b, rfl, hp, ha, hb⟩ := split_once hM
  have hstep : fkStep tx n k (some y) v.ddl = some (some { y with valid := true }) := by
    rw [hv] at hp ⊢
    obtain ⟨e1, e2⟩ := Bool.and_eq_true_iff.mp hp
    exact (if_pos (of_decide_eq_true e1)).trans (if_pos e2)
  unfold runFk
  rw [runWith_at _ hstep]
  · exact runFk_kept hb (fun s hs => h2 s (by simp [hs])) (fun s hs => h3 s (by simp [hs])) (fun s hs => h4 s (by simp [hs]))
  · intro s hs
    exact fkStep_some (ha s hs) (h2 s (by simp [hs])) (h3 s (by simp [hs])) (h4 s (by simp [hs]))

/-- a new foreign key -/
theorem runFk_added {f : ForeignKeyConstraint} {z : Statement} {vs : List Statement} {notValid : Bool}
    (hv : saysNotValid f.constraintDef = !f.isValid)
    (hM : l.filter (fun s : Statement => s.ddl.makesFk n k) = z :: vs)
    (hz : z.ddl = .alterTable f.owningTable (.addForeignKey f.escapedName f.constraintDef notValid))
    (hvs : (notValid = false ∧ vs = []) ∨ (f.isValid = true ∧ ∃ v q, vs = [v] ∧ v.ddl = .alterTable f.owningTable (.validateConstraint q)))
    (h2 : ∀ s ∈ l, s.ddl.dropsCheck n k = false) (h3 : ∀ s ∈ l, s.ddl.clashesFk n k = false)
    (h4 : AllBefore (fun s : Statement => s.ddl.hurtsFk tx n (withoutNotValid f.constraintDef) = true)
      (fun s => s.ddl.makesFk n k = true) l) :
    runFk tx n k none l = some (some (fkState f)) := by
  obtain ⟨a, b, rfl, hp, ha, hb⟩ := split_head hM
  have hstep : fkStep tx n k none z.ddl = some (some ⟨withoutNotValid f.constraintDef, !notValid && !saysNotValid f.constraintDef⟩) := by
    have hp' := hp
    rw [hz] at hp' ⊢
    obtain ⟨e1, e2⟩ := Bool.and_eq_true_iff.mp hp'
    exact (if_pos (of_decide_eq_true e1)).trans (if_pos e2)
  have hhurt : ∀ s ∈ b, s.ddl.hurtsFk tx n (withoutNotValid f.constraintDef) = false := by
    intro s hs
    cases h : s.ddl.hurtsFk tx n (withoutNotValid f.constraintDef) with
    | false => rfl
    | true => exact absurd h (h4.not_after hp s hs)
  have h2b : ∀ s ∈ b, s.ddl.dropsCheck n k = false := fun s hs => h2 s (by simp [hs])
  have h3b : ∀ s ∈ b, s.ddl.clashesFk n k = false := fun s hs => h3 s (by simp [hs])
  unfold runFk
  rw [runWith_at _ hstep]
  · rcases hvs with ⟨rfl, rfl⟩ | ⟨hval, v, q, rfl, hvd⟩
    · have e : (⟨withoutNotValid f.constraintDef, !false && !saysNotValid f.constraintDef⟩ : FkState) = fkState f := by
        rw [hv, Bool.not_not]; rfl
      rw [e]
      exact runFk_kept (y := fkState f) (filter_nil_false hb) h2b h3b hhurt
    · have e : fkState f = { (⟨withoutNotValid f.constraintDef, !notValid && !saysNotValid f.constraintDef⟩ : FkState) with valid := true } := by
        unfold fkState; rw [hval]
      rw [e]
      exact runFk_validated hb hvd h2b h3b hhurt
  · intro s hs
    exact fkStep_none (ha s hs) (h2 s (by simp [hs])) (h3 s (by simp [hs]))

/-- a foreign key is dropped -/
theorem runFk_dropped {y : FkState} {e : Statement} (hD : l.filter (fun s : Statement => s.ddl.dropsCheck n k) = [e])
    (h3 : ∀ s ∈ l, s.ddl.clashesFk n k = false)
    (hm : AllBefore (fun s : Statement => s.ddl.dropsCheck n k = true) (fun s => s.ddl.makesFk n k = true) l)
    (h4 : AllBefore (fun s : Statement => s.ddl.dropsCheck n k = true) (fun s => s.ddl.hurtsFk tx n y.definition = true) l) :
    ∃ b, runFk tx n k (some y) l = runFk tx n k none b ∧ b.Sublist l ∧ (∀ s ∈ b, s.ddl.dropsCheck n k = false) ∧
      b.filter (fun s : Statement => s.ddl.makesFk n k) = l.filter fun s : Statement => s.ddl.makesFk n k := by
  obtain ⟨a, b, rfl, hp, ha, hb⟩ := split_once hD
  have hma : ∀ s ∈ a, s.ddl.makesFk n k = false := by
    intro s hs
    cases h : s.ddl.makesFk n k with
    | false => rfl
    | true => exact absurd h (hm.not_before hp s hs)
  have hme : e.ddl.makesFk n k = false := by
    cases hd : e.ddl with
    | alterTable t x => rw [hd] at hp; cases x <;> first | rfl | cases hp
    | _ => rfl
  refine ⟨b, ?_, ?_, hb, (split_filter rfl hma hme)⟩
  · refine runWith_at ?_ ?_
    · intro s hs
      refine fkStep_some (hma s hs) (ha s hs) (h3 s (by simp [hs])) ?_
      cases h : s.ddl.hurtsFk tx n y.definition with
      | false => rfl
      | true => exact absurd h (h4.not_before hp s hs)
    · cases hd : e.ddl with
      | alterTable t x =>
        rw [hd] at hp
        cases x with
        | dropConstraint q =>
          obtain ⟨e1, e2⟩ := Bool.and_eq_true_iff.mp hp
          exact (if_pos (of_decide_eq_true e1)).trans (if_pos e2)
        | _ => cases hp
      | _ => rw [hd] at hp; cases hp
  · exact (List.sublist_cons_self _ _).trans (List.sublist_append_right _ _)

end

/-! ### what happens to a foreign key -/

section
variable {tx : FkTexts} {opts : PlanOptions} {old new : Schema} {d : SchemaDiff} {r r' : Rand} {stmts : List Statement} {n : SQName}
  {k : String}

/-- the statements that make a foreign key -/
inductive FkMade (f : ForeignKeyConstraint) : List Statement → Prop where
  | direct (s : Statement) (h : s.ddl = .alterTable f.owningTable (.addForeignKey f.escapedName f.constraintDef false)) : FkMade f [s]
  | validated (hv : f.isValid = true) : FkMade f (FkGen.addAsInvalidThenValidate f)

theorem FkGen.add_made {g : FkGen} {f : ForeignKeyConstraint} {l : List Statement} (h : g.add f = .ok l) : FkMade f l := by
  unfold FkGen.add at h
  split at h
  · rename_i hv
    split at h
    · cases h
    · rw [Except.ok.injEq] at h
      subst h
      split
      · exact .validated hv
      · exact .direct _ rfl
  · rw [Except.ok.injEq] at h
    subst h
    exact .direct _ rfl

/-- the statements that alter a foreign key -/
theorem FkGen.alter_ok {x : OldNew ForeignKeyConstraint} {l : List Statement} (h : FkGen.alter x = .ok l) :
    (x.old.isValid = false ∧ x.new.isValid = true ∧ (∃ y, x.old.constraintDef.toList = y ++ " NOT VALID".toList ∧
        x.new.constraintDef = String.ofList y) ∧ l = [validateConstraintStatement x.new.owningTable x.new.escapedName]) ∨
    (x.old = x.new ∧ l = []) := by
  unfold FkGen.alter at h
  split at h
  · rename_i hc
    simp only [Bool.and_eq_true, Bool.not_eq_true'] at hc
    split at h
    · cases h
    · rename_i y hy
      dsimp only at h
      rw [ite_error_ok, Except.ok.injEq] at h
      obtain ⟨h1, rfl⟩ := h
      have h1 := Classical.not_not.mp h1
      refine Or.inl ⟨hc.1, hc.2, ⟨y, ?_, ?_⟩, rfl⟩
      · exact dropSuffix?_some hy
      · rw [← h1]
  · rw [ite_error_ok, Except.ok.injEq] at h
    exact Or.inr ⟨Classical.not_not.mp h.1, h.2.symm⟩

/-- what a plan does about the foreign key `k` of the table `n` -/
inductive FkFate (old new : Schema) (d : SchemaDiff) (n : SQName) (k : String) (stmts : List Statement) : Prop where
  | absent (ho : fkKey n k ∉ old.foreignKeyConstraints.map Obj.getName) (hn : fkKey n k ∉ new.foreignKeyConstraints.map Obj.getName)
      (hM : stmts.filter (fun s : Statement => s.ddl.makesFk n.fq k) = [])
      (hD : stmts.filter (fun s : Statement => s.ddl.dropsCheck n.fq k) = [])
  | dropped (o : ForeignKeyConstraint) (ho : o ∈ old.foreignKeyConstraints) (e : Obj.getName o = fkKey n k)
      (hn : fkKey n k ∉ new.foreignKeyConstraints.map Obj.getName) (hd : o ∈ d.foreignKeyConstraintDiffs.deletes)
      (hM : stmts.filter (fun s : Statement => s.ddl.makesFk n.fq k) = []) (s : Statement)
      (hD : stmts.filter (fun s : Statement => s.ddl.dropsCheck n.fq k) = [s])
  | added (x : ForeignKeyConstraint) (hx : x ∈ new.foreignKeyConstraints) (e : Obj.getName x = fkKey n k)
      (ho : fkKey n k ∉ old.foreignKeyConstraints.map Obj.getName) (ha : x ∈ d.foreignKeyConstraintDiffs.adds)
      (hM : FkMade x (stmts.filter (fun s : Statement => s.ddl.makesFk n.fq k)))
      (hD : stmts.filter (fun s : Statement => s.ddl.dropsCheck n.fq k) = [])
  | recreated (o x : ForeignKeyConstraint) (ho : o ∈ old.foreignKeyConstraints) (hx : x ∈ new.foreignKeyConstraints)
      (eo : Obj.getName o = fkKey n k) (ex : Obj.getName x = fkKey n k)
      (hd : o ∈ d.foreignKeyConstraintDiffs.deletes) (ha : x ∈ d.foreignKeyConstraintDiffs.adds)
      (hM : FkMade x (stmts.filter (fun s : Statement => s.ddl.makesFk n.fq k))) (s : Statement)
      (hD : stmts.filter (fun s : Statement => s.ddl.dropsCheck n.fq k) = [s])
  | altered (o x : ForeignKeyConstraint) (ho : o ∈ old.foreignKeyConstraints) (hx : x ∈ new.foreignKeyConstraints)
      (eo : Obj.getName o = fkKey n k) (ex : Obj.getName x = fkKey n k)
      (h1 : x.owningTable.fq ∉ d.tableDiffs.adds.map fun t => t.name.fq) (h2 : x.foreignTable.fq ∉ d.tableDiffs.adds.map fun t => t.name.fq)
      (l : List Statement) (hl : FkGen.alter ⟨o, x⟩ = .ok l)
      (hM : stmts.filter (fun s : Statement => s.ddl.makesFk n.fq k) = l)
      (hD : stmts.filter (fun s : Statement => s.ddl.dropsCheck n.fq k) = [])

theorem FkMade.filter {f : ForeignKeyConstraint} {l : List Statement} (h : FkMade f l) {P : Statement → Bool}
    (hP : ∀ s t a, s.ddl = .alterTable t a → (∃ q x y, a = .addForeignKey q x y ∧ t = f.owningTable ∧ q = f.escapedName) ∨
      (a = .validateConstraint f.escapedName ∧ t = f.owningTable) → P s = false) : l.filter P = [] := by
  rw [List.filter_eq_nil_iff]
  intro s hs
  cases h with
  | direct s h =>
    rw [List.mem_singleton.mp hs, hP _ _ _ h (Or.inl ⟨_, _, _, rfl, rfl, rfl⟩)]; simp
  | validated hv =>
    unfold FkGen.addAsInvalidThenValidate at hs
    rcases List.mem_cons.mp hs with rfl | hs
    · rw [hP _ _ _ rfl (Or.inl ⟨_, _, _, rfl, rfl, rfl⟩)]; simp
    · rw [List.mem_singleton.mp hs, hP _ _ _ rfl (Or.inr ⟨rfl, rfl⟩)]; simp

theorem FkMade.filter_all {f : ForeignKeyConstraint} {l : List Statement} (h : FkMade f l) (hf : f.owningTable.fq = n.fq)
    (hk : readsAs f.escapedName k = true) : l.filter (fun s : Statement => s.ddl.makesFk n.fq k) = l := by
  have e : (decide (f.owningTable.fq = n.fq) && readsAs f.escapedName k) = true := by rw [decide_eq_true hf, hk]; rfl
  rw [List.filter_eq_self]
  intro s hs
  cases h with
  | direct s h => rw [List.mem_singleton.mp hs, h]; exact e
  | validated hv =>
    unfold FkGen.addAsInvalidThenValidate at hs
    rcases List.mem_cons.mp hs with rfl | hs
    · exact e
    · rw [List.mem_singleton.mp hs]; exact e

theorem fk_fate (dr : DiffRun opts old new d) (run : PlanRun opts d r r' stmts) (hr : FromReader r)
    (hu : NamesUnique new.foreignKeyConstraints) (hp : FksPlannable tx old new n k) : FkFate old new d n k stmts := by
  obtain ⟨dec, n1, n2, n3, k1, k2, k3⟩ := diffLists_decision dr.hfks hu (key := fun x : OldNew ForeignKeyConstraint => Obj.getName x.new)
    (by
      intro o x j i d _ hb
      rw [(buildForeignKeyConstraintDiff_ok hb).2.2.1]) (fkKey n k)
  have hM := run.part_filter (f := .fk) (by simp) (P := fun s : Statement => s.ddl.makesFk n.fq k)
    (fun id s h hs => fk_makes_id hp dr h hs) (fun s hs => by
      cases h : s.ddl.makesFk n.fq k with
      | false => rfl
      | true => exact absurd hs (makesFk_not_outer h))
  have hD := run.part_filter (f := .fk) (by simp) (P := fun s : Statement => s.ddl.dropsCheck n.fq k)
    (fun id s h hs => fk_drops_id hp dr run hr h hs) (fun s hs => by
      cases h : s.ddl.dropsCheck n.fq k with
      | false => rfl
      | true => exact absurd hs (dropsCheck_not_outer h))
  have mem : ∀ f, f ∈ old.foreignKeyConstraints ∨ f ∈ new.foreignKeyConstraints →
      (Obj.getName f = fkKey n k ↔ f.owningTable.fq = n.fq ∧ readsAs f.escapedName k = true) := by
    intro f hf
    obtain ⟨q1, q2⟩ := hp.quoted f hf
    exact fk_name_injective q1 q2 hp.table hp.name
  have bad : ∀ f, f ∈ old.foreignKeyConstraints ∨ f ∈ new.foreignKeyConstraints → Obj.getName f ≠ fkKey n k →
      (decide (f.owningTable.fq = n.fq) && readsAs f.escapedName k) = false := by
    intro f hf hne
    cases h : (decide (f.owningTable.fq = n.fq) && readsAs f.escapedName k) with
    | false => rfl
    | true =>
      obtain ⟨h1, h2⟩ := Bool.and_eq_true_iff.mp h
      exact absurd ((mem f hf).mpr ⟨of_decide_eq_true h1, h2⟩) hne
  have good : ∀ f, f ∈ old.foreignKeyConstraints ∨ f ∈ new.foreignKeyConstraints → Obj.getName f = fkKey n k →
      (decide (f.owningTable.fq = n.fq) && readsAs f.escapedName k) = true := by
    intro f hf he
    obtain ⟨h1, h2⟩ := (mem f hf).mp he
    rw [decide_eq_true h1, h2]; rfl
  have altNew : ∀ x ∈ d.foreignKeyConstraintDiffs.alters, x.new ∈ new.foreignKeyConstraints :=
    fun x hx => altered_foreignKey_mem dr (Or.inr ⟨x, hx, rfl⟩)
  obtain ⟨A, B, C, eM, a1, b1, c1, a2, b2, c2⟩ := legacy_focus (m := Except Err) (g := (newFkGen d.old d.new d.tableDiffs.adds).legacy)
    (key := fun x : OldNew ForeignKeyConstraint => Obj.getName x.new) run.hfks n1 n2 n3 (n := fkKey n k)
    (P := fun s : Statement => s.ddl.makesFk n.fq k) (by
      intro o ho l hl hne
      refine (FkGen.add_made hl).filter ?_
      rintro s t a e (⟨q, x, y, rfl, rfl, rfl⟩ | ⟨rfl, rfl⟩) <;> rw [e] <;>
        exact bad o (Or.inr (diffLists_adds_mem dr.hfks ho)) hne) (by
      intro o _ l hl hne
      cases hl
      rfl) (by
      intro o ho l hl hne
      rcases FkGen.alter_ok hl with ⟨_, _, _, rfl⟩ | ⟨_, rfl⟩
      · rw [List.filter_cons, if_neg]
        · rfl
        · have := bad o.new (Or.inr (altNew o ho)) hne
          exact fun h => Bool.false_ne_true (this.symm.trans h)
      · rfl)
  obtain ⟨A', B', C', eD, a1', b1', c1', a2', b2', c2'⟩ := legacy_focus (m := Except Err) (g := (newFkGen d.old d.new d.tableDiffs.adds).legacy)
    (key := fun x : OldNew ForeignKeyConstraint => Obj.getName x.new) run.hfks n1 n2 n3 (n := fkKey n k)
    (P := fun s : Statement => s.ddl.dropsCheck n.fq k) (by
      intro o ho l hl hne
      refine (FkGen.add_made hl).filter ?_
      rintro s t a e (⟨q, x, y, rfl, rfl, rfl⟩ | ⟨rfl, rfl⟩) <;> rw [e] <;> rfl) (by
      intro o ho l hl hne
      cases hl
      rw [List.filter_cons, if_neg]
      · rfl
      · have := bad o (Or.inl (diffLists_deletes_mem dr.hfks ho)) hne
        exact fun h => Bool.false_ne_true (this.symm.trans h)) (by
      intro o ho l hl hne
      rcases FkGen.alter_ok hl with ⟨_, _, _, rfl⟩ | ⟨_, rfl⟩ <;> rfl)
  have hM : stmts.filter (fun s : Statement => s.ddl.makesFk n.fq k) = A ++ B ++ C := hM.trans eM
  have hD : stmts.filter (fun s : Statement => s.ddl.dropsCheck n.fq k) = A' ++ B' ++ C' := hD.trans eD
  have addNew : fkKey n k ∈ d.foreignKeyConstraintDiffs.adds.map Obj.getName → fkKey n k ∈ new.foreignKeyConstraints.map Obj.getName := by
    intro hy
    obtain ⟨z, hz, e⟩ := List.mem_map.mp hy
    exact List.mem_map.mpr ⟨z, diffLists_adds_mem dr.hfks hz, e⟩
  have delOld : fkKey n k ∈ d.foreignKeyConstraintDiffs.deletes.map Obj.getName → fkKey n k ∈ old.foreignKeyConstraints.map Obj.getName := by
    intro hy
    obtain ⟨z, hz, e⟩ := List.mem_map.mp hy
    exact List.mem_map.mpr ⟨z, diffLists_deletes_mem dr.hfks hz, e⟩
  have addM : ∀ x ∈ d.foreignKeyConstraintDiffs.adds, Obj.getName x = fkKey n k → FkMade x A ∧ A' = [] := by
    intro x hx e
    obtain ⟨l, hl, rfl⟩ := a2 x hx e
    obtain ⟨l', hl', rfl⟩ := a2' x hx e
    obtain ⟨h1, h2⟩ := (mem x (Or.inr (diffLists_adds_mem dr.hfks hx))).mp e
    refine ⟨?_, ?_⟩
    · rw [(FkGen.add_made hl).filter_all h1 h2]; exact FkGen.add_made hl
    · refine (FkGen.add_made hl').filter ?_
      rintro s t a e (⟨q, x, y, rfl, rfl, rfl⟩ | ⟨rfl, rfl⟩) <;> rw [e] <;> rfl
  have delD : ∀ x ∈ d.foreignKeyConstraintDiffs.deletes, Obj.getName x = fkKey n k → B = [] ∧ ∃ s, B' = [s] := by
    intro x hx e
    obtain ⟨l, hl, rfl⟩ := b2 x hx e
    obtain ⟨l', hl', rfl⟩ := b2' x hx e
    cases hl
    cases hl'
    refine ⟨rfl, stmt (.alterTable x.owningTable (.dropConstraint x.escapedName)), ?_⟩
    · rw [List.filter_cons, if_pos]
      · rfl
      · exact good x (Or.inl (diffLists_deletes_mem dr.hfks hx)) e
  cases dec with
  | absent ho hn =>
    rw [a1 fun h => hn (addNew h), b1 fun h => ho (delOld h), c1 fun h => ho (k3 h).1] at hM
    rw [a1' fun h => hn (addNew h), b1' fun h => ho (delOld h), c1' fun h => ho (k3 h).1] at hD
    exact .absent ho hn hM hD
  | dropped o ho e hn hd =>
    obtain ⟨eB, s, eB'⟩ := delD o hd e
    rw [a1 fun h => hn (addNew h), eB, c1 fun h => hn (k3 h).2] at hM
    rw [a1' fun h => hn (addNew h), eB', c1' fun h => hn (k3 h).2] at hD
    exact .dropped o ho e hn hd hM s hD
  | added x hx e ho ha =>
    obtain ⟨eA, eA'⟩ := addM x ha e
    rw [b1 fun h => ho (delOld h), c1 fun h => ho (k3 h).1, List.append_nil, List.append_nil] at hM
    rw [eA', b1' fun h => ho (delOld h), c1' fun h => ho (k3 h).1] at hD
    exact .added x hx e ho ha (hM ▸ eA) hD
  | recreated o x ho hx eo ex hb hd ha =>
    obtain ⟨eA, eA'⟩ := addM x ha ex
    obtain ⟨eB, s, eB'⟩ := delD o hd eo
    have nalt := k2 (List.mem_map.mpr ⟨o, hd, eo⟩)
    rw [eB, c1 nalt, List.append_nil, List.append_nil] at hM
    rw [eA', eB', c1' nalt] at hD
    exact .recreated o x ho hx eo ex hd ha (hM ▸ eA) s hD
  | altered o x sd ho hx eo ex hb hd =>
    obtain ⟨i, j, hb⟩ := hb
    obtain ⟨g1, g2, rfl, _, _⟩ := buildForeignKeyConstraintDiff_ok hb
    obtain ⟨l, hl, eC⟩ := c2 _ hd ex
    obtain ⟨l', hl', eC'⟩ := c2' _ hd ex
    have hmem : fkKey n k ∈ d.foreignKeyConstraintDiffs.alters.map fun x : OldNew ForeignKeyConstraint => Obj.getName x.new :=
      List.mem_map.mpr ⟨_, hd, ex⟩
    have hnames : ∀ t : SQName, (byName dr.td0.adds).has t.getName = false → t.fq ∉ d.tableDiffs.adds.map fun t => t.name.fq := by
      intro t h ht
      have : t.fq ∈ dr.td0.adds.map Obj.getName := by rw [← dr.addNames]; exact ht
      exact Bool.false_ne_true (h.symm.trans (byName_has.mpr this))
    rw [a1 fun h => k1 h hmem, b1 fun h => k2 h hmem, eC] at hM
    rw [a1' fun h => k1 h hmem, b1' fun h => k2 h hmem, eC'] at hD
    refine .altered o x ho hx eo ex (hnames _ g1) (hnames _ g2) l hl (hM.trans ?_) (hD.trans ?_)
    · rcases FkGen.alter_ok hl with ⟨_, _, _, rfl⟩ | ⟨_, rfl⟩
      · rw [List.nil_append, List.nil_append, List.filter_cons, if_pos]
        · rfl
        · exact good x (Or.inr hx) ex
      · rfl
    · rcases FkGen.alter_ok hl' with ⟨_, _, _, rfl⟩ | ⟨_, rfl⟩ <;> rfl

end
end Verif
