import Verif.Spec.FkRebuild
import Verif.Props.ForeignKeyRun
import Verif.Props.IndexRebuild
import Verif.Props.RelOptions

/-!
# C104: foreign keys are made again only when they have to be
-/

namespace Verif

open Spec

/-- what can be altered -/
theorem fk_alter_iff {o x : ForeignKeyConstraint} : (∃ l, FkGen.alter ⟨o, x⟩ = .ok l) ↔ o = x ∨ FkValidated o x := by
  constructor
  · rintro ⟨l, h⟩
    unfold FkGen.alter at h
    split at h
    · rename_i hc
      simp only [Bool.and_eq_true, Bool.not_eq_true'] at hc
      split at h
      · cases h
      · rename_i y hy
        dsimp only at h
        rw [ite_error_ok] at h
        have h1 := Classical.not_not.mp h.1
        right
        have g1 : o.escapedName = x.escapedName := by rw [← h1]
        have g2 : o.owningTable = x.owningTable := by rw [← h1]
        have g3 : o.foreignTable = x.foreignTable := by rw [← h1]
        refine ⟨hc.1, hc.2, g1, g2, g3, ?_⟩
        have h2 : String.ofList y = x.constraintDef := congrArg ForeignKeyConstraint.constraintDef h1
        have h3 := dropSuffix?_some hy
        rw [← h2]
        apply String.toList_inj.mp
        rw [String.toList_append, String.toList_ofList]
        exact h3
    · rw [ite_error_ok] at h
      exact Or.inl (Classical.not_not.mp h.1)
  · rintro (rfl | ⟨h1, h2, h3, h4, h5, h6⟩)
    · exact ⟨_, FkGen.alter_self o⟩
    · unfold FkGen.alter
      dsimp only
      rw [h1, h2, if_pos (by decide)]
      have : dropSuffix? " NOT VALID".toList o.constraintDef.toList = some x.constraintDef.toList := by
        rw [h6, String.toList_append]
        unfold dropSuffix?
        rw [List.reverse_append, dropPrefix?_eq_some.mpr rfl]
        simp
      rw [this]
      dsimp only
      rw [String.ofList_toList, if_neg]
      · exact ⟨_, rfl⟩
      · rw [not_not]
        obtain ⟨a1, a2, a3, a4, a5⟩ := o
        obtain ⟨b1, b2, b3, b4, b5⟩ := x
        simp only at h2 h3 h4 h5
        subst h2 h3 h4 h5
        rfl

section
variable {opts : PlanOptions} {old new : Schema} {d : SchemaDiff} {r r' : Rand} {stmts : List Statement}

/-- what is decided about a foreign key that is in both schemas -/
theorem fk_rebuilt_iff (dr : DiffRun opts old.normalize new.normalize d) (ht : NamesUnique new.tables)
    (hu : NamesUnique new.foreignKeyConstraints) {o x : ForeignKeyConstraint} (ho : o ∈ old.foreignKeyConstraints)
    (hx : x ∈ new.foreignKeyConstraints) (e : Obj.getName o = Obj.getName x) :
    (FkStays old new o x ∧ Obj.getName x ∉ d.foreignKeyConstraintDiffs.adds.map Obj.getName) ∨
    (¬ FkStays old new o x ∧ x ∈ d.foreignKeyConstraintDiffs.adds) := by
  have hU : (new.normalize.foreignKeyConstraints.map Obj.getName).Nodup := (normalize_fks_names new).nodup_iff.mpr hu
  have hold := diffLists_old_nodup dr.hfks
  have ho' := mem_normalize_fks.mpr ho
  have hx' := mem_normalize_fks.mpr hx
  obtain ⟨dec, _, _, _, k1, _⟩ := diffLists_decision dr.hfks hU
    (key := fun x : OldNew ForeignKeyConstraint => Obj.getName x.new) (by
      intro o x j i d _ hb
      rw [(buildForeignKeyConstraintDiff_ok hb).2.2.1]) (Obj.getName x)
  have key : ∀ {i j y b}, buildForeignKeyConstraintDiff (newFkGen old.normalize new.normalize dr.td0.adds) (byName dr.td0.adds) o x i j
      = .ok (y, b) → (b = false ↔ FkStays old new o x) := by
    intro i j y b hb
    unfold buildForeignKeyConstraintDiff at hb
    split at hb
    · rename_i ha
      cases hb
      exact ⟨fun h => (by cases h), fun hs => absurd ((comes_iff dr ht).mp ha) hs.2.1⟩
    rename_i ha1
    split at hb
    · rename_i ha
      cases hb
      exact ⟨fun h => (by cases h), fun hs => absurd ((comes_iff dr ht).mp ha) hs.2.2⟩
    rename_i ha2
    have c1 : ¬ TableComes old new x.owningTable.fq := fun h => ha1 ((comes_iff dr ht).mpr h)
    have c2 : ¬ TableComes old new x.foreignTable.fq := fun h => ha2 ((comes_iff dr ht).mpr h)
    split at hb
    · rename_i pg hpg
      cases hb
      obtain ⟨l, deps, h3, _, _⟩ := toNew_alter (m := Except Err)
        (g := (newFkGen old.normalize new.normalize dr.td0.adds).legacy) hpg
      exact ⟨fun _ => ⟨fk_alter_iff.mp ⟨l, h3⟩, c1, c2⟩, fun _ => rfl⟩
    · rename_i er her
      split at hb
      · cases hb
        refine ⟨fun h => (by cases h), fun hs => ?_⟩
        obtain ⟨l, hl⟩ := fk_alter_iff.mpr hs.1
        have : (newFkGen old.normalize new.normalize dr.td0.adds).gen.alter ⟨o, x⟩ = (do
            let statements ← FkGen.alter ⟨o, x⟩
            let deps ← (newFkGen old.normalize new.normalize dr.td0.adds).addAlterDeps x o
            return (⟨[⟨FkGen.vertexId x .addAlter, .sooner, statements⟩], deps⟩ : PartialGraph Statement)) := rfl
        rw [this, hl] at her
        cases her
      · cases hb
  cases dec with
  | absent h _ => exact absurd (List.mem_map.mpr ⟨_, ho', e⟩) h
  | dropped _ _ _ h _ => exact absurd (List.mem_map.mpr ⟨_, hx', rfl⟩) h
  | added _ _ _ h _ => exact absurd (List.mem_map.mpr ⟨_, ho', e⟩) h
  | recreated o1 x1 h1 h2 e1 e2 hb h3 h4 =>
    obtain rfl := List.inj_on_of_nodup_map hold h1 ho' (e1.trans e.symm)
    obtain rfl := List.inj_on_of_nodup_map hU h2 hx' e2
    obtain ⟨i, j, y, hb⟩ := hb
    exact Or.inr ⟨fun hs => Bool.noConfusion ((key hb).mpr hs), h4⟩
  | altered o1 x1 y h1 h2 e1 e2 hb h3 =>
    obtain rfl := List.inj_on_of_nodup_map hold h1 ho' (e1.trans e.symm)
    obtain rfl := List.inj_on_of_nodup_map hU h2 hx' e2
    obtain ⟨i, j, hb⟩ := hb
    refine Or.inl ⟨(key hb).mp rfl, fun h => k1 h (List.mem_map.mpr ⟨y, h3, ?_⟩)⟩
    rw [(buildForeignKeyConstraintDiff_ok hb).2.2.1]

/-- **C104.**  A foreign key that is in both schemas is made again exactly if it has to be: it changes in more than that it is
validated, or the table it is on or the table it refers to is made again. -/
theorem C104_foreign_keys_made_again (h : generateMigrationStatements r old new opts = .ok (stmts, r')) (ht : NamesUnique new.tables)
    (hu : NamesUnique new.foreignKeyConstraints) {o x : ForeignKeyConstraint} (ho : o ∈ old.foreignKeyConstraints)
    (hx : x ∈ new.foreignKeyConstraints) (e1 : o.owningTable.fq = x.owningTable.fq) (e2 : o.escapedName = x.escapedName) :
    (∃ s ∈ stmts, rebuildsFk x.owningTable.fq x.escapedName s.ddl = true) ↔ ¬ FkStays old new o x := by
  obtain ⟨d, ⟨dr⟩, ⟨run⟩⟩ := plan_runs h
  have e : Obj.getName o = Obj.getName x := by
    show o.owningTable.fq ++ "-" ++ o.escapedName = x.owningTable.fq ++ "-" ++ x.escapedName
    rw [e1, e2]
  rcases fk_rebuilt_iff dr ht hu ho hx e with ⟨hs, ha⟩ | ⟨hs, ha⟩
  · refine ⟨?_, fun hn => absurd hs hn⟩
    rintro ⟨s, hm, hr⟩
    exfalso
    obtain ⟨id, hsh⟩ := run.mem_shape hm (by
      intro hout
      cases hd : s.ddl <;> rw [hd] at hr hout <;> first | cases hr | exact hout)
    cases hsh with
    | addForeignKey c hc hz nv hid =>
      obtain ⟨g1, g2⟩ := of_decide_eq_true hr
      refine ha (List.mem_map.mpr ⟨c, hc, ?_⟩)
      show c.owningTable.fq ++ "-" ++ c.escapedName = x.owningTable.fq ++ "-" ++ x.escapedName
      rw [g1, g2]
    | newTable t h ccs hc s hs' hid => cases hs' <;> cases hr
    | alterTable td h s hs' hid =>
      cases hs' with
      | column cd h s hs' => cases hs' <;> cases hr
      | _ => cases hr
    | _ => cases hr
  · refine ⟨fun _ => hs, fun _ => ?_⟩
    obtain ⟨v, hv, _, hl⟩ := vertex_of_add (m := Except Err) (g := (newFkGen d.old d.new d.tableDiffs.adds).legacy) run.hfks ha
    have hmade := FkGen.add_made hl
    have : ∃ s ∈ v.statements, rebuildsFk x.owningTable.fq x.escapedName s.ddl = true := by
      generalize v.statements = l at hmade
      cases hmade with
      | direct s h => exact ⟨s, List.mem_singleton.mpr rfl, by rw [h]; exact decide_eq_true ⟨rfl, rfl⟩⟩
      | validated _ => exact ⟨_, List.mem_cons_self, decide_eq_true ⟨rfl, rfl⟩⟩
    obtain ⟨s, hs1, hs2⟩ := this
    exact ⟨s, run.mem_stmts (run.mem_vertices (p := run.fks) (by simp) hv) hs1, hs2⟩

/-- **C104.**  A foreign key that need not be made again is left alone: it is not dropped, and the rows are checked only if it is
validated. -/
theorem C104_foreign_keys_left_alone {tx : FkTexts} {n : SQName} {k : String}
    (h : generateMigrationStatements r old new opts = .ok (stmts, r')) (hr : FromReader r) (ht : NamesUnique new.tables)
    (hu : NamesUnique new.foreignKeyConstraints) (hp : FksPlannable tx old new n k) {o x : ForeignKeyConstraint}
    (ho : o ∈ old.foreignKeyConstraints) (hx : x ∈ new.foreignKeyConstraints) (eo : o.owningTable = n) (ex : x.owningTable = n)
    (ko : readsAs o.escapedName k = true) (kx : readsAs x.escapedName k = true) (hs : FkStays old new o x) :
    ∀ s ∈ stmts, unmakesConstraint n.fq k s.ddl = false ∧ (checksRows n.fq k s.ddl = true → FkValidated o x) := by
  obtain ⟨d, ⟨dr⟩, ⟨run⟩⟩ := plan_runs h
  have hU : NamesUnique new.normalize.foreignKeyConstraints := (normalize_fks_names new).nodup_iff.mpr hu
  have named : ∀ f, f ∈ old.foreignKeyConstraints ∨ f ∈ new.foreignKeyConstraints → f.owningTable = n → readsAs f.escapedName k = true →
      Obj.getName f = fkKey n k := by
    intro f hf e1 e2
    obtain ⟨q1, q2⟩ := hp.quoted f hf
    exact (fk_name_injective q1 q2 hp.table hp.name).mpr ⟨by rw [e1], e2⟩
  have no := named o (Or.inl ho) eo ko
  have nx := named x (Or.inr hx) ex kx
  have ho' := mem_normalize_fks.mpr ho
  have hx' := mem_normalize_fks.mpr hx
  have hold := diffLists_old_nodup dr.hfks
  rcases fk_rebuilt_iff dr ht hu ho hx (no.trans nx.symm) with ⟨_, ha⟩ | ⟨hn, _⟩
  · cases fk_fate dr run hr hU (fksPlannable_normalize hp) with
    | absent h _ => exact absurd (List.mem_map.mpr ⟨_, ho', no⟩) h
    | dropped _ _ _ h => exact absurd (List.mem_map.mpr ⟨_, hx', nx⟩) h
    | added _ _ _ h => exact absurd (List.mem_map.mpr ⟨_, ho', no⟩) h
    | recreated o1 x1 h1 h2 e1 e2 h3 h4 => exact absurd (List.mem_map.mpr ⟨x1, h4, e2.trans nx.symm⟩) ha
    | altered o1 x1 h1 h2 e1 e2 _ _ l hl hM hD =>
      obtain rfl := List.inj_on_of_nodup_map hold h1 ho' (e1.trans no.symm)
      obtain rfl := List.inj_on_of_nodup_map hU h2 hx' (e2.trans nx.symm)
      intro s hm
      constructor
      · have := bool_filter hD s hm
        cases hsd : s.ddl with
        | alterTable t a =>
          rw [hsd] at this
          cases a with
          | dropConstraint c => exact this
          | _ => rfl
        | _ => rfl
      · intro hc
        rcases hs.1 with rfl | hv
        · exfalso
          rw [FkGen.alter_self] at hl
          cases hl
          have := bool_filter hM s hm
          cases hsd : s.ddl with
          | alterTable t a =>
            rw [hsd] at this hc
            cases a with
            | validateConstraint c => exact Bool.false_ne_true (this.symm.trans hc)
            | _ => cases hc
          | _ => rw [hsd] at hc; cases hc
        · exact hv
  · exact absurd hs hn

end

/-! ### an instance -/

open Samples

/-- the hypotheses of C104 can be met: a foreign key is validated in place -/
example : ∃ stmts r', generateMigrationStatements readerRand oldInvalidFk oldFk opts = .ok (stmts, r') ∧ stmts.length = 1 ∧
    (¬ ∃ s ∈ stmts, rebuildsFk (pub "b").fq "\"f\"" s.ddl = true) ∧
    ∀ s ∈ stmts, unmakesConstraint (pub "b").fq "f" s.ddl = false := by
  obtain ⟨stmts, r', h, hl⟩ : ∃ stmts r', generateMigrationStatements readerRand oldInvalidFk oldFk opts = .ok (stmts, r') ∧
      stmts.length = 1 := exists_plan (by decide +kernel)
  have ht : NamesUnique oldFk.tables := by unfold NamesUnique; decide +kernel
  have hu : NamesUnique oldFk.foreignKeyConstraints := by unfold NamesUnique; decide +kernel
  have ho : oldInvalidFk.foreignKeyConstraints[0] ∈ oldInvalidFk.foreignKeyConstraints := List.getElem_mem _
  have hx : oldFk.foreignKeyConstraints[0] ∈ oldFk.foreignKeyConstraints := List.getElem_mem _
  have hs : FkStays oldInvalidFk oldFk oldInvalidFk.foreignKeyConstraints[0] oldFk.foreignKeyConstraints[0] := by
    refine ⟨Or.inr ?_, ?_⟩
    · unfold FkValidated; decide +kernel
    · unfold TableComes; decide +kernel
  refine ⟨stmts, r', h, hl, fun hm => (C104_foreign_keys_made_again h ht hu ho hx rfl rfl).mp hm hs, fun s hm => ?_⟩
  exact (C104_foreign_keys_left_alone h (fromReader_ofBytes _) ht hu (fksPlannable_of (by decide +kernel) (by decide +kernel)
    (by decide +kernel) (by decide +kernel) (by decide +kernel) (by decide +kernel)) ho hx rfl rfl (by decide +kernel)
    (by decide +kernel) hs s hm).1

/-- the hypotheses of C104 can be met: a foreign key refers to another table, and is made again -/
example : ∃ stmts r', generateMigrationStatements readerRand oldFk newFk opts = .ok (stmts, r') ∧
    ∃ s ∈ stmts, rebuildsFk (pub "b").fq "\"f\"" s.ddl = true := by
  obtain ⟨stmts, r', h, -⟩ : ∃ stmts r', generateMigrationStatements readerRand oldFk newFk opts = .ok (stmts, r') ∧
      stmts.length = 8 := exists_plan (by decide +kernel)
  have ht : NamesUnique newFk.tables := by unfold NamesUnique; decide +kernel
  have hu : NamesUnique newFk.foreignKeyConstraints := by unfold NamesUnique; decide +kernel
  refine ⟨stmts, r', h, (C104_foreign_keys_made_again h ht hu (o := oldFk.foreignKeyConstraints[0])
    (x := newFk.foreignKeyConstraints[0]) (List.getElem_mem _) (List.getElem_mem _) rfl rfl).mpr ?_⟩
  rintro ⟨h | h, _⟩
  · revert h; decide +kernel
  · exact absurd h.1 (by decide +kernel)

end Verif
