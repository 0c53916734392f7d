import Verif.Spec.Touched
import Verif.Props.Routine
import Verif.Props.Trigger
import Verif.Props.TableQuiet

/-!
# C106: functions, procedures, triggers and sequences are touched only when they have to be
-/

namespace Verif

open Spec

section
variable {opts : PlanOptions} {old new : Schema} {d : SchemaDiff} {r r' : Rand} {stmts : List Statement}

theorem touchesFunction_not_outer {n : String} {x : Ddl} (h : touchesFunction n x = true) : ¬ x.IsOuter := by
  cases x <;> first | exact id | cases h

theorem touchesProcedure_not_outer {n : String} {x : Ddl} (h : touchesProcedure n x = true) : ¬ x.IsOuter := by
  cases x <;> first | exact id | cases h

theorem touchesTrigger_not_outer {n k : String} {x : Ddl} (h : touchesTrigger n k x = true) : ¬ x.IsOuter := by
  cases x <;> first | exact id | cases h

theorem touchesSequence_not_outer {n : String} {x : Ddl} (h : touchesSequence n x = true) : ¬ x.IsOuter := by
  cases x <;> first | exact id | cases h

/-- **C106.**  A function that is in both schemas is replaced exactly if it changes, and is never dropped. -/
theorem C106_functions_touched (h : generateMigrationStatements r old new opts = .ok (stmts, r')) (hu : NamesUnique new.functions)
    {o x : Function} (ho : o ∈ old.functions) (hx : x ∈ new.functions) (e : o.name.fq = x.name.fq)
    (hd : Distinct o.dependsOnFunctions) :
    ((∃ s ∈ stmts, touchesFunction x.name.fq s.ddl = true) ↔ ¬ SameFunction o x) ∧
    ∀ s ∈ stmts, ∀ q, s.ddl = .dropFunction q → q.fq ≠ x.name.fq := by
  obtain ⟨d, ⟨dr⟩, ⟨run⟩⟩ := plan_runs h
  have hU : (new.normalize.functions.map Obj.getName).Nodup := normalize_functions_unique hu
  have hO := diffLists_old_nodup dr.hfunctions
  have ho' : normalizeFunction o ∈ old.normalize.functions := List.mem_map_of_mem ((sortObjs_perm _).mem_iff.mpr ho)
  have hx' : normalizeFunction x ∈ new.normalize.functions := List.mem_map_of_mem ((sortObjs_perm _).mem_iff.mpr hx)
  have no : Obj.getName (normalizeFunction o) = x.name.fq := e
  have nx : Obj.getName (normalizeFunction x) = x.name.fq := rfl
  have hdel : ∀ f ∈ d.functionDiffs.deletes, f.name.fq ≠ x.name.fq := fun f hf en =>
    ((pairDiff_deletes dr.hfunctions).mp hf).2 (List.mem_map.mpr ⟨_, hx', nx.trans en.symm⟩)
  refine ⟨⟨?_, fun hne => ?_⟩, ?_⟩
  · rintro ⟨s, hs, hc⟩ hsame
    obtain ⟨id, hsh⟩ := run.mem_shape hs (touchesFunction_not_outer hc)
    cases hsh with
    | createFunction f hm hid =>
      have en : f.name.fq = x.name.fq := of_decide_eq_true hc
      rcases hm with hm | ⟨fd, hm, e1, hne⟩
      · exact ((pairDiff_adds dr.hfunctions hU).mp hm).2 (List.mem_map.mpr ⟨_, ho', no.trans en.symm⟩)
      · obtain ⟨m1, m2, e2⟩ := (pairDiff_alters dr.hfunctions hU).mp hm
        subst e1
        have e3 := List.inj_on_of_nodup_map hU m2 hx' (en.trans nx.symm)
        have e4 := List.inj_on_of_nodup_map hO m1 ho' (e2.trans (en.trans no.symm))
        exact hne (by rw [e3, e4]; exact (function_iff hd).mpr hsame)
    | dropFunction f hm hid => exact hdel f hm (of_decide_eq_true hc)
    | newTable t h ccs hc' s hs' hid => cases hs' <;> cases hc
    | alterTable td h s hs' hid =>
      cases hs' with
      | column cd h s hs' => cases hs' <;> cases hc
      | _ => cases hc
    | _ => cases hc
  · have hm : (⟨normalizeFunction o, normalizeFunction x⟩ : OldNew Function) ∈ d.functionDiffs.alters :=
      (pairDiff_alters dr.hfunctions hU).mpr ⟨ho', hx', no.trans nx.symm⟩
    obtain ⟨v, hv, _, hl⟩ := vertex_of_alter (m := Except Err) (g := FunctionGen.legacy) run.hfunctions hm
    have hl : FunctionGen.alter ⟨normalizeFunction o, normalizeFunction x⟩ = .ok v.statements := hl
    unfold FunctionGen.alter at hl
    rw [if_neg (fun heq => hne ((function_iff hd).mp heq))] at hl
    have hl := (Except.ok.inj hl).symm
    exact ⟨stmt (.createFunction (normalizeFunction x)) (FunctionGen.hazards (normalizeFunction x)),
      run.mem_stmts (run.mem_vertices (p := run.functions) (by simp) hv) (by rw [hl]; exact List.mem_singleton.mpr rfl),
      decide_eq_true (p := x.name.fq = x.name.fq) rfl⟩
  · intro s hs q hq en
    have hc : touchesFunction x.name.fq s.ddl = true := by rw [hq]; exact decide_eq_true en
    obtain ⟨id, hsh⟩ := run.mem_shape hs (touchesFunction_not_outer hc)
    cases hsh with
    | dropFunction f hm hid => exact hdel f hm (of_decide_eq_true hc)
    | newTable t h ccs hc' s hs' hid => cases hs' <;> cases hc
    | alterTable td h s hs' hid =>
      cases hs' with
      | column cd h s hs' => cases hs' <;> cases hc
      | _ => cases hc
    | _ => first | cases hc | cases hq

/-- **C106.**  A procedure that is in both schemas is replaced exactly if it changes, and is never dropped. -/
theorem C106_procedures_touched (h : generateMigrationStatements r old new opts = .ok (stmts, r')) (hu : NamesUnique new.procedures)
    {o x : Procedure} (ho : o ∈ old.procedures) (hx : x ∈ new.procedures) (e : o.name.fq = x.name.fq) :
    ((∃ s ∈ stmts, touchesProcedure x.name.fq s.ddl = true) ↔ o ≠ x) ∧
    ∀ s ∈ stmts, ∀ q, s.ddl = .dropProcedure q → q.fq ≠ x.name.fq := by
  obtain ⟨d, ⟨dr⟩, ⟨run⟩⟩ := plan_runs h
  have hU : (new.normalize.procedures.map Obj.getName).Nodup := normalize_procedures_unique hu
  have hO := diffLists_old_nodup dr.hprocedures
  have ho' := mem_normalize_procedures.mpr ho
  have hx' := mem_normalize_procedures.mpr hx
  have hdel : ∀ f ∈ d.procedureDiffs.deletes, f.name.fq ≠ x.name.fq := fun f hf en =>
    ((pairDiff_deletes dr.hprocedures).mp hf).2 (List.mem_map.mpr ⟨_, hx', en.symm⟩)
  refine ⟨⟨?_, fun hne => ?_⟩, ?_⟩
  · rintro ⟨s, hs, hc⟩ rfl
    obtain ⟨id, hsh⟩ := run.mem_shape hs (touchesProcedure_not_outer hc)
    cases hsh with
    | createProcedure f hm hid =>
      have en : f.name.fq = o.name.fq := of_decide_eq_true hc
      rcases hm with hm | ⟨fd, hm, e1, hne⟩
      · exact ((pairDiff_adds dr.hprocedures hU).mp hm).2 (List.mem_map.mpr ⟨_, ho', en.symm⟩)
      · obtain ⟨m1, m2, e2⟩ := (pairDiff_alters dr.hprocedures hU).mp hm
        subst e1
        have e3 := List.inj_on_of_nodup_map hU m2 hx' en
        have e4 := List.inj_on_of_nodup_map hO m1 ho' (e2.trans en)
        exact hne (by rw [e3, e4])
    | dropProcedure f hm hid => exact hdel f hm (of_decide_eq_true hc)
    | newTable t h ccs hc' s hs' hid => cases hs' <;> cases hc
    | alterTable td h s hs' hid =>
      cases hs' with
      | column cd h s hs' => cases hs' <;> cases hc
      | _ => cases hc
    | _ => cases hc
  · have hm : (⟨o, x⟩ : OldNew Procedure) ∈ d.procedureDiffs.alters := (pairDiff_alters dr.hprocedures hU).mpr ⟨ho', hx', e⟩
    obtain ⟨parts, ep, _, _, _, ha⟩ := generatePartialGraph_parts (m := Except Err) run.hprocedures
    obtain ⟨p, hp, hy⟩ := ha _ hm
    have hy : ProcedureGen.alter d.new ⟨o, x⟩ = .ok p := hy
    unfold ProcedureGen.alter at hy
    rw [if_neg hne] at hy
    have hy := Except.ok.inj hy
    refine ⟨stmt (.createProcedure x) [.hasUntrackableDependencies],
      run.mem_stmts (run.mem_vertices (p := run.procedures) (by simp)
        (v := ⟨procedureVertexId x.name .addAlter, .sooner, [stmt (.createProcedure x) [.hasUntrackableDependencies]]⟩) ?_)
        (List.mem_singleton.mpr rfl), decide_eq_true (p := x.name.fq = x.name.fq) rfl⟩
    rw [ep]
    exact PartialGraph.mem_vertices_concat.mpr ⟨p, hp, by rw [← hy]; exact List.mem_singleton.mpr rfl⟩
  · intro s hs q hq en
    have hc : touchesProcedure x.name.fq s.ddl = true := by rw [hq]; exact decide_eq_true en
    obtain ⟨id, hsh⟩ := run.mem_shape hs (touchesProcedure_not_outer hc)
    cases hsh with
    | dropProcedure f hm hid => exact hdel f hm (of_decide_eq_true hc)
    | newTable t h ccs hc' s hs' hid => cases hs' <;> cases hc
    | alterTable td h s hs' hid =>
      cases hs' with
      | column cd h s hs' => cases hs' <;> cases hc
      | _ => cases hc
    | _ => first | cases hc | cases hq

/-- **C106.**  A trigger that is in both schemas is made or replaced exactly if it changes or its table is made again. -/
theorem C106_triggers_touched (h : generateMigrationStatements r old new opts = .ok (stmts, r')) (ht : NamesUnique new.tables)
    (hu : NamesUnique new.triggers) {o x : Trigger} (ho : o ∈ old.triggers) (hx : x ∈ new.triggers)
    (e1 : o.owningTable.fq = x.owningTable.fq) (e2 : o.escapedName = x.escapedName) :
    (∃ s ∈ stmts, touchesTrigger x.owningTable.fq x.escapedName s.ddl = true) ↔ o ≠ x ∨ TableComes old new x.owningTable.fq := by
  obtain ⟨d, ⟨dr⟩, ⟨run⟩⟩ := plan_runs h
  have hU : (new.normalize.triggers.map Obj.getName).Nodup := ((sortObjs_perm new.triggers).map _).nodup_iff.mpr hu
  have hO := diffLists_old_nodup dr.htriggers
  have ho' := mem_normalize_triggers.mpr ho
  have hx' := mem_normalize_triggers.mpr hx
  have e : Obj.getName o = Obj.getName x := by
    show o.owningTable.fq ++ "-" ++ o.escapedName = x.owningTable.fq ++ "-" ++ x.escapedName
    rw [e1, e2]
  have named : ∀ t : Trigger, t.owningTable.fq = x.owningTable.fq ∧ t.escapedName = x.escapedName → Obj.getName t = Obj.getName x := by
    rintro t ⟨g1, g2⟩
    show t.owningTable.fq ++ "-" ++ t.escapedName = x.owningTable.fq ++ "-" ++ x.escapedName
    rw [g1, g2]
  obtain ⟨dec, _, _, _, k1, _⟩ := diffLists_decision dr.htriggers hU
    (key := fun x : OldNew Trigger => Obj.getName x.new) (by
      intro o x j i d _ hb
      unfold buildTriggerDiff at hb
      split at hb <;> cases hb
      rfl) (Obj.getName x)
  cases dec with
  | absent h _ => exact absurd (List.mem_map.mpr ⟨_, ho', e⟩) h
  | dropped _ _ _ h _ => exact absurd (List.mem_map.mpr ⟨_, hx', rfl⟩) h
  | added _ _ _ h _ => exact absurd (List.mem_map.mpr ⟨_, ho', e⟩) h
  | recreated o1 x1 h1 h2 e1' e2' hb h3 h4 =>
    obtain rfl := List.inj_on_of_nodup_map hU h2 hx' e2'
    obtain ⟨i, j, y, hb⟩ := hb
    unfold buildTriggerDiff at hb
    split at hb
    · rename_i ha
      refine ⟨fun _ => Or.inr ((comes_iff dr ht).mp ha), fun _ => ?_⟩
      obtain ⟨v, hv, _, hl⟩ := vertex_of_add (m := Except Err) (g := TriggerGen.legacy) run.htriggers h4
      have hl := (Except.ok.inj hl).symm
      exact ⟨stmt (.createTrigger x1 false x1.getTriggerDefStmt),
        run.mem_stmts (run.mem_vertices (p := run.triggers) (by simp) hv) (by rw [hl]; exact List.mem_singleton.mpr rfl),
        decide_eq_true (p := x1.owningTable.fq = x1.owningTable.fq ∧ x1.escapedName = x1.escapedName) ⟨rfl, rfl⟩⟩
    · cases hb
  | altered o1 x1 y h1 h2 e1' e2' hb h3 =>
    obtain rfl := List.inj_on_of_nodup_map hO h1 ho' (e1'.trans e.symm)
    obtain rfl := List.inj_on_of_nodup_map hU h2 hx' e2'
    obtain ⟨i, j, hb⟩ := hb
    unfold buildTriggerDiff at hb
    split at hb
    · cases hb
    · rename_i ha
      cases hb
      have hnc : ¬ TableComes old new x1.owningTable.fq := fun h => ha ((comes_iff dr ht).mpr h)
      constructor
      · rintro ⟨s, hs, hc⟩
        left
        rintro rfl
        obtain ⟨id, hsh⟩ := run.mem_shape hs (touchesTrigger_not_outer hc)
        have alt : ∀ td ∈ d.triggerDiffs.alters, Obj.getName td.new = Obj.getName o1 → td.old = td.new := by
          intro td hm en
          obtain ⟨i, x', j, o', g1, g2, g3, g4⟩ := diffLists_alters_mem dr.htriggers hm
          unfold buildTriggerDiff at g4
          split at g4
          · cases g4
          · cases g4
            have := List.inj_on_of_nodup_map hU (List.mem_of_getElem? g1) hx' en
            have := List.inj_on_of_nodup_map hO (List.mem_of_getElem? g2) ho' (g3.trans en)
            simp only [*]
        have hk : Obj.getName o1 ∈ d.triggerDiffs.alters.map fun x : OldNew Trigger => Obj.getName x.new :=
          List.mem_map.mpr ⟨_, h3, rfl⟩
        cases hsh with
        | createTrigger t hm hid =>
          have en := named t (of_decide_eq_true hc)
          rcases hm with hm | ⟨td, hm, e3, hne, _⟩
          · exact k1 (List.mem_map.mpr ⟨t, hm, en⟩) hk
          · subst e3
            exact hne (alt td hm en)
        | replaceTrigger td hm hdn hcn text htx hid => exact hdn (alt td hm (named td.new (of_decide_eq_true hc)))
        | newTable t h ccs hc' s hs' hid => cases hs' <;> cases hc
        | alterTable td h s hs' hid =>
          cases hs' with
          | column cd h s hs' => cases hs' <;> cases hc
          | _ => cases hc
        | _ => cases hc
      · rintro (hne | hcm)
        · obtain ⟨v, hv, _, hl⟩ := vertex_of_alter (m := Except Err) (g := TriggerGen.legacy) run.htriggers h3
          have hl : TriggerGen.alter ⟨o1, x1⟩ = .ok v.statements := hl
          unfold TriggerGen.alter at hl
          rw [if_neg hne] at hl
          have : ∃ s ∈ v.statements, touchesTrigger x1.owningTable.fq x1.escapedName s.ddl = true := by
            split at hl
            · rw [← Except.ok.inj hl]
              exact ⟨_, List.mem_append_right _ (List.mem_singleton.mpr rfl),
                decide_eq_true (p := x1.owningTable.fq = x1.owningTable.fq ∧ x1.escapedName = x1.escapedName) ⟨rfl, rfl⟩⟩
            · obtain ⟨text, _, hl⟩ := except_bind_ok.mp hl
              rw [← except_pure_ok.mp hl]
              exact ⟨_, List.mem_singleton.mpr rfl,
                decide_eq_true (p := x1.owningTable.fq = x1.owningTable.fq ∧ x1.escapedName = x1.escapedName) ⟨rfl, rfl⟩⟩
          obtain ⟨s, h5, h6⟩ := this
          exact ⟨s, run.mem_stmts (run.mem_vertices (p := run.triggers) (by simp) hv) h5, h6⟩
        · exact absurd hcm hnc

/-- **C106.**  A sequence that is in both schemas is touched exactly if it changes or the table that owns it is made again. -/
theorem C106_sequences_touched (h : generateMigrationStatements r old new opts = .ok (stmts, r')) (ht : NamesUnique new.tables)
    (hu : NamesUnique new.sequences) {o x : Sequence} (ho : o ∈ old.sequences) (hx : x ∈ new.sequences) (e : o.name.fq = x.name.fq) :
    (∃ s ∈ stmts, touchesSequence x.name.fq s.ddl = true) ↔ o ≠ x ∨ OwnerComes old new x := by
  obtain ⟨d, ⟨dr⟩, ⟨run⟩⟩ := plan_runs h
  have hU : (new.normalize.sequences.map Obj.getName).Nodup := ((sortObjs_perm new.sequences).map _).nodup_iff.mpr hu
  have hO := diffLists_old_nodup dr.hsequences
  have ho' : o ∈ old.normalize.sequences := (sortObjs_perm _).mem_iff.mpr ho
  have hx' : x ∈ new.normalize.sequences := (sortObjs_perm _).mem_iff.mpr hx
  have e : Obj.getName o = Obj.getName x := e
  have pair : ∀ {o x : Sequence} {j i : Nat} {y : OldNew Sequence},
      buildSequenceDiff (byName dr.td0.adds) o x j i = .ok (y, false) → y = ⟨o, x⟩ ∧ (o = x → ¬ OwnerComes old new x) := by
    intro o x j i y hb
    unfold buildSequenceDiff at hb
    split at hb
    · rename_i w hw
      split at hb
      · cases hb
      · rename_i hn
        cases hb
        refine ⟨rfl, ?_⟩
        rintro rfl ⟨w', hw', hc⟩
        rw [hw] at hw'
        cases hw'
        exact hn (by rw [hw, decide_eq_true rfl]; exact (comes_iff dr ht).mpr hc)
    · rename_i hw
      cases hb
      refine ⟨rfl, ?_⟩
      rintro rfl ⟨w', hw', hc⟩
      rw [hw] at hw'
      cases hw'
  obtain ⟨dec, _, _, _, k1, k2, _⟩ := diffLists_decision dr.hsequences hU
    (key := fun x : OldNew Sequence => Obj.getName x.new) (fun o x j i d _ hb => by rw [(pair hb).1]) (Obj.getName x)
  cases dec with
  | absent h _ => exact absurd (List.mem_map.mpr ⟨_, ho', e⟩) h
  | dropped _ _ _ h _ => exact absurd (List.mem_map.mpr ⟨_, hx', rfl⟩) h
  | added _ _ _ h _ => exact absurd (List.mem_map.mpr ⟨_, ho', e⟩) h
  | recreated o1 x1 h1 h2 e1' e2' hb h3 h4 =>
    obtain rfl := List.inj_on_of_nodup_map hU h2 hx' e2'
    obtain ⟨i, j, y, hb⟩ := hb
    unfold buildSequenceDiff at hb
    split at hb
    · rename_i w hw
      split at hb
      · rename_i hc
        rw [Bool.and_eq_true] at hc
        refine ⟨fun _ => Or.inr ⟨w, hw, (comes_iff dr ht).mp hc.2⟩, fun _ => ?_⟩
        obtain ⟨v, hv, _, hl⟩ := vertex_of_add (m := Except Err) (g := (SchemaGen.sequenceGen d).legacy) run.hsequences h4
        have hl := (Except.ok.inj hl).symm
        exact ⟨stmt (.createSequence x1) (if x1.owner = none then [.hasUntrackableDependencies] else []),
          run.mem_stmts (run.mem_vertices (p := run.sequences) (by simp) hv) (by rw [hl]; exact List.mem_singleton.mpr rfl),
          decide_eq_true (p := x1.name.fq = x1.name.fq) rfl⟩
      · cases hb
    · cases hb
  | altered o1 x1 y h1 h2 e1' e2' hb h3 =>
    obtain rfl := List.inj_on_of_nodup_map hO h1 ho' (e1'.trans e.symm)
    obtain rfl := List.inj_on_of_nodup_map hU h2 hx' e2'
    obtain ⟨i, j, hb⟩ := hb
    obtain ⟨rfl, hnc⟩ := pair hb
    have hk : Obj.getName x1 ∈ d.sequenceDiffs.alters.map fun x : OldNew Sequence => Obj.getName x.new :=
      List.mem_map.mpr ⟨_, h3, rfl⟩
    constructor
    · rintro ⟨s, hs, hc⟩
      by_contra hn
      rw [not_or, not_not] at hn
      obtain ⟨rfl, _⟩ := hn
      obtain ⟨id, hsh⟩ := run.mem_shape hs (touchesSequence_not_outer hc)
      have alt : ∀ td ∈ d.sequenceDiffs.alters, Obj.getName td.new = Obj.getName o1 → td.old = o1 ∧ td.new = o1 := by
        intro td hm en
        obtain ⟨i, x', j, o', g1, g2, g3, g4⟩ := diffLists_alters_mem dr.hsequences hm
        obtain ⟨rfl, _⟩ := pair g4
        exact ⟨List.inj_on_of_nodup_map hO (List.mem_of_getElem? g2) ho' (g3.trans en),
          List.inj_on_of_nodup_map hU (List.mem_of_getElem? g1) hx' en⟩
      have noAdd : ∀ q ∈ d.sequenceDiffs.adds, Obj.getName q ≠ Obj.getName o1 := fun q hm en => k1 (List.mem_map.mpr ⟨q, hm, en⟩) hk
      have noDel : ∀ q ∈ d.sequenceDiffs.deletes, Obj.getName q ≠ Obj.getName o1 := fun q hm en => k2 (List.mem_map.mpr ⟨q, hm, en⟩) hk
      cases hsh with
      | createSequence q hm hid => exact noAdd q hm (of_decide_eq_true (p := q.name.fq = o1.name.fq) hc)
      | ownNewSequence q hm ho hid => exact noAdd q hm (of_decide_eq_true (p := q.name.fq = o1.name.fq) hc)
      | dropOwnedSequence q hm w hw _ _ hid => exact noDel q hm (of_decide_eq_true (p := q.name.fq = o1.name.fq) hc)
      | dropSequence q hm hw hid => exact noDel q hm (of_decide_eq_true (p := q.name.fq = o1.name.fq) hc)
      | alterSequence qd hm hdf hid =>
        obtain ⟨g1, g2⟩ := alt qd hm (of_decide_eq_true (p := qd.new.name.fq = o1.name.fq) hc)
        rw [g1, g2] at hdf
        simp [SequenceGen.differs] at hdf
      | ownSequence qd hm hne hid =>
        obtain ⟨g1, g2⟩ := alt qd hm (of_decide_eq_true (p := qd.new.name.fq = o1.name.fq) hc)
        exact hne (by rw [g1, g2])
      | newTable t h ccs hc' s hs' hid => cases hs' <;> cases hc
      | alterTable td h s hs' hid =>
        cases hs' with
        | column cd h s hs' => cases hs' <;> cases hc
        | _ => cases hc
      | _ => cases hc
    · intro hor
      have hne : o1 ≠ x1 := by
        rcases hor with h | h
        · exact h
        · exact fun he => hnc he h
      obtain ⟨v, hv, _, hl⟩ := vertex_of_alter (m := Except Err) (g := (SchemaGen.sequenceGen d).legacy) run.hsequences h3
      have hl : SequenceGen.alter ⟨o1, x1⟩ = .ok v.statements := hl
      unfold SequenceGen.alter at hl
      rw [ite_error_ok] at hl
      by_cases hdf : SequenceGen.differs o1 x1 = true
      · have hl := (Except.ok.inj hl.2).symm
        rw [if_pos hdf] at hl
        exact ⟨stmt (.alterSequence x1), run.mem_stmts (run.mem_vertices (p := run.sequences) (by simp) hv)
          (by rw [hl]; exact List.mem_singleton.mpr rfl), decide_eq_true (p := x1.name.fq = x1.name.fq) rfl⟩
      · have hw : x1.owner ≠ o1.owner := by
          intro hw
          have h1 := Classical.not_not.mp hl.1
          rw [if_neg hdf] at h1
          dsimp only at h1
          rw [hw] at h1
          exact hne h1
        obtain ⟨v', hv', _, hl'⟩ := vertex_of_alter (m := Except Err) (g := OwnershipGen.legacy) run.hownerships h3
        have hl' : OwnershipGen.alter ⟨o1, x1⟩ = .ok v'.statements := hl'
        unfold OwnershipGen.alter at hl'
        rw [if_neg hw] at hl'
        have hl' := (Except.ok.inj hl').symm
        exact ⟨OwnershipGen.ownershipStmt x1, run.mem_stmts (run.mem_vertices (p := run.ownerships) (by simp) hv')
          (by rw [hl']; exact List.mem_singleton.mpr rfl), decide_eq_true (p := x1.name.fq = x1.name.fq) rfl⟩

end


/-! ### an instance -/

open Samples

/-- the schema before: functions, a procedure, a trigger and sequences -/
def touchedOld : Schema := { Schema.empty with
  tables := [table "a" [col "x" "bigint"]]
  functions := [
    function "f()" "CREATE OR REPLACE FUNCTION public.f() RETURNS trigger AS $$ 1 $$",
    { function "g()" "CREATE OR REPLACE FUNCTION public.g() AS $$ 1 $$" with
      dependsOnFunctions := [⟨"public", "f()"⟩, ⟨"public", "h()"⟩] },
    function "h()" "CREATE OR REPLACE FUNCTION public.h() AS $$ 1 $$"]
  procedures := [procedure "p()" "CREATE OR REPLACE PROCEDURE public.p() AS $$ 1 $$"]
  triggers := [trigger "t" "a" "CREATE TRIGGER t BEFORE INSERT ON public.a EXECUTE FUNCTION public.f()"]
  sequences := [seq "r", seq "s"] }

/-- the schema after: `h`, the procedure, the trigger and `s` change; `g` lists what it calls in another order -/
def touchedNew : Schema := { Schema.empty with
  tables := [table "a" [col "x" "bigint"]]
  functions := [
    function "h()" "CREATE OR REPLACE FUNCTION public.h() AS $$ 2 $$",
    { function "g()" "CREATE OR REPLACE FUNCTION public.g() AS $$ 1 $$" with
      dependsOnFunctions := [⟨"public", "h()"⟩, ⟨"public", "f()"⟩] },
    function "f()" "CREATE OR REPLACE FUNCTION public.f() RETURNS trigger AS $$ 1 $$"]
  procedures := [procedure "p()" "CREATE OR REPLACE PROCEDURE public.p() AS $$ 2 $$"]
  triggers := [trigger "t" "a" "CREATE TRIGGER t BEFORE UPDATE ON public.a EXECUTE FUNCTION public.f()"]
  sequences := [seq "r", { seq "s" with maxValue := 200 }] }

/-- the hypotheses of C106 can be met, with objects that change and objects that do not -/
example : ∃ stmts r', generateMigrationStatements readerRand touchedOld touchedNew opts = .ok (stmts, r') ∧ stmts.length = 4 ∧
    (¬ ∃ s ∈ stmts, touchesFunction touchedNew.functions[1].name.fq s.ddl = true) ∧
    (∃ s ∈ stmts, touchesFunction touchedNew.functions[0].name.fq s.ddl = true) ∧
    (∃ s ∈ stmts, touchesProcedure touchedNew.procedures[0].name.fq s.ddl = true) ∧
    (∃ s ∈ stmts, touchesTrigger touchedNew.triggers[0].owningTable.fq touchedNew.triggers[0].escapedName s.ddl = true) ∧
    (¬ ∃ s ∈ stmts, touchesSequence touchedNew.sequences[0].name.fq s.ddl = true) ∧
    ∃ s ∈ stmts, touchesSequence touchedNew.sequences[1].name.fq s.ddl = true := by
  obtain ⟨stmts, r', h, hl⟩ : ∃ stmts r', generateMigrationStatements readerRand touchedOld touchedNew opts = .ok (stmts, r') ∧
      stmts.length = 4 := exists_plan (by decide +kernel)
  have ht : NamesUnique touchedNew.tables := by unfold NamesUnique; decide +kernel
  have hf : NamesUnique touchedNew.functions := by unfold NamesUnique; decide +kernel
  have hp : NamesUnique touchedNew.procedures := by unfold NamesUnique; decide +kernel
  have hg : NamesUnique touchedNew.triggers := by unfold NamesUnique; decide +kernel
  have hs : NamesUnique touchedNew.sequences := by unfold NamesUnique; decide +kernel
  refine ⟨stmts, r', h, hl, ?_, ?_, ?_, ?_, ?_, ?_⟩
  · rw [(C106_functions_touched h hf (o := touchedOld.functions[1]) (x := touchedNew.functions[1]) (List.getElem_mem _)
      (List.getElem_mem _) rfl (by unfold Distinct; decide +kernel)).1, not_not]
    exact ⟨rfl, .swap _ _ _⟩
  · rw [(C106_functions_touched h hf (o := touchedOld.functions[2]) (x := touchedNew.functions[0]) (List.getElem_mem _)
      (List.getElem_mem _) rfl (by unfold Distinct; decide +kernel)).1]
    intro hsame
    have := congrArg Function.functionDef hsame.rest
    revert this
    decide +kernel
  · rw [(C106_procedures_touched h hp (o := touchedOld.procedures[0]) (x := touchedNew.procedures[0]) (List.getElem_mem _)
      (List.getElem_mem _) rfl).1]
    decide +kernel
  · rw [C106_triggers_touched h ht hg (o := touchedOld.triggers[0]) (x := touchedNew.triggers[0]) (List.getElem_mem _)
      (List.getElem_mem _) rfl rfl]
    exact Or.inl (by decide +kernel)
  · rw [C106_sequences_touched h ht hs (o := touchedOld.sequences[0]) (x := touchedNew.sequences[0]) (List.getElem_mem _)
      (List.getElem_mem _) rfl]
    rintro (hne | ⟨w, hw, _⟩)
    · exact hne rfl
    · cases hw
  · rw [C106_sequences_touched h ht hs (o := touchedOld.sequences[1]) (x := touchedNew.sequences[1]) (List.getElem_mem _)
      (List.getElem_mem _) rfl]
    exact Or.inl (by decide +kernel)

end Verif
