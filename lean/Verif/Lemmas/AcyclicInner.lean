import Verif.Lemmas.Plain
import Verif.Lemmas.Edges
import Verif.Spec.Acyclic
import Verif.Props.Check
import Verif.Props.NotNullCheck
import Mathlib.Data.List.TakeWhile

/-!
# The statements for one altered table can be put in order
-/

namespace Verif

open Spec

theorem endsNotNull {t : String} (h : isNotNullText t = true) : EndsNotNull t := by
  unfold isNotNullText at h
  split at h
  case h_2 => cases h
  case h_1 r hr =>
    have e := dropSuffix?_some hr
    refine ⟨r, (t.toList.reverse.takeWhile (· = ')')).reverse, ?_, ?_⟩
    · rw [← List.append_assoc, ← e, ← List.reverse_append, List.takeWhile_append_dropWhile, List.reverse_reverse]
    · intro c hc
      have := List.mem_takeWhile_imp (List.mem_reverse.mp hc)
      simpa using this

/-- a constraint that is made before its column is altered -/
def EarlyCheck (td : TableDiff) (x : CheckConstraint) : Prop :=
  isValidNotNullCC x = true ∧ ∀ k ∈ x.keyColumns, k ∉ td.columnsDiff.adds.map (·.name)

open Classical in
/-- the rank of a vertex within an altered table -/
noncomputable def tableRank (td : TableDiff) (news : CheckConstraint → Prop) (v : VertexId) : ℕ :=
  if v.objType = "column" then
    match v.diffType with
    | .delete => if v.objId ∈ td.columnsDiff.deletes.map (·.name) then 9 else 1
    | .addAlter => 2
  else if v.objType = "checkconstraint" then
    match v.diffType with
    | .delete => if ∃ o ∈ td.checkConstraintDiff.deletes, o.name = v.objId ∧ isValidNotNullCC o = true then 3 else 0
    | .addAlter => if ∃ x, news x ∧ x.name = v.objId ∧ EarlyCheck td x then 1 else 4
  else
    match v.diffType with
    | .delete => 0
    | .addAlter => 5

section
variable {td : TableDiff} {news : CheckConstraint → Prop}

open Classical in
theorem tableRank_column_delete (n : String) :
    tableRank td news (columnVertexId n .delete) = if n ∈ td.columnsDiff.deletes.map (·.name) then 9 else 1 := rfl
theorem tableRank_column_add (n : String) : tableRank td news (columnVertexId n .addAlter) = 2 := rfl
open Classical in
theorem tableRank_check_delete (c : CheckConstraint) : tableRank td news (CheckGen.vertexId c .delete) =
    if ∃ o ∈ td.checkConstraintDiff.deletes, o.name = c.name ∧ isValidNotNullCC o = true then 3 else 0 := by
  unfold tableRank; rfl
open Classical in
theorem tableRank_check_add (c : CheckConstraint) : tableRank td news (CheckGen.vertexId c .addAlter) =
    if ∃ x, news x ∧ x.name = c.name ∧ EarlyCheck td x then 1 else 4 := by
  unfold tableRank; rfl
theorem tableRank_policy_delete (g : PolicyGen) (p : Policy) : tableRank td news (g.vertexId p .delete) = 0 := rfl
theorem tableRank_policy_add (g : PolicyGen) (p : Policy) : tableRank td news (g.vertexId p .addAlter) = 5 := rfl
theorem tableRank_privilege_delete (t : SQName) (p : TablePrivilege) : tableRank td news (PrivilegeGen.vertexId t p .delete) = 0 := by
  unfold tableRank; rfl
theorem tableRank_privilege_add (t : SQName) (p : TablePrivilege) : tableRank td news (PrivilegeGen.vertexId t p .addAlter) = 5 := by
  unfold tableRank; rfl

end

section
variable {td : TableDiff} {temps : List CheckConstraint}

/-- what the order of the statements for a table rests on -/
structure TableParts (td : TableDiff) (temps : List CheckConstraint) : Prop where
  /-- a column that stays is not among the deleted ones -/
  newColumn : ∀ c, NewOf td.columnsDiff c → c.name ∉ td.columnsDiff.deletes.map (·.name)
  /-- a column of the old table is deleted unless the new table has it -/
  oldColumn : ∀ n ∈ td.old.columns.map (·.name), n ∉ td.new.columns.map (·.name) → n ∈ td.columnsDiff.deletes.map (·.name)
  deleted : (td.checkConstraintDiff.deletes.map (·.name)).Nodup
  /-- a recognised constraint does not replace a recognised one -/
  recreated : ∀ o ∈ td.checkConstraintDiff.deletes, isValidNotNullCC o = true →
    ∀ x, NewOf { td.checkConstraintDiff with adds := td.checkConstraintDiff.adds ++ temps } x → x.name = o.name →
    ¬ isValidNotNullCC x = true
  /-- constraints of one name are made at the same time -/
  alike : ∀ x y, NewOf { td.checkConstraintDiff with adds := td.checkConstraintDiff.adds ++ temps } x →
    NewOf { td.checkConstraintDiff with adds := td.checkConstraintDiff.adds ++ temps } y → x.name = y.name →
    EarlyCheck td x → EarlyCheck td y

variable {columns checks policies privileges : PartialGraph Statement} {psg : PolicyGen}

theorem table_graph_ok (hp : TableParts td temps)
    (h1 : generatePartialGraph (columnGen td.new.name) td.columnsDiff = .ok columns)
    (h2 : generatePartialGraph (TableGen.checkGen td).gen
        { td.checkConstraintDiff with adds := td.checkConstraintDiff.adds ++ temps } = .ok checks)
    (h3 : newPolicyGen (nilableTable td.old) td.new = .ok psg) (h4 : generatePartialGraph psg.gen td.policiesDiff = .ok policies)
    (h5 : generatePartialGraph (PrivilegeGen.gen td.new.name) td.privilegesDiff = .ok privileges) :
    ∃ l, orderStatements (PartialGraph.concat [columns, checks, policies, privileges]) = .ok l := by
  refine orderStatements_ok_of_rank
    (tableRank td (NewOf { td.checkConstraintDiff with adds := td.checkConstraintDiff.adds ++ temps })) ?_
  intro d hd
  obtain ⟨pg, hpg, hd'⟩ := PartialGraph.mem_dependencies_concat.mp hd
  clear hd
  simp only [List.mem_cons, List.not_mem_nil, or_false] at hpg
  have hpn : psg.newSchemaColumnsByName = byName td.new.columns ∧ ∃ l, psg.oldSchemaColumnsByName = byName l ∧
      ∀ n ∈ l.map (·.name), n ∈ td.old.columns.map (·.name) := by
    unfold newPolicyGen at h3
    unfold nilableTable at h3
    split at h3
    · rename_i o ho
      split at h3
      · cases h3
      · cases h3
        refine ⟨rfl, o.columns, rfl, ?_⟩
        split at ho
        · cases ho
        · cases ho; exact fun _ h => h
    · cases h3
      exact ⟨rfl, [], rfl, by simp⟩
  rcases hpg with rfl | rfl | rfl | rfl
  · -- columns
    have key : ∀ c old deps, NewOf td.columnsDiff c → ColumnGen.addAlterDeps c old = .ok deps → d ∈ deps →
        d.source.objType ∈ vertexKinds ∧ d.target.objType ∈ vertexKinds ∧ tableRank td
          (NewOf { td.checkConstraintDiff with adds := td.checkConstraintDiff.adds ++ temps }) d.source <
          tableRank td (NewOf { td.checkConstraintDiff with adds := td.checkConstraintDiff.adds ++ temps }) d.target := by
      intro c old deps hc h hx
      cases h
      obtain rfl := List.mem_singleton.mp hx
      refine ⟨by simp [vertexKinds, mustRunBefore, columnVertexId], by simp [vertexKinds, mustRunBefore, columnVertexId], ?_⟩
      show tableRank td _ (columnVertexId c.name .delete) < tableRank td _ (columnVertexId c.name .addAlter)
      rw [tableRank_column_delete, tableRank_column_add, if_neg (hp.newColumn c hc)]
      decide
    cases dep_of_legacy (m := Except Err) (g := columnLegacy td.new.name) h1 hd' with
    | add o mem deps h hx => exact key o GoZero.zero deps (.add mem) h hx
    | delete o mem deps h hx => cases (yields_except.mp h); cases hx
    | alter o mem deps h hx => exact key o.new o.old deps (.alter o mem rfl) h hx
  · -- check constraints
    have key : ∀ c old deps, NewOf { td.checkConstraintDiff with adds := td.checkConstraintDiff.adds ++ temps } c →
        (TableGen.checkGen td).addAlterDeps c old = .ok deps → d ∈ deps →
        d.source.objType ∈ vertexKinds ∧ d.target.objType ∈ vertexKinds ∧ tableRank td
          (NewOf { td.checkConstraintDiff with adds := td.checkConstraintDiff.adds ++ temps }) d.source <
          tableRank td (NewOf { td.checkConstraintDiff with adds := td.checkConstraintDiff.adds ++ temps }) d.target := by
      intro c old deps hc h hx
      unfold CheckGen.addAlterDeps at h
      obtain ⟨cs, h6, h⟩ := except_bind_ok.mp h
      obtain ⟨e, _⟩ := getTargetColumns_names h6
      have first : tableRank td (NewOf { td.checkConstraintDiff with adds := td.checkConstraintDiff.adds ++ temps })
          (CheckGen.vertexId c .delete) <
          tableRank td (NewOf { td.checkConstraintDiff with adds := td.checkConstraintDiff.adds ++ temps })
          (CheckGen.vertexId c .addAlter) := by
        rw [tableRank_check_delete, tableRank_check_add]
        split
        · rename_i h7
          obtain ⟨o, ho, eo, hr⟩ := h7
          rw [if_neg]
          · decide
          · rintro ⟨x, hx, ex, hr', _⟩
            exact hp.recreated o ho hr x hx (ex.trans eo.symm) hr'
        · split <;> decide
      have kinds : ∀ n a b, (mustRunBefore (CheckGen.vertexId c a) (columnVertexId n b)).source.objType ∈ vertexKinds ∧
          (mustRunBefore (CheckGen.vertexId c a) (columnVertexId n b)).target.objType ∈ vertexKinds := by
        intro n a b
        constructor <;> simp [vertexKinds, mustRunBefore, columnVertexId, CheckGen.vertexId]
      have hfirst : (mustRunBefore (CheckGen.vertexId c .delete) (CheckGen.vertexId c .addAlter)).source.objType ∈ vertexKinds ∧
          (mustRunBefore (CheckGen.vertexId c .delete) (CheckGen.vertexId c .addAlter)).target.objType ∈ vertexKinds := by
        constructor <;> simp [vertexKinds, mustRunBefore, CheckGen.vertexId]
      split at h
      · rename_i hon
        have hearly : EarlyCheck td c := by
          unfold CheckGen.isOnValidNotNullPreExistingColumn at hon
          split at hon
          · rename_i tc
            rw [Bool.and_eq_true, Bool.not_eq_true'] at hon
            refine ⟨hon.2, ?_⟩
            rw [← e]
            intro k hk hk'
            obtain rfl := List.mem_singleton.mp hk
            have := byName_has (l := td.columnsDiff.adds).mpr hk'
            exact Bool.false_ne_true (hon.1.symm.trans this)
          · cases hon
        cases except_pure_ok.mp h
        rcases List.mem_cons.mp hx with rfl | hx
        · exact ⟨hfirst.1, hfirst.2, first⟩
        · obtain ⟨tc, _, rfl⟩ := List.mem_map.mp hx
          refine ⟨(kinds _ _ _).1, (kinds _ _ _).2, ?_⟩
          show tableRank td _ (CheckGen.vertexId c .addAlter) < tableRank td _ (columnVertexId tc.name .addAlter)
          rw [tableRank_check_add, tableRank_column_add, if_pos ⟨c, hc, rfl, hearly⟩]
          decide
      · rename_i hon
        have hlate : ¬ EarlyCheck td c := by
          rintro ⟨hr, hk⟩
          obtain ⟨x, hx, _⟩ := isValidNotNullCC_keys hr
          rw [hx] at e hk
          obtain ⟨tc, rfl, et⟩ := List.map_eq_singleton_iff.mp e
          refine hon ?_
          unfold CheckGen.isOnValidNotNullPreExistingColumn
          dsimp only
          rw [hr, Bool.and_true, Bool.not_eq_true', ← Bool.not_eq_true]
          intro hh
          exact hk x (List.mem_singleton.mpr rfl) (et ▸ byName_has.mp hh)
        cases except_pure_ok.mp h
        rcases List.mem_cons.mp hx with rfl | hx
        · exact ⟨hfirst.1, hfirst.2, first⟩
        · obtain ⟨tc, _, rfl⟩ := List.mem_map.mp hx
          refine ⟨(kinds _ .addAlter _).2, (kinds tc.name .addAlter .addAlter).1, ?_⟩
          show tableRank td _ (columnVertexId tc.name .addAlter) < tableRank td _ (CheckGen.vertexId c .addAlter)
          rw [tableRank_check_add, tableRank_column_add, if_neg]
          · decide
          · rintro ⟨x, hx, ex, hearly⟩
            exact hlate (hp.alike x c hx hc ex hearly)
    cases dep_of_legacy (m := Except Err) (g := (TableGen.checkGen td).legacy) h2 hd' with
    | add o mem deps h hx => exact key o GoZero.zero deps (.add mem) h hx
    | alter o mem deps h hx => exact key o.new o.old deps (.alter o mem rfl) h hx
    | delete o mem deps h hx =>
      have h : (TableGen.checkGen td).deleteDeps o = .ok deps := h
      have mem : o ∈ td.checkConstraintDiff.deletes := mem
      have kinds : ∀ n a b, (mustRunBefore (CheckGen.vertexId o a) (columnVertexId n b)).source.objType ∈ vertexKinds ∧
          (mustRunBefore (CheckGen.vertexId o a) (columnVertexId n b)).target.objType ∈ vertexKinds := by
        intro n a b
        constructor <;> simp [vertexKinds, mustRunBefore, columnVertexId, CheckGen.vertexId]
      unfold CheckGen.deleteDeps at h
      obtain ⟨cs, h6, h⟩ := except_bind_ok.mp h
      have hlow : ∀ n, n ∈ td.columnsDiff.deletes.map (·.name) →
          tableRank td (NewOf { td.checkConstraintDiff with adds := td.checkConstraintDiff.adds ++ temps })
          (CheckGen.vertexId o .delete) <
          tableRank td (NewOf { td.checkConstraintDiff with adds := td.checkConstraintDiff.adds ++ temps })
          (columnVertexId n .delete) := by
        intro n hn
        rw [tableRank_check_delete, tableRank_column_delete, if_pos hn]
        split <;> decide
      split at h
      · rename_i hr
        cases except_pure_ok.mp h
        obtain ⟨tc, _, rfl⟩ := List.mem_map.mp hx
        split
        · rename_i hh
          exact ⟨(kinds _ _ _).1, (kinds _ _ _).2, hlow tc.name (byName_has.mp hh)⟩
        · refine ⟨(kinds _ .delete _).2, (kinds tc.name .delete .addAlter).1, ?_⟩
          show tableRank td _ (columnVertexId tc.name .addAlter) < tableRank td _ (CheckGen.vertexId o .delete)
          rw [tableRank_check_delete, tableRank_column_add, if_pos ⟨o, mem, rfl, hr⟩]
          decide
      · rename_i hr
        cases except_pure_ok.mp h
        obtain ⟨tc, _, hx⟩ := List.mem_flatMap.mp hx
        rcases List.mem_cons.mp hx with rfl | hx
        · refine ⟨(kinds _ _ _).1, (kinds _ _ _).2, ?_⟩
          show tableRank td _ (CheckGen.vertexId o .delete) < tableRank td _ (columnVertexId tc.name .addAlter)
          rw [tableRank_check_delete, tableRank_column_add, if_neg]
          · decide
          · rintro ⟨o', ho', eo, hr'⟩
            obtain rfl := List.inj_on_of_nodup_map hp.deleted ho' mem eo
            exact hr hr'
        · split at hx
          · rename_i hh
            obtain rfl := List.mem_singleton.mp hx
            exact ⟨(kinds _ _ _).1, (kinds _ _ _).2, hlow tc.name (byName_has.mp hh)⟩
          · cases hx
  · -- policies
    have kinds : ∀ p n a b, (mustRunBefore (psg.vertexId p a) (columnVertexId n b)).source.objType ∈ vertexKinds ∧
        (mustRunBefore (psg.vertexId p a) (columnVertexId n b)).target.objType ∈ vertexKinds := by
      intro p n a b
      constructor <;> simp [vertexKinds, mustRunBefore, columnVertexId, PolicyGen.vertexId, policyVertexId]
    have key : ∀ p old deps, psg.addAlterDeps p old = .ok deps → d ∈ deps →
        d.source.objType ∈ vertexKinds ∧ d.target.objType ∈ vertexKinds ∧ tableRank td
          (NewOf { td.checkConstraintDiff with adds := td.checkConstraintDiff.adds ++ temps }) d.source <
          tableRank td (NewOf { td.checkConstraintDiff with adds := td.checkConstraintDiff.adds ++ temps }) d.target := by
      intro p old deps h hx
      unfold PolicyGen.addAlterDeps at h
      obtain ⟨cs, h6, h⟩ := except_bind_ok.mp h
      have hfirst : ∀ cs : List Column, d ∈ mustRunBefore (psg.vertexId p .delete) (psg.vertexId p .addAlter) ::
          (cs.map fun tc => mustRunAfter (psg.vertexId p .addAlter) (columnVertexId tc.name .addAlter)) →
          d.source.objType ∈ vertexKinds ∧ d.target.objType ∈ vertexKinds ∧ tableRank td
          (NewOf { td.checkConstraintDiff with adds := td.checkConstraintDiff.adds ++ temps }) d.source <
          tableRank td (NewOf { td.checkConstraintDiff with adds := td.checkConstraintDiff.adds ++ temps }) d.target := by
        intro cs hx
        rcases List.mem_cons.mp hx with rfl | hx
        · refine ⟨(kinds p "" .delete .delete).1, (kinds p "" .addAlter .delete).1, ?_⟩
          show tableRank td _ (psg.vertexId p .delete) < tableRank td _ (psg.vertexId p .addAlter)
          rw [tableRank_policy_delete, tableRank_policy_add]
          decide
        · obtain ⟨tc, _, rfl⟩ := List.mem_map.mp hx
          refine ⟨(kinds p _ .delete _).2, (kinds p "" .addAlter .delete).1, ?_⟩
          show tableRank td _ (columnVertexId tc.name .addAlter) < tableRank td _ (psg.vertexId p .addAlter)
          rw [tableRank_policy_add, tableRank_column_add]
          decide
      dsimp only at h
      split at h
      · cases except_pure_ok.mp h
        exact hfirst cs hx
      · obtain ⟨os, h7, h⟩ := except_bind_ok.mp h
        cases except_pure_ok.mp h
        rcases List.mem_append.mp hx with hx | hx
        · exact hfirst cs hx
        · obtain ⟨tc, htc, rfl⟩ := List.mem_map.mp hx
          rw [List.mem_filter, Bool.not_eq_true', ← Bool.not_eq_true] at htc
          obtain ⟨l, hl, hsub⟩ := hpn.2
          rw [hl] at h7
          obtain ⟨e, hin⟩ := getTargetColumns_names h7
          have hdel : tc.name ∈ td.columnsDiff.deletes.map (·.name) := by
            refine hp.oldColumn _ (hsub _ (hin _ ?_)) ?_
            · rw [← e]; exact List.mem_map_of_mem htc.1
            · intro hh
              refine htc.2 ?_
              rw [hpn.1]
              exact byName_has.mpr hh
          refine ⟨(kinds p _ .addAlter _).1, (kinds p _ .addAlter _).2, ?_⟩
          show tableRank td _ (psg.vertexId p .addAlter) < tableRank td _ (columnVertexId tc.name .delete)
          rw [tableRank_policy_add, tableRank_column_delete, if_pos hdel]
          decide
    cases dep_of_legacy (m := Except Err) (g := psg.legacy) h4 hd' with
    | add o mem deps h hx => exact key o GoZero.zero deps h hx
    | alter o mem deps h hx => exact key o.new o.old deps h hx
    | delete o mem deps h hx =>
      have h : psg.deleteDeps o = .ok deps := h
      unfold PolicyGen.deleteDeps at h
      obtain ⟨cs, h6, h⟩ := except_bind_ok.mp h
      cases except_pure_ok.mp h
      obtain ⟨tc, _, hx⟩ := List.mem_flatMap.mp hx
      simp only [List.mem_cons, List.not_mem_nil, or_false] at hx
      rcases hx with rfl | rfl
      · refine ⟨(kinds o _ .delete _).1, (kinds o _ .delete _).2, ?_⟩
        show tableRank td _ (psg.vertexId o .delete) < tableRank td _ (columnVertexId tc.name .delete)
        rw [tableRank_policy_delete, tableRank_column_delete]
        split <;> decide
      · refine ⟨(kinds o _ .delete _).1, (kinds o _ .delete _).2, ?_⟩
        show tableRank td _ (psg.vertexId o .delete) < tableRank td _ (columnVertexId tc.name .addAlter)
        rw [tableRank_policy_delete, tableRank_column_add]
        decide
  · -- privileges
    have key : ∀ p old deps, PrivilegeGen.addAlterDeps td.new.name p old = .ok deps → d ∈ deps →
        d.source.objType ∈ vertexKinds ∧ d.target.objType ∈ vertexKinds ∧ tableRank td
          (NewOf { td.checkConstraintDiff with adds := td.checkConstraintDiff.adds ++ temps }) d.source <
          tableRank td (NewOf { td.checkConstraintDiff with adds := td.checkConstraintDiff.adds ++ temps }) d.target := by
      intro p old deps h hx
      cases h
      obtain rfl := List.mem_singleton.mp hx
      refine ⟨by simp [vertexKinds, mustRunBefore, PrivilegeGen.vertexId], by simp [vertexKinds, mustRunBefore, PrivilegeGen.vertexId], ?_⟩
      show tableRank td _ (PrivilegeGen.vertexId _ p .delete) < tableRank td _ (PrivilegeGen.vertexId _ p .addAlter)
      rw [tableRank_privilege_delete, tableRank_privilege_add]
      decide
    cases dep_of_legacy (m := Except Err) (g := PrivilegeGen.legacy td.new.name) h5 hd' with
    | add o mem deps h hx => exact key o GoZero.zero deps h hx
    | alter o mem deps h hx => exact key o.new o.old deps h hx
    | delete o mem deps h hx => cases (yields_except.mp h); cases hx

/-- the parts of an altered table meet the conditions -/
theorem table_parts {opts : PlanOptions} {o x : Table} {i j : Nat} {td0 : TableDiff} (hc : ChecksOrderable o x)
    (hb : buildTableDiff o x j i = .ok (td0, false)) (htd : td = orderIf opts td0)
    (ht : yields (TableGen.tempConstraints td) temps) : TableParts td temps := by
  subst htd
  obtain ⟨e1, e2, _, _, _, b6, b7, _⟩ := buildTableDiff_ok hb
  have ht := tempConstraints_ok ht
  have hadds : ∀ {y : Column}, y ∈ td0.columnsDiff.adds ↔ y ∈ x.columns ∧ Obj.getName y ∉ o.columns.map Obj.getName :=
    never_adds (by intro o n i j d h; cases h) b6 hc.columns
  have hdels : ∀ {y : Column}, y ∈ td0.columnsDiff.deletes ↔ y ∈ o.columns ∧ Obj.getName y ∉ x.columns.map Obj.getName :=
    never_deletes (by intro o n i j d h; cases h) b6
  have halts : ∀ cd ∈ td0.columnsDiff.alters, cd.new ∈ x.columns ∧ cd.new.name ∈ o.columns.map (·.name) := by
    intro cd hcd
    obtain ⟨a, x', b, o', hx', ho', e, hb'⟩ := diffLists_alters_mem b6 hcd
    cases hb'
    exact ⟨List.mem_of_getElem? hx', List.mem_map.mpr ⟨o', List.mem_of_getElem? ho', e⟩⟩
  have htemp : ∀ c ∈ temps, "pgschemadiff_tmpnn_".toList <+: c.name.toList ∧ EarlyCheck (orderIf opts td0) c := by
    intro c hct
    obtain ⟨cd, hcd, h1, h2, h3, h4⟩ := forall₂_right ht hct
    have hcd : cd ∈ (orderIf opts td0).columnsDiff.alters := (List.mem_filter.mp hcd).1
    obtain ⟨cd0, hcd0, _, en⟩ := orderIf_columns opts td0 hcd
    obtain ⟨k1, k2⟩ := halts cd0 hcd0
    refine ⟨h1, ?_, ?_⟩
    · unfold isValidNotNullCC
      rw [h2, h3, h4, en, temporary_recognised (hc.lines _ k1)]
      rfl
    · rw [h2, orderIf_columnsAdds, en]
      intro k hk hk'
      obtain rfl := List.mem_singleton.mp hk
      obtain ⟨y, hy, ey⟩ := List.mem_map.mp hk'
      refine (hadds.mp hy).2 ?_
      show y.name ∈ _
      rw [ey]
      exact k2
  have hcases : ∀ c, NewOf { (orderIf opts td0).checkConstraintDiff with adds := (orderIf opts td0).checkConstraintDiff.adds ++ temps } c →
      (c ∈ x.checkConstraints ∧ (c ∈ td0.checkConstraintDiff.adds ∨ ∃ cd ∈ td0.checkConstraintDiff.alters, cd.new = c)) ∨ c ∈ temps := by
    intro c hcn
    rw [orderIf_checks] at hcn
    cases hcn with
    | add mem =>
      rcases List.mem_append.mp mem with mem | mem
      · exact .inl ⟨diffLists_adds_mem b7 mem, .inl mem⟩
      · exact .inr mem
    | alter cd mem e =>
      obtain ⟨a, x', b, o', hx', ho', en, hb'⟩ := diffLists_alters_mem b7 mem
      obtain ⟨rfl, _⟩ := buildCheckConstraintDiff_ok hb'
      subst e
      exact .inl ⟨List.mem_of_getElem? hx', .inr ⟨_, mem, rfl⟩⟩
  constructor
  · intro c hcn hm
    rw [orderIf_columnsDeletes] at hm
    have hcx : c ∈ x.columns := by
      cases hcn with
      | add mem => rw [orderIf_columnsAdds] at mem; exact (hadds.mp mem).1
      | alter cd mem e =>
        obtain ⟨cd0, hcd0, _, en⟩ := orderIf_columns opts td0 mem
        subst e
        show cd.new ∈ _
        rw [en]
        exact (halts cd0 hcd0).1
    obtain ⟨y, hy, ey⟩ := List.mem_map.mp hm
    refine (hdels.mp hy).2 ?_
    show y.name ∈ _
    rw [ey]
    exact List.mem_map_of_mem (f := Obj.getName) hcx
  · intro n hn hn'
    rw [orderIf_old, e1] at hn
    rw [orderIf_new, e2] at hn'
    rw [orderIf_columnsDeletes]
    obtain ⟨y, hy, rfl⟩ := List.mem_map.mp hn
    exact List.mem_map_of_mem (hdels.mpr ⟨hy, hn'⟩)
  · rw [orderIf_checks]
    exact diffLists_deletes_nodup b7
  · rw [orderIf_checks]
    intro a ha hr c hcn e hr'
    have hao := diffLists_deletes_mem b7 ha
    rcases hcases c (by rw [orderIf_checks]; exact hcn) with ⟨hcx, hcn⟩ | hct
    · have hx := fun b : CheckConstraint => diffLists_decision b7 hc.checks (key := fun cd => cd.new.name)
        (fun o x j i cd _ hb => by rw [(buildCheckConstraintDiff_ok hb).1]; rfl) b.name
      obtain ⟨hdec, _, _, _, _, hdelalt, _⟩ := hx c
      have hdel : c.name ∈ td0.checkConstraintDiff.deletes.map Obj.getName := List.mem_map.mpr ⟨a, ha, e.symm⟩
      have q := hc.notNull a hao c hcx e.symm (isValidNotNullCC_keys hr).choose_spec.2 (isValidNotNullCC_keys hr').choose_spec.2
        (endsNotNull (by unfold isValidNotNullCC at hr; simp only [Bool.and_eq_true] at hr; exact hr.2))
        (endsNotNull (by unfold isValidNotNullCC at hr'; simp only [Bool.and_eq_true] at hr'; exact hr'.2))
      cases hdec with
      | absent _ h => exact h (List.mem_map_of_mem (f := Obj.getName) hcx)
      | dropped _ _ _ h _ => exact h (List.mem_map_of_mem (f := Obj.getName) hcx)
      | added _ _ _ h _ => exact h (List.mem_map.mpr ⟨a, hao, e.symm⟩)
      | altered a' b' cd p1 p2 p3 p4 p5 p6 =>
        refine hdelalt hdel (List.mem_map.mpr ⟨cd, p6, ?_⟩)
        obtain ⟨_, _, p5⟩ := p5
        rw [(buildCheckConstraintDiff_ok p5).1]
        exact p4
      | recreated a' b' p1 p2 p3 p4 p5 p6 p7 =>
        obtain ⟨_, _, cd, p5⟩ := p5
        obtain rfl : a' = a := List.inj_on_of_nodup_map (diffLists_old_nodup b7) p1 hao (p3.trans e)
        obtain rfl : b' = c := List.inj_on_of_nodup_map hc.checks p2 hcx p4
        unfold buildCheckConstraintDiff at p5
        rw [q.1, q.2, (isValidNotNullCC_keys hr').choose_spec.2] at p5
        simp at p5
    · exact hc.temporary a (List.mem_append_left _ hao) (e ▸ (htemp c hct).1)
  · intro c c' h1 h2 e he
    rcases hcases c h1 with ⟨k1, _⟩ | k1 <;> rcases hcases c' h2 with ⟨k2, _⟩ | k2
    · obtain rfl := List.inj_on_of_nodup_map hc.checks k1 k2 e
      exact he
    · exact absurd (e ▸ (htemp c' k2).1) (hc.temporary c (List.mem_append_right _ k1))
    · exact absurd (e ▸ (htemp c k1).1) (hc.temporary c' (List.mem_append_right _ k2))
    · exact (htemp c' k2).2

end

end Verif
