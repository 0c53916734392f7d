import Verif.Lemmas.Detect
import Verif.Props.SelfDiff
import Verif.Samples.Basic

/-!
# C54: what an empty plan says about the two schemas
-/

namespace Verif

open Spec

theorem mem_orderIf {opts : PlanOptions} {td : TableDiff} {cd : ColumnDiff} (h : cd ∈ td.columnsDiff.alters) :
    ∃ cd' ∈ (orderIf opts td).columnsDiff.alters, cd'.old = cd.old ∧ cd'.new = cd.new := by
  unfold orderIf
  split
  · exact ⟨_, List.mem_map_of_mem h, rfl, rfl⟩
  · exact ⟨cd, h, rfl, rfl⟩

theorem normalizeCheck_silent {c c' : CheckConstraint}
    (h : normalizeCheckConstraint c' = { normalizeCheckConstraint c with keyColumns := (normalizeCheckConstraint c').keyColumns })
    (hp : (normalizeCheckConstraint c).keyColumns.Perm (normalizeCheckConstraint c').keyColumns) : SameCheck c c' := by
  obtain ⟨a1, a2, a3, a4, a5, a6⟩ := c
  obtain ⟨b1, b2, b3, b4, b5, b6⟩ := c'
  simp only [normalizeCheckConstraint, CheckConstraint.mk.injEq, true_and] at h hp
  obtain ⟨rfl, rfl, rfl, rfl, e⟩ := h
  exact ⟨rfl, ((sortBy_perm _ _).symm.trans hp).trans (sortBy_perm _ _),
    ((sortObjs_perm _).symm.trans (List.Perm.of_eq e.symm)).trans (sortObjs_perm _)⟩

theorem normalizePolicy_silent {p p' : Policy}
    (h : normalizePolicy p' = { normalizePolicy p with columns := (normalizePolicy p').columns }) : IndistinctPolicy p p' := by
  obtain ⟨a1, a2, a3, a4, a5, a6, a7⟩ := p
  obtain ⟨b1, b2, b3, b4, b5, b6, b7⟩ := p'
  simp only [normalizePolicy, Policy.mk.injEq, and_true] at h
  obtain ⟨rfl, rfl, e, rfl, rfl, rfl⟩ := h
  exact ⟨rfl, ((sortBy_perm _ _).symm.trans (List.Perm.of_eq e.symm)).trans (sortBy_perm _ _)⟩

/-- a silent alteration of a table: the two are indistinct -/
theorem SilentTable.indistinct {g : TableGen} {opts : PlanOptions} {td : TableDiff} {o n : Table} {i j : Nat}
    (hname : o.name.fq = n.name.fq) (h : SilentTable g (orderIf opts td))
    (hb : buildTableDiff (normalizeTable o) (normalizeTable n) i j = .ok (td, false)) (hc : NamesUnique n.columns)
    (hk : NamesUnique n.checkConstraints) (hp : NamesUnique n.policies) (hv : NamesUnique n.privileges) : IndistinctTable o n := by
  obtain ⟨ho, hn, _, hkey, hpar, b1, b2, ⟨psg, b3, b4⟩, b5⟩ := buildTableDiff_ok hb
  obtain ⟨s1, s2, s3, s4, s5, s6⟩ := h
  rw [orderIf_old, orderIf_new, ho, hn] at s1 s2 s3 s4
  rw [orderIf_new, hn] at s5 s6
  rw [orderIf_old, ho, orderIf_checks, orderIf_policies, orderIf_privileges] at s6
  have hcheck : NamesUnique (normalizeTable n).checkConstraints := namesUnique_sort_map (fun _ => rfl) hk
  have hpol : NamesUnique (normalizeTable n).policies := namesUnique_sort_map (fun _ => rfl) hp
  have hpriv : NamesUnique (normalizeTable n).privileges := namesUnique_sort hv
  have checks : Corresponds (fun c c' => c' = { c with keyColumns := c'.keyColumns } ∧ c.keyColumns.Perm c'.keyColumns)
      (normalizeTable o).checkConstraints (normalizeTable n).checkConstraints := by
    cases hpt : (normalizeTable n).isPartition with
    | true =>
      obtain ⟨e1, e2, e3⟩ := ListDiff.eq_nil_of_isEmpty (s6 hpt).2.1
      exact diffLists_corresponds b2 hcheck e1 e2 (by intro _ _ _ _ _ _ d hd; rw [e3] at hd; cases hd)
    | false =>
      obtain ⟨temps, run, _, k, _⟩ := s5 hpt
      obtain ⟨l1, l2, l3⟩ := legacy_silent (m := Except Err) (g := (TableGen.checkGen (orderIf opts td)).legacy) run.hchecks k
      have e1 := silent_nil l1 (by
        intro c hc
        change CheckGen.add _ c = .ok [] at hc
        unfold CheckGen.add at hc
        rw [ite_error_ok] at hc
        obtain ⟨_, hc⟩ := hc
        split at hc <;> cases hc)
      have e2 := silent_nil l2 (by
        intro c hc
        change CheckGen.delete _ c = .ok [] at hc
        unfold CheckGen.delete at hc
        rw [ite_error_ok] at hc
        cases hc.2)
      dsimp only at e1 e2 l3
      rw [orderIf_checks] at e1 e2 l3
      refine diffLists_corresponds b2 hcheck (List.append_eq_nil_iff.mp e1).1 e2 ?_
      intro c _ c' _ _ _ d hd _ hbd
      unfold buildCheckConstraintDiff at hbd
      have := l3 d hd
      have hd' : d = ⟨c, c'⟩ := by
        injection hbd with hbd; exact (congrArg Prod.fst hbd).symm
      subst hd'
      exact CheckGen.alter_silent this
  have policies : Corresponds (fun c c' => c' = { c with columns := c'.columns }) (normalizeTable o).policies (normalizeTable n).policies := by
    unfold buildPolicyDiffs at b4
    cases hpt : (normalizeTable n).isPartition with
    | true =>
      obtain ⟨e1, e2, e3⟩ := ListDiff.eq_nil_of_isEmpty (s6 hpt).2.2.1
      exact diffLists_corresponds b4 hpol e1 e2 (by intro _ _ _ _ _ _ d hd; rw [e3] at hd; cases hd)
    | false =>
      obtain ⟨temps, run, _, _, k, _⟩ := s5 hpt
      have hrun := run.hpolicies
      rw [orderIf_policies] at hrun
      obtain ⟨l1, l2, l3⟩ := legacy_silent (m := Except Err) (g := run.psg.legacy) hrun k
      have e1 := silent_nil l1 (by
        intro c hc
        change PolicyGen.add _ c = .ok [] at hc
        unfold PolicyGen.add at hc
        obtain ⟨x, _, hc⟩ := except_bind_ok.mp hc
        cases hc)
      have e2 := silent_nil l2 (by intro c hc; cases hc)
      refine diffLists_corresponds b4 hpol e1 e2 ?_
      intro c _ c' _ _ _ d hd _ hbd
      have hd' : d = ⟨c, c'⟩ := by
        split at hbd
        · injection hbd with hbd; exact (congrArg Prod.fst hbd).symm
        · split at hbd <;> cases hbd
      subst hd'
      exact PolicyGen.alter_silent (l3 _ hd)
  have privileges : Corresponds (fun c c' : TablePrivilege => Obj.getName c = Obj.getName c' ∧ c.isGrantable = c'.isGrantable)
      (normalizeTable o).privileges (normalizeTable n).privileges := by
    cases hpt : (normalizeTable n).isPartition with
    | true =>
      obtain ⟨e1, e2, e3⟩ := ListDiff.eq_nil_of_isEmpty (s6 hpt).2.2.2
      exact diffLists_corresponds b5 hpriv e1 e2 (by intro _ _ _ _ _ _ d hd; rw [e3] at hd; cases hd)
    | false =>
      obtain ⟨temps, run, _, _, _, k⟩ := s5 hpt
      have hrun := run.hprivileges
      rw [orderIf_privileges] at hrun
      obtain ⟨l1, l2, l3⟩ := legacy_silent (m := Except Err) (g := PrivilegeGen.legacy _) hrun k
      have e1 := silent_nil l1 (by intro c hc; cases hc)
      have e2 := silent_nil l2 (by intro c hc; cases hc)
      refine diffLists_corresponds b5 hpriv e1 e2 ?_
      intro c _ c' _ _ _ d hd e hbd
      unfold buildPrivilegeDiff at hbd
      refine ⟨e, ?_⟩
      injection hbd with hbd
      have := congrArg Prod.snd hbd
      simpa using this
  refine ⟨hname, hpar, hkey, s1, s2, s3, ?_, corresponds_normalize (fun _ _ h => normalizeCheck_silent h.1 h.2) checks,
    corresponds_normalize (fun _ _ h => normalizePolicy_silent h) policies, corresponds_sort privileges, ?_⟩
  · intro hpn
    have hpt : (normalizeTable n).isPartition = false := by
      unfold Table.isPartition
      rw [← hpar]
      change o.parentTable.isSome = false
      rw [hpn]; rfl
    obtain ⟨temps, run, k, _⟩ := s5 hpt
    obtain ⟨l1, l2, l3⟩ := legacy_silent (m := Except Err) (g := columnLegacy _) run.hcolumns k
    rw [orderIf_columnsAdds] at l1
    rw [orderIf_columnsDeletes] at l2
    have e1 := silent_nil l1 (by
      intro c hc
      change ColumnGen.add _ c = .ok [] at hc
      unfold ColumnGen.add at hc
      obtain ⟨x, _, hc⟩ := except_bind_ok.mp hc
      cases hc)
    have e2 := silent_nil l2 (by intro c hc; cases hc)
    refine diffLists_corresponds b1 hc e1 e2 ?_
    intro c _ c' _ _ _ d hd e hbd
    unfold buildColumnDiff at hbd
    cases hbd
    obtain ⟨d', hd', f1, f2⟩ := mem_orderIf (opts := opts) hd
    have := ColumnGen.alter_silent (by rw [f1, f2]; exact e) (l3 d' hd')
    rw [f1, f2] at this
    exact this
  · intro hpn
    have hpt : (normalizeTable n).isPartition = true := by
      unfold Table.isPartition
      rw [← hpar]
      change o.parentTable.isSome = true
      rwa [Option.isSome_iff_ne_none]
    exact (s6 hpt).1

theorem pairDiff_eq {S : Type} {o n : S} {j i : Nat} {d : OldNew S} (h : pairDiff o n j i = .ok (d, false)) : d = ⟨o, n⟩ := by
  unfold pairDiff at h
  injection h with h
  exact (congrArg Prod.fst h).symm

theorem eq_of_view_same {a b : View} (h : a.same b = true) : a.name = b.name ∧ a.viewDefinition = b.viewDefinition ∧
    (∀ k, a.options.get? k = b.options.get? k) ∧ a.tableDependencies = b.tableDependencies := by
  unfold View.same at h
  simp only [Bool.and_eq_true, decide_eq_true_eq] at h
  exact ⟨h.1.1.1, h.1.1.2, GoMap.get?_eq_of_sameMap h.1.2, h.2⟩

theorem eq_of_matView_same {a b : MaterializedView} (h : a.same b = true) : a.name = b.name ∧ a.viewDefinition = b.viewDefinition ∧
    (∀ k, a.options.get? k = b.options.get? k) ∧ a.tablespace = b.tablespace ∧ a.tableDependencies = b.tableDependencies := by
  unfold MaterializedView.same at h
  simp only [Bool.and_eq_true, decide_eq_true_eq] at h
  exact ⟨h.1.1.1.1, h.1.1.1.2, GoMap.get?_eq_of_sameMap h.1.1.2, h.1.2, h.2⟩

theorem normalizeDependency_eq {d d' : TableDependency} (h : normalizeTableDependency d = normalizeTableDependency d') :
    SameDependency d d' := by
  obtain ⟨a1, a2⟩ := d
  obtain ⟨b1, b2⟩ := d'
  simp only [normalizeTableDependency, TableDependency.mk.injEq] at h
  obtain ⟨rfl, e⟩ := h
  exact ⟨rfl, ((sortBy_perm _ _).symm.trans (List.Perm.of_eq e)).trans (sortBy_perm _ _)⟩

theorem dependencies_eq {l l' : List TableDependency}
    (h : (sortObjs l).map normalizeTableDependency = (sortObjs l').map normalizeTableDependency) :
    Corresponds SameDependency l l' :=
  corresponds_normalize (R := Eq) (fun _ _ => normalizeDependency_eq) (corresponds_of_eq (fun _ => rfl) h)

/-- a descending chain of deleted partitions ends -/
theorem deleted_partitions_nil {l : List Table} {all : List Table} (hsub : ∀ t ∈ l, ∃ t0 ∈ all, t.name = t0.name ∧ t.parentTable = t0.parentTable)
    (hl : NoLoops all (·.name.fq) fun t => t.parentTable.toList.map SQName.fq)
    (h : ∀ t ∈ l, ∃ p, t.parentTable = some p ∧ (byName l).has p.getName = true) : l = [] := by
  obtain ⟨rank, hr⟩ := hl
  have key : ∀ n, ∀ t ∈ l, rank t.name.fq = n → False := by
    intro n
    induction n using Nat.strong_induction_on with
    | _ n ih =>
      intro t ht hn
      obtain ⟨p, hp, hh⟩ := h t ht
      obtain ⟨t', ht', e⟩ := List.mem_map.mp (byName_has.mp hh)
      obtain ⟨t0, h0, e1, e2⟩ := hsub t ht
      have := hr t0 h0 p.fq (by dsimp only; rw [← e2, hp]; simp)
      dsimp only at this
      rw [← e1, hn] at this
      have e : t'.name.fq = p.fq := e
      exact ih _ this t' ht' (by rw [e])
  exact List.eq_nil_iff_forall_not_mem.mpr fun t ht => key _ t ht rfl

/-- **C54** (partial).  When the plan is empty, the two schemas agree on everything the planner looks at. -/
theorem C54_empty_plan_partial {r r' : Rand} {old new : Schema} {opts : PlanOptions}
    (h : generateMigrationStatements r old new opts = .ok ([], r')) (hu : UniqueNames new)
    (hl : NoLoops old.tables (·.name.fq) fun t => t.parentTable.toList.map SQName.fq)
    (hseq : ∀ s ∈ old.sequences, ∀ o, s.owner = some o → ∀ t ∈ old.tables, t.name.fq = o.tableName.fq → t.parentTable = none) :
    Indistinct old new := by
  obtain ⟨d, ⟨dr⟩, ⟨run⟩⟩ := plan_runs h
  obtain ⟨o1, o2, o3, hpart⟩ := run.silent
  -- tables
  obtain ⟨t1, t2, t3⟩ := legacy_silent (m := GenM) (g := (SchemaGen.tableGen d).legacy) (yields_of_run run.htables) (hpart .table rfl)
  have tadds : dr.td0.adds = [] := by
    have := silent_nil t1 (by
      intro t ht
      obtain ⟨run⟩ := add_run (yields_lift ht)
      have := run.hstmts
      cases this)
    rw [dr.hadds] at this
    exact List.map_eq_nil_iff.mp this
  have tdeletes : dr.td0.deletes = [] := by
    rw [dr.hdeletes] at t2
    refine deleted_partitions_nil (all := old.tables) ?_ hl ?_
    · intro t ht
      obtain ⟨t0, h0, rfl⟩ := mem_normalize_tables (diffLists_deletes_mem dr.htd0 ht)
      exact ⟨t0, h0, rfl, rfl⟩
    · intro t ht
      have := yields_lift (t2 t ht)
      unfold TableGen.delete at this
      split at this
      · rename_i p hp
        refine ⟨p, hp, ?_⟩
        split at this
        · rename_i hh
          have hd : (SchemaGen.tableGen d).deletedTablesByName = byName dr.td0.deletes := by rw [← dr.hdeletes]; rfl
          rw [hd] at hh
          exact hh
        · cases this
      · cases this
  have tsilent : ∀ td ∈ dr.td0.alters, SilentTable (SchemaGen.tableGen d) (orderIf opts td) := by
    intro td htd
    exact TableGen.alter_silent (t3 _ (by rw [dr.halters]; exact List.mem_map_of_mem htd))
  -- indexes
  obtain ⟨i1, i2, i3⟩ := legacy_silent (m := Except Err) (g := (SchemaGen.indexGen opts d run.s3).legacy) run.hindexes (hpart .index rfl)
  have iadds := silent_nil i1 (by
    intro i hi
    change IndexGen.add _ i = .ok [] at hi
    unfold IndexGen.add at hi
    obtain ⟨l, hl, hi⟩ := except_bind_ok.mp hi
    have hi := except_pure_ok.mp hi
    have hl' : l = [] := by
      split at hi
      · exact List.map_eq_nil_iff.mp hi
      · exact hi
    subst hl'
    unfold IndexGen.addIdxStmtsWithHazards at hl
    rw [ite_error_ok] at hl
    obtain ⟨part, _, hl⟩ := except_bind_ok.mp hl.2
    split at hl
    · cases hl
    · unfold IndexGen.createStatements at hl
      obtain ⟨x, _, hl⟩ := except_bind_ok.mp hl
      obtain ⟨y, _, hl⟩ := except_bind_ok.mp hl
      cases hl)
  -- materialized views
  obtain ⟨m1, m2, m3⟩ := graph_silent run.hmatViews (hpart .matView rfl)
  have madds := silent_nil m1 (by rintro v ⟨p, hp, e⟩; cases hp; cases e)
  have mdeletes := silent_nil m2 (by rintro v ⟨p, hp, e⟩; cases hp; cases e)
  obtain ⟨v1, v2, v3⟩ := graph_silent run.hviews (hpart .view rfl)
  have vadds := silent_nil v1 (by rintro v ⟨p, hp, e⟩; cases hp; cases e)
  have vdeletes := silent_nil v2 (by rintro v ⟨p, hp, e⟩; cases hp; cases e)
  refine ⟨?_, ?_, ?_, ?_, ?_, ?_, ?_, ?_, ?_, ?_, ?_, ?_⟩
  · -- schemas
    obtain ⟨k1, k2, _⟩ := resolveToSQL_spec.mp (o1 ▸ run.hschemas)
    have e1 := silent_nil (concatMapM_silent k1) (by intro a ha; cases ha)
    have e2 := silent_nil (concatMapM_silent k2) (by intro a ha; cases ha)
    refine corresponds_sort (diffLists_corresponds dr.hschemas (namesUnique_sort hu.namedSchemas) e1 e2 ?_)
    intro o _ x _ _ _ _ _ e _
    obtain ⟨o⟩ := o
    obtain ⟨x⟩ := x
    exact congrArg NamedSchema.mk e
  · -- extensions
    obtain ⟨k1, k2, k3⟩ := resolveToSQL_spec.mp (o2 ▸ run.hextensions)
    have e1 := silent_nil (concatMapM_silent k1) (by intro a ha; cases ha)
    have e2 := silent_nil (concatMapM_silent k2) (by intro a ha; cases ha)
    refine corresponds_sort (diffLists_corresponds dr.hextensions (namesUnique_sort hu.extensions) e1 e2 ?_)
    intro o _ x _ _ _ dd hd e hb
    refine ⟨e, ?_⟩
    have hd' := pairDiff_eq hb
    subst hd'
    have := concatMapM_silent k3 _ hd
    unfold ExtensionGen.alter at this
    by_contra hne
    rw [if_pos (fun e => hne e.symm)] at this
    cases this
  · -- enums
    obtain ⟨k1, k2, k3⟩ := resolveToSQL_spec.mp (o3 ▸ run.henums)
    have e1 := silent_nil (concatMapM_silent k1) (by intro a ha; cases ha)
    have e2 := silent_nil (concatMapM_silent k2) (by intro a ha; cases ha)
    refine corresponds_sort (diffLists_corresponds dr.henums (namesUnique_sort hu.enums) e1 e2 ?_)
    intro o _ x _ _ _ dd hd e hb
    have hd' := pairDiff_eq hb
    subst hd'
    exact EnumGen.alter_silent (concatMapM_silent k3 _ hd)
  · -- tables
    have hn := normalize_tables_nodup hu.tables
    refine ⟨fun o ho => ?_, fun x hx => ?_⟩
    · obtain ⟨x, hx, td, htd, j, i, e, hb⟩ := diffLists_kept_old dr.htd0 hn (mem_normalize_tables_of ho) (by rw [tdeletes]; simp)
      obtain ⟨x, hx', rfl⟩ := mem_normalize_tables hx
      exact ⟨x, hx', (tsilent td htd).indistinct e hb (hu.columns x hx') (hu.checks x hx') (hu.policies x hx') (hu.privileges x hx')⟩
    · obtain ⟨o, ho, td, htd, j, i, e, hb⟩ := diffLists_kept_new dr.htd0 hn tadds (mem_normalize_tables_of hx)
      obtain ⟨o, ho', rfl⟩ := mem_normalize_tables ho
      exact ⟨o, ho', (tsilent td htd).indistinct e hb (hu.columns x hx) (hu.checks x hx) (hu.policies x hx) (hu.privileges x hx)⟩
  · -- indexes
    have hn : NamesUnique (sortObjs new.indexes) := namesUnique_sort hu.indexes
    have hR : ∀ (o x : Index) (d' : OldNew Index), d' ∈ d.indexDiffs.alters →
        (match buildIndexDiff (indexDiffConfig old.normalize new.normalize dr.td0.adds)
          (effectiveOldIndex (indexDiffConfig old.normalize new.normalize dr.td0.adds) new.normalize.indexes o) x with
        | .error e => .error e
        | .ok none => .ok (⟨GoZero.zero, GoZero.zero⟩, true)
        | .ok (some (o', r)) => .ok (⟨o', x⟩, r) : Except Err (OldNew Index × Bool)) = .ok (d', false) → IndistinctIndex o x := by
      intro o x d' hd' hb
      split at hb
      · cases hb
      · cases hb
      · rename_i o' rr hbi
        injection hb with hb
        have e : d' = ⟨o', x⟩ := (congrArg Prod.fst hb).symm
        subst e
        have hs := IndexGen.alter_silent (i3 _ hd')
        obtain ⟨part, _, _, e1, _⟩ := buildIndexDiffAux_some hbi
        obtain ⟨c1, e2⟩ := effectiveOldIndex_eq (indexDiffConfig old.normalize new.normalize dr.td0.adds) new.normalize.indexes o
        obtain ⟨c2, e3⟩ := Index.afterDiff_eq part (effectiveOldIndex (indexDiffConfig old.normalize new.normalize dr.td0.adds) new.normalize.indexes o) x
        have hcd : constraintData o' = constraintData o := by
          rw [e1, constraintData_afterDiff, constraintData_effective]
        have ho' : o' = { o with constraint := c2 } := by rw [e1, e3, e2]
        obtain ⟨hs1, hs2⟩ := hs
        refine ⟨?_, ?_, ?_⟩
        · rw [hs1, ho']
        · rw [← hcd]
          have := congrArg constraintData hs1
          rw [this]; rfl
        · intro hx
          have := hs2 hx
          rw [ho'] at this
          exact this
    refine ⟨fun i hi hpi => ?_, fun x hx => ?_⟩
    · have him : effectiveOldIndex (indexDiffConfig old.normalize new.normalize dr.td0.adds) new.normalize.indexes i ∈
          old.normalize.indexes.map (effectiveOldIndex (indexDiffConfig old.normalize new.normalize dr.td0.adds) new.normalize.indexes) :=
        List.mem_map_of_mem (mem_sort.mpr hi)
      obtain ⟨x, hx, d', hd', j, k, e, hb⟩ := diffLists_kept_old dr.hindexes hn him (by
        intro hdel
        have := i2 _ hdel
        change IndexGen.delete _ _ = .ok [] at this
        unfold IndexGen.delete at this
        have hw : (SchemaGen.indexGen opts d run.s3).wasOwningRelationDeleted
            (effectiveOldIndex (indexDiffConfig old.normalize new.normalize dr.td0.adds) new.normalize.indexes i) = false := by
          unfold IndexGen.wasOwningRelationDeleted SchemaGen.indexGen
          dsimp only
          rw [dr.hdeletes, tdeletes, mdeletes]
          simp [byName, buildMap, GoMap.has]
        rw [if_neg (by rw [hw]; simp)] at this
        obtain ⟨c, e⟩ := effectiveOldIndex_eq (indexDiffConfig old.normalize new.normalize dr.td0.adds) new.normalize.indexes i
        have hpn : (effectiveOldIndex (indexDiffConfig old.normalize new.normalize dr.td0.adds) new.normalize.indexes i).parentIdx = none := by
          rw [e]; exact hpi
        rw [hpn] at this
        dsimp only at this
        split at this
        · cases this
        · obtain ⟨part, _, this⟩ := except_bind_ok.mp this
          split at this <;> cases this)
      exact ⟨x, mem_sort.mp hx, hR i x d' hd' hb⟩
    · obtain ⟨o', ho', d', hd', j, k, e, hb⟩ := diffLists_kept_new dr.hindexes hn iadds (mem_sort.mpr hx)
      obtain ⟨o, ho, rfl⟩ := List.mem_map.mp ho'
      exact ⟨o, mem_sort.mp ho, hR o x d' hd' hb⟩
  · -- foreign keys
    obtain ⟨k1, k2, k3⟩ := legacy_silent (m := Except Err) (g := FkGen.legacy _) run.hfks (hpart .fk rfl)
    have e1 := silent_nil k1 (by
      intro c hc
      change FkGen.add _ c = .ok [] at hc
      unfold FkGen.add at hc
      split at hc
      · split at hc
        · cases hc
        · split at hc <;> cases hc
      · cases hc)
    have e2 := silent_nil k2 (by intro a ha; cases ha)
    refine corresponds_sort (diffLists_corresponds dr.hfks (namesUnique_sort hu.foreignKeys) e1 e2 ?_)
    intro o _ x _ _ _ dd hd e hb
    unfold buildForeignKeyConstraintDiff at hb
    split at hb
    · cases hb
    · split at hb
      · cases hb
      · split at hb
        · injection hb with hb
          have hd' : dd = ⟨o, x⟩ := (congrArg Prod.fst hb).symm
          subst hd'
          exact FkGen.alter_silent (k3 _ hd)
        · split at hb <;> cases hb
  · -- sequences
    obtain ⟨k1, k2, k3⟩ := legacy_silent (m := Except Err) (g := (SchemaGen.sequenceGen d).legacy) run.hsequences (hpart .sequence rfl)
    obtain ⟨_, _, k4⟩ := legacy_silent (m := Except Err) (g := OwnershipGen.legacy) run.hownerships (hpart .ownership rfl)
    have e1 := silent_nil k1 (by intro a ha; cases ha)
    have e2 : d.sequenceDiffs.deletes = [] := by
      refine List.eq_nil_iff_forall_not_mem.mpr fun s hs => ?_
      have hso : s ∈ old.sequences := mem_sort.mp (diffLists_deletes_mem dr.hsequences hs)
      have := k2 s hs
      change SequenceGen.delete _ s = .ok [] at this
      unfold SequenceGen.delete at this
      split at this
      · rename_i o ho
        split at this
        · rename_i hc
          rw [Bool.or_eq_true] at hc
          rcases hc with hc | hc
          · unfold SequenceGen.isDeletedWithOwningTable SchemaGen.sequenceGen at hc
            dsimp only at hc
            rw [dr.hdeletes, tdeletes] at hc
            cases hc
          · unfold SequenceGen.isDeletedWithColumns SchemaGen.sequenceGen at hc
            dsimp only at hc
            cases hg : (diffByName d.tableDiffs.alters).get? o.tableName.getName with
            | none => rw [hg] at hc; cases hc
            | some td =>
              rw [hg] at hc
              obtain ⟨htd, hname⟩ := diffByName_get?_some hg
              rw [dr.halters] at htd
              obtain ⟨td0, htd0, rfl⟩ := List.mem_map.mp htd
              obtain ⟨i, x, j, t, hx, ht, en, hb⟩ := diffLists_alters_mem dr.htd0 htd0
              obtain ⟨ho1, hn1, _, _, hpar, _⟩ := buildTableDiff_ok hb
              obtain ⟨t0, ht0, rfl⟩ := mem_normalize_tables (List.mem_of_getElem? ht)
              have hname : Obj.getName x = o.tableName.getName := by
                have : Obj.getName (orderIf opts td0).new = o.tableName.getName := hname
                rw [orderIf_new, hn1] at this
                exact this
              have hpn := hseq s hso o ho t0 ht0 (en.trans hname)
              have hsil := tsilent td0 htd0
              have hbase := hsil.base (by
                rw [orderIf_new, hn1]
                unfold Table.isPartition
                rw [← hpar]
                change t0.parentTable.isSome = false
                rw [hpn]; rfl)
              obtain ⟨temps, brun, kc, _⟩ := hbase
              obtain ⟨_, l2, _⟩ := legacy_silent (m := Except Err) (g := columnLegacy _) brun.hcolumns kc
              have := silent_nil l2 (by intro c hc; cases hc)
              simp only [Option.getD_some] at hc
              rw [this] at hc
              cases hc
        · cases this
      · cases this
    refine corresponds_sort (diffLists_corresponds dr.hsequences (namesUnique_sort hu.sequences) e1 e2 ?_)
    intro o _ x _ _ _ dd hd e hb
    have hd' : dd = ⟨o, x⟩ := by
      unfold buildSequenceDiff at hb
      split at hb
      · split at hb
        · cases hb
        · injection hb with hb; exact (congrArg Prod.fst hb).symm
      · injection hb with hb; exact (congrArg Prod.fst hb).symm
    subst hd'
    have h1 := SequenceGen.alter_silent (k3 _ hd)
    have h2 : OwnershipGen.alter ⟨o, x⟩ = .ok [] := k4 _ hd
    unfold OwnershipGen.alter at h2
    have h3 : x.owner = o.owner := by
      by_contra hne
      rw [if_neg hne] at h2
      cases h2
    rw [h1, h3]
  · -- functions
    obtain ⟨k1, k2, k3⟩ := legacy_silent (m := Except Err) (g := FunctionGen.legacy) run.hfunctions (hpart .function rfl)
    have e1 := silent_nil k1 (by intro a ha; cases ha)
    have e2 := silent_nil k2 (by intro a ha; cases ha)
    have hR : ∀ a b : Function, normalizeFunction a = normalizeFunction b → SameFunction a b := by
      intro a b hab
      obtain ⟨a1, a2, a3, a4⟩ := a
      obtain ⟨b1, b2, b3, b4⟩ := b
      simp only [normalizeFunction, Function.mk.injEq] at hab
      obtain ⟨rfl, rfl, rfl, e⟩ := hab
      exact ⟨rfl, ((sortObjs_perm _).symm.trans (List.Perm.of_eq e)).trans (sortObjs_perm _)⟩
    refine corresponds_normalize hR (diffLists_corresponds dr.hfunctions (namesUnique_sort_map (fun _ => rfl) hu.functions) e1 e2 ?_)
    intro o _ x _ _ _ dd hd e hb
    have hd' := pairDiff_eq hb
    subst hd'
    have : FunctionGen.alter ⟨o, x⟩ = .ok [] := k3 _ hd
    unfold FunctionGen.alter at this
    split at this
    · assumption
    · cases this
  · -- procedures
    obtain ⟨k1, k2, k3⟩ := graph_silent run.hprocedures (hpart .procedure rfl)
    have e1 := silent_nil k1 (by rintro v ⟨p, hp, e⟩; cases hp; cases e)
    have e2 := silent_nil k2 (by rintro v ⟨p, hp, e⟩; cases hp; cases e)
    refine corresponds_sort (diffLists_corresponds dr.hprocedures (namesUnique_sort hu.procedures) e1 e2 ?_)
    intro o _ x _ _ _ dd hd e hb
    have hd' := pairDiff_eq hb
    subst hd'
    obtain ⟨p, hp, hpe⟩ := k3 _ hd
    change ProcedureGen.alter _ ⟨o, x⟩ = .ok p at hp
    unfold ProcedureGen.alter at hp
    split at hp
    · assumption
    · cases hp; cases hpe
  · -- triggers
    obtain ⟨k1, k2, k3⟩ := legacy_silent (m := Except Err) (g := TriggerGen.legacy) run.htriggers (hpart .trigger rfl)
    have e1 := silent_nil k1 (by intro a ha; cases ha)
    have e2 := silent_nil k2 (by intro a ha; cases ha)
    refine corresponds_sort (diffLists_corresponds dr.htriggers (namesUnique_sort hu.triggers) e1 e2 ?_)
    intro o _ x _ _ _ dd hd e hb
    unfold buildTriggerDiff at hb
    split at hb
    · cases hb
    · injection hb with hb
      have hd' : dd = ⟨o, x⟩ := (congrArg Prod.fst hb).symm
      subst hd'
      exact TriggerGen.alter_silent (k3 _ hd)
  · -- views
    have hR : ∀ a b : View, (normalizeView a).same (normalizeView b) = true → IndistinctView a b := by
      intro a b hab
      obtain ⟨q1, q2, q3, q4⟩ := eq_of_view_same hab
      exact ⟨q1, q2, q3, dependencies_eq q4⟩
    refine corresponds_normalize (R := fun a b : View => a.same b = true) hR (diffLists_corresponds dr.hviews (namesUnique_sort_map (fun _ => rfl) hu.views) vadds vdeletes ?_)
    intro o _ x _ _ _ dd hd e hb
    unfold buildViewDiff at hb
    obtain ⟨rr, _, hb⟩ := except_bind_ok.mp hb
    split at hb
    · cases hb
    · have : ViewGen.alter ⟨o, x⟩ = .ok .empty := by
        unfold ViewGen.gen at hb
        dsimp only at hb
        unfold ViewGen.alter at hb ⊢
        dsimp only at hb ⊢
        split
        · rfl
        · rename_i hs
          rw [if_neg hs] at hb
          cases hb
      unfold ViewGen.alter at this
      split at this
      · assumption
      · cases this
  · -- materialized views
    have hR : ∀ a b : MaterializedView, (normalizeMaterializedView a).same (normalizeMaterializedView b) = true → IndistinctMaterializedView a b := by
      intro a b hab
      obtain ⟨q1, q2, q3, q4, q5⟩ := eq_of_matView_same hab
      exact ⟨q1, q2, q3, q4, dependencies_eq q5⟩
    refine corresponds_normalize (R := fun a b : MaterializedView => a.same b = true) hR (diffLists_corresponds dr.hmatViews (namesUnique_sort_map (fun _ => rfl) hu.materializedViews) madds mdeletes ?_)
    intro o _ x _ _ _ dd hd e hb
    unfold buildMaterializedViewDiff at hb
    obtain ⟨rr, _, hb⟩ := except_bind_ok.mp hb
    split at hb
    · cases hb
    · have : MatViewGen.alter ⟨o, x⟩ = .ok .empty := by
        unfold MatViewGen.gen at hb
        dsimp only at hb
        unfold MatViewGen.alter at hb ⊢
        dsimp only at hb ⊢
        split
        · rfl
        · rename_i hs
          rw [if_neg hs] at hb
          cases hb
      unfold MatViewGen.alter at this
      split at this
      · assumption
      · cases this

namespace Samples

/-- a table with a generated column -/
def generatedBy (e : String) : Schema :=
  { Schema.empty with
    tables := [table "foo" [col "id" "integer",
      { col "double" "integer" with
        isGenerated := true
        generationExpression := e }]] }

def labelled (l : List String) : Schema :=
  { Schema.empty with
    enums := [⟨pub "mood", l⟩] }

end Samples

open Samples

theorem empty_plan {r : Rand} {old new : Schema} {opts : PlanOptions}
    (h : ∃ stmts r', generateMigrationStatements r old new opts = .ok (stmts, r') ∧ stmts = []) :
    ∃ r', generateMigrationStatements r old new opts = .ok ([], r') := by
  obtain ⟨stmts, r', h, rfl⟩ := h
  exact ⟨r', h⟩

/-- **C54** is violated: a change of the expression of a generated column gives an empty plan -/
theorem C54_generated_column_violated :
    (∃ r', generateMigrationStatements rand (generatedBy "(id * 2)") (generatedBy "(id * 3)") opts = .ok ([], r')) ∧
    ¬ SameUpToColumnOrder (generatedBy "(id * 2)") (generatedBy "(id * 3)") := by
  refine ⟨empty_plan (exists_plan (by decide +kernel)), ?_⟩
  rintro ⟨m, hm, _, h2⟩
  obtain ⟨m', hp, h1⟩ := hm.tables
  have e := List.perm_singleton.mp hp.symm
  subst e
  generalize m.tables = mt at h1 h2
  cases h1 with
  | cons hs h1 =>
    cases h1
    have hcol := (congrArg Table.columns hs.rest)
    generalize hnew : (generatedBy "(id * 3)").tables = lt at h2
    cases h2 with
    | cons hc h2 =>
      cases h2
      injection hnew with hnew
      have := hc.columns
      dsimp only at hcol
      rw [hcol, ← hnew] at this
      revert this
      decide +kernel

/-- **C54** is violated: enum labels in another order give an empty plan -/
theorem C54_enum_order_violated :
    (∃ r', generateMigrationStatements rand (labelled ["sad", "ok"]) (labelled ["ok", "sad"]) opts = .ok ([], r')) ∧
    ¬ SameUpToColumnOrder (labelled ["sad", "ok"]) (labelled ["ok", "sad"]) := by
  refine ⟨empty_plan (exists_plan (by decide +kernel)), ?_⟩
  rintro ⟨m, hm, h1, _⟩
  have h2 := congrArg Schema.enums h1
  have := hm.enums
  dsimp only at h2
  rw [← h2] at this
  revert this
  decide +kernel

/-- the hypotheses of `C54_empty_plan_partial` can be met by schemas that differ in order and in the case of a type -/
example : Indistinct
    { generatedBy "(id * 2)" with
      sequences := [seq "s", seq "t"]
      enums := [⟨pub "mood", ["sad", "ok"]⟩] }
    { generatedBy "(id * 3)" with
      sequences := [seq "t", seq "s"]
      enums := [⟨pub "mood", ["ok", "sad"]⟩] } := by
  obtain ⟨r', h⟩ := empty_plan (r := rand) (opts := opts) (old := { generatedBy "(id * 2)" with
      sequences := [seq "s", seq "t"]
      enums := [⟨pub "mood", ["sad", "ok"]⟩] }) (new := { generatedBy "(id * 3)" with
      sequences := [seq "t", seq "s"]
      enums := [⟨pub "mood", ["ok", "sad"]⟩] }) (exists_plan (by decide +kernel))
  refine C54_empty_plan_partial h ⟨?_, ?_, ?_, ?_, ?_, ?_, ?_, ?_, ?_, ?_, ?_, ?_, ?_, ?_, ?_, ?_⟩ ⟨fun _ => 0, ?_⟩ ?_
  all_goals first
    | (unfold NamesUnique; decide +kernel)
    | (intro t ht
       have ht : t ∈ (generatedBy "(id * 2)").tables := ht
       obtain rfl := List.mem_singleton.mp ht
       intro n hn
       cases hn)
    | (intro s hs o ho
       rcases List.mem_cons.mp hs with rfl | hs
       · cases ho
       · obtain rfl := List.mem_singleton.mp hs
         cases ho)

end Verif
