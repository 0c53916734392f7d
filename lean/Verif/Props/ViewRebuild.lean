import Verif.Spec.ViewRebuild
import Verif.Props.Hash
import Verif.Props.Sequence
import Verif.Props.TriggerColumn

/-!
# C101: views are made again only when they have to be
-/

namespace Verif

open Spec

/-! ### the dependencies -/

/-- a dependency that makes a view be made anew -/
theorem viewDepsRecreated_true {a : GoMap String Table} {b : GoMap String TableDiff} : ∀ {l : List TableDependency},
    viewDepsRecreated a b l = .ok true → ∃ t ∈ l, a.has (Obj.getName t) = true ∨
      ∃ td, b.get? (Obj.getName t) = some td ∧ ∃ c ∈ t.columns, (byName td.columnsDiff.deletes).has c = true := by
  intro l
  induction l with
  | nil => intro h; cases h
  | cons t l ih =>
    intro h
    unfold viewDepsRecreated at h
    by_cases h1 : a.has (Obj.getName t) = true
    · exact ⟨t, List.mem_cons_self, Or.inl h1⟩
    rw [if_neg h1] at h
    cases e : b.get? (Obj.getName t) with
    | none => rw [e] at h; cases h
    | some td =>
      rw [e] at h
      dsimp only at h
      by_cases h2 : t.columns.any (fun c => (byName td.columnsDiff.deletes).has c) = true
      · obtain ⟨c, hc, h3⟩ := List.any_eq_true.mp h2
        exact ⟨t, List.mem_cons_self, Or.inr ⟨td, e, c, hc, h3⟩⟩
      · rw [if_neg h2] at h
        obtain ⟨t', ht', h3⟩ := ih h
        exact ⟨t', List.mem_cons_of_mem _ ht', h3⟩

theorem sameMap_of_get {a b : GoMap String String} (ha : MapOk a) (hb : MapOk b) (h : a.get? = b.get?) : sameMap a b = true := by
  unfold sameMap
  rw [Bool.and_eq_true, List.all_eq_true, List.all_eq_true]
  refine ⟨fun p hp => decide_eq_true ?_, fun p hp => decide_eq_true ?_⟩
  · rw [← h]; exact GoMap.get?_of_mem (m := a) ha hp
  · rw [h]; exact GoMap.get?_of_mem (m := b) hb hp

section
variable {opts : PlanOptions} {old new : Schema} {d : SchemaDiff} {r r' : Rand} {stmts : List Statement} {n : String}

/-- the tables that are dropped -/
theorem goes_iff (dr : DiffRun opts old.normalize new.normalize d) (hn : NamesUnique new.tables) :
    (byName dr.td0.deletes).has n = true ↔ TableGoes old new n := by
  have hn' := normalize_tables_nodup hn
  have hold := diffLists_old_nodup dr.htd0
  rw [byName_has]
  constructor
  · intro h
    obtain ⟨o, ho, e⟩ := List.mem_map.mp h
    have hom := diffLists_deletes_mem dr.htd0 ho
    obtain ⟨a, ha, rfl⟩ := mem_normalize_tables hom
    refine ⟨a, ha, e, fun b hb eb => ?_⟩
    obtain ⟨j, hj⟩ := List.mem_iff_getElem?.mp hom
    have e : a.name.fq = n := e
    rcases ((C08_every_object_once dr.htd0 hn').2.1 j _ hj).mp ho with h1 | ⟨i, x, td, hi, en, hbt⟩
    · exact absurd (List.mem_map.mpr ⟨_, mem_normalize_tables_of hb, eb.trans e.symm⟩) h1
    · obtain rfl : x = normalizeTable b := List.inj_on_of_nodup_map hn' (List.mem_of_getElem? hi) (mem_normalize_tables_of hb)
        (en.symm.trans (Eq.trans e eb.symm))
      by_contra hc
      rw [not_or, not_not, not_not] at hc
      exact buildTableDiff_keeps (o := normalizeTable a) (n := normalizeTable b) hc.1 hc.2 hbt
  · rintro ⟨a, ha, e, hall⟩
    obtain ⟨dec, _⟩ := diffLists_decision dr.htd0 hn' (key := fun td : TableDiff => Obj.getName td.new)
      (fun o x j i td => table_key) n
    have ho := mem_normalize_tables_of ha
    cases dec with
    | absent h _ => exact absurd (List.mem_map.mpr ⟨_, ho, e⟩) h
    | dropped o _ e _ h => exact List.mem_map.mpr ⟨o, h, e⟩
    | added _ _ _ h _ => exact absurd (List.mem_map.mpr ⟨_, ho, e⟩) h
    | recreated o x _ _ e _ _ h _ => exact List.mem_map.mpr ⟨o, h, e⟩
    | altered o x td ho' hx eo ex hb h =>
      exfalso
      obtain rfl : o = normalizeTable a := List.inj_on_of_nodup_map hold ho' ho (eo.trans (Eq.symm e))
      obtain ⟨b, hb', rfl⟩ := mem_normalize_tables hx
      obtain ⟨i, j, hb⟩ := hb
      obtain ⟨_, _, e1, _, e2, _⟩ := buildTableDiff_ok hb
      exact (hall b hb' ex).elim (fun h => h e1) (fun h => h e2)

/-- what the loop over the dependencies of a view finds -/
theorem undercut_iff (dr : DiffRun opts old.normalize new.normalize d) (hn : NamesUnique new.tables) {deps : List TableDependency}
    {b : Bool} (h : viewDepsRecreated (byName dr.td0.deletes) (diffByName dr.td0.alters)
      ((sortObjs deps).map normalizeTableDependency) = .ok b) : b = true ↔ Undercut old new deps := by
  have hn' := normalize_tables_nodup hn
  have hold := diffLists_old_nodup dr.htd0
  constructor
  · rintro rfl
    obtain ⟨t, ht, hc⟩ := viewDepsRecreated_true h
    obtain ⟨u, hu, rfl⟩ := List.mem_map.mp ht
    refine ⟨u, mem_sort.mp hu, ?_⟩
    rcases hc with hc | ⟨td, hg, c, hcm, hc⟩
    · exact Or.inl ((goes_iff dr hn).mp hc)
    · right
      obtain ⟨htd, en⟩ := diffByName_get?_some hg
      obtain ⟨i, x, j, o, hx, ho, e, hb⟩ := diffLists_alters_mem dr.htd0 htd
      obtain ⟨_, e7, _, _, _, e8, _⟩ := buildTableDiff_ok hb
      have en : td.new.name.fq = u.name.fq := en
      rw [e7] at en
      obtain ⟨x0, hx0, rfl⟩ := mem_normalize_tables (List.mem_of_getElem? hx)
      obtain ⟨o0, ho0, rfl⟩ := mem_normalize_tables (List.mem_of_getElem? ho)
      obtain ⟨c', hc', ec⟩ := List.mem_map.mp (byName_has.mp hc)
      obtain ⟨k1, k2⟩ := (never_deletes (by intro o n i j d h; cases h) e8).mp hc'
      rw [ec] at k2
      exact ⟨c, (sortBy_perm _ _).mem_iff.mp hcm, o0, ho0, x0, hx0, Eq.trans e en, en, List.mem_map.mpr ⟨c', k1, ec⟩, k2⟩
  · rintro ⟨u, hu, hor⟩
    refine viewDepsRecreated_deleted h _ (List.mem_map_of_mem (mem_sort.mpr hu)) ?_
    rcases hor with hg | ⟨c, hc, a, ha, b', hb', ea, eb, h1, h2⟩
    · exact Or.inl ((goes_iff dr hn).mpr hg)
    · obtain ⟨dec, _, _, k1, _⟩ := diffLists_decision dr.htd0 hn' (key := fun td : TableDiff => Obj.getName td.new)
        (fun o x j i td => table_key) u.name.fq
      have hao := mem_normalize_tables_of ha
      have hbn := mem_normalize_tables_of hb'
      cases dec with
      | absent h _ => exact absurd (List.mem_map.mpr ⟨_, hao, ea⟩) h
      | dropped o _ e _ h => exact Or.inl (byName_has.mpr (List.mem_map.mpr ⟨o, h, e⟩))
      | added _ _ _ h _ => exact absurd (List.mem_map.mpr ⟨_, hao, ea⟩) h
      | recreated o x _ _ e _ _ h _ => exact Or.inl (byName_has.mpr (List.mem_map.mpr ⟨o, h, e⟩))
      | altered o x td ho' hx eo ex hb h =>
        right
        obtain rfl : o = normalizeTable a := List.inj_on_of_nodup_map hold ho' hao (eo.trans (Eq.symm ea))
        obtain rfl : x = normalizeTable b' := List.inj_on_of_nodup_map hn' hx hbn (ex.trans (Eq.symm eb))
        obtain ⟨i, j, hb⟩ := hb
        obtain ⟨_, e7, _, _, _, e8, _⟩ := buildTableDiff_ok hb
        have hget := diffByName_get?_of_mem (l := dr.td0.alters) k1 h
        have en : Obj.getName (IsDiff.getNew td) = u.name.fq := by
          show td.new.name.fq = u.name.fq
          rw [e7]; exact eb
        rw [en] at hget
        obtain ⟨y, hy, ey⟩ := List.mem_map.mp h1
        refine ⟨td, hget, c, (sortBy_perm _ _).mem_iff.mpr hc, byName_has.mpr (List.mem_map.mpr ⟨y, ?_, ey⟩)⟩
        refine (never_deletes (by intro o n i j d h; cases h) e8).mpr ⟨hy, fun hm => h2 ?_⟩
        rw [show Obj.getName y = c from ey] at hm
        exact hm

/-! ### views -/

theorem view_build_iff {o x : View} {a : GoMap String Table} {b : GoMap String TableDiff} {i j : Nat} {od : OldNew View}
    {re : Bool} (h : buildViewDiff a b o x i j = .ok (od, re)) :
    ∃ z, viewDepsRecreated a b o.tableDependencies = .ok z ∧ (re = true ↔ z = true ∨ o.same x = false) := by
  unfold buildViewDiff at h
  cases e : viewDepsRecreated a b o.tableDependencies with
  | error _ => rw [e] at h; cases h
  | ok z =>
    rw [e] at h
    refine ⟨z, rfl, ?_⟩
    cases z with
    | true => cases h; simp
    | false =>
      by_cases hsame : o.same x = true
      · have e2 : ViewGen.gen.alter ⟨o, x⟩ = .ok .empty := if_pos hsame
        simp only [bind, Except.bind, e2] at h
        cases h
        simp [hsame]
      · have e2 : ∃ e, ViewGen.gen.alter ⟨o, x⟩ = .error e := ⟨_, if_neg hsame⟩
        obtain ⟨e2, e3⟩ := e2
        simp only [bind, Except.bind, e3] at h
        rw [if_neg (by decide)] at h
        split at h
        · cases h; simp [hsame]
        · cases h

theorem matView_build_iff {o x : MaterializedView} {a : GoMap String Table} {b : GoMap String TableDiff} {i j : Nat}
    {od : OldNew MaterializedView} {re : Bool} (h : buildMaterializedViewDiff a b o x i j = .ok (od, re)) :
    ∃ z, viewDepsRecreated a b o.tableDependencies = .ok z ∧ (re = true ↔ z = true ∨ o.same x = false) := by
  unfold buildMaterializedViewDiff at h
  cases e : viewDepsRecreated a b o.tableDependencies with
  | error _ => rw [e] at h; cases h
  | ok z =>
    rw [e] at h
    refine ⟨z, rfl, ?_⟩
    cases z with
    | true => cases h; simp
    | false =>
      by_cases hsame : o.same x = true
      · have e2 : MatViewGen.gen.alter ⟨o, x⟩ = .ok .empty := if_pos hsame
        simp only [bind, Except.bind, e2] at h
        cases h
        simp [hsame]
      · have e2 : ∃ e, MatViewGen.gen.alter ⟨o, x⟩ = .error e := ⟨_, if_neg hsame⟩
        obtain ⟨e2, e3⟩ := e2
        simp only [bind, Except.bind, e3] at h
        rw [if_neg (by decide)] at h
        split at h
        · cases h; simp [hsame]
        · cases h

theorem view_same_iff {v w : View} (hd : Distinct v.tableDependencies) (hv : MapOk v.options) (hw : MapOk w.options) :
    (normalizeView v).same (normalizeView w) = true ↔ ViewUnchanged v w := by
  unfold View.same ViewUnchanged
  simp only [Bool.and_eq_true, decide_eq_true_eq]
  rw [← dependencies_iff hd]
  constructor
  · rintro ⟨⟨⟨h1, h2⟩, h3⟩, h4⟩
    exact ⟨h1, h2, sameMap_get h3, h4⟩
  · rintro ⟨h1, h2, h3, h4⟩
    exact ⟨⟨⟨h1, h2⟩, sameMap_of_get hv hw h3⟩, h4⟩

theorem matView_same_iff {v w : MaterializedView} (hd : Distinct v.tableDependencies) (hv : MapOk v.options) (hw : MapOk w.options) :
    (normalizeMaterializedView v).same (normalizeMaterializedView w) = true ↔ MatViewUnchanged v w := by
  unfold MaterializedView.same MatViewUnchanged
  simp only [Bool.and_eq_true, decide_eq_true_eq]
  rw [← dependencies_iff hd]
  constructor
  · rintro ⟨⟨⟨⟨h1, h2⟩, h3⟩, h5⟩, h4⟩
    exact ⟨h1, h2, sameMap_get h3, h5, h4⟩
  · rintro ⟨h1, h2, h3, h5, h4⟩
    exact ⟨⟨⟨⟨h1, h2⟩, sameMap_of_get hv hw h3⟩, h5⟩, h4⟩

theorem onRel_view (x : Ddl) : x.onRel .view n = rebuildsView n x := by
  cases x <;> simp [Ddl.onRel, Ddl.relation, rebuildsView]

theorem onRel_matView (x : Ddl) : x.onRel .matView n = rebuildsMatView n x := by
  cases x <;> simp [Ddl.onRel, Ddl.relation, rebuildsMatView]

/-- **C101**, for views: a view that is in both schemas is dropped and made again exactly if it changes or what it reads is taken
from it; else no statement makes or drops it. -/
theorem C101_views_made_again (h : generateMigrationStatements r old new opts = .ok (stmts, r'))
    (hn : NamesUnique new.tables) (hu : NamesUnique new.views) {v w : View} (hv : v ∈ old.views) (hw : w ∈ new.views)
    (e : v.name.fq = w.name.fq) (hd : Distinct v.tableDependencies) (mv : MapOk v.options) (mw : MapOk w.options) :
    (ViewUnchanged v w ∧ ¬ Undercut old new v.tableDependencies → ∀ s ∈ stmts, rebuildsView v.name.fq s.ddl = false) ∧
    (¬ ViewUnchanged v w ∨ Undercut old new v.tableDependencies →
      (stmts.filter fun s => rebuildsView v.name.fq s.ddl).map (·.ddl) = [.dropView v.name, .createView (normalizeView w)]) := by
  obtain ⟨d, ⟨dr⟩, ⟨run⟩⟩ := plan_runs h
  have hu' : NamesUnique new.normalize.views := (normalize_views_names new).nodup_iff.mpr hu
  have hvo := mem_normalize_views hv
  have hwn := mem_normalize_views hw
  have uo := diffLists_old_nodup dr.hviews
  have key : normalizeView v ∈ d.viewDiffs.deletes ↔ ¬ ViewUnchanged v w ∨ Undercut old new v.tableDependencies := by
    obtain ⟨dec, _, _, _, _, k2, _⟩ := diffLists_decision dr.hviews hu' (key := fun d : OldNew View => Obj.getName d.new) (by
      intro o x j i d _ hb
      cases (view_build hb).1; rfl) v.name.fq
    rw [← view_same_iff hd mv mw]
    cases dec with
    | absent h _ => exact absurd (List.mem_map.mpr ⟨_, hvo, rfl⟩) h
    | dropped _ _ _ h _ => exact absurd (List.mem_map.mpr ⟨_, hwn, e.symm⟩) h
    | added _ _ _ h _ => exact absurd (List.mem_map.mpr ⟨_, hvo, rfl⟩) h
    | recreated o x ho hx eo ex hb hm hm' =>
      obtain rfl : o = normalizeView v := List.inj_on_of_nodup_map uo ho hvo eo
      obtain rfl : x = normalizeView w := List.inj_on_of_nodup_map hu' hx hwn (ex.trans e)
      obtain ⟨i, j, od, hb⟩ := hb
      obtain ⟨z, hz, hre⟩ := view_build_iff hb
      have := hre.mp rfl
      rw [undercut_iff dr hn hz] at this
      refine iff_of_true hm (this.elim Or.inr fun h' => Or.inl (by simp [h']))
    | altered o x dd ho hx eo ex hb hm =>
      obtain rfl : o = normalizeView v := List.inj_on_of_nodup_map uo ho hvo eo
      obtain rfl : x = normalizeView w := List.inj_on_of_nodup_map hu' hx hwn (ex.trans e)
      obtain ⟨i, j, hb⟩ := hb
      have e1 := (view_build hb).1
      obtain ⟨z, hz, hre⟩ := view_build_iff hb
      have := (not_congr hre).mp (by simp)
      rw [undercut_iff dr hn hz, not_or] at this
      refine iff_of_false (fun h' => k2 (List.mem_map.mpr ⟨_, h', rfl⟩) (List.mem_map.mpr ⟨_, hm, ?_⟩)) ?_
      · rw [e1]; exact ex
      · rintro (h' | h')
        · exact this.2 (Bool.eq_false_iff.mpr h')
        · exact this.1 h'
  have drops : normalizeView v ∈ d.viewDiffs.deletes ↔ ∃ s ∈ stmts, s.ddl = .dropView v.name := by
    constructor
    · intro hdel
      obtain ⟨p, h1, h2, _⟩ := part_of_delete (m := Except Err) (g := ViewGen.gen) run.hviews hdel
      have e : ViewGen.delete (normalizeView v) = .ok p := h1
      unfold ViewGen.delete at e
      rw [Except.ok.injEq] at e
      subst e
      exact ⟨_, run.mem_of_graph (p := run.views) (by simp) (PartialGraph.mem_statements.mpr
        ⟨_, h2 _ List.mem_cons_self, List.mem_cons_self⟩), rfl⟩
    · rintro ⟨s, hs, es⟩
      obtain ⟨id, hg⟩ := run.mem_shape hs (by rw [es]; exact fun h => h)
      obtain ⟨_, y, hy, ey⟩ := hg.dropView_vertex es
      obtain rfl : y = normalizeView v := List.inj_on_of_nodup_map uo (diffLists_deletes_mem dr.hviews hy) hvo
        (congrArg SQName.getName ey)
      exact hy
  rw [← key, drops]
  have filt : (stmts.filter fun s : Statement => s.ddl.onRel .view v.name.fq) =
      stmts.filter fun s => rebuildsView v.name.fq s.ddl := List.filter_congr fun s _ => onRel_view s.ddl
  have drop_mem : (∃ s ∈ stmts, s.ddl = .dropView v.name) →
      ∃ s ∈ stmts.filter (fun s => rebuildsView v.name.fq s.ddl), s.ddl = .dropView v.name := by
    rintro ⟨s, hs, es⟩
    exact ⟨s, List.mem_filter.mpr ⟨hs, by rw [es]; exact decide_eq_true rfl⟩, es⟩
  have fate := view_fate dr run hu' v.name.fq
  rw [filt] at fate
  constructor
  · rintro ⟨hs, hno⟩
    have hnd : ¬ ∃ s ∈ stmts, s.ddl = .dropView v.name := fun h' => by
      rcases key.mp (drops.mpr h') with h1 | h1
      · exact h1 hs
      · exact hno h1
    cases fate with
    | absent h _ _ => exact absurd rfl (h (normalizeView v) hvo)
    | dropped _ _ _ h _ _ => exact absurd e.symm (h (normalizeView w) hwn)
    | added _ _ _ h _ _ => exact absurd rfl (h (normalizeView v) hvo)
    | recreated o x ho hx eo ex hf =>
      obtain rfl : o = normalizeView v := List.inj_on_of_nodup_map uo ho hvo eo
      have hm : stmt (.dropView (normalizeView v).name) ∈ stmts.filter (fun s => rebuildsView v.name.fq s.ddl) := by
        rw [hf]; exact List.mem_cons_self
      exact absurd ⟨_, (List.mem_filter.mp hm).1, rfl⟩ hnd
    | same _ _ _ _ _ _ _ hf => exact filter_nil_false hf
  · intro hdr
    cases fate with
    | absent h _ _ => exact absurd rfl (h (normalizeView v) hvo)
    | dropped _ _ _ h _ _ => exact absurd e.symm (h (normalizeView w) hwn)
    | added _ _ _ h _ _ => exact absurd rfl (h (normalizeView v) hvo)
    | recreated o x ho hx eo ex hf =>
      obtain rfl : o = normalizeView v := List.inj_on_of_nodup_map uo ho hvo eo
      obtain rfl : x = normalizeView w := List.inj_on_of_nodup_map hu' hx hwn (ex.trans e)
      rw [hf]; rfl
    | same _ _ _ _ _ _ _ hf =>
      obtain ⟨s, hs, _⟩ := drop_mem hdr
      rw [hf] at hs; cases hs

/-- **C101**, for materialized views: one that is in both schemas is dropped and made again exactly if it changes or what it reads is taken
from it; else no statement makes or drops it. -/
theorem C101_materialized_views_made_again (h : generateMigrationStatements r old new opts = .ok (stmts, r'))
    (hn : NamesUnique new.tables) (hu : NamesUnique new.materializedViews) {v w : MaterializedView} (hv : v ∈ old.materializedViews) (hw : w ∈ new.materializedViews)
    (e : v.name.fq = w.name.fq) (hd : Distinct v.tableDependencies) (mv : MapOk v.options) (mw : MapOk w.options) :
    (MatViewUnchanged v w ∧ ¬ Undercut old new v.tableDependencies → ∀ s ∈ stmts, rebuildsMatView v.name.fq s.ddl = false) ∧
    (¬ MatViewUnchanged v w ∨ Undercut old new v.tableDependencies →
      (stmts.filter fun s => rebuildsMatView v.name.fq s.ddl).map (·.ddl) = [.dropMaterializedView v.name, .createMaterializedView (normalizeMaterializedView w)]) := by
  obtain ⟨d, ⟨dr⟩, ⟨run⟩⟩ := plan_runs h
  have hu' : NamesUnique new.normalize.materializedViews := (normalize_matViews_names new).nodup_iff.mpr hu
  have hvo := mem_normalize_matViews hv
  have hwn := mem_normalize_matViews hw
  have uo := diffLists_old_nodup dr.hmatViews
  have key : normalizeMaterializedView v ∈ d.materializedViewDiffs.deletes ↔ ¬ MatViewUnchanged v w ∨ Undercut old new v.tableDependencies := by
    obtain ⟨dec, _, _, _, _, k2, _⟩ := diffLists_decision dr.hmatViews hu' (key := fun d : OldNew MaterializedView => Obj.getName d.new) (by
      intro o x j i d _ hb
      cases (matView_build hb).1; rfl) v.name.fq
    rw [← matView_same_iff hd mv mw]
    cases dec with
    | absent h _ => exact absurd (List.mem_map.mpr ⟨_, hvo, rfl⟩) h
    | dropped _ _ _ h _ => exact absurd (List.mem_map.mpr ⟨_, hwn, e.symm⟩) h
    | added _ _ _ h _ => exact absurd (List.mem_map.mpr ⟨_, hvo, rfl⟩) h
    | recreated o x ho hx eo ex hb hm hm' =>
      obtain rfl : o = normalizeMaterializedView v := List.inj_on_of_nodup_map uo ho hvo eo
      obtain rfl : x = normalizeMaterializedView w := List.inj_on_of_nodup_map hu' hx hwn (ex.trans e)
      obtain ⟨i, j, od, hb⟩ := hb
      obtain ⟨z, hz, hre⟩ := matView_build_iff hb
      have := hre.mp rfl
      rw [undercut_iff dr hn hz] at this
      refine iff_of_true hm (this.elim Or.inr fun h' => Or.inl (by simp [h']))
    | altered o x dd ho hx eo ex hb hm =>
      obtain rfl : o = normalizeMaterializedView v := List.inj_on_of_nodup_map uo ho hvo eo
      obtain rfl : x = normalizeMaterializedView w := List.inj_on_of_nodup_map hu' hx hwn (ex.trans e)
      obtain ⟨i, j, hb⟩ := hb
      have e1 := (matView_build hb).1
      obtain ⟨z, hz, hre⟩ := matView_build_iff hb
      have := (not_congr hre).mp (by simp)
      rw [undercut_iff dr hn hz, not_or] at this
      refine iff_of_false (fun h' => k2 (List.mem_map.mpr ⟨_, h', rfl⟩) (List.mem_map.mpr ⟨_, hm, ?_⟩)) ?_
      · rw [e1]; exact ex
      · rintro (h' | h')
        · exact this.2 (Bool.eq_false_iff.mpr h')
        · exact this.1 h'
  have drops : normalizeMaterializedView v ∈ d.materializedViewDiffs.deletes ↔ ∃ s ∈ stmts, s.ddl = .dropMaterializedView v.name := by
    constructor
    · intro hdel
      obtain ⟨p, h1, h2, _⟩ := part_of_delete (m := Except Err) (g := MatViewGen.gen) run.hmatViews hdel
      have e : MatViewGen.delete (normalizeMaterializedView v) = .ok p := h1
      unfold MatViewGen.delete at e
      rw [Except.ok.injEq] at e
      subst e
      exact ⟨_, run.mem_of_graph (p := run.matViews) (by simp) (PartialGraph.mem_statements.mpr
        ⟨_, h2 _ List.mem_cons_self, List.mem_cons_self⟩), rfl⟩
    · rintro ⟨s, hs, es⟩
      obtain ⟨id, hg⟩ := run.mem_shape hs (by rw [es]; exact fun h => h)
      obtain ⟨_, y, hy, ey⟩ := hg.dropMatView_vertex es
      obtain rfl : y = normalizeMaterializedView v := List.inj_on_of_nodup_map uo (diffLists_deletes_mem dr.hmatViews hy) hvo
        (congrArg SQName.getName ey)
      exact hy
  rw [← key, drops]
  have filt : (stmts.filter fun s : Statement => s.ddl.onRel .matView v.name.fq) =
      stmts.filter fun s => rebuildsMatView v.name.fq s.ddl := List.filter_congr fun s _ => onRel_matView s.ddl
  have drop_mem : (∃ s ∈ stmts, s.ddl = .dropMaterializedView v.name) →
      ∃ s ∈ stmts.filter (fun s => rebuildsMatView v.name.fq s.ddl), s.ddl = .dropMaterializedView v.name := by
    rintro ⟨s, hs, es⟩
    exact ⟨s, List.mem_filter.mpr ⟨hs, by rw [es]; exact decide_eq_true rfl⟩, es⟩
  have fate := matView_fate dr run hu' v.name.fq
  rw [filt] at fate
  constructor
  · rintro ⟨hs, hno⟩
    have hnd : ¬ ∃ s ∈ stmts, s.ddl = .dropMaterializedView v.name := fun h' => by
      rcases key.mp (drops.mpr h') with h1 | h1
      · exact h1 hs
      · exact hno h1
    cases fate with
    | absent h _ _ => exact absurd rfl (h (normalizeMaterializedView v) hvo)
    | dropped _ _ _ h _ _ => exact absurd e.symm (h (normalizeMaterializedView w) hwn)
    | added _ _ _ h _ _ => exact absurd rfl (h (normalizeMaterializedView v) hvo)
    | recreated o x ho hx eo ex hf =>
      obtain rfl : o = normalizeMaterializedView v := List.inj_on_of_nodup_map uo ho hvo eo
      have hm : stmt (.dropMaterializedView (normalizeMaterializedView v).name) ∈ stmts.filter (fun s => rebuildsMatView v.name.fq s.ddl) := by
        rw [hf]; exact List.mem_cons_self
      exact absurd ⟨_, (List.mem_filter.mp hm).1, rfl⟩ hnd
    | same _ _ _ _ _ _ _ hf => exact filter_nil_false hf
  · intro hdr
    cases fate with
    | absent h _ _ => exact absurd rfl (h (normalizeMaterializedView v) hvo)
    | dropped _ _ _ h _ _ => exact absurd e.symm (h (normalizeMaterializedView w) hwn)
    | added _ _ _ h _ _ => exact absurd rfl (h (normalizeMaterializedView v) hvo)
    | recreated o x ho hx eo ex hf =>
      obtain rfl : o = normalizeMaterializedView v := List.inj_on_of_nodup_map uo ho hvo eo
      obtain rfl : x = normalizeMaterializedView w := List.inj_on_of_nodup_map hu' hx hwn (ex.trans e)
      rw [hf]; rfl
    | same _ _ _ _ _ _ _ hf =>
      obtain ⟨s, hs, _⟩ := drop_mem hdr
      rw [hf] at hs; cases hs

/-! ### C98, for every plan -/

theorem strikes_unsettles {t c : String} {x : Ddl} (h : strikes t c x = true) : unsettles t c x = true := by
  cases x with
  | alterTable x a => cases a <;> exact h
  | _ => cases h

/-- a view that reads a column is there when the column is dropped or changes its type, if nothing happens to the view -/
theorem reader_rejects {pg : Pg} {t c : String} {s : Slot} (hs : ∃ x ∈ stmts, strikes t c x.ddl = true)
    (hv : ∀ x ∈ stmts, x.ddl.onView n = false) : runViewColumn pg n t c (s, true) stmts = none := by
  induction stmts generalizing s with
  | nil => obtain ⟨x, hx, _⟩ := hs; cases hx
  | cons y l ih =>
    unfold runViewColumn
    rw [runWith]
    by_cases hy : strikes t c y.ddl = true
    · have : viewColumnStep pg n t c (s, true) y.ddl = none := by
        unfold viewColumnStep
        split
        · rfl
        · rw [if_pos ⟨strikes_unsettles hy, rfl⟩]
      rw [this]; rfl
    · cases e : viewColumnStep pg n t c (s, true) y.ddl with
      | none => rfl
      | some q =>
        have hq : q.2 = true := by
          unfold viewColumnStep at e
          split at e
          · cases e
          · split at e
            · cases e
            · obtain ⟨z, _, rfl⟩ := Option.map_eq_some_iff.mp e
              exact readerStep_skip (hv y List.mem_cons_self) true
        obtain ⟨q1, q2⟩ := q
        cases hq
        rw [Option.bind_some]
        refine ih ?_ fun x hx => hv x (List.mem_cons_of_mem _ hx)
        obtain ⟨x, hx, hst⟩ := hs
        rcases List.mem_cons.mp hx with rfl | hx
        · exact absurd hst hy
        · exact ⟨x, hx, hst⟩

/-- **C98** (violated): whenever a column changes its type while a view that reads it stays as it is, and nothing the view reads is
taken from it, Postgres rejects the plan: the view is left in place. -/
theorem C98_kept_view_violated (h : generateMigrationStatements r old new opts = .ok (stmts, r')) {t c : String} {pg : Pg}
    (hn : NamesUnique new.tables) (hu : NamesUnique new.views) (hm : NamesUnique new.materializedViews)
    (hp : ColumnsPlannable pg old new t) (hs : Struck old new t c) {v w : View} (hv : v ∈ old.views) (hw : w ∈ new.views)
    (hk : ViewName old new v.name.fq) (hd : Distinct v.tableDependencies) (mv : MapOk v.options) (mw : MapOk w.options)
    (same : ViewUnchanged v w) (kept : ¬ Undercut old new v.tableDependencies) (reads : readsColumn t c v.tableDependencies = true) :
    runViewColumn pg v.name.fq t c (slotOf old t c, readerOf old v.name.fq t c) stmts = none := by
  have e : v.name.fq = w.name.fq := by rw [same.1]
  have h1 := (C101_views_made_again h hn hu hv hw e hd mv mw).1 ⟨same, kept⟩
  have hr : readerOf old v.name.fq t c = true := Bool.or_eq_true_iff.mpr (Or.inl (List.any_eq_true.mpr
    ⟨v, hv, Bool.and_eq_true_iff.mpr ⟨decide_eq_true rfl, reads⟩⟩))
  rw [hr]
  refine reader_rejects (struck_strikes h hn hp hs) fun s hs => ?_
  unfold Ddl.onView
  rw [onRel_view, h1 s hs, Bool.false_or]
  obtain ⟨d, ⟨dr⟩, ⟨run⟩⟩ := plan_runs h
  have hm' : NamesUnique new.normalize.materializedViews := (normalize_matViews_names new).nodup_iff.mpr hm
  have hk' := viewName_normalize hk
  have no : v.name.fq ∉ relNames old.normalize .matView ∧ v.name.fq ∉ relNames new.normalize .matView :=
    ⟨hk'.oldKind (List.mem_map.mpr ⟨_, mem_normalize_views hv, rfl⟩),
      hk'.newKind (List.mem_map.mpr ⟨_, mem_normalize_views hw, e.symm⟩)⟩
  have hf : (stmts.filter fun s : Statement => s.ddl.onRel .matView v.name.fq) = [] := by
    cases matView_fate dr run hm' v.name.fq with
    | absent _ _ hf => exact hf
    | dropped o ho e _ _ _ => exact absurd (List.mem_map.mpr ⟨o, ho, e⟩) no.1
    | added x hx e _ _ _ => exact absurd (List.mem_map.mpr ⟨x, hx, e⟩) no.2
    | recreated o _ ho _ e _ _ => exact absurd (List.mem_map.mpr ⟨o, ho, e⟩) no.1
    | same o _ ho _ e _ _ _ => exact absurd (List.mem_map.mpr ⟨o, ho, e⟩) no.1
  exact filter_nil_false hf s hs

end

/-! ### examples -/

namespace Samples

/-- a view with options -/
def optionView (n t : String) (cols : List String) (options : GoMap String String) : View := { view n t cols with options := options }

/-- views of a table that stays and of a table that becomes partitioned -/
def oldRebuild : Schema := { Schema.empty with
  tables := [table "a" [col "x" "integer", col "y" "integer"], table "b" [col "z" "integer"]]
  views := [optionView "v" "a" ["x", "y"] [("check_option", "local"), ("security_barrier", "true")], view "w" "b" ["z"],
    optionView "o" "a" ["x"] [("check_option", "local")]]
  materializedViews := [matView "m" "a" ["x"], matView "n" "b" ["z"]] }

/-- the target of `oldRebuild`: `v` is written down in another order, an option of `o` changes -/
def newRebuild : Schema := { Schema.empty with
  tables := [table "a" [col "x" "integer", col "y" "integer", col "z" "integer"], parent "b" [col "z" "integer"] "LIST (z)"]
  views := [view "w" "b" ["z"], optionView "v" "a" ["y", "x"] [("security_barrier", "true"), ("check_option", "local")],
    optionView "o" "a" ["x"] [("check_option", "cascaded")]]
  materializedViews := [matView "m" "a" ["x"], matView "n" "b" ["z"]] }

instance (m : GoMap String String) : Decidable (MapOk m) := by unfold MapOk; infer_instance

theorem distinct_one (u : TableDependency) : Distinct [u] := by
  intro a ha b hb _
  rw [List.mem_singleton.mp ha, List.mem_singleton.mp hb]

instance (old new : Schema) (n c : String) : Decidable (ColumnGoes old new n c) := by unfold ColumnGoes; infer_instance

instance (old new : Schema) (n : String) : Decidable (TableGoes old new n) := by unfold TableGoes; infer_instance

instance (old new : Schema) (l : List TableDependency) : Decidable (Undercut old new l) := by unfold Undercut; infer_instance

end Samples

open Samples in
/-- the hypotheses of C101 can be met, with a view that stays, one that reads a table that is made again and one that changes -/
example : (∃ stmts r', generateMigrationStatements Samples.rand oldRebuild newRebuild opts = .ok (stmts, r') ∧
      (∀ s ∈ stmts, rebuildsView (pub "v").fq s.ddl = false) ∧
      (stmts.filter fun s => rebuildsView (pub "w").fq s.ddl).map (·.ddl) = [.dropView (pub "w"), .createView (view "w" "b" ["z"])] ∧
      (stmts.filter fun s => rebuildsView (pub "o").fq s.ddl).map (·.ddl) =
        [.dropView (pub "o"), .createView (optionView "o" "a" ["x"] [("check_option", "cascaded")])]) := by
  obtain ⟨stmts, r', h, hl⟩ := exists_plan (r := Samples.rand) (old := oldRebuild) (new := newRebuild) (opts := opts)
    (P := fun stmts => 2 ≤ stmts.length) (by decide +kernel)
  have hn : NamesUnique newRebuild.tables := by unfold NamesUnique; decide +kernel
  have hu : NamesUnique newRebuild.views := by unfold NamesUnique; decide +kernel
  refine ⟨stmts, r', h, ?_, ?_, ?_⟩
  · refine (C101_views_made_again h hn hu (v := optionView "v" "a" ["x", "y"] [("check_option", "local"), ("security_barrier", "true")])
      (w := optionView "v" "a" ["y", "x"] [("security_barrier", "true"), ("check_option", "local")]) (by decide +kernel)
      (by decide +kernel) rfl (distinct_one _) (by decide) (by decide)).1 ⟨⟨rfl, rfl, ?_, ?_⟩, by decide +kernel⟩
    · exact sameMap_get (by decide +kernel)
    · exact ⟨_, .refl _, .cons ⟨rfl, by decide⟩ .nil⟩
  · exact (C101_views_made_again h hn hu (v := view "w" "b" ["z"]) (w := view "w" "b" ["z"]) (by decide +kernel) (by decide +kernel) rfl
      (distinct_one _) (by decide) (by decide)).2 (Or.inr (by decide +kernel))
  · refine (C101_views_made_again h hn hu (v := optionView "o" "a" ["x"] [("check_option", "local")])
      (w := optionView "o" "a" ["x"] [("check_option", "cascaded")]) (by decide +kernel) (by decide +kernel) rfl
      (distinct_one _) (by decide) (by decide)).2 (Or.inl fun hs => ?_)
    exact absurd (congrFun hs.2.2.1 "check_option") (by decide +kernel)

open Samples in
/-- the same for materialized views -/
example : (∃ stmts r', generateMigrationStatements Samples.rand oldRebuild newRebuild opts = .ok (stmts, r') ∧
      (∀ s ∈ stmts, rebuildsMatView (pub "m").fq s.ddl = false) ∧
      (stmts.filter fun s => rebuildsMatView (pub "n").fq s.ddl).map (·.ddl) =
        [.dropMaterializedView (pub "n"), .createMaterializedView (matView "n" "b" ["z"])]) := by
  obtain ⟨stmts, r', h, hl⟩ := exists_plan (r := Samples.rand) (old := oldRebuild) (new := newRebuild) (opts := opts)
    (P := fun stmts => 2 ≤ stmts.length) (by decide +kernel)
  have hn : NamesUnique newRebuild.tables := by unfold NamesUnique; decide +kernel
  have hu : NamesUnique newRebuild.materializedViews := by unfold NamesUnique; decide +kernel
  refine ⟨stmts, r', h, ?_, ?_⟩
  · exact (C101_materialized_views_made_again h hn hu (v := matView "m" "a" ["x"]) (w := matView "m" "a" ["x"]) (by decide +kernel)
      (by decide +kernel) rfl (distinct_one _) (by decide) (by decide)).1
      ⟨⟨rfl, rfl, rfl, rfl, ⟨_, .refl _, .cons ⟨rfl, .refl _⟩ .nil⟩⟩, by decide +kernel⟩
  · exact (C101_materialized_views_made_again h hn hu (v := matView "n" "b" ["z"]) (w := matView "n" "b" ["z"]) (by decide +kernel)
      (by decide +kernel) rfl (distinct_one _) (by decide) (by decide)).2 (Or.inr (by decide +kernel))

open Samples in
/-- `C98_kept_view_violated` is not vacuous -/
example : ∃ stmts r', generateMigrationStatements Samples.rand (typeViewColumns "integer") (typeViewColumns "bigint") opts =
      .ok (stmts, r') ∧
    runViewColumn pg (pub "v").fq (pub "a").fq "x" (slotOf (typeViewColumns "integer") (pub "a").fq "x",
      readerOf (typeViewColumns "integer") (pub "v").fq (pub "a").fq "x") stmts = none := by
  obtain ⟨stmts, r', h, hl⟩ := exists_plan (r := Samples.rand) (old := typeViewColumns "integer") (new := typeViewColumns "bigint")
    (opts := opts) (P := fun stmts => 2 ≤ stmts.length) (by decide +kernel)
  refine ⟨stmts, r', h, C98_kept_view_violated (v := view "v" "a" ["x"]) (w := view "v" "a" ["x"]) h (by unfold NamesUnique; decide +kernel)
    (by unfold NamesUnique; decide +kernel) (by unfold NamesUnique; decide +kernel) (columnsPlannable_of (by decide +kernel) _)
    (by decide +kernel) (by decide +kernel) (by decide +kernel) (by constructor <;> decide +kernel) (distinct_one _) (by decide)
    (by decide) ⟨rfl, rfl, rfl, ⟨_, .refl _, .cons ⟨rfl, .refl _⟩ .nil⟩⟩ (by decide +kernel) (by decide +kernel)⟩

end Verif
