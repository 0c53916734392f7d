import Verif.Spec.ViewColumn
import Verif.Props.ViewRun
import Verif.Props.Columns

/-!
# C98: views and the columns they read
-/

namespace Verif

open Spec

/-! ### the machine -/

section
variable {pg : Pg} {n t c : String}

/-- the views over a list of statements -/
def readerRun (n t c : String) (b : Bool) (l : List Statement) : Bool := l.foldl (fun b x => readerStep n t c b x.ddl) b

/-- if no view is made too early and no column unsettled too late, the plan runs as far as the column is concerned -/
theorem runViewColumn_of : ∀ {l : List Statement} {b : Bool} {s s' : Slot}, runSlot pg t c s l = some s' →
    (∀ pre x post, l = pre ++ x :: post → ∀ q, runSlot pg t c s pre = some q →
      (makesReader n t c x.ddl = true → (q.bind id).isSome = true) ∧
      (unsettles t c x.ddl = true → readerRun n t c b pre = false)) →
    runViewColumn pg n t c (s, b) l = some (s', readerRun n t c b l) := by
  intro l
  induction l with
  | nil => intro b s s' hs _; cases hs; rfl
  | cons x l ih =>
    intro b s s' hs hg
    unfold runSlot at hs
    rw [runWith] at hs
    obtain ⟨s1, h1, h2⟩ := Option.bind_eq_some_iff.mp hs
    obtain ⟨g1, g2⟩ := hg [] x l rfl s rfl
    have hstep : viewColumnStep pg n t c (s, b) x.ddl = some (s1, readerStep n t c b x.ddl) := by
      unfold viewColumnStep
      rw [if_neg, if_neg]
      · simp only [h1, Option.map_some]
      · rintro ⟨e1, e2⟩; rw [show b = false from g2 e1] at e2; cases e2
      · rintro ⟨e1, e2⟩; rw [g1 e1] at e2; cases e2
    unfold runViewColumn
    rw [runWith_cons hstep]
    refine ih h2 fun pre y post e q hq => ?_
    refine hg (x :: pre) y post (by rw [e]; rfl) q ?_
    unfold runSlot
    rw [runWith_cons h1]; exact hq

/-- the statement makes or drops a view called `n` -/
theorem readerStep_skip {x : Ddl} (h : x.onView n = false) (b : Bool) : readerStep n t c b x = b := by
  have h : (x.onRel .view n || x.onRel .matView n) = false := h
  rw [Bool.or_eq_false_iff] at h
  have h1 := of_decide_eq_false h.1
  have h2 := of_decide_eq_false h.2
  cases x with
  | createView v => exact if_neg fun e => h1 (by rw [← e]; rfl)
  | createMaterializedView v => exact if_neg fun e => h2 (by rw [← e]; rfl)
  | dropView v => exact if_neg fun e => h1 (by rw [← e]; rfl)
  | dropMaterializedView v => exact if_neg fun e => h2 (by rw [← e]; rfl)
  | _ => rfl

theorem readerRun_skip {l : List Statement} (h : ∀ s ∈ l, s.ddl.onView n = false) (b : Bool) : readerRun n t c b l = b := by
  induction l generalizing b with
  | nil => rfl
  | cons x l ih =>
    show readerRun n t c (readerStep n t c b x.ddl) l = b
    rw [readerStep_skip (h x List.mem_cons_self), ih fun s hs => h s (List.mem_cons_of_mem _ hs)]

/-- the statement drops a view called `n` -/
def Ddl.dropsReader (n : String) : Ddl → Bool
  | .dropView x => x.fq = n
  | .dropMaterializedView x => x.fq = n
  | _ => false

/-- a view that reads was there from the beginning, or a statement made it -/
theorem reader_origin : ∀ {l : List Statement} {b : Bool}, readerRun n t c b l = true →
    (∃ s ∈ l, makesReader n t c s.ddl = true) ∨ (b = true ∧ ∀ s ∈ l, s.ddl.dropsReader n = false) := by
  intro l
  induction l with
  | nil => intro b h; exact Or.inr ⟨h, by simp⟩
  | cons x l ih =>
    intro b h
    rcases ih (b := readerStep n t c b x.ddl) h with ⟨s, hs, e⟩ | ⟨hb, hd⟩
    · exact Or.inl ⟨s, List.mem_cons_of_mem _ hs, e⟩
    have keep : b = true → x.ddl.dropsReader n = false → b = true ∧ ∀ s ∈ x :: l, s.ddl.dropsReader n = false := by
      intro e1 e2
      refine ⟨e1, fun s hs => ?_⟩
      rcases List.mem_cons.mp hs with rfl | hs
      · exact e2
      · exact hd s hs
    cases e : x.ddl with
    | createView v =>
      rw [e] at hb
      by_cases hv : v.name.fq = n
      · left
        refine ⟨x, List.mem_cons_self, ?_⟩
        rw [e]
        rw [show readerStep n t c b (.createView v) = _ from if_pos hv] at hb
        show (decide (v.name.fq = n) && readsColumn t c v.tableDependencies) = true
        rw [decide_eq_true hv, hb]; rfl
      · rw [show readerStep n t c b (.createView v) = _ from if_neg hv] at hb
        exact Or.inr (keep hb (by rw [e]; rfl))
    | createMaterializedView v =>
      rw [e] at hb
      by_cases hv : v.name.fq = n
      · left
        refine ⟨x, List.mem_cons_self, ?_⟩
        rw [e]
        rw [show readerStep n t c b (.createMaterializedView v) = _ from if_pos hv] at hb
        show (decide (v.name.fq = n) && readsColumn t c v.tableDependencies) = true
        rw [decide_eq_true hv, hb]; rfl
      · rw [show readerStep n t c b (.createMaterializedView v) = _ from if_neg hv] at hb
        exact Or.inr (keep hb (by rw [e]; rfl))
    | dropView v =>
      rw [e] at hb
      by_cases hv : v.fq = n
      · rw [show readerStep n t c b (.dropView v) = _ from if_pos hv] at hb; cases hb
      · rw [show readerStep n t c b (.dropView v) = _ from if_neg hv] at hb
        exact Or.inr (keep hb (by rw [e]; exact decide_eq_false hv))
    | dropMaterializedView v =>
      rw [e] at hb
      by_cases hv : v.fq = n
      · rw [show readerStep n t c b (.dropMaterializedView v) = _ from if_pos hv] at hb; cases hb
      · rw [show readerStep n t c b (.dropMaterializedView v) = _ from if_neg hv] at hb
        exact Or.inr (keep hb (by rw [e]; exact decide_eq_false hv))
    | _ => rw [e] at hb; exact Or.inr (keep hb (by rw [e]; rfl))

/-- a list has a last element with a property, or none -/
theorem last_or_none {σ : Type} (P : σ → Bool) : ∀ l : List σ, (∀ x ∈ l, P x = false) ∨
    ∃ a x b, l = a ++ x :: b ∧ P x = true ∧ ∀ y ∈ b, P y = false := by
  intro l
  induction l with
  | nil => exact Or.inl (by simp)
  | cons x l ih =>
    rcases ih with h | ⟨a, y, b, rfl, hy, hb⟩
    · cases hx : P x with
      | true => exact Or.inr ⟨[], x, l, rfl, hx, h⟩
      | false =>
        refine Or.inl fun y hy => ?_
        rcases List.mem_cons.mp hy with rfl | hy
        · exact hx
        · exact h y hy
    · exact Or.inr ⟨x :: a, y, b, rfl, hy, hb⟩

end

/-! ### the order of the statements -/

/-- makes or drops the table `t`, or is about one of its columns -/
def Ddl.onTableColumns (t : String) : Ddl → Bool
  | .createTable x _ _ => x.fq = t
  | .dropTable x => x.fq = t
  | .alterTable x a => x.fq = t && onColumns a
  | _ => false

theorem slotStep_off (pg : Pg) {t c : String} {x : Ddl} (h : x.onTableColumns t = false) (s : Slot) :
    slotStep pg t c s x = some s := by
  cases x with
  | createTable t' defs p => exact if_neg (of_decide_eq_false h)
  | dropTable t' => exact if_neg (of_decide_eq_false h)
  | alterTable t' a => exact if_neg (by rw [show (decide (t'.fq = t) && onColumns a) = false from h]; simp)
  | _ => rfl

theorem onTableColumns_not_outer {t : String} {x : Ddl} (h : x.onTableColumns t = true) : ¬ x.IsOuter := by
  cases x <;> first | exact fun h => h | cases h

theorem unsettles_onTableColumns {t c : String} {x : Ddl} (h : unsettles t c x = true) : x.onTableColumns t = true := by
  cases x with
  | dropTable x => exact h
  | alterTable x a =>
    cases a with
    | dropColumn c' =>
      have h : (decide (x.fq = t) && decide (c' = c)) = true := h
      exact Bool.and_eq_true_iff.mpr ⟨(Bool.and_eq_true_iff.mp h).1, rfl⟩
    | alterColumn c' a =>
      have h : (decide (x.fq = t) && decide (c' = c) && changesType a) = true := h
      exact Bool.and_eq_true_iff.mpr ⟨(Bool.and_eq_true_iff.mp (Bool.and_eq_true_iff.mp h).1).1, rfl⟩
    | _ => cases h
  | _ => cases h

section
variable {opts : PlanOptions} {old new : Schema} {d : SchemaDiff} {r r' : Rand} {stmts : List Statement} {n t c : String}

theorem onTableColumns_id {st : GenState} {id : VertexId} {s : Statement} (h : GraphShape opts d st id s)
    (hs : s.ddl.onTableColumns t = true) : id = ⟨"table", t, .addAlter⟩ ∨ id = ⟨"table", t, .delete⟩ := by
  by_cases h' : s.ddl.onSlots t = true
  · exact Or.inl (slot_id h h')
  · right
    have hd : ∃ x : SQName, s.ddl = .dropTable x ∧ x.fq = t := by
      cases e : s.ddl with
      | dropTable x => rw [e] at hs; exact ⟨x, rfl, of_decide_eq_true hs⟩
      | createTable x _ _ => rw [e] at hs h'; exact absurd hs h'
      | alterTable x a => rw [e] at hs h'; exact absurd hs h'
      | _ => rw [e] at hs; cases hs
    obtain ⟨x, hx, e⟩ := hd
    cases h with
    | dropTable w hw hp hid =>
      cases hx
      rw [hid]; unfold tableVertexId; rw [e]
    | newTable t h ccs hc s hs' hid => cases hs' <;> cases hx
    | alterTable td h s hs' hid =>
      cases hs' with
      | column cd h s hs' => cases hs' <;> cases hx
      | _ => cases hx
    | _ => cases hx

theorem reads_dep {deps : List TableDependency} (h : readsColumn t c deps = true) : ∃ u ∈ deps, u.name.fq = t ∧ c ∈ u.columns := by
  obtain ⟨u, hu, h⟩ := List.any_eq_true.mp h
  obtain ⟨h1, h2⟩ := Bool.and_eq_true_iff.mp h
  exact ⟨u, hu, of_decide_eq_true h1, of_decide_eq_true h2⟩

/-- a view is dropped before the tables it read are touched -/
theorem reader_dropped_first (dr : DiffRun opts old new d) (run : PlanRun opts d r r' stmts) {v : View} (hv : v ∈ old.views)
    (e : v.name.fq = n) {u : TableDependency} (hu : u ∈ v.tableDependencies) (eu : u.name.fq = t) :
    AllBefore (fun s => ∃ m, s.ddl = .dropView m ∧ m.fq = n) (fun s => s.ddl.onTableColumns t = true) stmts := by
  refine run.allBefore (fun s hs => by obtain ⟨m, e, _⟩ := hs; rw [e]; exact fun h => h)
    (fun s hs => onTableColumns_not_outer hs) ?_
  rintro a x w y hx hy ⟨m, em, hm⟩ hq
  obtain ⟨rfl, v', hv', e'⟩ := hx.dropView_vertex em
  have : v' = v := List.inj_on_of_nodup_map (diffLists_old_nodup dr.hviews) (diffLists_deletes_mem dr.hviews hv') hv
    (show v'.name.fq = v.name.fq by rw [e', hm, e])
  subst this
  obtain ⟨h1, h2⟩ := run.declared_drop_view hv' hu
  rw [e'] at h1 h2
  unfold tableVertexId at h1 h2
  rw [eu] at h1 h2
  rcases onTableColumns_id hy hq with rfl | rfl
  · exact .single h2
  · exact .single h1

/-- the same for materialized views -/
theorem matReader_dropped_first (dr : DiffRun opts old new d) (run : PlanRun opts d r r' stmts) {v : MaterializedView}
    (hv : v ∈ old.materializedViews) (e : v.name.fq = n) {u : TableDependency} (hu : u ∈ v.tableDependencies)
    (eu : u.name.fq = t) :
    AllBefore (fun s => ∃ m, s.ddl = .dropMaterializedView m ∧ m.fq = n) (fun s => s.ddl.onTableColumns t = true) stmts := by
  refine run.allBefore (fun s hs => by obtain ⟨m, e, _⟩ := hs; rw [e]; exact fun h => h)
    (fun s hs => onTableColumns_not_outer hs) ?_
  rintro a x w y hx hy ⟨m, em, hm⟩ hq
  obtain ⟨rfl, v', hv', e'⟩ := hx.dropMatView_vertex em
  have : v' = v := List.inj_on_of_nodup_map (diffLists_old_nodup dr.hmatViews) (diffLists_deletes_mem dr.hmatViews hv') hv
    (show v'.name.fq = v.name.fq by rw [e', hm, e])
  subst this
  obtain ⟨h1, h2⟩ := run.declared_drop_matView hv' hu
  rw [e'] at h1 h2
  unfold tableVertexId at h1 h2
  rw [eu] at h1 h2
  rcases onTableColumns_id hy hq with rfl | rfl
  · exact .single h2
  · exact .single h1

/-- the statements that make views that read the column come from the new schema -/
theorem makesReader_known (dr : DiffRun opts old new d) (run : PlanRun opts d r r' stmts) {s : Statement} (hs : s ∈ stmts)
    (h : makesReader n t c s.ddl = true) : readerOf new n t c = true := by
  cases e : s.ddl with
  | createView v =>
    rw [e] at h
    have hr : s.ddl.relation = some (.view, v.name.fq) := by rw [e]; rfl
    obtain ⟨id, hg⟩ := run.mem_shape hs (relation_not_outer hr)
    have hm : v ∈ d.viewDiffs.adds := by
      cases hg with
      | createView w hw hid => cases e; exact hw
      | newTable t h ccs hc s hs' hid => cases hs' <;> cases e
      | alterTable td h s hs' hid =>
        cases hs' with
        | column cd h s hs' => cases hs' <;> cases e
        | _ => cases e
      | _ => cases e
    exact Bool.or_eq_true_iff.mpr (Or.inl (List.any_eq_true.mpr ⟨v, diffLists_adds_mem dr.hviews hm, h⟩))
  | createMaterializedView v =>
    rw [e] at h
    have hr : s.ddl.relation = some (.matView, v.name.fq) := by rw [e]; rfl
    obtain ⟨id, hg⟩ := run.mem_shape hs (relation_not_outer hr)
    have hm : v ∈ d.materializedViewDiffs.adds := by
      cases hg with
      | createMatView w hw hid => cases e; exact hw
      | newTable t h ccs hc s hs' hid => cases hs' <;> cases e
      | alterTable td h s hs' hid =>
        cases hs' with
        | column cd h s hs' => cases hs' <;> cases e
        | _ => cases e
      | _ => cases e
    exact Bool.or_eq_true_iff.mpr (Or.inr (List.any_eq_true.mpr ⟨v, diffLists_adds_mem dr.hmatViews hm, h⟩))
  | _ => rw [e] at h; cases h

/-- a view is made when the tables it reads are done -/
theorem reader_made_last (run : PlanRun opts d r r' stmts) :
    AllBefore (fun s => s.ddl.onTableColumns t = true) (fun s => makesReader n t c s.ddl = true) stmts := by
  refine run.allBefore (fun s hs => onTableColumns_not_outer hs) (fun s hs => ?_) ?_
  · cases e : s.ddl <;> rw [e] at hs <;> first | exact fun h => h | cases hs
  intro a x w y hx hy hp hq
  have key : ∃ id : VertexId, w = id ∧ run.graph.Declared (VertexId.mk "table" t .delete).text id.text ∧
      run.graph.Declared (VertexId.mk "table" t .addAlter).text id.text := by
    cases e : y.ddl with
    | createView v =>
      rw [e] at hq
      obtain ⟨u, hu, eu, _⟩ := reads_dep (Bool.and_eq_true_iff.mp hq).2
      cases hy with
      | createView v' hv' hid =>
        cases e
        obtain ⟨h1, h2⟩ := (run.declared_create_view hv').2 u hu
        refine ⟨_, hid, ?_, ?_⟩
        · rw [← eu]; exact h1
        · rw [← eu]; exact h2
      | newTable t h ccs hc s hs' hid => cases hs' <;> cases e
      | alterTable td h s hs' hid =>
        cases hs' with
        | column cd h s hs' => cases hs' <;> cases e
        | _ => cases e
      | _ => cases e
    | createMaterializedView v =>
      rw [e] at hq
      obtain ⟨u, hu, eu, _⟩ := reads_dep (Bool.and_eq_true_iff.mp hq).2
      cases hy with
      | createMatView v' hv' hid =>
        cases e
        obtain ⟨h1, h2⟩ := (run.declared_create_matView hv').2 u hu
        refine ⟨_, hid, ?_, ?_⟩
        · rw [← eu]; exact h1
        · rw [← eu]; exact h2
      | newTable t h ccs hc s hs' hid => cases hs' <;> cases e
      | alterTable td h s hs' hid =>
        cases hs' with
        | column cd h s hs' => cases hs' <;> cases e
        | _ => cases e
      | _ => cases e
    | _ => rw [e] at hq; cases hq
  obtain ⟨id, rfl, h1, h2⟩ := key
  rcases onTableColumns_id hx hp with rfl | rfl
  · exact .single h2
  · exact .single h1

/-- a plan that drops a table or a column a view reads drops the view -/
theorem reader_dropped (dr : DiffRun opts old.normalize new.normalize d) (run : PlanRun opts d r r' stmts)
    (hn : (new.tables.map Obj.getName).Nodup) (hnv : NamesUnique new.normalize.views) {v : View} (hv : v ∈ old.normalize.views)
    (hr : readsColumn t c v.tableDependencies = true) {s : Statement} (hs : s ∈ stmts)
    (hd : (∃ x, s.ddl = .dropTable x ∧ x.fq = t) ∨ ∃ x, s.ddl = .alterTable x (.dropColumn c) ∧ x.fq = t) :
    ∃ s ∈ stmts, s.ddl = .dropView v.name := by
  obtain ⟨u, hu, eu, hc⟩ := reads_dep hr
  have hdr : (byName dr.td0.deletes).has (Obj.getName u) = true ∨
      ∃ td, (diffByName dr.td0.alters).get? (Obj.getName u) = some td ∧
        ∃ c ∈ u.columns, (byName td.columnsDiff.deletes).has c = true := by
    have eq : ∀ x : SQName, x.fq = t → x.getName = Obj.getName u := fun x e => e.trans eu.symm
    rcases hd with ⟨x, e, ex⟩ | ⟨x, e, ex⟩
    · rw [← eq x ex]
      exact dr.dropped run hn (t := ⟨x, u.columns⟩) hs (Or.inl e)
    · rw [← eq x ex]
      exact dr.dropped run hn (t := ⟨x, u.columns⟩) hs (Or.inr ⟨c, hc, e⟩)
  obtain ⟨dec, _⟩ := diffLists_decision dr.hviews hnv
    (key := fun d : OldNew View => Obj.getName d.new) (by
      intro o x j i d _ hb
      cases (view_build hb).1; rfl) (Obj.getName v)
  have hold : ∀ o ∈ old.normalize.views, Obj.getName o = Obj.getName v → o = v :=
    fun o ho e => List.inj_on_of_nodup_map (diffLists_old_nodup dr.hviews) ho hv e
  have hdel : v ∈ d.viewDiffs.deletes := by
    cases dec with
    | absent ho _ => exact absurd (List.mem_map_of_mem hv) ho
    | dropped o ho e hx hm => rw [← hold o ho e]; exact hm
    | added x hx e ho hm => exact absurd (List.mem_map_of_mem hv) ho
    | recreated o x ho hx eo ex hb hm hm' => rw [← hold o ho eo]; exact hm
    | altered o x dd ho hx eo ex hb hm =>
      exfalso
      rw [hold o ho eo] at hb
      obtain ⟨i, j, hb⟩ := hb
      unfold buildViewDiff at hb
      obtain ⟨b, hb1, hb⟩ := except_bind_ok.mp hb
      have := viewDepsRecreated_deleted hb1 _ hu hdr
      subst this
      cases hb
  obtain ⟨p, h1, h2, _⟩ := part_of_delete (m := Except Err) (g := ViewGen.gen) run.hviews hdel
  have e : ViewGen.delete v = .ok p := h1
  unfold ViewGen.delete at e
  rw [Except.ok.injEq] at e
  subst e
  exact ⟨_, run.mem_of_graph (p := run.views) (by simp) (PartialGraph.mem_statements.mpr
    ⟨_, h2 _ List.mem_cons_self, List.mem_cons_self⟩), rfl⟩

/-- the same for materialized views -/
theorem matReader_dropped (dr : DiffRun opts old.normalize new.normalize d) (run : PlanRun opts d r r' stmts)
    (hn : (new.tables.map Obj.getName).Nodup) (hnv : NamesUnique new.normalize.materializedViews) {v : MaterializedView}
    (hv : v ∈ old.normalize.materializedViews)
    (hr : readsColumn t c v.tableDependencies = true) {s : Statement} (hs : s ∈ stmts)
    (hd : (∃ x, s.ddl = .dropTable x ∧ x.fq = t) ∨ ∃ x, s.ddl = .alterTable x (.dropColumn c) ∧ x.fq = t) :
    ∃ s ∈ stmts, s.ddl = .dropMaterializedView v.name := by
  obtain ⟨u, hu, eu, hc⟩ := reads_dep hr
  have hdr : (byName dr.td0.deletes).has (Obj.getName u) = true ∨
      ∃ td, (diffByName dr.td0.alters).get? (Obj.getName u) = some td ∧
        ∃ c ∈ u.columns, (byName td.columnsDiff.deletes).has c = true := by
    have eq : ∀ x : SQName, x.fq = t → x.getName = Obj.getName u := fun x e => e.trans eu.symm
    rcases hd with ⟨x, e, ex⟩ | ⟨x, e, ex⟩
    · rw [← eq x ex]
      exact dr.dropped run hn (t := ⟨x, u.columns⟩) hs (Or.inl e)
    · rw [← eq x ex]
      exact dr.dropped run hn (t := ⟨x, u.columns⟩) hs (Or.inr ⟨c, hc, e⟩)
  obtain ⟨dec, _⟩ := diffLists_decision dr.hmatViews hnv
    (key := fun d : OldNew MaterializedView => Obj.getName d.new) (by
      intro o x j i d _ hb
      cases (matView_build hb).1; rfl) (Obj.getName v)
  have hold : ∀ o ∈ old.normalize.materializedViews, Obj.getName o = Obj.getName v → o = v :=
    fun o ho e => List.inj_on_of_nodup_map (diffLists_old_nodup dr.hmatViews) ho hv e
  have hdel : v ∈ d.materializedViewDiffs.deletes := by
    cases dec with
    | absent ho _ => exact absurd (List.mem_map_of_mem hv) ho
    | dropped o ho e hx hm => rw [← hold o ho e]; exact hm
    | added x hx e ho hm => exact absurd (List.mem_map_of_mem hv) ho
    | recreated o x ho hx eo ex hb hm hm' => rw [← hold o ho eo]; exact hm
    | altered o x dd ho hx eo ex hb hm =>
      exfalso
      rw [hold o ho eo] at hb
      obtain ⟨i, j, hb⟩ := hb
      unfold buildMaterializedViewDiff at hb
      obtain ⟨b, hb1, hb⟩ := except_bind_ok.mp hb
      have := viewDepsRecreated_deleted hb1 _ hu hdr
      subst this
      cases hb
  obtain ⟨p, h1, h2, _⟩ := part_of_delete (m := Except Err) (g := MatViewGen.gen) run.hmatViews hdel
  have e : MatViewGen.delete v = .ok p := h1
  unfold MatViewGen.delete at e
  rw [Except.ok.injEq] at e
  subst e
  exact ⟨_, run.mem_of_graph (p := run.matViews) (by simp) (PartialGraph.mem_statements.mpr
    ⟨_, h2 _ List.mem_cons_self, List.mem_cons_self⟩), rfl⟩

/-- a statement that changes the type of a column: the types of the two schemas differ -/
theorem setType_retyped (dr : DiffRun opts old new d) (run : PlanRun opts d r r' stmts) {s : Statement} (hs : s ∈ stmts)
    {x : SQName} {a : ColumnAction} (e : s.ddl = .alterTable x (.alterColumn c a)) (ha : changesType a = true)
    (hx : x.fq = t) : Retyped old new t c := by
  obtain ⟨id, hg⟩ := run.mem_shape hs (by rw [e]; exact fun h => h)
  cases hg with
  | alterTable td h s hs' hid =>
    obtain ⟨td0, h0, hor, i, j, h2, h3, h4, h5⟩ := dr.altered h
    obtain ⟨_, _, _, _, _, hcols, _⟩ := buildTableDiff_ok h5
    have key : ∀ cd ∈ td.columnsDiff.alters, cd.new.name = c → td.new.name = x → TypeChange cd.old cd.new →
        Retyped old new t c := by
      intro cd hcd ec ex ht
      obtain ⟨cd0, g0, x1, x2⟩ : ∃ cd0 ∈ td0.columnsDiff.alters, cd.old = cd0.old ∧ cd.new = cd0.new := by
        rw [hor] at hcd
        exact orderIf_columns opts td0 hcd
      obtain ⟨k1, k2, k3⟩ := (columnsDiff_alters hcols).1 cd0 g0
      refine ⟨td.old, List.mem_of_getElem? h3, td.new, List.mem_of_getElem? h2, ?_, ?_, cd.old, ?_, cd.new, ?_, ?_, ec, ht⟩
      · rw [← hx, ← ex]; exact h4
      · rw [ex, hx]
      · rw [x1]; exact k1
      · rw [x2]; exact k2
      · rw [← ec, x1, x2]; exact k3
    cases hs' with
    | column cd hcd s hs' =>
      cases hs' with
      | setTypeFromMillis hm =>
        cases e
        refine key cd hcd rfl rfl (Or.inl fun e => ?_)
        rw [e] at hm
        have h1 := of_decide_eq_true (p := _ = _) hm.1
        have h2 := of_decide_eq_true (p := _ = _) hm.2
        rw [h1] at h2
        exact absurd h2 (by decide)
      | setType hm =>
        cases e
        refine key cd hcd rfl rfl ?_
        rcases hm with hm | hm
        · exact Or.inl fun e => by rw [e, equalFold_refl] at hm; cases hm
        · exact Or.inr fun e => by rw [e, equalFold_refl] at hm; cases hm
      | _ => cases e <;> cases ha
    | partDropNotNull => cases e; cases ha
    | partSetNotNull => cases e; cases ha
    | _ => cases e
  | newTable t h ccs hc s hs' hid => cases hs' <;> cases e
  | _ => cases e

theorem readsColumn_normalize (deps : List TableDependency) :
    readsColumn t c ((sortObjs deps).map normalizeTableDependency) = readsColumn t c deps := by
  rw [Bool.eq_iff_iff]
  constructor
  · intro h
    obtain ⟨u, hu, e, hc⟩ := reads_dep h
    obtain ⟨u0, hu0, rfl⟩ := List.mem_map.mp hu
    refine List.any_eq_true.mpr ⟨u0, (sortObjs_perm _).mem_iff.mp hu0, ?_⟩
    rw [Bool.and_eq_true_iff]
    exact ⟨decide_eq_true e, decide_eq_true ((sortBy_perm _ _).mem_iff.mp hc)⟩
  · intro h
    obtain ⟨u, hu, e, hc⟩ := reads_dep h
    refine List.any_eq_true.mpr ⟨_, mem_normalize_deps hu, ?_⟩
    rw [Bool.and_eq_true_iff]
    exact ⟨decide_eq_true e, decide_eq_true ((sortBy_perm _ _).mem_iff.mpr hc)⟩

theorem readerOf_normalize (s : Schema) : readerOf s.normalize n t c = readerOf s n t c := by
  have hv : (s.normalize.views.any fun v => decide (v.name.fq = n) && readsColumn t c v.tableDependencies) =
      s.views.any fun v => decide (v.name.fq = n) && readsColumn t c v.tableDependencies := by
    rw [Bool.eq_iff_iff, List.any_eq_true, List.any_eq_true]
    constructor
    · rintro ⟨v, hv, h⟩
      obtain ⟨v0, hv0, rfl⟩ := List.mem_map.mp hv
      refine ⟨v0, (sortObjs_perm _).mem_iff.mp hv0, ?_⟩
      rw [← readsColumn_normalize]; exact h
    · rintro ⟨v, hv, h⟩
      refine ⟨_, mem_normalize_views hv, ?_⟩
      show (decide (v.name.fq = n) && readsColumn t c ((sortObjs v.tableDependencies).map normalizeTableDependency)) = true
      rw [readsColumn_normalize]; exact h
  have hm : (s.normalize.materializedViews.any fun v => decide (v.name.fq = n) && readsColumn t c v.tableDependencies) =
      s.materializedViews.any fun v => decide (v.name.fq = n) && readsColumn t c v.tableDependencies := by
    rw [Bool.eq_iff_iff, List.any_eq_true, List.any_eq_true]
    constructor
    · rintro ⟨v, hv, h⟩
      obtain ⟨v0, hv0, rfl⟩ := List.mem_map.mp hv
      refine ⟨v0, (sortObjs_perm _).mem_iff.mp hv0, ?_⟩
      rw [← readsColumn_normalize]; exact h
    · rintro ⟨v, hv, h⟩
      refine ⟨_, mem_normalize_matViews hv, ?_⟩
      show (decide (v.name.fq = n) && readsColumn t c ((sortObjs v.tableDependencies).map normalizeTableDependency)) = true
      rw [readsColumn_normalize]; exact h
  unfold readerOf
  rw [hv, hm]

/-- what reads the column at the end -/
theorem reader_final (dr : DiffRun opts old new d) (run : PlanRun opts d r r' stmts) (hv : NamesUnique new.views)
    (hm : NamesUnique new.materializedViews) (hk : ViewName old new n) :
    readerRun n t c (readerOf old n t c) stmts = readerOf new n t c := by
  have conv := views_converge dr run hv hm hk
  have offV : ∀ {s : Schema}, n ∉ relNames s .view →
      (s.views.any fun v => decide (v.name.fq = n) && readsColumn t c v.tableDependencies) = false := by
    intro s h
    rw [List.any_eq_false]
    intro v hv e
    exact h (List.mem_map.mpr ⟨v, hv, of_decide_eq_true (Bool.and_eq_true_iff.mp e).1⟩)
  have offM : ∀ {s : Schema}, n ∉ relNames s .matView →
      (s.materializedViews.any fun v => decide (v.name.fq = n) && readsColumn t c v.tableDependencies) = false := by
    intro s h
    rw [List.any_eq_false]
    intro v hv e
    exact h (List.mem_map.mpr ⟨v, hv, of_decide_eq_true (Bool.and_eq_true_iff.mp e).1⟩)
  have onV : ∀ {s : Schema}, NamesUnique s.views → ∀ {v : View}, v ∈ s.views → v.name.fq = n →
      (s.views.any fun v => decide (v.name.fq = n) && readsColumn t c v.tableDependencies) =
        readsColumn t c v.tableDependencies := by
    intro s hu v hv e
    rw [Bool.eq_iff_iff, List.any_eq_true]
    constructor
    · rintro ⟨w, hw, h⟩
      obtain ⟨h1, h2⟩ := Bool.and_eq_true_iff.mp h
      have : w = v := List.inj_on_of_nodup_map hu hw hv ((of_decide_eq_true h1).trans e.symm)
      rw [← this]; exact h2
    · intro h
      exact ⟨v, hv, Bool.and_eq_true_iff.mpr ⟨decide_eq_true e, h⟩⟩
  have onM : ∀ {s : Schema}, NamesUnique s.materializedViews → ∀ {v : MaterializedView}, v ∈ s.materializedViews →
      v.name.fq = n → (s.materializedViews.any fun v => decide (v.name.fq = n) && readsColumn t c v.tableDependencies) =
        readsColumn t c v.tableDependencies := by
    intro s hu v hv e
    rw [Bool.eq_iff_iff, List.any_eq_true]
    constructor
    · rintro ⟨w, hw, h⟩
      obtain ⟨h1, h2⟩ := Bool.and_eq_true_iff.mp h
      have : w = v := List.inj_on_of_nodup_map hu hw hv ((of_decide_eq_true h1).trans e.symm)
      rw [← this]; exact h2
    · intro h
      exact ⟨v, hv, Bool.and_eq_true_iff.mpr ⟨decide_eq_true e, h⟩⟩
  rcases last_or_none (fun s : Statement => s.ddl.onView n) stmts with h | ⟨a, x, b, e, hx, hb⟩
  · -- nothing happens to the name
    rw [readerRun_skip h]
    have nilV : (stmts.filter fun s : Statement => s.ddl.onRel .view n) = [] := by
      rw [List.filter_eq_nil_iff]
      intro s hs
      have h := h s hs
      have h : (s.ddl.onRel .view n || s.ddl.onRel .matView n) = false := h
      rw [Bool.or_eq_false_iff] at h
      rw [h.1]; simp
    have nilM : (stmts.filter fun s : Statement => s.ddl.onRel .matView n) = [] := by
      rw [List.filter_eq_nil_iff]
      intro s hs
      have h := h s hs
      have h : (s.ddl.onRel .view n || s.ddl.onRel .matView n) = false := h
      rw [Bool.or_eq_false_iff] at h
      rw [h.2]; simp
    unfold readerOf
    congr 1
    · cases view_fate dr run hv n with
      | absent ho hn hs =>
        rw [offV fun h => by obtain ⟨v, hv, e⟩ := List.mem_map.mp h; exact ho v hv e,
          offV fun h => by obtain ⟨v, hv, e⟩ := List.mem_map.mp h; exact hn v hv e]
      | same o w ho hw eo ew hsame hs =>
        rw [onV (old_views_unique dr) ho eo, onV hv hw ew]
        unfold View.same at hsame
        rw [of_decide_eq_true (Bool.and_eq_true_iff.mp hsame).2]
      | dropped o ho e hn hd hs => rw [nilV] at hs; cases hs
      | added o ho e hn hd hs => rw [nilV] at hs; cases hs
      | recreated o w ho hw eo ew hs => rw [nilV] at hs; cases hs
    · cases matView_fate dr run hm n with
      | absent ho hn hs =>
        rw [offM fun h => by obtain ⟨v, hv, e⟩ := List.mem_map.mp h; exact ho v hv e,
          offM fun h => by obtain ⟨v, hv, e⟩ := List.mem_map.mp h; exact hn v hv e]
      | same o w ho hw eo ew hsame hs =>
        rw [onM (old_matViews_unique dr) ho eo, onM hm hw ew]
        unfold MaterializedView.same at hsame
        rw [of_decide_eq_true (Bool.and_eq_true_iff.mp hsame).2]
      | dropped o ho e hn hd hs => rw [nilM] at hs; cases hs
      | added o ho e hn hd hs => rw [nilM] at hs; cases hs
      | recreated o w ho hw eo ew hs => rw [nilM] at hs; cases hs
  · -- the last statement about the name
    have hmem : x ∈ stmts := by rw [e]; simp
    have split : readerRun n t c (readerOf old n t c) stmts =
        readerStep n t c (readerRun n t c (readerOf old n t c) a) x.ddl := by
      rw [e]
      unfold readerRun
      rw [List.foldl_append, List.foldl_cons]
      exact readerRun_skip hb _
    -- what the machine of the names says about it
    have tail : ∀ s : RelSlot, runRel old n s b = some s := by
      intro s
      refine runWith_keeps fun y hy => relStep_skip
        (fun t ht e => absurd (List.mem_map.mpr ⟨t, ht, e⟩) hk.oldTable) (fun k e' => ?_) s
      have hy' : y ∈ stmts := by rw [e]; simp [hy]
      have hoff : (y.ddl.onRel .view n || y.ddl.onRel .matView n) = false := hb y hy
      rw [Bool.or_eq_false_iff] at hoff
      cases k with
      | table => exact ((relation_known dr run hy' e').elim hk.oldTable hk.newTable).elim
      | sequence => exact ((relation_known dr run hy' e').elim hk.oldSequence hk.newSequence).elim
      | view => exact of_decide_eq_false hoff.1 e'
      | matView => exact of_decide_eq_false hoff.2 e'
    have last : ∃ q, relStep old n q x.ddl = some (relOf new n) := by
      have conv : runWith (relStep old n) (relOf old n) stmts = some (relOf new n) := conv
      rw [e, runWith_append] at conv
      obtain ⟨q, _, h2⟩ := Option.bind_eq_some_iff.mp conv
      rw [runWith] at h2
      obtain ⟨q', h3, h4⟩ := Option.bind_eq_some_iff.mp h2
      rw [show runWith (relStep old n) q' b = some q' from tail q'] at h4
      cases h4
      exact ⟨q, h3⟩
    have gone : relOf new n = .nothing → readerOf new n t c = false := by
      intro h
      have h1 : n ∉ relNames new .view := by
        intro h'
        rw [relOf_views hk.newTable hk.newSequence (hk.newKind h')] at h
        obtain ⟨v, hv', e⟩ := List.mem_map.mp h'
        rw [slotIn_of hv hv' e] at h
        cases h
      have h2 : n ∉ relNames new .matView := by
        intro h'
        rw [relOf_matViews hk.newTable hk.newSequence h1] at h
        obtain ⟨v, hv', e⟩ := List.mem_map.mp h'
        rw [slotIn_of hm hv' e] at h
        cases h
      unfold readerOf
      rw [offV h1, offM h2]; rfl
    rw [split]
    obtain ⟨q, last⟩ := last
    rcases Bool.or_eq_true_iff.mp (show (x.ddl.onRel .view n || x.ddl.onRel .matView n) = true from hx) with hx | hx
    · rcases onRel_cases_view hx with ⟨m, em, hm'⟩ | ⟨v, ev, hv'⟩
      · rw [em] at last ⊢
        rw [show readerStep n t c _ (.dropView m) = false from if_pos hm']
        refine (gone ?_).symm
        rw [show relStep old n q (.dropView m) = _ from if_pos hm'] at last
        split at last
        · exact (Option.some.inj last).symm
        · cases last
      · have hin : v ∈ new.views := by
          cases view_fate dr run hv n with
          | absent ho hn hs => exact absurd (List.mem_filter.mpr ⟨hmem, hx⟩) (by rw [hs]; simp)
          | same o w ho hw eo ew hsame hs => exact absurd (List.mem_filter.mpr ⟨hmem, hx⟩) (by rw [hs]; simp)
          | dropped o ho e hn hd hs =>
            have h' : x ∈ stmts.filter fun s : Statement => s.ddl.onRel .view n := List.mem_filter.mpr ⟨hmem, hx⟩
            rw [hs, List.mem_singleton] at h'
            rw [h'] at ev; cases ev
          | added o ho e hn hd hs =>
            have h' : x ∈ stmts.filter fun s : Statement => s.ddl.onRel .view n := List.mem_filter.mpr ⟨hmem, hx⟩
            rw [hs, List.mem_singleton] at h'
            rw [h'] at ev; cases ev; exact ho
          | recreated o w ho hw eo ew hs =>
            have h' : x ∈ stmts.filter fun s : Statement => s.ddl.onRel .view n := List.mem_filter.mpr ⟨hmem, hx⟩
            rw [hs] at h'
            rcases List.mem_cons.mp h' with h' | h'
            · rw [h'] at ev; cases ev
            · rw [List.mem_singleton] at h'
              rw [h'] at ev; cases ev; exact hw
        rw [ev, show readerStep n t c _ (.createView v) = _ from if_pos hv']
        unfold readerOf
        rw [onV hv hin hv', offM (hk.newKind (List.mem_map.mpr ⟨v, hin, hv'⟩)), Bool.or_false]
    · rcases onRel_cases_matView hx with ⟨m, em, hm'⟩ | ⟨v, ev, hv'⟩
      · rw [em] at last ⊢
        rw [show readerStep n t c _ (.dropMaterializedView m) = false from if_pos hm']
        refine (gone ?_).symm
        rw [show relStep old n q (.dropMaterializedView m) = _ from if_pos hm'] at last
        split at last
        · exact (Option.some.inj last).symm
        · cases last
      · have hin : v ∈ new.materializedViews := by
          cases matView_fate dr run hm n with
          | absent ho hn hs => exact absurd (List.mem_filter.mpr ⟨hmem, hx⟩) (by rw [hs]; simp)
          | same o w ho hw eo ew hsame hs => exact absurd (List.mem_filter.mpr ⟨hmem, hx⟩) (by rw [hs]; simp)
          | dropped o ho e hn hd hs =>
            have h' : x ∈ stmts.filter fun s : Statement => s.ddl.onRel .matView n := List.mem_filter.mpr ⟨hmem, hx⟩
            rw [hs, List.mem_singleton] at h'
            rw [h'] at ev; cases ev
          | added o ho e hn hd hs =>
            have h' : x ∈ stmts.filter fun s : Statement => s.ddl.onRel .matView n := List.mem_filter.mpr ⟨hmem, hx⟩
            rw [hs, List.mem_singleton] at h'
            rw [h'] at ev; cases ev; exact ho
          | recreated o w ho hw eo ew hs =>
            have h' : x ∈ stmts.filter fun s : Statement => s.ddl.onRel .matView n := List.mem_filter.mpr ⟨hmem, hx⟩
            rw [hs] at h'
            rcases List.mem_cons.mp h' with h' | h'
            · rw [h'] at ev; cases ev
            · rw [List.mem_singleton] at h'
              rw [h'] at ev; cases ev; exact hw
        rw [ev, show readerStep n t c _ (.createMaterializedView v) = _ from if_pos hv']
        unfold readerOf
        rw [onM hm hin hv', offV (fun h => hk.newKind h (List.mem_map.mpr ⟨v, hin, hv'⟩)), Bool.false_or]

theorem readerOf_cases {s : Schema} (h : readerOf s n t c = true) :
    (∃ v ∈ s.views, v.name.fq = n ∧ readsColumn t c v.tableDependencies = true) ∨
    ∃ v ∈ s.materializedViews, v.name.fq = n ∧ readsColumn t c v.tableDependencies = true := by
  rcases Bool.or_eq_true_iff.mp h with h | h
  · obtain ⟨v, hv, h⟩ := List.any_eq_true.mp h
    obtain ⟨h1, h2⟩ := Bool.and_eq_true_iff.mp h
    exact Or.inl ⟨v, hv, of_decide_eq_true h1, h2⟩
  · obtain ⟨v, hv, h⟩ := List.any_eq_true.mp h
    obtain ⟨h1, h2⟩ := Bool.and_eq_true_iff.mp h
    exact Or.inr ⟨v, hv, of_decide_eq_true h1, h2⟩

theorem unsettles_cases {x : Ddl} (h : unsettles t c x = true) :
    ((∃ y, x = .dropTable y ∧ y.fq = t) ∨ ∃ y, x = .alterTable y (.dropColumn c) ∧ y.fq = t) ∨
    ∃ y a, x = .alterTable y (.alterColumn c a) ∧ y.fq = t ∧ changesType a = true := by
  unfold unsettles at h
  split at h
  · exact Or.inl (Or.inl ⟨_, rfl, of_decide_eq_true h⟩)
  · simp only [Bool.and_eq_true, decide_eq_true_eq] at h
    obtain ⟨h1, rfl⟩ := h
    exact Or.inl (Or.inr ⟨_, rfl, h1⟩)
  · simp only [Bool.and_eq_true, decide_eq_true_eq] at h
    obtain ⟨⟨h1, rfl⟩, h3⟩ := h
    exact Or.inr ⟨_, _, rfl, h1, h3⟩
  · cases h

/-- while a view reads a column, nothing unsettles the column -/
theorem reader_settled (dr : DiffRun opts old.normalize new.normalize d) (run : PlanRun opts d r r' stmts)
    (hn : (new.tables.map Obj.getName).Nodup) (hv : NamesUnique new.normalize.views)
    (hm : NamesUnique new.normalize.materializedViews)
    (htype : Retyped old.normalize new.normalize t c → ¬ KeepsReading old.normalize new.normalize n t c)
    {pre post : List Statement} {x : Statement} (e : stmts = pre ++ x :: post) (hx : unsettles t c x.ddl = true) :
    readerRun n t c (readerOf old.normalize n t c) pre = false := by
  rw [← Bool.not_eq_true]
  intro hb
  have hmem : x ∈ stmts := by rw [e]; simp
  have hxt := unsettles_onTableColumns hx
  have notBefore : ∀ {P : Statement → Prop}, AllBefore P (fun s => s.ddl.onTableColumns t = true) stmts → ¬ P x →
      (∀ s ∈ pre, ¬ P s) → ∀ s ∈ stmts, ¬ P s := by
    intro P h hPx hP s hs hp
    rw [e, List.mem_append, List.mem_cons] at hs
    rcases hs with hs | rfl | hs
    · exact hP s hs hp
    · exact hPx hp
    · rw [e, allBefore_append] at h
      exact (List.pairwise_cons.mp h.2.1).1 s hs ⟨hxt, hp⟩
  rcases reader_origin hb with ⟨s, hs, hmk⟩ | ⟨hold, hnd⟩
  · -- made before: then the table was done
    have h := reader_made_last (n := n) (t := t) (c := c) run
    rw [e, allBefore_append] at h
    exact h.2.2 s hs x List.mem_cons_self ⟨hmk, hxt⟩
  · rcases readerOf_cases hold with ⟨v, hvm, ev, hr⟩ | ⟨v, hvm, ev, hr⟩
    · obtain ⟨u, hu, eu, _⟩ := reads_dep hr
      have none : ∀ s ∈ stmts, ¬ ∃ m, s.ddl = .dropView m ∧ m.fq = n := by
        refine notBefore (reader_dropped_first dr run hvm ev hu eu) ?_ ?_
        · rintro ⟨m, em, _⟩; rw [em] at hxt; cases hxt
        · rintro s hs ⟨m, em, hm⟩
          have := hnd s hs
          rw [em] at this
          exact of_decide_eq_false this hm
      rcases unsettles_cases hx with h | ⟨y, a, e1, e2, e3⟩
      · obtain ⟨s, hs, e'⟩ := reader_dropped dr run hn hv hvm hr hmem h
        exact none s hs ⟨_, e', ev⟩
      · refine htype (setType_retyped dr run hmem e1 e3 e2) (Or.inl ?_)
        have nodrop : ∀ o, (stmts.filter fun s : Statement => s.ddl.onRel .view n) ≠ [] →
            stmt (.dropView o) ∈ (stmts.filter fun s : Statement => s.ddl.onRel .view n) → o.fq = n → False := by
          intro o _ ho eo
          exact none _ (List.mem_filter.mp ho).1 ⟨o, rfl, eo⟩
        cases view_fate dr run hv n with
        | absent ho hn hs => exact absurd ev (ho v hvm)
        | same o w ho hw eo ew hsame hs =>
          have : o = v := List.inj_on_of_nodup_map (old_views_unique dr) ho hvm (eo.trans ev.symm)
          subst this
          unfold View.same at hsame
          simp only [Bool.and_eq_true, decide_eq_true_eq] at hsame
          exact ⟨o, ho, w, hw, eo, ew, hr, hsame.1.1.2⟩
        | dropped o ho eo hn hd hs =>
          exact (nodrop o.name (by rw [hs]; simp) (by rw [hs]; simp) eo).elim
        | added o ho eo hn hd hs => exact absurd ev (hn v hvm)
        | recreated o w ho hw eo ew hs =>
          exact (nodrop o.name (by rw [hs]; simp) (by rw [hs]; simp) eo).elim
    · obtain ⟨u, hu, eu, _⟩ := reads_dep hr
      have none : ∀ s ∈ stmts, ¬ ∃ m, s.ddl = .dropMaterializedView m ∧ m.fq = n := by
        refine notBefore (matReader_dropped_first dr run hvm ev hu eu) ?_ ?_
        · rintro ⟨m, em, _⟩; rw [em] at hxt; cases hxt
        · rintro s hs ⟨m, em, hm⟩
          have := hnd s hs
          rw [em] at this
          exact of_decide_eq_false this hm
      rcases unsettles_cases hx with h | ⟨y, a, e1, e2, e3⟩
      · obtain ⟨s, hs, e'⟩ := matReader_dropped dr run hn hm hvm hr hmem h
        exact none s hs ⟨_, e', ev⟩
      · refine htype (setType_retyped dr run hmem e1 e3 e2) (Or.inr ?_)
        have nodrop : ∀ o, stmt (.dropMaterializedView o) ∈ (stmts.filter fun s : Statement => s.ddl.onRel .matView n) →
            o.fq = n → False := by
          intro o ho eo
          exact none _ (List.mem_filter.mp ho).1 ⟨o, rfl, eo⟩
        cases matView_fate dr run hm n with
        | absent ho hn hs => exact absurd ev (ho v hvm)
        | same o w ho hw eo ew hsame hs =>
          have : o = v := List.inj_on_of_nodup_map (old_matViews_unique dr) ho hvm (eo.trans ev.symm)
          subst this
          unfold MaterializedView.same at hsame
          simp only [Bool.and_eq_true, decide_eq_true_eq] at hsame
          exact ⟨o, ho, w, hw, eo, ew, hr, hsame.1.1.1.2⟩
        | dropped o ho eo hn hd hs => exact (nodrop o.name (by rw [hs]; simp) eo).elim
        | added o ho eo hn hd hs => exact absurd ev (hn v hvm)
        | recreated o w ho hw eo ew hs => exact (nodrop o.name (by rw [hs]; simp) eo).elim

theorem keepsReading_normalize (h : KeepsReading old.normalize new.normalize n t c) : KeepsReading old new n t c := by
  rcases h with ⟨v, hv, w, hw, e1, e2, e3, e4⟩ | ⟨v, hv, w, hw, e1, e2, e3, e4⟩
  · obtain ⟨v0, hv0, rfl⟩ := List.mem_map.mp hv
    obtain ⟨w0, hw0, rfl⟩ := List.mem_map.mp hw
    refine Or.inl ⟨v0, (sortObjs_perm _).mem_iff.mp hv0, w0, (sortObjs_perm _).mem_iff.mp hw0, e1, e2, ?_, e4⟩
    rw [← readsColumn_normalize]; exact e3
  · obtain ⟨v0, hv0, rfl⟩ := List.mem_map.mp hv
    obtain ⟨w0, hw0, rfl⟩ := List.mem_map.mp hw
    refine Or.inr ⟨v0, (sortObjs_perm _).mem_iff.mp hv0, w0, (sortObjs_perm _).mem_iff.mp hw0, e1, e2, ?_, e4⟩
    rw [← readsColumn_normalize]; exact e3

theorem retyped_normalize (h : Retyped old.normalize new.normalize t c) : Retyped old new t c := by
  obtain ⟨a, ha, b, hb, e1, e2, x, hx, y, hy, h⟩ := h
  obtain ⟨a0, ha0, rfl⟩ := mem_normalize_tables ha
  obtain ⟨b0, hb0, rfl⟩ := mem_normalize_tables hb
  exact ⟨a0, ha0, b0, hb0, e1, e2, x, hx, y, hy, h⟩

/-- Views and the columns they read: whatever view and whatever column, a plan makes no view before the columns it reads are
there, drops no column (or its table) while a view reads it, and changes no type of a column while a view reads it; at the end
the column and the views are those of the target.  Left out are columns of partitions that are there before
(`C56_view_of_partition_violated`), and columns that change their type under a view that keeps its definition
(`C98_type_change_violated`). -/
theorem C98_views_and_columns_partial (h : generateMigrationStatements r old new opts = .ok (stmts, r'))
    (hn : NamesUnique new.tables) (hv : NamesUnique new.views) (hm : NamesUnique new.materializedViews) {pg : Pg}
    (hp : ColumnsPlannable pg old new t) (hk : ViewName old new n)
    (hread : readerOf new n t c = true → ((slotOf new t c).bind id).isSome = true)
    (htype : Retyped old new t c → ¬ KeepsReading old new n t c) :
    runViewColumn pg n t c (slotOf old t c, readerOf old n t c) stmts = some (slotOf new t c, readerOf new n t c) := by
  have hslot := C71_tables_and_columns_converge_partial h hn hp c
  obtain ⟨d, ⟨dr⟩, ⟨run⟩⟩ := plan_runs h
  have hv' : NamesUnique new.normalize.views := (normalize_views_names new).nodup_iff.mpr hv
  have hm' : NamesUnique new.normalize.materializedViews := (normalize_matViews_names new).nodup_iff.mpr hm
  have hfin := reader_final (t := t) (c := c) dr run hv' hm' (viewName_normalize hk)
  rw [readerOf_normalize, readerOf_normalize] at hfin
  rw [← hfin]
  refine runViewColumn_of hslot fun pre x post e q hq => ⟨fun hx => ?_, fun hx => ?_⟩
  · -- the table is done
    have hlast := reader_made_last (n := n) (t := t) (c := c) run
    rw [e, allBefore_append] at hlast
    have hpost : ∀ s, runSlot pg t c s (x :: post) = some s := by
      intro s
      refine runWith_keeps fun y hy => slotStep_off pg ?_ s
      rcases List.mem_cons.mp hy with rfl | hy
      · cases e : y.ddl <;> rw [e] at hx <;> first | rfl | cases hx
      · rw [← Bool.not_eq_true]
        intro h'
        exact (List.pairwise_cons.mp hlast.2.1).1 y hy ⟨hx, h'⟩
    have : q = slotOf new t c := by
      have hslot : runWith (slotStep pg t c) (slotOf old t c) stmts = some (slotOf new t c) := hslot
      rw [e, runWith_append, show runWith (slotStep pg t c) (slotOf old t c) pre = some q from hq, Option.bind_some,
        show runWith (slotStep pg t c) q (x :: post) = some q from hpost q] at hslot
      exact Option.some.inj hslot
    rw [this]
    refine hread ?_
    have := makesReader_known dr run (by rw [e]; simp) hx
    rwa [readerOf_normalize] at this
  · have := reader_settled (n := n) dr run hn hv' hm'
      (fun h1 h2 => htype (retyped_normalize h1) (keepsReading_normalize h2)) e hx
    rwa [readerOf_normalize] at this

end

/-! ### examples -/

namespace Samples

/-- views of a table whose columns change, of a table that goes and of a table that stays -/
def oldViewColumns : Schema := { Schema.empty with
  tables := [table "a" [col "x" "integer", col "y" "integer", col "q" "integer"], table "b" [col "z" "integer"]]
  views := [view "v" "a" ["x", "q"], view "w" "b" ["z"], view "k" "a" ["y"]]
  materializedViews := [matView "m" "a" ["y"]] }

/-- the target of `oldViewColumns`: `a.x` changes its type and `a.q` goes, and the view that reads them changes its definition; `a.u` is new and read by a
view and a materialized view, `b` gives way to `c` -/
def newViewColumns : Schema := { Schema.empty with
  tables := [table "a" [col "x" "bigint", col "y" "integer", col "u" "integer"], table "c" [col "z" "integer"]]
  views := [{ view "v" "a" ["x", "u"] with viewDefinition := "SELECT 1" }, view "w" "c" ["z"], view "k" "a" ["y"]]
  materializedViews := [{ matView "m" "a" ["u"] with viewDefinition := "SELECT 2" }] }

/-- a view and a materialized view of a column -/
def typeViewColumns (type : String) : Schema := { Schema.empty with
  tables := [table "a" [col "x" type]]
  views := [view "v" "a" ["x"]]
  materializedViews := [matView "m" "a" ["x"]] }

instance (o t : Table) (c : String) : Decidable (TypeChanges o t c) := by unfold TypeChanges; infer_instance

instance (old new : Schema) (t c : String) : Decidable (Retyped old new t c) := by unfold Retyped; infer_instance

instance (old new : Schema) (n t c : String) : Decidable (KeepsReading old new n t c) := by unfold KeepsReading; infer_instance

end Samples

open Samples

/-- the hypotheses of C98 can be met, for all names and columns, by a plan that drops columns and tables in use and changes the
type of one -/
example : (∃ stmts r', generateMigrationStatements Samples.rand oldViewColumns newViewColumns opts = .ok (stmts, r') ∧
      (stmts.map fun s : Statement => s.ddl) =
        [.createTable (pub "c") [⟨"z", "integer", none, none, none, false, none⟩] none, .dropMaterializedView (pub "m"),
         .dropView (pub "v"), .alterTable (pub "a") (.addColumn ⟨"u", "integer", none, none, none, false, none⟩),
         .alterTable (pub "a") (.alterColumn "x" (.setType "bigint" none)), .analyze (pub "a") "x",
         .alterTable (pub "a") (.dropColumn "q"),
         .createMaterializedView { matView "m" "a" ["u"] with viewDefinition := "SELECT 2" },
         .createView { view "v" "a" ["u", "x"] with viewDefinition := "SELECT 1" },
         .dropView (pub "w"), .createView (view "w" "c" ["z"]), .dropTable (pub "b")]) ∧
    NamesUnique newViewColumns.tables ∧ NamesUnique newViewColumns.views ∧ NamesUnique newViewColumns.materializedViews ∧
    (∀ t, ColumnsPlannable pg oldViewColumns newViewColumns t) ∧
    ∀ n ∈ ["v", "w", "k", "m"], ViewName oldViewColumns newViewColumns (pub n).fq ∧
      ∀ t ∈ ["a", "b", "c"], ∀ c ∈ ["x", "y", "z", "u", "q"],
        (readerOf newViewColumns (pub n).fq (pub t).fq c = true → ((slotOf newViewColumns (pub t).fq c).bind id).isSome = true) ∧
        (Retyped oldViewColumns newViewColumns (pub t).fq c →
          ¬ KeepsReading oldViewColumns newViewColumns (pub n).fq (pub t).fq c) := by
  refine ⟨exists_plan (by decide +kernel), by unfold NamesUnique; decide +kernel, by unfold NamesUnique; decide +kernel,
    by unfold NamesUnique; decide +kernel, columnsPlannable_of (by decide +kernel), ?_⟩
  intro n hn
  constructor
  · constructor <;> revert n <;> decide +kernel
  · revert n
    decide +kernel

/-- A view, or a materialized view, keeps its definition while the type of a column it reads changes: the view is left in place
and Postgres rejects the change. -/
theorem C98_type_change_violated :
    ∃ stmts r', generateMigrationStatements Samples.rand (typeViewColumns "integer") (typeViewColumns "bigint") opts =
        .ok (stmts, r') ∧
      ∀ n ∈ [(pub "v").fq, (pub "m").fq], runViewColumn pg n (pub "a").fq "x"
        (slotOf (typeViewColumns "integer") (pub "a").fq "x", readerOf (typeViewColumns "integer") n (pub "a").fq "x")
        stmts = none :=
  exists_plan (P := fun stmts => ∀ n ∈ [(pub "v").fq, (pub "m").fq], runViewColumn pg n (pub "a").fq "x"
        (slotOf (typeViewColumns "integer") (pub "a").fq "x", readerOf (typeViewColumns "integer") n (pub "a").fq "x")
        stmts = none) (by decide +kernel)

end Verif
