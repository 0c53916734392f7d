import Verif.Lemmas.Forest
import Verif.Props.Attach

/-!
# Tables and their partitions converge (C91)
-/

namespace Verif

open Spec

section
variable {opts : PlanOptions} {old new : Schema} {d : SchemaDiff} {r r' : Rand} {stmts : List Statement}

theorem forestOf_some {s : Schema} (hn : (s.tables.map Obj.getName).Nodup) {t : Table} (ht : t ∈ s.tables) :
    forestOf s t.name.fq = some (tableNode t) := by
  have hs : (s.tables.find? fun x => x.name.fq = t.name.fq) = some t := by
    cases hf : s.tables.find? fun x => x.name.fq = t.name.fq with
    | none => exact absurd (decide_eq_true rfl) (List.find?_eq_none.mp hf t ht)
    | some x =>
      have h1 := List.mem_of_find?_eq_some hf
      have h2 := List.find?_some hf
      rw [List.inj_on_of_nodup_map hn h1 ht (of_decide_eq_true h2)]
  unfold forestOf
  rw [hs]; rfl

theorem forestOf_none {s : Schema} {n : String} (h : n ∉ s.tables.map Obj.getName) : forestOf s n = none := by
  unfold forestOf
  rw [Option.map_eq_none_iff, List.find?_eq_none]
  intro t ht e
  exact h (List.mem_map.mpr ⟨t, ht, of_decide_eq_true e⟩)

theorem forestOf_mem {s : Schema} {n : String} {x : TableNode} (h : forestOf s n = some x) :
    ∃ t ∈ s.tables, t.name.fq = n ∧ x = tableNode t := by
  unfold forestOf at h
  obtain ⟨t, h1, rfl⟩ := Option.map_eq_some_iff.mp h
  have h2 := List.find?_some h1
  exact ⟨t, List.mem_of_find?_eq_some h1, of_decide_eq_true h2, rfl⟩

theorem forestOf_normalize {s : Schema} (hn : (s.tables.map Obj.getName).Nodup) : forestOf s.normalize = forestOf s := by
  funext n
  by_cases h : n ∈ s.tables.map Obj.getName
  · obtain ⟨t, ht, rfl⟩ := List.mem_map.mp h
    exact (forestOf_some (normalize_tables_nodup hn) (mem_normalize_tables_of ht)).trans (forestOf_some hn ht).symm
  · rw [forestOf_none h, forestOf_none]
    intro h'
    exact h ((normalize_tables_names s).mem_iff.mp h')

theorem packIf_key (opts : PlanOptions) (t : Table) : (packIf opts t).partitionKeyDef = t.partitionKeyDef := by
  unfold packIf; split <;> rfl

theorem before_once {σ : Type} {p : σ → Bool} {l a b : List σ} {x : σ} (h : (l.filter p).length ≤ 1) (e : l = a ++ x :: b)
    (hx : p x = true) : ∀ y ∈ a, p y = false := by
  intro y hy
  by_contra hp
  have hp := eq_true_of_ne_false hp
  have h1 : y ∈ a.filter p := List.mem_filter.mpr ⟨hy, hp⟩
  have h2 : 0 < (a.filter p).length := List.length_pos_of_mem h1
  rw [e, List.filter_append, List.filter_cons, if_pos hx, List.length_append, List.length_cons] at h
  omega

theorem mem_before {σ : Type} {P Q : σ → Prop} {l a b : List σ} {x y : σ} (h : AllBefore P Q l) (hd : ∀ s, ¬ (P s ∧ Q s))
    (e : l = a ++ x :: b) (hx : Q x) (hy : y ∈ l) (hp : P y) : y ∈ a := by
  subst e
  rcases List.mem_append.mp hy with hy | hy
  · exact hy
  · rcases List.mem_cons.mp hy with rfl | hy
    · exact absurd ⟨hp, hx⟩ (hd _)
    · exact absurd hp (h.not_after hx y hy)

/-! ### the vertices of tables -/

theorem createsFq_not_outer {n : String} {x : Ddl} (h : x.createsTable n = true) : ¬ x.IsOuter := by
  cases x <;> first | exact id | cases h

theorem PlanRun.declared_table_delete (run : PlanRun opts d r r' stmts) {t : Table} (ht : t ∈ d.tableDiffs.deletes) {p : SQName}
    (hp : t.parentTable = some p) : run.graph.Declared (tableVertexId p .delete).text (tableVertexId t.name .delete).text := by
  obtain ⟨deps, h1, h2⟩ := deps_of_delete (m := GenM) (g := (SchemaGen.tableGen d).legacy) (yields_of_run run.htables) ht
  have e : TableGen.deleteDeps _ = _ := yields_lift h1
  rw [TableGen.deleteDeps, Except.ok.injEq] at e
  subst e
  exact run.declared_after (p := run.tables) (by simp) (h2 (mustRunAfter (tableVertexId t.name .delete) (tableVertexId p .delete))
    (by rw [hp]; simp))

/-- a partition is dropped with its table, other tables by a statement -/
theorem PlanRun.deletes (run : PlanRun opts d r r' stmts) {t : Table} (ht : t ∈ d.tableDiffs.deletes) :
    (t.parentTable = none ∧ ∃ s ∈ stmts, s.ddl = .dropTable t.name) ∨
      ∃ p, t.parentTable = some p ∧ ∃ tp ∈ d.tableDiffs.deletes, tp.name.fq = p.fq := by
  obtain ⟨v, hv, _, h⟩ := vertex_of_delete (m := GenM) (g := (SchemaGen.tableGen d).legacy) (yields_of_run run.htables) ht
  have e : (SchemaGen.tableGen d).delete t = .ok v.statements := yields_lift h
  unfold TableGen.delete at e
  cases hp : t.parentTable with
  | none =>
    rw [hp] at e
    dsimp only at e
    rw [Except.ok.injEq] at e
    refine Or.inl ⟨rfl, _, run.mem_of_graph (p := run.tables) (by simp) (PartialGraph.mem_statements.mpr
      ⟨v, hv, by rw [← e]; exact List.mem_cons_self⟩), rfl⟩
  | some p =>
    rw [hp] at e
    dsimp only at e
    by_cases hh : (SchemaGen.tableGen d).deletedTablesByName.has p.getName = true
    · have hh : (byName d.tableDiffs.deletes).has p.getName = true := hh
      obtain ⟨tp, h1, h2⟩ := List.mem_map.mp (byName_has.mp hh)
      exact Or.inr ⟨p, rfl, tp, h1, h2⟩
    · rw [if_neg hh] at e; cases e

/-- the tables that go are below one that a statement drops, and all that happens before their vertices -/
theorem DiffRun.deleted_below (dr : DiffRun opts old new d) (run : PlanRun opts d r r' stmts) (ht : TableTree old)
    {o : Table} (ho : o ∈ d.tableDiffs.deletes) : ∃ q ∈ d.tableDiffs.deletes, (∃ s ∈ stmts, s.ddl = .dropTable q.name) ∧
      Below (forestOf old) q.name.fq o.name.fq ∧
      Relation.ReflTransGen run.graph.Declared (tableVertexId q.name .delete).text (tableVertexId o.name .delete).text := by
  have hold := diffLists_old_nodup dr.htd0
  have hmem : ∀ {o : Table}, o ∈ d.tableDiffs.deletes → o ∈ old.tables := by
    intro o h
    rw [dr.hdeletes] at h
    exact diffLists_deletes_mem dr.htd0 h
  obtain ⟨rank, hr⟩ := ht
  have key : ∀ k, ∀ o ∈ d.tableDiffs.deletes, rank o.name.fq < k → ∃ q ∈ d.tableDiffs.deletes,
      (∃ s ∈ stmts, s.ddl = .dropTable q.name) ∧ Below (forestOf old) q.name.fq o.name.fq ∧
      Relation.ReflTransGen run.graph.Declared (tableVertexId q.name .delete).text (tableVertexId o.name .delete).text := by
    intro k
    induction k with
    | zero => intro o _ h; omega
    | succ k ih =>
      intro o ho hk
      rcases run.deletes ho with ⟨_, s, hs, hd⟩ | ⟨p, hp, tp, htp, e⟩
      · exact ⟨o, ho, ⟨s, hs, hd⟩, .self, .refl⟩
      · have hlt : rank p.fq < rank o.name.fq := hr o (hmem ho) p.fq (by dsimp only; rw [hp]; simp)
        obtain ⟨q, h1, h2, h3, h4⟩ := ih tp htp (by rw [e]; omega)
        have hdec := run.declared_table_delete ho hp
        refine ⟨q, h1, h2, .part (v := o.forValues) (k := (tableNode o).key) ?_ (e ▸ h3), h4.tail ?_⟩
        · rw [forestOf_some hold (hmem ho)]
          unfold tableNode
          rw [hp]; rfl
        · have : (tableVertexId tp.name .delete).text = (tableVertexId p .delete).text := by
            show (VertexId.mk _ tp.name.fq _).text = (VertexId.mk _ p.fq _).text
            rw [e]
          rw [this]
          exact hdec
  exact key _ o ho (Nat.lt_succ_self _)

/-- what becomes of the table `n` -/
inductive ForestFate (opts : PlanOptions) (old new : Schema) (d : SchemaDiff) (n : String) (stmts : List Statement) : Prop where
  | absent (ho : n ∉ old.tables.map Obj.getName) (hn : n ∉ new.tables.map Obj.getName) (hc : ¬ Created stmts n)
  | dropped (o : Table) (ho : o ∈ old.tables) (eo : o.name.fq = n) (hd : o ∈ d.tableDiffs.deletes)
      (hn : n ∉ new.tables.map Obj.getName) (hc : ¬ Created stmts n)
  | added (t : Table) (ht : t ∈ new.tables) (e : t.name.fq = n) (ha : packIf opts t ∈ d.tableDiffs.adds)
      (ho : n ∉ old.tables.map Obj.getName)
  | recreated (o t : Table) (ho : o ∈ old.tables) (ht : t ∈ new.tables) (eo : o.name.fq = n) (e : t.name.fq = n)
      (hd : o ∈ d.tableDiffs.deletes) (ha : packIf opts t ∈ d.tableDiffs.adds) (hr : o.isPartitioned ≠ t.isPartitioned ∨ o.parentTable ≠ t.parentTable)
  | remains (o t : Table) (ho : o ∈ old.tables) (ht : t ∈ new.tables) (eo : o.name.fq = n) (e : t.name.fq = n)
      (hr : Remains o t) (hv : tableNode o = tableNode t) (hc : ¬ Created stmts n) (hd : ¬ Dropped stmts n)

theorem created_vertex (run : PlanRun opts d r r' stmts) {s : Statement} (hs : s ∈ stmts) {n : String}
    (h : s.ddl.createsTable n = true) : ∃ t ∈ d.tableDiffs.adds, t.name.fq = n ∧ ∃ cols, s.ddl = .createTable t.name cols
      (if t.isPartitioned then some t.partitionKeyDef else none) ∧ ∃ ccs, (SchemaGen.tableGen d).partitionChecks t = .ok ccs := by
  obtain ⟨a, b, e⟩ := List.append_of_mem hs
  obtain ⟨v, hv, a1, a2, b1, b2, _, _, e3⟩ := run.block e (createsFq_not_outer h)
  have hg := run.vertex_shape hv (s := s) (by rw [e3]; simp)
  cases hg with
  | newTable t ht ccs hc s hs' hid =>
    cases hs' with
    | create cols hcols => exact ⟨t, ht, of_decide_eq_true (p := t.name.fq = n) h, cols, rfl, ccs, hc⟩
    | _ => cases h
  | alterTable td ht s hs' hid =>
    cases hs' with
    | column cd hcd s hs' => cases hs' <;> cases h
    | _ => cases h
  | _ => cases h

theorem dropped_vertex (run : PlanRun opts d r r' stmts) {s : Statement} (hs : s ∈ stmts) {q : SQName}
    (h : s.ddl = .dropTable q) : ∃ t ∈ d.tableDiffs.deletes, t.name = q ∧ t.parentTable = none := by
  have hd : s.ddl.dropsTable q.fq = true := by rw [h]; exact decide_eq_true rfl
  obtain ⟨a, b, e⟩ := List.append_of_mem hs
  obtain ⟨v, hv, a1, a2, b1, b2, _, _, e3⟩ := run.block e (dropsTable_not_outer hd)
  have hg := run.vertex_shape hv (s := s) (by rw [e3]; simp)
  cases hg with
  | dropTable t ht hp hid => cases h; exact ⟨t, ht, rfl, hp⟩
  | newTable t ht ccs hc s hs' hid => cases hs' <;> cases h
  | alterTable td ht s hs' hid =>
    cases hs' with
    | column cd hcd s hs' => cases hs' <;> cases h
    | _ => cases h
  | _ => cases h

theorem attached_vertex (dr : DiffRun opts old new d) (run : PlanRun opts d r r' stmts) {s : Statement} (hs : s ∈ stmts) {p q : SQName} {v : String}
    (h : s.ddl = .alterTable p (.attachPartition q v)) : ∃ t ∈ new.tables, packIf opts t ∈ d.tableDiffs.adds ∧ t.name = q ∧
      t.parentTable = some p ∧ t.forValues = v := by
  have hd : attaches q.fq s.ddl = true := by rw [h]; exact decide_eq_true rfl
  obtain ⟨a, b, e⟩ := List.append_of_mem hs
  obtain ⟨u, hu, a1, a2, b1, b2, _, _, e3⟩ := run.block e (attaches_not_outer hd)
  have hg := run.vertex_shape hu (s := s) (by rw [e3]; simp)
  obtain ⟨t', ht', e', _, p', hp', hdd⟩ := hg.attaches_vertex hd
  obtain ⟨t, h0, rfl, h1⟩ := dr.added_mem ht'
  rw [h] at hdd
  cases hdd
  exact ⟨t, h1, ht', (packIf_name _ _).symm, by rw [← packIf_parent opts]; exact hp', (packIf_forValues _ _).symm⟩

theorem createsTable_of {s : Statement} {n : String} (h : ∃ t c k, s.ddl = .createTable t c k ∧ t.fq = n) :
    s.ddl.createsTable n = true := by
  obtain ⟨t, c, k, h, rfl⟩ := h
  rw [h]; exact decide_eq_true rfl

theorem dropsTable_of {s : Statement} {n : String} (h : ∃ t, s.ddl = .dropTable t ∧ t.fq = n) : s.ddl.dropsTable n = true := by
  obtain ⟨t, h, rfl⟩ := h
  rw [h]; exact decide_eq_true rfl

theorem attaches_of {s : Statement} {n : String} (h : ∃ p t v, s.ddl = .alterTable p (.attachPartition t v) ∧ t.fq = n) :
    attaches n s.ddl = true := by
  obtain ⟨p, t, v, h, rfl⟩ := h
  rw [h]; exact decide_eq_true rfl

theorem Created.of_mem {l : List Statement} {s : Statement} {n : String} (hs : s ∈ l) (h : s.ddl.createsTable n = true) :
    Created l n := by
  refine ⟨s, hs, ?_⟩
  cases hy : s.ddl with
  | createTable q c k => rw [hy] at h; exact ⟨q, c, k, rfl, of_decide_eq_true h⟩
  | _ => rw [hy] at h; cases h

theorem forest_fate (dr : DiffRun opts old new d) (run : PlanRun opts d r r' stmts) (hn : (new.tables.map Obj.getName).Nodup)
    (n : String) : ForestFate opts old new d n stmts := by
  have hkey : ∀ o x j i td, Obj.getName o = Obj.getName x → buildTableDiff o x j i = .ok (td, false) →
      Obj.getName (TableDiff.new td) = Obj.getName x := by
    intro o x j i td _ hb
    rw [(buildTableDiff_ok hb).2.1]
  obtain ⟨dec, n1, n2, n3, n4, n5, n6⟩ := diffLists_decision (key := fun td => Obj.getName td.new) dr.htd0 hn hkey n
  have ea : d.tableDiffs.adds.map Obj.getName = dr.td0.adds.map Obj.getName := dr.addNames
  have ed : d.tableDiffs.deletes.map Obj.getName = dr.td0.deletes.map Obj.getName := by rw [dr.hdeletes]
  have noc : n ∉ d.tableDiffs.adds.map Obj.getName → ¬ Created stmts n := by
    rintro h ⟨s, hs, hh⟩
    obtain ⟨t, ht, e, _⟩ := created_vertex run hs (createsTable_of hh)
    exact h (List.mem_map.mpr ⟨t, ht, e⟩)
  have hnew : n ∉ new.tables.map Obj.getName → n ∉ d.tableDiffs.adds.map Obj.getName := by
    intro h h'
    obtain ⟨t, ht, rfl⟩ := List.mem_map.mp h'
    obtain ⟨t0, _, rfl, h0⟩ := dr.added_mem ht
    exact h (List.mem_map.mpr ⟨t0, h0, (packIf_getName opts t0).symm⟩)
  cases dec with
  | absent ho hn => exact .absent ho hn (noc (hnew hn))
  | dropped o ho e hn h => exact .dropped o ho e (by rw [dr.hdeletes]; exact h) hn (noc (hnew hn))
  | added x hx e ho h => exact .added x hx e (by rw [dr.hadds]; exact List.mem_map_of_mem h) ho
  | recreated o x ho hx eo ex hb h h' =>
    refine .recreated o x ho hx eo ex (by rw [dr.hdeletes]; exact h) (by rw [dr.hadds]; exact List.mem_map_of_mem h') ?_
    by_contra hh
    rw [not_or, not_not, not_not] at hh
    obtain ⟨i, j, td, hb⟩ := hb
    unfold buildTableDiff at hb
    rw [if_neg (not_not.mpr hh.1)] at hb
    by_cases h1 : o.partitionKeyDef = x.partitionKeyDef
    · rw [if_neg (not_not.mpr h1), if_neg (not_not.mpr hh.2)] at hb
      simp only [except_bind_ok, except_pure_ok] at hb
      obtain ⟨_, _, _, _, _, _, _, _, _, _, hb⟩ := hb
      cases hb
    · rw [if_pos h1] at hb
      cases hb
  | altered o x td ho hx eo ex hb h =>
    obtain ⟨i, j, hb⟩ := hb
    obtain ⟨k1, k2, k3, k4, k5, _⟩ := buildTableDiff_ok hb
    have hm : n ∈ dr.td0.alters.map fun td => Obj.getName td.new := List.mem_map.mpr ⟨td, h, by rw [k2]; exact ex⟩
    have hna : n ∉ d.tableDiffs.adds.map Obj.getName := fun hh => n4 (ea ▸ hh) hm
    have hnd : n ∉ d.tableDiffs.deletes.map Obj.getName := fun hh => n5 (ed ▸ hh) hm
    have hal : orderIf opts td ∈ d.tableDiffs.alters := by rw [dr.halters]; exact List.mem_map_of_mem h
    refine .remains o x ho hx eo ex ⟨eo.trans ex.symm, k4, k5⟩ ?_ (noc hna) ?_
    · unfold tableNode
      rw [k4, k5]
      cases hp : x.parentTable with
      | none => rfl
      | some p =>
        have : o.forValues = x.forValues := by
          obtain ⟨v, hv, _, hy⟩ := vertex_of_alter (m := GenM) (g := (SchemaGen.tableGen d).legacy) (yields_of_run run.htables) hal
          obtain ⟨trun⟩ := table_run hy
          have hb := trun.hpartition (by rw [orderIf_new, k2]; unfold Table.isPartition; rw [hp]; rfl)
          unfold TableGen.alterPartition at hb
          rw [ite_error_ok] at hb
          have := not_not.mp hb.1
          rw [orderIf_old, orderIf_new, k1, k2] at this
          exact this
        rw [this]
    · rintro ⟨s, hs, q, hd, e⟩
      obtain ⟨o', ho', e', _⟩ := dropped_vertex run hs hd
      exact hnd (List.mem_map.mpr ⟨o', ho', by rw [← e, ← e']; rfl⟩)

/-- the table `n` remains -/
def RemainsAt (old new : Schema) (n : String) : Prop :=
  ∃ o ∈ old.tables, ∃ t ∈ new.tables, o.name.fq = n ∧ t.name.fq = n ∧ Remains o t

theorem RemainsAt.fate (dr : DiffRun opts old new d) (run : PlanRun opts d r r' stmts)
    (hn : (new.tables.map Obj.getName).Nodup) {n : String} (h : RemainsAt old new n) :
    ¬ Created stmts n ∧ ¬ Dropped stmts n ∧ forestOf old n = forestOf new n := by
  have hold := diffLists_old_nodup dr.htd0
  obtain ⟨o, ho, t, ht, eo, e, hr⟩ := h
  cases forest_fate dr run hn n with
  | absent h1 => exact absurd (List.mem_map.mpr ⟨o, ho, eo⟩) h1
  | dropped o' ho' eo' hd h1 => exact absurd (List.mem_map.mpr ⟨t, ht, e⟩) h1
  | added t' ht' e' ha h1 => exact absurd (List.mem_map.mpr ⟨o, ho, eo⟩) h1
  | recreated o' t' ho' ht' eo' e' hd ha h1 =>
    have h2 : o' = o := List.inj_on_of_nodup_map hold ho' ho (eo'.trans eo.symm)
    have h3 : t' = t := List.inj_on_of_nodup_map hn ht' ht (e'.trans e.symm)
    subst h2 h3
    rcases h1 with h1 | h1
    · exact absurd (by unfold Table.isPartitioned; rw [hr.2.1]) h1
    · exact absurd hr.2.2 h1
  | remains o' t' ho' ht' eo' e' hr' hv hc hd =>
    refine ⟨hc, hd, ?_⟩
    have h1 := forestOf_some hold ho'
    have h2 := forestOf_some hn ht'
    rw [eo'] at h1
    rw [e'] at h2
    rw [h1, h2, hv]

/-- a table that remains is not below one that is dropped -/
theorem RemainsAt.not_taken (dr : DiffRun opts old new d) (run : PlanRun opts d r r' stmts)
    (hn : (new.tables.map Obj.getName).Nodup) (hpo : PartitionsOfTables old) (hpn : PartitionsOfTables new)
    (hpr : ParentsRemain old new) {n : String} (h : RemainsAt old new n) : ¬ Taken (forestOf old) stmts n := by
  have hold := diffLists_old_nodup dr.htd0
  rintro ⟨q, hq, hb⟩
  induction hb with
  | self => exact (h.fate dr run hn).2.1 hq
  | @part n p v k hf hb ih =>
    refine ih ?_
    obtain ⟨o, ho, t, ht, eo, e, hr⟩ := h
    obtain ⟨o', ho', eo', hv⟩ := forestOf_mem hf
    have h2 : o' = o := List.inj_on_of_nodup_map hold ho' ho (eo'.trans eo.symm)
    subst h2
    obtain ⟨p', hp', hpe⟩ : ∃ p', o'.parentTable = some p' ∧ p'.fq = p := by
      unfold tableNode at hv
      cases hp : o'.parentTable with
      | none => rw [hp] at hv; cases hv
      | some p' => rw [hp] at hv; cases hv; exact ⟨p', rfl, rfl⟩
    obtain ⟨po, hpo1, hpo2, hpo3⟩ := hpo o' ho p' hp'
    obtain ⟨tp, htp1, htp2, htp3⟩ := hpn t ht p' (hr.2.2 ▸ hp')
    have hsame := hpr o' ho t ht hr p' hp' po hpo1 tp htp1 (by rw [hpo2]) (by rw [htp2])
    have e1 : po.name.fq = p := by rw [hpo2, hpe]
    have e2 : tp.name.fq = p := by rw [htp2, hpe]
    cases forest_fate dr run hn p with
    | absent h1 => exact absurd (List.mem_map.mpr ⟨po, hpo1, e1⟩) h1
    | dropped o' ho' eo' hd h1 => exact absurd (List.mem_map.mpr ⟨tp, htp1, e2⟩) h1
    | added t' ht' e' ha h1 => exact absurd (List.mem_map.mpr ⟨po, hpo1, e1⟩) h1
    | recreated o' t' ho' ht' eo' e' hd ha h1 =>
      have h2 : o' = po := List.inj_on_of_nodup_map hold ho' hpo1 (eo'.trans e1.symm)
      have h3 : t' = tp := List.inj_on_of_nodup_map hn ht' htp1 (e'.trans e2.symm)
      subst h2 h3
      rcases h1 with h1 | h1
      · exact absurd (hpo3.trans htp3.symm) h1
      · exact absurd hsame h1
    | remains o' t' ho' ht' eo' e' hr' hv hc hd => exact ⟨o', ho', t', ht', eo', e', hr'⟩

theorem creates_once (dr : DiffRun opts old new d) (run : PlanRun opts d r r' stmts) (hn : (new.tables.map Obj.getName).Nodup)
    (n : String) : (stmts.filter fun s : Statement => s.ddl.createsTable n).length ≤ 1 := by
  cases table_ops dr run hn n with
  | absent _ _ hc => rw [hc]; simp
  | dropped _ _ _ _ hc => rw [hc]; simp
  | added _ _ _ _ _ hc => obtain ⟨s, _, _, _, hc⟩ := hc; rw [hc]; simp
  | recreated _ _ _ _ _ _ _ hc => obtain ⟨s, _, _, _, hc⟩ := hc; rw [hc]; simp
  | altered _ _ _ _ _ _ _ _ _ hc => rw [hc]; simp

theorem drops_once (dr : DiffRun opts old new d) (run : PlanRun opts d r r' stmts) (hn : (new.tables.map Obj.getName).Nodup)
    (n : String) : (stmts.filter fun s : Statement => s.ddl.dropsTable n).length ≤ 1 := by
  have hold := diffLists_old_nodup dr.htd0
  have key : ∀ o ∈ old.tables, o.name.fq = n → (o.parentTable = none → ∃ s, s.ddl = .dropTable o.name ∧
      stmts.filter (fun s : Statement => s.ddl.dropsTable n) = [s]) →
      (stmts.filter fun s : Statement => s.ddl.dropsTable n).length ≤ 1 := by
    intro o ho e h
    cases hl : stmts.filter fun s : Statement => s.ddl.dropsTable n with
    | nil => simp
    | cons s l =>
      have hs : s ∈ stmts.filter fun s : Statement => s.ddl.dropsTable n := by rw [hl]; simp
      have hd : s.ddl.dropsTable n = true := (List.mem_filter.mp hs).2
      have hs1 := (List.mem_filter.mp hs).1
      have : ∃ q : SQName, s.ddl = .dropTable q ∧ q.fq = n := by
        cases hx : s.ddl with
        | dropTable q => rw [hx] at hd; exact ⟨q, rfl, of_decide_eq_true hd⟩
        | _ => rw [hx] at hd; cases hd
      obtain ⟨q, hq, rfl⟩ := this
      obtain ⟨t, ht, rfl, hp⟩ := dropped_vertex run hs1 hq
      rw [dr.hdeletes] at ht
      have : t = o := List.inj_on_of_nodup_map hold (diffLists_deletes_mem dr.htd0 ht) ho e.symm
      subst this
      obtain ⟨s', _, h'⟩ := h hp
      rw [← hl, h']; simp
  cases table_ops dr run hn n with
  | absent _ _ _ hd => rw [hd]; simp
  | dropped o ho e _ _ hd => exact key o ho e hd
  | added _ _ _ _ _ _ hd => rw [hd]; simp
  | recreated o _ ho _ eo _ _ _ hd => exact key o ho eo hd
  | altered _ _ _ _ _ _ _ _ _ _ hd => rw [hd]; simp

/-- added partitions are attached -/
theorem PlanRun.attaches_added (run : PlanRun opts d r r' stmts) {t : Table} (ht : t ∈ d.tableDiffs.adds) {p : SQName}
    (hp : t.parentTable = some p) : ∃ s ∈ stmts, s.ddl = .alterTable p (.attachPartition t.name t.forValues) := by
  obtain ⟨v, hv, _, ⟨s0, s1, h⟩⟩ := vertex_of_add (m := GenM) (g := AttachGen.legacy d.new.indexes (byName d.tableDiffs.adds))
    (yields_of_run run.hattaches) ht
  have h : AttachGen.add t s0 = .ok (v.statements, s1) := h
  unfold AttachGen.add at h
  rw [hp] at h
  obtain ⟨e, _⟩ := genM_pure_ok.mp h
  exact ⟨_, run.mem_of_graph (p := run.attaches) (by simp) (PartialGraph.mem_statements.mpr
    ⟨v, hv, by rw [← e]; exact List.mem_cons_self⟩), rfl⟩

theorem added_created (run : PlanRun opts d r r' stmts) {t : Table} (ha : packIf opts t ∈ d.tableDiffs.adds) :
    ∃ s ∈ stmts, s.ddl.createsTable t.name.fq = true := by
  obtain ⟨s, hs, hc⟩ := run.creates ha
  refine ⟨s, hs, createsTable_of ?_⟩
  cases hx : s.ddl with
  | createTable q c k =>
    rw [hx, packIf_name] at hc
    have hc : q = t.name := of_decide_eq_true hc
    exact ⟨q, c, k, rfl, by rw [hc]⟩
  | _ => rw [hx] at hc; cases hc

set_option maxHeartbeats 800000 in
/-- the tables are dropped, made and attached in order -/
theorem forest_plan (dr : DiffRun opts old new d) (run : PlanRun opts d r r' stmts) (hn : (new.tables.map Obj.getName).Nodup)
    (ht : TableTree old) (hpo : PartitionsOfTables old) (hpn : PartitionsOfTables new) (hpr : ParentsRemain old new) :
    ForestPlan (forestOf old) (forestOf new) stmts := by
  have hold := diffLists_old_nodup dr.htd0
  have hdel : ∀ {o : Table}, o ∈ d.tableDiffs.deletes → o ∈ old.tables := by
    intro o h
    rw [dr.hdeletes] at h
    exact diffLists_deletes_mem dr.htd0 h
  have hadd : ∀ {t : Table}, t ∈ new.tables → packIf opts t ∈ d.tableDiffs.adds → ∃ s ∈ stmts, s.ddl.createsTable t.name.fq = true :=
    fun _ ha => added_created run ha
  -- what comes before an attachment
  have hlast : ∀ {t tp : Table}, t ∈ new.tables → tp ∈ new.tables → t.parentTable = some tp.name → ∀ m,
      (m = t.name.fq ∨ m = tp.name.fq) →
      AllBefore (fun s : Statement => s.ddl.createsTable m = true) (fun s => attaches t.name.fq s.ddl = true) stmts := by
    intro t tp h1 h2 h3 m hm
    refine dr.attached_last run hn h1 h2 h3 (fun s hs => createsFq_not_outer hs) ?_
    intro id s hg hs
    obtain ⟨t', _, e, hid⟩ := hg.createTable_vertex hs
    exact ⟨m, .addAlter, hm, by rw [hid, ← e]; rfl⟩
  have hcd : ∀ (m m' : String) (s : Statement), ¬ (s.ddl.createsTable m = true ∧ attaches m' s.ddl = true) := by
    rintro m m' s ⟨h1, h2⟩
    cases hx : s.ddl <;> rw [hx] at h1 h2 <;> first | cases h1 | exact absurd h2 Bool.false_ne_true
  refine ⟨?_, ?_, ?_, ?_, ?_, ?_⟩
  · -- create
    intro a x b q c k e hx
    have hx' : x.ddl.createsTable q.fq = true := createsTable_of ⟨q, c, k, hx, rfl⟩
    have hmem : x ∈ stmts := by rw [e]; simp
    obtain ⟨t', ht', en, cols, hdd, _⟩ := created_vertex run hmem hx'
    obtain ⟨t, h0, rfl, h1⟩ := dr.added_mem ht'
    rw [packIf_name] at en
    rw [hx] at hdd
    cases hdd
    refine ⟨?_, ?_, ?_, ?_⟩
    · rintro ⟨s, hs, hh⟩
      have := before_once (creates_once dr run hn _) e hx' s hs
      rw [createsTable_of hh] at this
      cases this
    · rintro ⟨s, hs, p, q, v, hh, e'⟩
      obtain ⟨t2, h2, h3, h4, h5, _⟩ := attached_vertex dr run (s := s) (by rw [e]; simp [hs]) hh
      have : t2 = t := List.inj_on_of_nodup_map hn h2 h1 (by show t2.name.fq = t.name.fq; rw [h4, e', packIf_name])
      subst this
      obtain ⟨tp, k1, k2, _⟩ := hpn t2 h1 p h5
      have hl := hlast h1 k1 (by rw [h5, k2]) t2.name.fq (Or.inl rfl)
      rw [e] at hl
      refine hl.not_before (x := x) (by rw [packIf_name] at hx'; exact hx') s hs (attaches_of ⟨p, q, v, hh, ?_⟩)
      rw [e', packIf_name]
    · rw [packIf_name]
      cases forest_fate dr run hn t.name.fq with
      | absent h2 h3 => exact absurd (List.mem_map_of_mem h1) h3
      | dropped o ho eo hd h3 => exact absurd (List.mem_map_of_mem h1) h3
      | added t2 ht2 e2 ha h3 => exact Or.inl (forestOf_none h3)
      | recreated o t2 ho ht2 eo e2 hd ha _ =>
        right
        obtain ⟨q, hq, ⟨s, hs, hsd⟩, hb, hdec⟩ := dr.deleted_below run ht hd
        rw [eo] at hb
        refine ⟨q.name.fq, ⟨s, ?_, q.name, hsd, rfl⟩, hb⟩
        have hbef : AllBefore (fun s : Statement => s.ddl.dropsTable q.name.fq = true)
            (fun s => s.ddl.createsTable t.name.fq = true) stmts := by
          refine run.allBefore (fun s hs => dropsTable_not_outer hs) (fun s hs => createsFq_not_outer hs) ?_
          intro u x w y hx hy hp hq'
          rw [dropsTable_vertex hx hp]
          obtain ⟨t3, _, e3, hid⟩ := hy.createTable_vertex hq'
          have : w = tableVertexId t.name .addAlter := by
            rw [hid]; show VertexId.mk _ t3.name.fq _ = VertexId.mk _ t.name.fq _; rw [e3]
          rw [this]
          have hreb := dr.declared_rebuild run hn h1
          have : tableVertexId o.name .delete = tableVertexId t.name .delete := by
            show VertexId.mk _ o.name.fq _ = VertexId.mk _ t.name.fq _; rw [eo]
          rw [this] at hdec
          exact Relation.TransGen.tail' hdec hreb
        exact mem_before hbef (by
          rintro s ⟨h1, h2⟩
          cases hx : s.ddl <;> rw [hx] at h1 h2 <;> first | cases h1 | cases h2) e (by rw [packIf_name] at hx'; exact hx') hs
          (dropsTable_of ⟨_, hsd, rfl⟩)
      | remains o t2 ho ht2 eo e2 hr hv hc hd =>
        exact absurd ⟨x, hmem, _, _, _, hx, by rw [packIf_name]⟩ hc
    · rw [packIf_name, forestOf_some hn h1]
      refine ⟨(tableNode t).parent, ?_⟩
      congr 1
      unfold tableNode Table.isPartitioned
      rw [packIf_key]
      by_cases hk : t.partitionKeyDef = ""
      · simp [hk]
      · simp [hk]
  · -- drop
    intro a x b q e hx
    have hx' : x.ddl.dropsTable q.fq = true := dropsTable_of ⟨q, hx, rfl⟩
    have hmem : x ∈ stmts := by rw [e]; simp
    obtain ⟨o, ho, rfl, hp⟩ := dropped_vertex run hmem hx
    refine ⟨?_, ?_, ?_⟩
    · rw [forestOf_some hold (hdel ho)]; simp
    · rintro ⟨s, hs, hh⟩
      have hs' : s ∈ stmts := by rw [e]; simp [hs]
      have hsc := createsTable_of hh
      cases table_ops dr run hn o.name.fq with
      | absent _ _ hc => exact List.filter_eq_nil_iff.mp hc s hs' hsc
      | dropped _ _ _ _ hc => exact List.filter_eq_nil_iff.mp hc s hs' hsc
      | added _ _ _ _ _ _ hd => exact List.filter_eq_nil_iff.mp hd x hmem hx'
      | recreated _ _ _ _ _ _ _ _ _ hb =>
        rw [e] at hb
        exact hb.not_before (x := x) hx' s hs hsc
      | altered _ _ _ _ _ _ _ _ _ hc => exact List.filter_eq_nil_iff.mp hc s hs' hsc
    · rintro ⟨q', ⟨s, hs, hsd⟩, hb⟩
      have hq : q' = o.name.fq := by
        cases hb with
        | self => rfl
        | part hf _ =>
          rw [forestOf_some hold (hdel ho)] at hf
          unfold tableNode at hf
          rw [hp] at hf
          cases hf
      subst hq
      have := before_once (drops_once dr run hn _) e hx' s hs
      rw [dropsTable_of hsd] at this
      cases this
  · -- attach
    intro a x b p q v e hx
    have hx' : attaches q.fq x.ddl = true := attaches_of ⟨p, q, v, hx, rfl⟩
    have hmem : x ∈ stmts := by rw [e]; simp
    obtain ⟨t, h1, h2, rfl, h4, rfl⟩ := attached_vertex dr run hmem hx
    obtain ⟨tp, k1, rfl, k3⟩ := hpn t h1 p h4
    have hbefore : ∀ {m : String} {s : Statement}, (m = t.name.fq ∨ m = tp.name.fq) → s ∈ stmts → s.ddl.createsTable m = true →
        Created a m := by
      intro m s hm hs hc
      have := mem_before (hlast h1 k1 h4 m hm) (hcd m _) e hx' hs hc
      exact Created.of_mem this hc
    obtain ⟨s, hs, hc⟩ := hadd h1 h2
    refine ⟨hbefore (Or.inl rfl) hs hc, ?_, ?_, ?_⟩
    · rintro ⟨s, hs, hh⟩
      have := before_once (dr.attached_once run hn h1) e hx' s hs
      rw [attaches_of hh] at this
      cases this
    · rw [forestOf_some hn h1]
      refine ⟨(tableNode t).key, ?_⟩
      unfold tableNode
      rw [h4]; rfl
    · have hkey : (if tp.partitionKeyDef = "" then none else some tp.partitionKeyDef) = some tp.partitionKeyDef :=
        if_neg (of_decide_eq_true (p := tp.partitionKeyDef ≠ "") k3)
      have hnew : packIf opts tp ∈ d.tableDiffs.adds → Created a tp.name.fq ∧
          ∃ k, forestOf new tp.name.fq = some ⟨some k, none⟩ := by
        intro ha
        obtain ⟨s, hs, hc⟩ := hadd k1 ha
        refine ⟨hbefore (Or.inr rfl) hs hc, tp.partitionKeyDef, ?_⟩
        obtain ⟨t', ht', en, _, _, ccs, hcc⟩ := created_vertex run hs hc
        obtain ⟨t0, _, rfl, h0⟩ := dr.added_mem ht'
        rw [packIf_name] at en
        have : t0 = tp := List.inj_on_of_nodup_map hn h0 k1 en
        subst this
        rw [forestOf_some hn k1]
        unfold tableNode
        rw [hkey]
        unfold TableGen.partitionChecks at hcc
        rw [packIf_parent] at hcc
        cases hpp : t0.parentTable with
        | none => rfl
        | some p' =>
          rw [hpp] at hcc
          dsimp only at hcc
          rw [if_pos (by unfold Table.isPartitioned; rw [packIf_key]; exact k3)] at hcc
          cases hcc
      cases forest_fate dr run hn tp.name.fq with
      | absent h2 h3 => exact absurd (List.mem_map_of_mem k1) h3
      | dropped o ho eo hd h3 => exact absurd (List.mem_map_of_mem k1) h3
      | added t2 ht2 e2 ha h3 =>
        have : t2 = tp := List.inj_on_of_nodup_map hn ht2 k1 e2
        subst this
        exact Or.inl (hnew ha)
      | recreated o t2 ho ht2 eo e2 hd ha _ =>
        have : t2 = tp := List.inj_on_of_nodup_map hn ht2 k1 e2
        subst this
        exact Or.inl (hnew ha)
      | remains o t2 ho ht2 eo e2 hr hv hc hd =>
        have : t2 = tp := List.inj_on_of_nodup_map hn ht2 k1 e2
        subst this
        have hra : RemainsAt old new t2.name.fq := ⟨o, ho, t2, ht2, eo, rfl, hr⟩
        refine Or.inr ⟨⟨t2.partitionKeyDef, (tableNode t2).parent, ?_⟩, hc, hra.not_taken dr run hn hpo hpn hpr⟩
        rw [(hra.fate dr run hn).2.2, forestOf_some hn k1]
        unfold tableNode
        rw [hkey]
  · -- made
    intro n hc k i hg
    cases hi : i with
    | none => exact Or.inl rfl
    | some pv =>
      right
      obtain ⟨s, hs, hh⟩ := hc
      obtain ⟨t', ht', en, _⟩ := created_vertex run hs (createsTable_of hh)
      obtain ⟨t, _, rfl, h0⟩ := dr.added_mem ht'
      rw [packIf_name] at en
      subst en
      rw [forestOf_some hn h0, hi] at hg
      cases hp : t.parentTable with
      | none =>
        unfold tableNode at hg
        rw [hp] at hg
        cases hg
      | some p =>
        obtain ⟨s', hs', hd'⟩ := run.attaches_added ht' (p := p) (by rw [packIf_parent]; exact hp)
        rw [packIf_name] at hd'
        exact ⟨s', hs', p, t.name, _, hd', rfl⟩
  · -- gone
    intro n hc htk
    cases forest_fate dr run hn n with
    | absent _ h3 => exact forestOf_none h3
    | dropped o ho eo hd h3 => exact forestOf_none h3
    | added t ht2 e2 ha h3 =>
      obtain ⟨s, hs, h⟩ := hadd ht2 ha
      rw [e2] at h
      exact absurd (Created.of_mem hs h) hc
    | recreated o t ho ht2 eo e2 hd ha h3 =>
      obtain ⟨s, hs, h⟩ := hadd ht2 ha
      rw [e2] at h
      exact absurd (Created.of_mem hs h) hc
    | remains o t ho ht2 eo e2 hr hv hc hd =>
      exact absurd htk (RemainsAt.not_taken dr run hn hpo hpn hpr ⟨o, ho, t, ht2, eo, e2, hr⟩)
  · -- kept
    intro n hc htk
    cases forest_fate dr run hn n with
    | absent h2 h3 => rw [forestOf_none h2, forestOf_none h3]
    | dropped o ho eo hd h3 =>
      obtain ⟨q, hq, ⟨s, hs, hsd⟩, hb, _⟩ := dr.deleted_below run ht hd
      rw [eo] at hb
      exact absurd ⟨q.name.fq, ⟨s, hs, _, hsd, rfl⟩, hb⟩ htk
    | added t ht2 e2 ha h3 =>
      obtain ⟨s, hs, h⟩ := hadd ht2 ha
      rw [e2] at h
      exact absurd (Created.of_mem hs h) hc
    | recreated o t ho ht2 eo e2 hd ha h3 =>
      obtain ⟨q, hq, ⟨s, hs, hsd⟩, hb, _⟩ := dr.deleted_below run ht hd
      rw [eo] at hb
      exact absurd ⟨q.name.fq, ⟨s, hs, _, hsd, rfl⟩, hb⟩ htk
    | remains o t ho ht2 eo e2 hr hv hc hd =>
      exact (RemainsAt.fate dr run hn ⟨o, ho, t, ht2, eo, e2, hr⟩).2.2

end

/-! ### tables that are lost -/

section
variable {f : Forest}

/-- the table `n` was missing for a while -/
def WasGone (f : Forest) (a : List Statement) (n : String) : Prop :=
  ∃ a1 a2 f1, a = a1 ++ a2 ∧ runForest f a1 = some f1 ∧ f1 n = none

theorem WasGone.mono {a b : List Statement} {n : String} (h : WasGone f a n) : WasGone f (a ++ b) n := by
  obtain ⟨a1, a2, f1, rfl, h1, h2⟩ := h
  exact ⟨a1, a2 ++ b, f1, by simp, h1, h2⟩

theorem runForest_snoc {a : List Statement} {x : Statement} {g : Forest} (h : runForest f (a ++ [x]) = some g) :
    ∃ fa, runForest f a = some fa ∧ forestStep fa x.ddl = some g := by
  unfold runForest at h ⊢
  rw [runWith_append] at h
  obtain ⟨fa, h1, h2⟩ := Option.bind_eq_some_iff.mp h
  refine ⟨fa, h1, ?_⟩
  have h2 : (forestStep fa x.ddl).bind (runWith forestStep · []) = some g := h2
  obtain ⟨g', h3, h4⟩ := Option.bind_eq_some_iff.mp h2
  have h4 : some g' = some g := h4
  rw [h3, h4]

/-- what one statement does to the table `n` -/
theorem forestStep_cases {g : Forest} {x : Ddl} (h : forestStep f x = some g) (n : String) :
    g n = f n ∨ (x.createsTable n = true ∧ f n = none) ∨ ((∃ q : SQName, x = .dropTable q ∧ Below f q.fq n) ∧ g n = none) ∨
      (∃ k, f n = some ⟨k, none⟩ ∧ g n ≠ none) := by
  cases x with
  | createTable t c k =>
    have h : (if f t.fq = none then some (fun n => if n = t.fq then some ⟨k, none⟩ else f n) else none) = some g := h
    by_cases hf : f t.fq = none
    · rw [if_pos hf] at h
      cases h
      by_cases hn : n = t.fq
      · exact Or.inr (Or.inl ⟨decide_eq_true hn.symm, hn ▸ hf⟩)
      · exact Or.inl (if_neg hn)
    · rw [if_neg hf] at h; cases h
  | dropTable q =>
    unfold forestStep at h
    dsimp only at h
    by_cases hf : f q.fq = none
    · rw [if_pos hf] at h; cases h
    · rw [if_neg hf] at h
      cases h
      by_cases hb : Below f q.fq n
      · exact Or.inr (Or.inr (Or.inl ⟨⟨q, rfl, hb⟩, if_pos hb⟩))
      · exact Or.inl (if_neg hb)
  | alterTable p ac =>
    cases ac with
    | attachPartition t v =>
      unfold forestStep at h
      dsimp only at h
      by_cases hf : ∃ k i, f p.fq = some ⟨some k, i⟩
      · rw [if_pos hf] at h
        cases hft : f t.fq with
        | none => rw [hft] at h; cases h
        | some y =>
          obtain ⟨k, i⟩ := y
          cases i with
          | some i => rw [hft] at h; cases h
          | none =>
            rw [hft] at h
            cases h
            by_cases hn : n = t.fq
            · exact Or.inr (Or.inr (Or.inr ⟨k, hn ▸ hft, by dsimp only; rw [if_pos hn]; simp⟩))
            · exact Or.inl (if_neg hn)
      · rw [if_neg hf] at h; cases h
    | _ => cases h; exact Or.inl rfl
  | _ => cases h; exact Or.inl rfl

/-- a partition stays as it is until it goes -/
theorem runForest_keeps {m : String} {k : Option String} {i : String × String} (hm : f m = some ⟨k, some i⟩)
    (a : List Statement) : ∀ fa, runForest f a = some fa → fa m = f m ∨ WasGone f a m := by
  induction a using List.reverseRecOn with
  | nil => intro fa h; cases h; exact Or.inl rfl
  | append_singleton a x ih =>
    intro g h
    obtain ⟨fa, h1, h2⟩ := runForest_snoc h
    rcases ih fa h1 with h3 | h3
    · rcases forestStep_cases h2 m with h4 | ⟨_, h4⟩ | ⟨_, h4⟩ | ⟨k', h4, _⟩
      · exact Or.inl (h4.trans h3)
      · rw [h3, hm] at h4; cases h4
      · exact Or.inr ⟨a ++ [x], [], g, by simp, h, h4⟩
      · rw [h3, hm] at h4; cases h4
    · exact Or.inr h3.mono

/-- a partition goes with its table -/
theorem WasGone.part {m p v : String} {k : Option String} (hm : f m = some ⟨k, some (p, v)⟩) (hp : f p ≠ none)
    (a : List Statement) : ∀ fa, runForest f a = some fa → WasGone f a p → WasGone f a m := by
  induction a using List.reverseRecOn with
  | nil =>
    rintro fa h ⟨a1, a2, f1, e, h1, h2⟩
    obtain ⟨rfl, rfl⟩ := List.append_eq_nil_iff.mp e.symm
    cases h1
    exact absurd h2 hp
  | append_singleton a x ih =>
    rintro g h ⟨a1, a2, f1, e, h1, h2⟩
    obtain ⟨fa, h3, h4⟩ := runForest_snoc h
    rcases List.eq_nil_or_concat a2 with rfl | ⟨a3, y, rfl⟩
    · rw [List.append_nil] at e
      subst e
      rw [h] at h1
      cases h1
      rcases runForest_keeps hm a fa h3 with h5 | h5
      · rcases forestStep_cases h4 p with h6 | ⟨_, h6⟩ | ⟨⟨q, rfl', hb⟩, h6⟩ | ⟨k', _, h6⟩
        · exact (ih fa h3 ⟨a, [], fa, by simp, h3, h6 ▸ h2⟩).mono
        · exact (ih fa h3 ⟨a, [], fa, by simp, h3, h6⟩).mono
        · refine ⟨a ++ [x], [], g, by simp, h, ?_⟩
          have hbm : Below fa q.fq m := .part (h5.trans hm) hb
          rw [rfl'] at h4
          unfold forestStep at h4
          dsimp only at h4
          by_cases hf : fa q.fq = none
          · rw [if_pos hf] at h4; cases h4
          · rw [if_neg hf] at h4
            cases h4
            exact if_pos hbm
        · exact absurd h2 h6
      · exact h5.mono
    · rw [List.concat_eq_append, ← List.append_assoc] at e
      obtain ⟨rfl, _⟩ := List.append_inj' e rfl
      exact (ih fa h3 ⟨a1, a3, f1, rfl, h1, h2⟩).mono

theorem WasGone.below {q n : String} (hb : Below f q n) (hq : f q ≠ none) {a : List Statement} {fa : Forest}
    (h : runForest f a = some fa) (hg : WasGone f a q) : WasGone f a n ∧ f n ≠ none := by
  induction hb with
  | self => exact ⟨hg, hq⟩
  | part hf _ ih => exact ⟨WasGone.part hf ih.2 a fa h ih.1, by rw [hf]; simp⟩

/-- what has gone and is not made again is missing -/
theorem WasGone.stays {n : String} {a : List Statement} (hg : WasGone f a n) (hc : ¬ Created a n) :
    ∀ fa, runForest f a = some fa → fa n = none := by
  obtain ⟨a1, a2, f1, rfl, h1, h2⟩ := hg
  induction a2 using List.reverseRecOn with
  | nil =>
    intro fa h
    rw [List.append_nil, h1] at h
    cases h; exact h2
  | append_singleton a2 x ih =>
    intro g h
    rw [← List.append_assoc] at h hc
    obtain ⟨fa, h3, h4⟩ := runForest_snoc h
    have h5 := ih (fun h => hc h.mono) fa h3
    rcases forestStep_cases h4 n with h6 | ⟨h6, _⟩ | ⟨_, h6⟩ | ⟨k', h6, _⟩
    · rw [h6, h5]
    · exact absurd (Created.of_mem (s := x) (by simp) h6) hc
    · exact h6
    · rw [h5] at h6; cases h6

end

/-! ### the claims -/

section
variable {opts : PlanOptions} {old new : Schema} {r r' : Rand} {stmts : List Statement}

theorem tableTree_normalize {s : Schema} (h : TableTree s) : TableTree s.normalize := by
  obtain ⟨rank, hr⟩ := h
  refine ⟨rank, fun t ht n hn => ?_⟩
  obtain ⟨t0, h0, rfl⟩ := mem_normalize_tables ht
  exact hr t0 h0 n hn

theorem partitionsOfTables_normalize {s : Schema} (h : PartitionsOfTables s) : PartitionsOfTables s.normalize := by
  intro t ht p hp
  obtain ⟨t0, h0, rfl⟩ := mem_normalize_tables ht
  obtain ⟨tp, h1, h2, h3⟩ := h t0 h0 p hp
  exact ⟨normalizeTable tp, mem_normalize_tables_of h1, h2, h3⟩

theorem parentsRemain_normalize (h : ParentsRemain old new) : ParentsRemain old.normalize new.normalize := by
  intro o ho t ht hr p hp po hpo tp htp e1 e2
  obtain ⟨o0, ho0, rfl⟩ := mem_normalize_tables ho
  obtain ⟨t0, ht0, rfl⟩ := mem_normalize_tables ht
  obtain ⟨po0, hpo0, rfl⟩ := mem_normalize_tables hpo
  obtain ⟨tp0, htp0, rfl⟩ := mem_normalize_tables htp
  exact h o0 ho0 t0 ht0 hr p hp po0 hpo0 tp0 htp0 e1 e2

theorem old_tables_nodup (h : generateMigrationStatements r old new opts = .ok (stmts, r')) :
    (old.tables.map Obj.getName).Nodup := by
  obtain ⟨d, ⟨dr⟩, _⟩ := plan_runs h
  exact (normalize_tables_names old).nodup_iff.mp (diffLists_old_nodup dr.htd0)

/-- **C91** Run on all the tables of the old schema, with their partitions, a plan gives all the tables of the new one, each
partitioned by what it should be and attached to the table it should be a partition of: nothing is created twice, nothing that
is missing is dropped, nothing is attached to a table that is not partitioned.  Missing: partitions that remain while the table
they are a partition of is made anew, which are lost (`C91_partitions_lost_violated`). -/
theorem C91_tables_and_partitions_converge_partial (h : generateMigrationStatements r old new opts = .ok (stmts, r'))
    (hn : NamesUnique new.tables) (hto : TableTree old) (hpo : PartitionsOfTables old) (hpn : PartitionsOfTables new)
    (hpr : ParentsRemain old new) : runForest (forestOf old) stmts = some (forestOf new) := by
  obtain ⟨d, ⟨dr⟩, ⟨run⟩⟩ := plan_runs h
  have := (forest_plan dr run (normalize_tables_nodup hn) (tableTree_normalize hto) (partitionsOfTables_normalize hpo)
    (partitionsOfTables_normalize hpn) (parentsRemain_normalize hpr)).run
  rw [forestOf_normalize hn, forestOf_normalize (old_tables_nodup h)] at this
  exact this

/-- **C91, violated** A partition that remains, of a table that becomes a partition of something else, goes with that table and
is not made again: no such plan leads to the new schema. -/
theorem C91_partitions_lost_violated (h : generateMigrationStatements r old new opts = .ok (stmts, r'))
    (hn : NamesUnique new.tables) (hto : TableTree old) {o t po tp : Table} {p : SQName} (ho : o ∈ old.tables)
    (ht : t ∈ new.tables) (hr : Remains o t) (hp : o.parentTable = some p) (hpo : po ∈ old.tables) (htp : tp ∈ new.tables)
    (e1 : po.name.fq = p.fq) (e2 : tp.name.fq = p.fq) (hne : po.parentTable ≠ tp.parentTable) :
    runForest (forestOf old) stmts ≠ some (forestOf new) ∧
      ∀ f, runForest (forestOf old) stmts = some f → f t.name.fq = none := by
  obtain ⟨d, ⟨dr⟩, ⟨run⟩⟩ := plan_runs h
  have hold := old_tables_nodup h
  have hnn := normalize_tables_nodup hn
  have key : ∀ f, runForest (forestOf old) stmts = some f → f t.name.fq = none := by
    intro f hf
    have hra : RemainsAt old.normalize new.normalize t.name.fq :=
      ⟨normalizeTable o, mem_normalize_tables_of ho, normalizeTable t, mem_normalize_tables_of ht, hr.1, rfl, hr⟩
    have hcre := (hra.fate dr run hnn).1
    have hdel : ∃ x ∈ d.tableDiffs.deletes, x.name.fq = p.fq := by
      cases forest_fate dr run hnn p.fq with
      | absent h1 => exact absurd (List.mem_map.mpr ⟨normalizeTable po, mem_normalize_tables_of hpo, e1⟩) h1
      | dropped o' ho' eo' hd h1 => exact ⟨o', hd, eo'⟩
      | added t' ht' e' ha h1 => exact absurd (List.mem_map.mpr ⟨normalizeTable po, mem_normalize_tables_of hpo, e1⟩) h1
      | recreated o' t' ho' ht' eo' e' hd ha h1 => exact ⟨o', hd, eo'⟩
      | remains o' t' ho' ht' eo' e' hr' hv hc hd =>
        exfalso
        have h2 : o' = normalizeTable po := List.inj_on_of_nodup_map (normalize_tables_nodup hold) ho' (mem_normalize_tables_of hpo)
          (eo'.trans e1.symm)
        have h3 : t' = normalizeTable tp := List.inj_on_of_nodup_map hnn ht' (mem_normalize_tables_of htp) (e'.trans e2.symm)
        subst h2 h3
        exact hne hr'.2.2
    obtain ⟨x, hx, ex⟩ := hdel
    obtain ⟨q, hq, ⟨s, hs, hsd⟩, hb, _⟩ := dr.deleted_below run (tableTree_normalize hto) hx
    rw [forestOf_normalize hold, ex] at hb
    have hbelow : Below (forestOf old) q.name.fq t.name.fq := by
      refine .part (p := p.fq) (v := o.forValues) (k := (tableNode o).key) ?_ hb
      rw [← hr.1, forestOf_some hold ho]
      unfold tableNode
      rw [hp]; rfl
    obtain ⟨a, b, e⟩ := List.append_of_mem hs
    have hgone : WasGone (forestOf old) stmts q.name.fq ∧ forestOf old q.name.fq ≠ none := by
      refine ⟨?_, ?_⟩
      · have e' : stmts = (a ++ [s]) ++ b := by rw [e]; simp
        have hf' := hf
        unfold runForest at hf'
        rw [e', runWith_append] at hf'
        obtain ⟨g, h1, _⟩ := Option.bind_eq_some_iff.mp hf'
        refine ⟨a ++ [s], b, g, e', h1, ?_⟩
        obtain ⟨fa, _, h2⟩ := runForest_snoc h1
        rw [hsd] at h2
        unfold forestStep at h2
        dsimp only at h2
        by_cases hff : fa q.name.fq = none
        · rw [if_pos hff] at h2; cases h2
        · rw [if_neg hff] at h2
          cases h2
          exact if_pos .self
      · rw [dr.hdeletes] at hq
        have := diffLists_deletes_mem dr.htd0 hq
        rw [← forestOf_normalize hold, forestOf_some (normalize_tables_nodup hold) this]
        simp
    exact (hgone.1.below hbelow hgone.2 hf).1.stays hcre f hf
  refine ⟨fun he => ?_, key⟩
  have h1 := key _ he
  rw [forestOf_some hn ht] at h1
  cases h1

end

namespace Samples

/-- tables and partitions, before -/
def oldForest : Schema := { Schema.empty with
  tables := [parent "p" [col "x" "integer"] "LIST (x)", partition "p1" "p" [col "x" "integer"] "FOR VALUES IN (1)",
    parent "q" [col "x" "integer"] "LIST (x)", partition "q1" "q" [col "x" "integer"] "FOR VALUES IN (1)",
    table "r" [col "x" "integer"], table "u" [col "x" "integer"]] }

/-- after: `q` has gone with its partition, `r` is a partition of `p`, `p2` is a new one, and `u` is partitioned -/
def newForest : Schema := { Schema.empty with
  tables := [parent "p" [col "x" "integer"] "LIST (x)", partition "p1" "p" [col "x" "integer"] "FOR VALUES IN (1)",
    partition "p2" "p" [col "x" "integer"] "FOR VALUES IN (2)", partition "r" "p" [col "x" "integer"] "FOR VALUES IN (3)",
    parent "u" [col "x" "integer"] "LIST (x)", partition "u1" "u" [col "x" "integer"] "FOR VALUES IN (1)"] }

/-- `t` is a partition of `tp`, which is a partition of `p` -/
def oldLost : Schema := { Schema.empty with
  tables := [parent "p" [col "x" "integer"] "LIST (x)",
    { parent "tp" [col "x" "integer"] "LIST (x)" with parentTable := some (pub "p"), forValues := "FOR VALUES IN (1)" },
    partition "t" "tp" [col "x" "integer"] "FOR VALUES IN (1)"] }

/-- `p` has gone -/
def newLost : Schema := { Schema.empty with
  tables := [parent "tp" [col "x" "integer"] "LIST (x)", partition "t" "tp" [col "x" "integer"] "FOR VALUES IN (1)"] }

theorem partitionsOfTables_of {s : Schema} (h : ∀ t ∈ s.tables, t.parentTable.all (fun p => s.tables.any fun tp =>
    tp.name = p && tp.isPartitioned) = true) : PartitionsOfTables s := by
  intro t ht p hp
  have h1 := h t ht
  rw [hp] at h1
  have h1 : (s.tables.any fun tp => tp.name = p && tp.isPartitioned) = true := h1
  obtain ⟨tp, h2, h3⟩ := List.any_eq_true.mp h1
  rw [Bool.and_eq_true] at h3
  exact ⟨tp, h2, of_decide_eq_true h3.1, h3.2⟩

theorem parentsRemain_of {old new : Schema} (h : ∀ o ∈ old.tables, ∀ t ∈ new.tables, o.name.fq = t.name.fq →
    o.parentTable = t.parentTable → ∀ po ∈ old.tables, ∀ tp ∈ new.tables, o.parentTable.map SQName.fq = some po.name.fq →
    tp.name.fq = po.name.fq → po.parentTable = tp.parentTable) : ParentsRemain old new := by
  intro o ho t ht hr p hp po hpo tp htp e1 e2
  exact h o ho t ht hr.1 hr.2.2 po hpo tp htp (by rw [hp, e1]; rfl) (e2.trans e1.symm)

theorem tableTree_of {s : Schema} (rank : String → Nat) (h : ∀ t ∈ s.tables, ∀ n ∈ t.parentTable.toList.map SQName.fq,
    rank n < rank t.name.fq) : TableTree s := ⟨rank, h⟩

end Samples

open Samples

/-- the hypotheses of `C91_tables_and_partitions_converge_partial` can be met: two partitions are added, one of them in place of
a table, a table gives way to a partitioned one, and a partitioned table goes with its partition -/
example : ∃ stmts r', generateMigrationStatements rand oldForest newForest opts = .ok (stmts, r') ∧ stmts.length = 10 ∧
    runForest (forestOf oldForest) stmts = some (forestOf newForest) ∧
    forestOf newForest (pub "r").fq = some ⟨none, some ((pub "p").fq, "FOR VALUES IN (3)")⟩ := by
  obtain ⟨stmts, r', h, e⟩ := exists_plan (r := rand) (old := oldForest) (new := newForest) (opts := opts)
    (P := fun stmts => stmts.length = 10) (by decide +kernel)
  refine ⟨stmts, r', h, e, C91_tables_and_partitions_converge_partial h (by unfold NamesUnique; decide +kernel)
    (tableTree_of (fun n => if n = (pub "p").fq || n = (pub "q").fq then 0 else 1) (by decide +kernel))
    (partitionsOfTables_of (by decide +kernel)) (partitionsOfTables_of (by decide +kernel))
    (parentsRemain_of (by decide +kernel)), by decide +kernel⟩

/-- there are plans as in `C91_partitions_lost_violated` -/
example : ∃ stmts r', generateMigrationStatements rand oldLost newLost opts = .ok (stmts, r') ∧
    stmts.map (·.ddl.render) = ["DROP TABLE \"public\".\"p\"",
      "CREATE TABLE \"public\".\"tp\" (\n\t\"x\" integer\n) PARTITION BY LIST (x)"] ∧
    runForest (forestOf oldLost) stmts ≠ some (forestOf newLost) := by
  obtain ⟨stmts, r', h, e⟩ := exists_plan (r := rand) (old := oldLost) (new := newLost) (opts := opts)
    (P := fun stmts => stmts.map (·.ddl.render) = ["DROP TABLE \"public\".\"p\"",
      "CREATE TABLE \"public\".\"tp\" (\n\t\"x\" integer\n) PARTITION BY LIST (x)"]) (by decide +kernel)
  refine ⟨stmts, r', h, e, (C91_partitions_lost_violated h (by unfold NamesUnique; decide +kernel)
    (tableTree_of (fun n => if n = (pub "p").fq then 0 else if n = (pub "tp").fq then 1 else 2) (by decide +kernel))
    (o := partition "t" "tp" [col "x" "integer"] "FOR VALUES IN (1)")
    (t := partition "t" "tp" [col "x" "integer"] "FOR VALUES IN (1)")
    (po := { parent "tp" [col "x" "integer"] "LIST (x)" with parentTable := some (pub "p"), forValues := "FOR VALUES IN (1)" })
    (tp := parent "tp" [col "x" "integer"] "LIST (x)") (p := pub "tp")
    (by decide +kernel) (by decide +kernel) ⟨rfl, rfl, rfl⟩ rfl (by decide +kernel) (by decide +kernel) rfl rfl
    (by decide +kernel)).1⟩

end Verif
