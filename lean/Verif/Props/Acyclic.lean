import Verif.Lemmas.Acyclic
import Verif.Lemmas.AcyclicInner
import Verif.Props.Sequence
import Verif.Props.FunctionUse
import Verif.Props.ViewRun

/-!
# C77: the statements of a plan can be put in order
-/

namespace Verif

open Spec

section
variable {r : Rand} {old new : Schema} {opts : PlanOptions}

theorem Spec.Orderable.normalize {s : Schema} (h : Orderable s) : Orderable s.normalize := by
  have hv : ∀ {v : View}, v ∈ s.normalize.views → ∃ v0 ∈ s.views, v = normalizeView v0 := fun hv => by
    obtain ⟨v0, h0, rfl⟩ := List.mem_map.mp hv
    exact ⟨v0, mem_sort.mp h0, rfl⟩
  refine ⟨?_, ?_, ?_, ?_, ?_, ?_⟩
  · obtain ⟨rank, hr⟩ := h.tableTree
    refine ⟨rank, fun t ht => ?_⟩
    obtain ⟨t0, h0, rfl⟩ := mem_normalize_tables ht
    exact hr t0 h0
  · obtain ⟨rank, hr⟩ := h.functionCalls
    refine ⟨rank, fun f hf n hn => ?_⟩
    obtain ⟨f0, h0, rfl⟩ := List.mem_map.mp hf
    obtain ⟨g, hg, rfl⟩ := List.mem_map.mp hn
    exact hr f0 (mem_sort.mp h0) _ (List.mem_map_of_mem (mem_sort.mp hg))
  · intro i hi p hp
    obtain ⟨h1, j, hj, h2, h3, t, ht, h4⟩ := h.indexParent i (mem_normalize_indexes.mp hi) p hp
    exact ⟨h1, j, mem_normalize_indexes.mpr hj, h2, h3, _, mem_normalize_tables_of ht, h4⟩
  · intro v hv' t ht p hp
    obtain ⟨v0, h0, rfl⟩ := hv hv'
    obtain ⟨t0, h1, rfl⟩ := mem_normalize_tables ht
    exact h.viewParent v0 h0 t0 h1 p hp
  · intro v hv' q hq
    obtain ⟨v0, h0, rfl⟩ := hv hv'
    exact h.viewOwner v0 h0 q (mem_sort.mp hq)
  · intro v hv' w hw t ht
    obtain ⟨v0, h0, rfl⟩ := hv hv'
    obtain ⟨w0, h1, rfl⟩ := hv hw
    obtain ⟨t0, h2, rfl⟩ := List.mem_map.mp ht
    exact h.viewReads v0 h0 w0 h1 t0 (mem_sort.mp h2)

theorem Spec.OneWay.normalize (h : OneWay old new) : OneWay old.normalize new.normalize := by
  obtain ⟨level, h1, h2⟩ := h
  refine ⟨level, fun t ht => ?_, fun o ho s hs => h2 o (mem_sort.mp ho) s (mem_sort.mp hs)⟩
  rcases List.mem_append.mp ht with ht | ht
  · obtain ⟨t0, h0, rfl⟩ := mem_normalize_tables ht
    exact h1 t0 (List.mem_append_left _ h0)
  · obtain ⟨t0, h0, rfl⟩ := mem_normalize_tables ht
    exact h1 t0 (List.mem_append_right _ h0)

theorem Spec.ChecksOrderable.normalize {o x : Table} (h : ChecksOrderable o x) : ChecksOrderable (normalizeTable o) (normalizeTable x) := by
  refine ⟨h.columns, ?_, ?_, h.lines, ?_⟩
  · show (((sortObjs x.checkConstraints).map normalizeCheckConstraint).map Obj.getName).Nodup
    rw [List.map_map]
    exact namesUnique_sort h.checks
  · intro c hc
    rcases List.mem_append.mp hc with hc | hc <;> obtain ⟨c0, h0, rfl⟩ := mem_normalize_checks hc
    · exact h.temporary c0 (List.mem_append_left _ h0)
    · exact h.temporary c0 (List.mem_append_right _ h0)
  · intro a ha b hb
    obtain ⟨a0, ha0, rfl⟩ := mem_normalize_checks ha
    obtain ⟨b0, hb0, rfl⟩ := mem_normalize_checks hb
    exact h.notNull a0 ha0 b0 hb0

/-- **C77** (partial): plans do not fail because their statements cannot be put in order, whatever the schemas contain, provided that
nothing in either schema refers to itself in a circle, that sequences are handed over between tables in one direction, and that no
recognised NOT NULL check of a table that stays is replaced with another one. -/
theorem C77_no_cycle_partial (ho : Orderable old) (hn : Orderable new) (hs : OneWay old new) (ht : NamesUnique new.tables)
    (hi : NamesUnique new.indexes) (hq : NamesUnique new.sequences)
    (hc : ∀ o ∈ old.tables, ∀ x ∈ new.tables, o.name.fq = x.name.fq → x.parentTable = none → ChecksOrderable o x) (e : GraphErr) :
    generateMigrationStatements r old new opts ≠ .error (.graph e) := by
  revert e
  refine plain_plan (r := r) fun d0 d h0 h1 => ?_
  obtain ⟨dr⟩ := diff_run (old := old.normalize) (new := new.normalize) h0 h1
  refine ⟨fun td htd => plain_tableAlter _ _ fun hp temps hy columns checks psg policies privileges k1 k2 k3 k4 k5 => ?_,
    fun run => ?_⟩
  · obtain ⟨td0, _, e, i, j, hx, ho', en, hb⟩ := dr.altered htd
    obtain ⟨x, hx1, ex⟩ := mem_normalize_tables (List.mem_of_getElem? hx)
    obtain ⟨o, ho1, eo⟩ := mem_normalize_tables (List.mem_of_getElem? ho')
    have hcc : ChecksOrderable td.old td.new := by
      rw [eo, ex]
      refine (hc o ho1 x hx1 ?_ ?_).normalize
      · rw [eo, ex] at en; exact en
      · rw [ex] at hp
        unfold Table.isPartition at hp
        exact Option.isSome_eq_false_iff.mp hp |> Option.isNone_iff_eq_none.mp
    obtain ⟨l, hl⟩ := table_graph_ok (table_parts hcc hb e hy) k1 k2 k3 k4 k5
    rw [hl]
    exact plain_ok l
  · obtain ⟨R⟩ := ranking ho.normalize hn.normalize hs.normalize
    obtain ⟨l, hl⟩ := orderStatements_ok_of_rank (R.rank (byName d.tableDiffs.adds)) (parts := run.graph) fun x hx => by
      have hedge := run.edge hx
      exact ⟨hedge.kinds.1, hedge.kinds.2, dr.edge_up R ho.normalize hn.normalize
        ⟨normalize_tables_nodup ht, namesUnique_sort hi, namesUnique_sort hq⟩ hedge⟩
    rw [hl]
    exact plain_ok l

/-- **C77** is violated wherever sequences are handed around in a circle: two tables that swap their sequences can never be migrated. -/
theorem C77_circle_of_owners_violated (hs : NamesUnique new.sequences) (ht : NamesUnique new.tables)
    (hex : ∀ x ∈ new.sequences, ∀ w, x.owner = some w → ∃ t ∈ new.tables, t.name.fq = w.tableName.fq) {a : String}
    (h : Relation.TransGen (HandedOver old new) a a) : ¬ ∃ stmts r', generateMigrationStatements r old new opts = .ok (stmts, r') := by
  rintro ⟨stmts, r', hp⟩
  obtain ⟨d, ⟨dr⟩, ⟨run⟩⟩ := plan_runs hp
  have hso := diffLists_old_nodup dr.hsequences
  -- a table that a sequence is handed to comes before the rebuilding of the table that loses it
  have step : ∀ a b, HandedOver old new a b → Relation.TransGen run.graph.Declared
      (⟨"table", b, .delete⟩ : VertexId).text (⟨"table", a, .delete⟩ : VertexId).text := by
    rintro a b ⟨o, ho, x, hx, e, v, w, hv, hw, hne, rfl, rfl⟩
    have ho' : o ∈ old.normalize.sequences := mem_sort.mpr ho
    have hx' : x ∈ new.normalize.sequences := mem_sort.mpr hx
    cases sequence_fate dr run (namesUnique_sort hs) x.name.fq with
    | absent h _ _ _ => exact absurd e (h o ho')
    | dropped _ _ _ h _ _ _ _ _ => exact absurd rfl (h x hx')
    | added _ _ _ h _ _ _ _ _ => exact absurd e (h o ho')
    | recreated o1 x1 h1 h2 eo ex w' how hxw _ _ _ _ _ _ _ _ _ =>
      have e1 : x1 = x := List.inj_on_of_nodup_map (namesUnique_sort hs) h2 hx' ex
      have e2 : o1 = o := List.inj_on_of_nodup_map hso h1 ho' (Eq.trans eo e.symm)
      rw [e1, hw] at hxw
      rw [e2, hv] at how
      cases hxw; cases how
      exact absurd rfl hne
    | altered o1 x1 h1 h2 eo ex hd _ _ _ _ =>
      have e1 : x1 = x := List.inj_on_of_nodup_map (namesUnique_sort hs) h2 hx' ex
      have e2 : o1 = o := List.inj_on_of_nodup_map hso h1 ho' (Eq.trans eo e.symm)
      subst e1 e2
      obtain ⟨_, d2, d3⟩ := run.sequence_deps_alter hd (by
        show o1.owner ≠ x1.owner
        rw [hv, hw]
        simpa using hne)
      obtain ⟨t, htn, en⟩ := hex x1 hx w hw
      have d1 := dr.declared_rebuild run (normalize_tables_nodup ht) (mem_normalize_tables_of htn)
      have e3 : ∀ k, tableVertexId (normalizeTable t).name k = tableVertexId w.tableName k := fun k => by
        unfold tableVertexId; rw [show (normalizeTable t).name = t.name from rfl, en]
      rw [e3, e3] at d1
      exact .head d1 (.head (d2 w hw) (.single (d3 v hv)))
  have hcyc : Relation.TransGen run.graph.Declared (⟨"table", a, .delete⟩ : VertexId).text (⟨"table", a, .delete⟩ : VertexId).text := by
    have key : ∀ b, Relation.TransGen (HandedOver old new) a b → Relation.TransGen run.graph.Declared
        (⟨"table", b, .delete⟩ : VertexId).text (⟨"table", a, .delete⟩ : VertexId).text := by
      intro b hab
      induction hab with
      | single h => exact step _ _ h
      | tail _ h ih => exact (step _ _ h).trans ih
    exact key a h
  obtain ⟨err, herr⟩ := (C03_order_fails_iff_cyclic run.graph).1.mpr ⟨_, hcyc⟩
  exact absurd (run.hordered.symm.trans herr) (by simp)

/-- **C77** is violated wherever functions of the new schema call each other in a circle, even when nothing changes. -/
theorem C77_circle_of_functions_violated (hf : NamesUnique new.functions) {a : String} (h : Relation.TransGen (Calls new) a a) :
    ¬ ∃ stmts r', generateMigrationStatements r old new opts = .ok (stmts, r') := by
  rintro ⟨stmts, r', hp⟩
  obtain ⟨d, ⟨dr⟩, ⟨run⟩⟩ := plan_runs hp
  have step : ∀ a b, Calls new a b → run.graph.Declared
      (⟨"function", b, .addAlter⟩ : VertexId).text (⟨"function", a, .addAlter⟩ : VertexId).text := by
    rintro a b ⟨f, hfn, rfl, g, hg, rfl⟩
    have hmem : normalizeFunction f ∈ new.normalize.functions := List.mem_map_of_mem (mem_sort.mpr hfn)
    have hg' : g ∈ (normalizeFunction f).dependsOnFunctions := mem_sort.mpr hg
    rcases diffLists_new_cases dr.hfunctions (normalize_functions_unique hf) hmem with ha | ⟨o, _, fd, hfd, _, _, _, _, hb⟩
    · exact run.declared_add_function (.inl ha) hg'
    · cases hb
      exact run.declared_add_function (.inr ⟨_, hfd, rfl⟩) hg'
  have key : ∀ b, Relation.TransGen (Calls new) a b → Relation.TransGen run.graph.Declared
      (⟨"function", b, .addAlter⟩ : VertexId).text (⟨"function", a, .addAlter⟩ : VertexId).text := by
    intro b hab
    induction hab with
    | single h => exact .single (step _ _ h)
    | tail _ h ih => exact .head (step _ _ h) ih
  obtain ⟨err, herr⟩ := (C03_order_fails_iff_cyclic run.graph).1.mpr ⟨_, key a h⟩
  exact absurd (run.hordered.symm.trans herr) (by simp)

end

namespace Samples

/-- the constraint `x IS NOT NULL` -/
def xNotNull (n : String) : CheckConstraint := { checkOn "x" (.isNotNull (.col "x")) with name := n }

/-- a partitioned table with an index, a table with a constraint, a sequence, functions that call each other, and a view -/
def oldOrder : Schema := { Schema.empty with
  tables := [parent "p" [col "c" "integer"] "LIST (c)", partition "q" "p" [col "c" "integer"] "FOR VALUES IN (1)",
    { table "t" [col "x" "integer", col "y" "integer"] with checkConstraints := [positive "changed" 1, xNotNull "kept"] },
    table "z" [col "k" "integer"]]
  indexes := [index "i" "p" ["c"] "CREATE INDEX i ON ONLY public.p USING btree (c)",
    { index "j" "q" ["c"] "CREATE INDEX j ON public.q USING btree (c)" with parentIdx := some (pub "i") }]
  sequences := [{ seq "s" with owner := some ⟨pub "z", "k"⟩ }]
  functions := [functionOn "f" "1" [], functionOn "g" "1" ["f"]]
  views := [view "v" "t" ["y"]] }

/-- a column goes, one is added and one becomes NOT NULL; the sequence has another owner; the functions call each other the
other way round -/
def newOrder : Schema := { Schema.empty with
  tables := [parent "p" [col "c" "integer"] "LIST (c)", partition "q" "p" [col "c" "integer"] "FOR VALUES IN (1)",
    { table "t" [{ col "x" "integer" with isNullable := false }, col "n" "integer"] with
      checkConstraints := [positive "changed" 2, xNotNull "kept", xNotNull "more"] }]
  indexes := [index "i" "p" ["c"] "CREATE INDEX i ON ONLY public.p USING btree (c)",
    { index "j" "q" ["c"] "CREATE INDEX j ON public.q USING btree (c)" with parentIdx := some (pub "i") }]
  sequences := [{ seq "s" with owner := some ⟨pub "t", "n"⟩ }]
  functions := [functionOn "f" "2" ["h"], functionOn "h" "1" []]
  views := [view "v" "t" ["n"]] }

/-- two tables, each of which owns a sequence -/
def owners (t u : String) : Schema := { Schema.empty with
  tables := [table "a" [col "k" "integer"], table "b" [col "k" "integer"]]
  sequences := [{ seq "s" with owner := some ⟨pub t, "k"⟩ }, { seq "r" with owner := some ⟨pub u, "k"⟩ }] }

/-- two functions that call each other -/
def callEachOther : Schema := { Schema.empty with functions := [functionOn "f" "1" ["g"], functionOn "g" "1" ["f"]] }

end Samples

open Samples

theorem Samples.oldOrder_orderable : Orderable oldOrder := by
  refine ⟨⟨fun n => if n = (pub "q").fq then 1 else 0, by decide +kernel⟩, ⟨fun n => if n = (functionOn "g" "" []).name.fq then 1 else 0,
    by decide +kernel⟩, ?_, ?_, ?_, ?_⟩
  · intro i hi p hp
    simp only [oldOrder, Schema.empty, List.mem_cons, List.not_mem_nil, or_false] at hi
    rcases hi with rfl | rfl
    · cases hp
    · cases hp
      exact ⟨by decide +kernel, index "i" "p" ["c"] "CREATE INDEX i ON ONLY public.p USING btree (c)", by decide +kernel, rfl,
        by decide +kernel, partition "q" "p" [col "c" "integer"] "FOR VALUES IN (1)", by decide +kernel, rfl, pub "p", rfl, rfl⟩
  · intro v hv t ht p hp
    obtain rfl := List.mem_singleton.mp hv
    simp only [oldOrder, Schema.empty, List.mem_cons, List.not_mem_nil, or_false] at ht
    rcases ht with rfl | rfl | rfl | rfl <;> cases hp
    decide +kernel
  · intro v hv q hq o ho
    obtain rfl := List.mem_singleton.mp hv
    obtain rfl := List.mem_singleton.mp hq
    cases ho
    decide +kernel
  · decide +kernel

theorem Samples.newOrder_orderable : Orderable newOrder := by
  refine ⟨⟨fun n => if n = (pub "q").fq then 1 else 0, by decide +kernel⟩, ⟨fun n => if n = (functionOn "f" "" []).name.fq then 1 else 0,
    by decide +kernel⟩, ?_, ?_, ?_, ?_⟩
  · intro i hi p hp
    simp only [newOrder, Schema.empty, List.mem_cons, List.not_mem_nil, or_false] at hi
    rcases hi with rfl | rfl
    · cases hp
    · cases hp
      exact ⟨by decide +kernel, index "i" "p" ["c"] "CREATE INDEX i ON ONLY public.p USING btree (c)", by decide +kernel, rfl,
        by decide +kernel, partition "q" "p" [col "c" "integer"] "FOR VALUES IN (1)", by decide +kernel, rfl, pub "p", rfl, rfl⟩
  · intro v hv t ht p hp
    obtain rfl := List.mem_singleton.mp hv
    simp only [newOrder, Schema.empty, List.mem_cons, List.not_mem_nil, or_false] at ht
    rcases ht with rfl | rfl | rfl <;> cases hp
    decide +kernel
  · intro v hv q hq o ho
    obtain rfl := List.mem_singleton.mp hv
    obtain rfl := List.mem_singleton.mp hq
    cases ho
    decide +kernel
  · decide +kernel

/-- the hypotheses of `C77_no_cycle_partial` can be met by two schemas that differ in every way they speak of -/
example (r : Rand) (opts : PlanOptions) (e : GraphErr) : generateMigrationStatements r oldOrder newOrder opts ≠ .error (.graph e) := by
  refine C77_no_cycle_partial oldOrder_orderable newOrder_orderable
    ⟨fun n => if n = (pub "z").fq then 1 else 0, ?_, ?_⟩ (by unfold NamesUnique; decide +kernel) (by unfold NamesUnique; decide +kernel)
    (by unfold NamesUnique; decide +kernel) ?_ e
  · intro t ht p hp
    simp only [oldOrder, newOrder, Schema.empty, List.mem_append, List.mem_cons, List.not_mem_nil, or_false] at ht
    rcases ht with (rfl | rfl | rfl | rfl) | rfl | rfl | rfl <;> cases hp <;> rfl
  · intro o ho s hs _ a b ha hb _
    obtain rfl := List.mem_singleton.mp ho
    obtain rfl := List.mem_singleton.mp hs
    cases ha
    cases hb
    decide +kernel
  · have key : ∀ o ∈ oldOrder.tables, ∀ x ∈ newOrder.tables, o.name.fq = x.name.fq → NamesUnique x.columns ∧
        NamesUnique x.checkConstraints ∧
        (∀ c ∈ o.checkConstraints ++ x.checkConstraints, ¬ "pgschemadiff_tmpnn_".toList <+: c.name.toList) ∧
        (∀ c ∈ x.columns, '\n' ∉ c.name.toList) ∧
        (∀ a ∈ o.checkConstraints, ∀ b ∈ x.checkConstraints, a.name = b.name → a.name = "changed" ∨
          a.expression = b.expression ∧ a.isInheritable = b.isInheritable) := by
      unfold NamesUnique
      decide +kernel
    intro o ho x hx en _
    obtain ⟨k1, k2, k3, k4, k5⟩ := key o ho x hx en
    refine ⟨k1, k2, k3, k4, fun a ha b hb e _ _ hea _ => ?_⟩
    rcases k5 a ha b hb e with h | h
    · exfalso
      have : a.name = "changed" → a.expression = "(x > 1)" := by
        have key : ∀ o ∈ oldOrder.tables, ∀ a ∈ o.checkConstraints, a.name = "changed" → a.expression = "(x > 1)" := by decide +kernel
        exact key o ho a ha
      rw [this h] at hea
      obtain ⟨p, z, h1, _⟩ := hea
      have h2 := congrArg List.length h1
      simp only [List.length_append] at h2
      have h3 : "(x > 1)".toList.length = 7 := rfl
      have h4 : " IS NOT NULL".toList.length = 12 := rfl
      omega
    · exact h

/-- the hypotheses of `C77_circle_of_owners_violated` can be met: two tables swap their sequences -/
example : ¬ ∃ stmts r', generateMigrationStatements rand (owners "a" "b") (owners "b" "a") opts = .ok (stmts, r') := by
  refine C77_circle_of_owners_violated (a := (pub "a").fq) (by unfold NamesUnique; decide +kernel) (by unfold NamesUnique; decide +kernel)
    ?_ (.head (b := (pub "b").fq) ?_ (.single ?_))
  · intro x hx w hw
    simp only [owners, Schema.empty, List.mem_cons, List.not_mem_nil, or_false] at hx
    rcases hx with rfl | rfl <;> cases hw <;> decide +kernel
  · exact ⟨{ seq "s" with owner := some ⟨pub "a", "k"⟩ }, by decide +kernel, { seq "s" with owner := some ⟨pub "b", "k"⟩ },
      by decide +kernel, rfl, _, _, rfl, rfl, by decide +kernel, rfl, rfl⟩
  · exact ⟨{ seq "r" with owner := some ⟨pub "b", "k"⟩ }, by decide +kernel, { seq "r" with owner := some ⟨pub "a", "k"⟩ },
      by decide +kernel, rfl, _, _, rfl, rfl, by decide +kernel, rfl, rfl⟩

/-- the hypotheses of `C77_circle_of_functions_violated` can be met, by a schema that does not change -/
example : ¬ ∃ stmts r', generateMigrationStatements rand callEachOther callEachOther opts = .ok (stmts, r') := by
  refine C77_circle_of_functions_violated (a := (functionOn "f" "1" ["g"]).name.fq) (by unfold NamesUnique; decide +kernel)
    (.head (b := (functionOn "g" "1" ["f"]).name.fq) ?_ (.single ?_))
  · exact ⟨functionOn "f" "1" ["g"], by decide +kernel, rfl, ⟨"public", "g"⟩, by decide +kernel, rfl⟩
  · exact ⟨functionOn "g" "1" ["f"], by decide +kernel, rfl, ⟨"public", "f"⟩, by decide +kernel, rfl⟩

end Verif
