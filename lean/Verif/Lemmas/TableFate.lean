import Verif.Lemmas.Run
import Verif.Lemmas.DropTable
import Verif.Lemmas.Before

/-!
# What becomes of one table

The statements of a plan that concern the table with a given name, together with what the diff decided about it.
-/

namespace Verif

/-- the kind of the vertices of a part of the graph -/
def Family.kind : Family → String
  | .table => "table"
  | .attach => "attachpartition"
  | .rename => "indexrename"
  | .index => "index"
  | .fk => "fkconstraint"
  | .sequence => "sequence"
  | .ownership => "sequence_ownership"
  | .function => "function"
  | .procedure => "procedure"
  | .trigger => "trigger"
  | .view => "view"
  | .matView => "materialized_view"
  | _ => ""

/-- a statement that drops the table `n` -/
def Ddl.dropsTable (n : String) : Ddl → Bool
  | .dropTable t => t.fq = n
  | _ => false

section
variable {opts : PlanOptions} {old new : Schema} {d : SchemaDiff} {r r' : Rand} {stmts : List Statement}

theorem PlanRun.part_kind (run : PlanRun opts d r r' stmts) {f : Family} {v : SqlVertex Statement}
    (hv : v ∈ (run.part f).vertices) : v.id.objType = f.kind ∨ (f = .view ∧ v.id.objType = "table") := by
  cases f with
  | table => exact Or.inl ((vertex_of_legacy (m := GenM) (g := (SchemaGen.tableGen d).legacy) (yields_of_run run.htables)
      hv).type fun _ _ => rfl)
  | attach => exact Or.inl ((vertex_of_legacy (m := GenM) (g := AttachGen.legacy _ _) (yields_of_run run.hattaches)
      hv).type fun _ _ => rfl)
  | rename => exact Or.inl ((vertex_of_legacy (m := GenM) (g := RenameGen.legacy _) (yields_of_run run.hrenames)
      hv).type fun _ _ => rfl)
  | index => exact Or.inl ((vertex_of_legacy (m := Except Err) (g := (SchemaGen.indexGen opts d run.s3).legacy) run.hindexes
      hv).type fun _ _ => rfl)
  | fk => exact Or.inl ((vertex_of_legacy (m := Except Err) (g := (newFkGen d.old d.new d.tableDiffs.adds).legacy) run.hfks
      hv).type fun _ _ => rfl)
  | sequence => exact Or.inl ((vertex_of_legacy (m := Except Err) (g := (SchemaGen.sequenceGen d).legacy) run.hsequences
      hv).type fun _ _ => rfl)
  | ownership => exact Or.inl ((vertex_of_legacy (m := Except Err) (g := OwnershipGen.legacy) run.hownerships
      hv).type fun _ _ => rfl)
  | function => exact Or.inl ((vertex_of_legacy (m := Except Err) (g := FunctionGen.legacy) run.hfunctions
      hv).type fun _ _ => rfl)
  | trigger => exact Or.inl ((vertex_of_legacy (m := Except Err) (g := TriggerGen.legacy) run.htriggers
      hv).type fun _ _ => rfl)
  | procedure =>
    left
    obtain ⟨parts, e, hp, _⟩ := generatePartialGraph_parts (m := Except Err) run.hprocedures
    have hv : v ∈ run.procedures.vertices := hv
    rw [e] at hv
    obtain ⟨p, hm, hv⟩ := PartialGraph.mem_vertices_concat.mp hv
    cases hp p hm with
    | add o mem h => cases h; rw [List.mem_singleton.mp hv]; rfl
    | delete o mem h => cases h; rw [List.mem_singleton.mp hv]; rfl
    | alter o mem h =>
      simp only [ProcedureGen.gen, ProcedureGen.alter, yields_except] at h
      split at h
      · cases h; cases hv
      · cases h; rw [List.mem_singleton.mp hv]; rfl
  | view =>
    obtain ⟨parts, e, hp, _⟩ := generatePartialGraph_parts (m := Except Err) run.hviews
    have hv : v ∈ run.views.vertices := hv
    rw [e] at hv
    obtain ⟨p, hm, hv⟩ := PartialGraph.mem_vertices_concat.mp hv
    cases hp p hm with
    | add o mem h => cases h; rw [List.mem_singleton.mp hv]; exact Or.inr ⟨rfl, rfl⟩
    | delete o mem h => cases h; rw [List.mem_singleton.mp hv]; exact Or.inl rfl
    | alter o mem h =>
      simp only [ViewGen.gen, ViewGen.alter, yields_except] at h
      split at h
      · cases h; cases hv
      · cases h
  | matView =>
    left
    obtain ⟨parts, e, hp, _⟩ := generatePartialGraph_parts (m := Except Err) run.hmatViews
    have hv : v ∈ run.matViews.vertices := hv
    rw [e] at hv
    obtain ⟨p, hm, hv⟩ := PartialGraph.mem_vertices_concat.mp hv
    cases hp p hm with
    | add o mem h => cases h; rw [List.mem_singleton.mp hv]; rfl
    | delete o mem h => cases h; rw [List.mem_singleton.mp hv]; rfl
    | alter o mem h =>
      simp only [MatViewGen.gen, MatViewGen.alter, yields_except] at h
      split at h
      · cases h; cases hv
      · cases h
  | schema => cases hv
  | extension => cases hv
  | enum => cases hv
  | shared => cases hv

/-- statements of one vertex of the part of the tables, in the order of the plan -/
theorem PlanRun.tables_filter (run : PlanRun opts d r r' stmts) {n : String} {k : DiffType} {P : Statement → Bool}
    (hid : ∀ id s, GraphShape opts d run.s3 id s → P s = true → id = ⟨"table", n, k⟩)
    (hview : ∀ s, s.ddl.family = .view → P s = false) (hout : ∀ s : Statement, s.ddl.IsOuter → P s = false) :
    stmts.filter P = run.tables.statements.filter P := by
  obtain ⟨a, b, e, ha, hb⟩ := run.around
  have h0 : stmts.filter P = run.ordered.filter P := by
    refine (congrArg (List.filter P) e).trans ?_
    rw [List.filter_append, List.filter_append]
    have : ∀ l : List Statement, (∀ s ∈ l, s.ddl.IsOuter) → l.filter P = [] := fun l hl => by
      rw [List.filter_eq_nil_iff]
      intro s hs hp
      rw [hout s (hl s hs)] at hp; cases hp
    rw [this a ha, this b hb]; simp
  have h1 : run.ordered.filter P = run.graph.statements.filter P := by
    refine order_filter run.hordered (⟨"table", n, k⟩ : VertexId).text ?_
    intro v hv s hs hp
    rw [hid v.id s (run.vertex_shape hv hs) hp]
  have h2 : run.graph.statements.filter P = run.tables.statements.filter P := by
    have e : ∀ q : List (PartialGraph Statement), (∀ p ∈ q, ∀ s ∈ p.statements, P s = false) →
        (PartialGraph.concat (run.tables :: q)).statements.filter P = run.tables.statements.filter P := by
      intro q hq
      rw [PartialGraph.statements_concat, List.flatMap_cons, List.filter_append, filter_flatMap,
        flatMap_eq_nil_of, List.append_nil]
      intro p hp
      rw [List.filter_eq_nil_iff]
      intro s hs hp'
      rw [hq p hp s hs] at hp'; cases hp'
    have e2 : run.graph = PartialGraph.concat (run.tables :: ([Family.attach, .rename, .index, .fk, .sequence, .ownership,
      .function, .procedure, .trigger, .view, .matView].map run.part)) := rfl
    rw [e2]
    refine e _ ?_
    intro p hp s hs
    obtain ⟨f, hf, rfl⟩ := List.mem_map.mp hp
    have hs0 := hs
    obtain ⟨v, hv, hs'⟩ := PartialGraph.mem_statements.mp hs0
    clear hs
    have hs := hs'
    have hv' : v ∈ run.graph.vertices := by
      rw [e2]; exact PartialGraph.mem_vertices_concat.mpr ⟨_, List.mem_cons_of_mem _ hp, hv⟩
    cases hc : P s with
    | false => rfl
    | true =>
      have hi := hid v.id s (run.vertex_shape hv' hs) hc
      rcases run.part_kind hv with h | ⟨rfl, _⟩
      · rw [hi] at h
        simp only [List.mem_cons, List.not_mem_nil, or_false] at hf
        rcases hf with rfl | rfl | rfl | rfl | rfl | rfl | rfl | rfl | rfl | rfl | rfl <;> simp [Family.kind] at h
      · rcases run.part_family (f := .view) rfl hs0 with h | h
        · rw [hview s h] at hc; cases hc
        · clear hs0
          have hsh := run.vertex_shape hv' hs
          rw [hi] at hsh
          obtain ⟨parts, e, hp, _⟩ := generatePartialGraph_parts (m := Except Err) run.hviews
          have hv : v ∈ run.views.vertices := hv
          rw [e] at hv
          obtain ⟨p, hm, hv⟩ := PartialGraph.mem_vertices_concat.mp hv
          cases hp p hm with
          | add o mem h' =>
            cases h'; rw [List.mem_singleton.mp hv] at hs
            rw [List.mem_singleton.mp hs] at h; cases h
          | delete o mem h' =>
            cases h'; rw [List.mem_singleton.mp hv] at hs
            rw [List.mem_singleton.mp hs] at h; cases h
          | alter o mem h =>
            simp only [ViewGen.gen, ViewGen.alter, yields_except] at h
            split at h
            · cases h; cases hv
            · cases h
  rw [h0, h1, h2]

theorem TableGen.delete_shape {st : GenState} {o : Table} (ho : o ∈ d.tableDiffs.deletes) {l : List Statement}
    (h : (SchemaGen.tableGen d).delete o = .ok l) {s : Statement} (hs : s ∈ l) :
    GraphShape opts d st (tableVertexId o.name .delete) s ∧ s.ddl = .dropTable o.name := by
  unfold TableGen.delete at h
  split at h
  · split at h
    · cases h; cases hs
    · cases h
  · rename_i hp
    cases h
    rw [List.mem_singleton.mp hs]
    exact ⟨.dropTable o ho hp rfl, rfl⟩

/-- what becomes of the table `n`, and the statements with `P`, which concern the contents of this table -/
inductive TableFate (opts : PlanOptions) (old new : Schema) (d : SchemaDiff) (n : String) (P : Statement → Bool)
    (stmts : List Statement) : Prop where
  | absent (ho : n ∉ old.tables.map Obj.getName) (hn : n ∉ new.tables.map Obj.getName) (h : stmts.filter P = [])
      (hd : stmts.filter (fun s : Statement => s.ddl.dropsTable n) = [])
  | dropped (o : Table) (ho : o ∈ old.tables) (e : o.name.fq = n) (hn : n ∉ new.tables.map Obj.getName)
      (h : stmts.filter P = []) (hd : o.parentTable = none →
        stmts.filter (fun s : Statement => s.ddl.dropsTable n) = [stmt (.dropTable o.name) [.deletesData] statementTimeoutTableDrop])
  | added (t : Table) (ht : t ∈ new.tables) (e : t.name.fq = n) (ho : n ∉ old.tables.map Obj.getName)
      (hm : packIf opts t ∈ d.tableDiffs.adds) (l : List Statement) (hl : (SchemaGen.tableGen d).add (packIf opts t) = .ok l)
      (h : stmts.filter P = l.filter P) (hd : stmts.filter (fun s : Statement => s.ddl.dropsTable n) = [])
  | recreated (o t : Table) (ho : o ∈ old.tables) (ht : t ∈ new.tables) (eo : o.name.fq = n) (e : t.name.fq = n)
      (hb : ∃ i j td, buildTableDiff o t j i = .ok (td, true))
      (hm : packIf opts t ∈ d.tableDiffs.adds) (l : List Statement) (hl : (SchemaGen.tableGen d).add (packIf opts t) = .ok l)
      (h : stmts.filter P = l.filter P)
      (hd : o.parentTable = none → stmts.filter (fun s : Statement => s.ddl.dropsTable n) =
        [stmt (.dropTable o.name) [.deletesData] statementTimeoutTableDrop])
      (hbefore : AllBefore (fun s : Statement => s.ddl.dropsTable n = true) (fun s => P s = true) stmts)
  | altered (o t : Table) (ho : o ∈ old.tables) (ht : t ∈ new.tables) (eo : o.name.fq = n) (e : t.name.fq = n)
      (td : TableDiff) (hb : ∃ i j, buildTableDiff o t j i = .ok (td, false)) (hm : orderIf opts td ∈ d.tableDiffs.alters)
      (l : List Statement) (hl : yields ((SchemaGen.tableGen d).alter (orderIf opts td)) l)
      (h : stmts.filter P = l.filter P) (hd : stmts.filter (fun s : Statement => s.ddl.dropsTable n) = [])

set_option maxHeartbeats 1000000 in
/-- the table `n` and the statements about its contents -/
theorem table_fate (dr : DiffRun opts old new d) (run : PlanRun opts d r r' stmts) (hn : (new.tables.map Obj.getName).Nodup)
    {n : String} {P : Statement → Bool}
    (hid : ∀ id s, GraphShape opts d run.s3 id s → P s = true → id = ⟨"table", n, .addAlter⟩)
    (hview : ∀ s, s.ddl.family = .view → P s = false) (hout : ∀ s : Statement, s.ddl.IsOuter → P s = false) :
    TableFate opts old new d n P stmts := by
  have hidD : ∀ id s, GraphShape opts d run.s3 id s → s.ddl.dropsTable n = true → id = ⟨"table", n, .delete⟩ := by
    intro id s h hs
    cases h with
    | dropTable t h hp hid => simp [Ddl.dropsTable, stmt] at hs; rw [hid, ← hs]; rfl
    | newTable t h ccs hc s hs' hid => cases hs' <;> cases hs
    | alterTable td h s hs' hid =>
      cases hs' with
      | column cd h s hs' => cases hs' <;> cases hs
      | _ => cases hs
    | _ => cases hs
  have hD : stmts.filter (fun s : Statement => s.ddl.dropsTable n) = run.tables.statements.filter fun s => s.ddl.dropsTable n := by
    refine run.tables_filter hidD ?_ ?_
    · intro s h
      cases hs : s.ddl <;> rw [hs] at h <;> first | rfl | cases h
    · intro s h
      cases hs : s.ddl <;> rw [hs] at h <;> first | rfl | cases h
  have hP : stmts.filter P = run.tables.statements.filter P := run.tables_filter hid hview hout
  have hkey : ∀ o x j i td, Obj.getName o = Obj.getName x → buildTableDiff o x j i = .ok (td, false) →
      Obj.getName (TableDiff.new td) = Obj.getName x := by
    intro o x j i td _ hb
    rw [(buildTableDiff_ok hb).2.1]
  obtain ⟨dec, n1, n2, n3, k1, k2, k3⟩ := diffLists_decision (key := fun td => Obj.getName td.new) dr.htd0 hn hkey n
  have ea : d.tableDiffs.adds.map Obj.getName = dr.td0.adds.map Obj.getName := dr.addNames
  have el : d.tableDiffs.alters.map (fun td => Obj.getName td.new) = dr.td0.alters.map fun td => Obj.getName td.new := by
    rw [dr.halters, List.map_map]
    refine List.map_congr_left (f := _) fun td _ => ?_
    show Obj.getName (orderIf opts td).new = _
    rw [orderIf_new]
  have ed : d.tableDiffs.deletes.map Obj.getName = dr.td0.deletes.map Obj.getName := by rw [dr.hdeletes]
  -- the statements of the generator
  have focus : ∀ Q : Statement → Bool, (∃ k, ∀ id s, GraphShape opts d run.s3 id s → Q s = true → id = ⟨"table", n, k⟩) → _ :=
    fun Q hQ => legacy_focus (m := GenM) (g := (SchemaGen.tableGen d).legacy) (ld := d.tableDiffs)
      (key := fun td => Obj.getName td.new) (n := n) (P := Q) (yields_of_run run.htables) (ea ▸ n1) (ed ▸ n2) (el ▸ n3)
      (by
        obtain ⟨k, hQ⟩ := hQ
        intro o ho l hl hne
        rw [List.filter_eq_nil_iff]
        intro s hs hq
        obtain ⟨ccs, hc, hsh⟩ := TableGen.add_shape (yields_lift hl) hs
        have := hQ _ s (.newTable o ho ccs hc s hsh rfl) hq
        unfold tableVertexId at this
        injection this with _ h2 _
        exact hne h2)
      (by
        obtain ⟨k, hQ⟩ := hQ
        intro o ho l hl hne
        rw [List.filter_eq_nil_iff]
        intro s hs hq
        have := hQ _ s (TableGen.delete_shape ho (yields_lift hl) hs).1 hq
        unfold tableVertexId at this
        injection this with _ h2 _
        exact hne h2)
      (by
        obtain ⟨k, hQ⟩ := hQ
        intro td htd l hl hne
        rw [List.filter_eq_nil_iff]
        intro s hs hq
        have := hQ _ s (.alterTable td htd s (table_alter_origin hl hs).shape rfl) hq
        unfold tableVertexId at this
        injection this with _ h2 _
        exact hne h2)
  obtain ⟨A, B, C, e, fa, fb, fc, ga, gb, gc⟩ := focus P ⟨_, hid⟩
  obtain ⟨A', B', C', e', fa', fb', fc', ga', gb', gc'⟩ := focus (fun s => s.ddl.dropsTable n) ⟨_, hidD⟩
  -- deletions have no statements with `P`, others do not drop the table
  have hB : B = [] := by
    by_cases hm : n ∈ d.tableDiffs.deletes.map Obj.getName
    · obtain ⟨o, ho, eo⟩ := List.mem_map.mp hm
      obtain ⟨l, hl, rfl⟩ := gb o ho eo
      rw [List.filter_eq_nil_iff]
      intro s hs hp
      have := hid _ s (TableGen.delete_shape ho (yields_lift hl) hs).1 hp
      unfold tableVertexId at this
      injection this with _ _ h3
      cases h3
    · exact fb hm
  have hA' : A' = [] := by
    by_cases hm : n ∈ d.tableDiffs.adds.map Obj.getName
    · obtain ⟨o, ho, eo⟩ := List.mem_map.mp hm
      obtain ⟨l, hl, rfl⟩ := ga' o ho eo
      rw [List.filter_eq_nil_iff]
      intro s hs hp
      obtain ⟨ccs, hc, hsh⟩ := TableGen.add_shape (yields_lift hl) hs
      have := hidD _ s (.newTable o ho ccs hc s hsh rfl) hp
      unfold tableVertexId at this
      injection this with _ _ h3
      cases h3
    · exact fa' hm
  have hC' : C' = [] := by
    by_cases hm : n ∈ d.tableDiffs.alters.map fun td => Obj.getName td.new
    · obtain ⟨o, ho, eo⟩ := List.mem_map.mp hm
      obtain ⟨l, hl, rfl⟩ := gc' o ho eo
      rw [List.filter_eq_nil_iff]
      intro s hs hp
      have := hidD _ s (.alterTable o ho s (table_alter_origin hl hs).shape rfl) hp
      unfold tableVertexId at this
      injection this with _ _ h3
      cases h3
    · exact fc' hm
  rw [hA', hC'] at e'
  rw [hB] at e
  simp only [List.nil_append, List.append_nil] at e e'
  rw [← hP] at e
  rw [← hD] at e'
  have hdrop : ∀ o ∈ dr.td0.deletes, o.name.fq = n → o.parentTable = none → B' =
      [stmt (.dropTable o.name) [.deletesData] statementTimeoutTableDrop] := by
    intro o ho eo hp
    obtain ⟨l, hl, rfl⟩ := gb' o (dr.hdeletes ▸ ho) eo
    have h : (SchemaGen.tableGen d).delete o = .ok l := yields_lift hl
    unfold TableGen.delete at h
    rw [hp] at h
    cases h
    rw [List.filter_cons, if_pos (by simpa [Ddl.dropsTable, stmt] using eo)]
    rfl
  have hadd : ∀ t ∈ dr.td0.adds, t.name.fq = n → packIf opts t ∈ d.tableDiffs.adds ∧
      ∃ l, (SchemaGen.tableGen d).add (packIf opts t) = .ok l ∧ A = l.filter P := by
    intro t ht et
    have hm : packIf opts t ∈ d.tableDiffs.adds := by rw [dr.hadds]; exact List.mem_map_of_mem ht
    have hname : Obj.getName (packIf opts t) = n := by
      show (packIf opts t).name.fq = n
      rw [← et]; unfold packIf; split <;> rfl
    obtain ⟨l, hl, rfl⟩ := ga _ hm hname
    exact ⟨hm, l, yields_lift hl, rfl⟩
  cases dec with
  | absent ho hn' =>
    refine .absent ho hn' ?_ ?_
    · rw [e, fa fun h => hn' ?_, fc fun h => ho ?_]
      · rfl
      · rw [el] at h; exact (k3 h).1
      · rw [ea] at h
        obtain ⟨x, hx, rfl⟩ := List.mem_map.mp h
        exact List.mem_map_of_mem (diffLists_adds_mem dr.htd0 hx)
    · rw [e', fb' fun h => ho ?_]
      rw [ed] at h
      obtain ⟨x, hx, rfl⟩ := List.mem_map.mp h
      exact List.mem_map_of_mem (diffLists_deletes_mem dr.htd0 hx)
  | dropped o ho eo hn' hm =>
    refine .dropped o ho eo hn' ?_ fun hp => ?_
    · rw [e, fa fun h => hn' ?_, fc fun h => hn' ?_]
      · rfl
      · rw [el] at h; exact (k3 h).2
      · rw [ea] at h
        obtain ⟨x, hx, rfl⟩ := List.mem_map.mp h
        exact List.mem_map_of_mem (diffLists_adds_mem dr.htd0 hx)
    · rw [e', hdrop o hm eo hp]
  | added t ht et ho hm =>
    obtain ⟨hm', l, hl, hf⟩ := hadd t hm et
    refine .added t ht et ho hm' l hl ?_ ?_
    · rw [e, hf, fc fun h => ho ?_, List.append_nil]
      rw [el] at h; exact (k3 h).1
    · rw [e', fb' fun h => ho ?_]
      rw [ed] at h
      obtain ⟨x, hx, rfl⟩ := List.mem_map.mp h
      exact List.mem_map_of_mem (diffLists_deletes_mem dr.htd0 hx)
  | recreated o t ho ht eo et hb hm hm' =>
    obtain ⟨hm'', l, hl, hf⟩ := hadd t hm' et
    refine .recreated o t ho ht eo et hb hm'' l hl ?_ (fun hp => ?_) ?_
    · have hna : n ∉ d.tableDiffs.alters.map fun td => Obj.getName td.new := by
        rw [el]; exact k1 (et ▸ List.mem_map_of_mem hm')
      rw [e, hf, fc hna, List.append_nil]
    · rw [e', hdrop o hm eo hp]
    · refine run.allBefore ?_ ?_ ?_
      · intro s hs ho
        cases hd : s.ddl <;> rw [hd] at hs ho <;> first | cases hs | cases ho
      · intro s hs ho
        rw [hout s ho] at hs; cases hs
      · intro u x v y hu hv hx hy
        rw [hidD u x hu hx, hid v y hv hy]
        have := dr.declared_rebuild run hn ht
        have e1 : ∀ k, tableVertexId t.name k = ⟨"table", n, k⟩ := fun k => by
          unfold tableVertexId; rw [show t.name.fq = n from et]
        rw [e1, e1] at this
        exact .single this
  | altered o t td ho ht eo et hb hm =>
    obtain ⟨i, j, hb⟩ := hb
    have hm' : orderIf opts td ∈ d.tableDiffs.alters := by rw [dr.halters]; exact List.mem_map_of_mem hm
    have hname : Obj.getName (orderIf opts td).new = n := by
      rw [orderIf_new, (buildTableDiff_ok hb).2.1]; exact et
    obtain ⟨l, hl, hf⟩ := gc _ hm' hname
    have hin : n ∈ dr.td0.alters.map fun td => Obj.getName td.new :=
      List.mem_map.mpr ⟨td, hm, by rw [(buildTableDiff_ok hb).2.1]; exact et⟩
    refine .altered o t ho ht eo et td ⟨i, j, hb⟩ hm' l hl ?_ ?_
    · rw [e, hf, fa fun h => ?_, List.nil_append]
      rw [ea] at h
      exact k1 h hin
    · rw [e', fb' fun h => ?_]
      rw [ed] at h
      exact k2 h hin

end
end Verif
