import Verif.Spec.IndexLink
import Verif.Lemmas.IndexDet
import Verif.Props.Index
import Verif.Props.Attach
import Verif.Props.IndexReplace

/-!
# Indexes of partitions belong to those of their tables (C92)
-/

namespace Verif

open Spec

section
variable {opts : PlanOptions} {old new : Schema} {d : SchemaDiff} {r r' : Rand} {stmts : List Statement}

/-- a partition that is known to be attached late is a new partition of an existing table -/
theorem PlanRun.attached_late_of (run : PlanRun opts d r r' stmts) {k : String}
    (h : run.s3.attachedAfterIdxBuilds.get? k = some true) :
    (∃ t ∈ d.tableDiffs.adds, t.name.getName = k ∧ ∃ p, t.parentTable = some p ∧
      (byName d.tableDiffs.adds).has p.getName = false) ∨
    ∃ td ∈ d.tableDiffs.alters, td.new.name.getName = k ∧ td.old = GoZero.zero := by
  let I : GenState → Prop := fun s => ∀ k, s.attachedAfterIdxBuilds.get? k = some true →
    (∃ t ∈ d.tableDiffs.adds, t.name.getName = k ∧ ∃ p, t.parentTable = some p ∧
      (byName d.tableDiffs.adds).has p.getName = false) ∨
    ∃ td ∈ d.tableDiffs.alters, td.new.name.getName = k ∧ td.old = GoZero.zero
  have h0 : I (GenState.init r) := fun k h => by cases h
  have h1 : I run.s1 := keeps_tables (I := I) (fun s p h => h) _ _ _ _ _ run.htables h0
  have hset : ∀ (t : Table) (s : GenState), I s →
      ((∃ t' ∈ d.tableDiffs.adds, t'.name.getName = t.name.getName ∧ ∃ p, t'.parentTable = some p ∧
        (byName d.tableDiffs.adds).has p.getName = false) ∨
        ∃ td ∈ d.tableDiffs.alters, td.new.name.getName = t.name.getName ∧ td.old = GoZero.zero) →
      I { s with attachedAfterIdxBuilds := s.attachedAfterIdxBuilds.set t.name.getName true } := by
    intro t s hs ht k hk
    by_cases e : t.name.getName = k
    · exact e ▸ ht
    · rw [GoMap.get?_set, if_neg e] at hk
      exact hs k hk
  have hadd : ∀ t ∈ d.tableDiffs.adds, Keeps I (AttachGen.addAlterDeps d.new.indexes (byName d.tableDiffs.adds) t GoZero.zero) := by
    intro t ht
    unfold AttachGen.addAlterDeps
    split
    · exact keeps_pure
    · rename_i p hp
      split
      · exact keeps_pure
      · dsimp only
        split
        · exact keeps_pure
        · rename_i ha
          exact keeps_bind (keeps_modify fun s hs => hset t s hs (Or.inl ⟨t, ht, rfl, p, hp, by simpa using ha⟩)) fun _ => keeps_pure
  have halter : ∀ td ∈ d.tableDiffs.alters,
      Keeps I (AttachGen.addAlterDeps d.new.indexes (byName d.tableDiffs.adds) (IsDiff.getNew td) (IsDiff.getOld td)) := by
    intro td ht
    unfold AttachGen.addAlterDeps
    split
    · exact keeps_pure
    · rename_i p hp
      split
      · exact keeps_pure
      · rename_i hz
        dsimp only
        split
        · exact keeps_pure
        · exact keeps_bind (keeps_modify fun s hs => hset _ s hs (Or.inr ⟨td, ht, rfl, not_not.mp hz⟩)) fun _ => keeps_pure
  have h2 : I run.s2 := by
    refine keeps_toNew (I := I) (g := AttachGen.legacy d.new.indexes (byName d.tableDiffs.adds)) (fun o _ => ?_) hadd
      (fun o _ => keeps_pure) (fun o _ => keeps_pure) (fun o _ => keeps_pure) halter _ _ _ run.hattaches h1
    show Keeps I (AttachGen.add o)
    unfold AttachGen.add
    split <;> exact keeps_pure
  exact keeps_renames (I := I) (fun s p h => h) (fun i _ s n h => h) _ _ _ run.hrenames h2 k h

theorem PlanRun.declared_alter_index (run : PlanRun opts d r r' stmts) {x : OldNew Index} (hx : x ∈ d.indexDiffs.alters) :
    ∀ p, x.new.parentIdx = some p →
      run.graph.Declared (indexVertexId p .addAlter).text (indexVertexId x.new.sqName .addAlter).text := by
  obtain ⟨deps, h1, h2⟩ := deps_of_alter (m := Except Err) (g := (SchemaGen.indexGen opts d run.s3).legacy) run.hindexes hx
  have e : IndexGen.addAlterDeps x.new x.old = .ok deps := h1
  unfold IndexGen.addAlterDeps at e
  rw [Except.ok.injEq] at e
  subst e
  intro p hp
  exact run.declared_after (p := run.indexes) (by simp) (h2 _ (by simp [hp]))

theorem fq_length_ne {t : SQName} (h : t.escapedName ≠ "") : t.fq ≠ (GoZero.zero : Table).name.fq := by
  intro e
  have := congrArg (fun s : String => s.toList.length) e
  have h' : t.escapedName.toList ≠ [] := fun hh => h (by simpa using hh)
  have h'' := List.length_pos_iff.mpr h'
  simp [SQName.fq, escapeIdentifier, quoteWith, GoZero.zero] at this
  omega

/-- what is written for a new index that belongs to another one -/
theorem IndexGen.add_part {g : IndexGen} {i : Index} {l : List Statement} (h : g.add i = .ok l) {p : SQName}
    (hp : i.parentIdx = some p) :
    (∃ c, i.constraint = some c ∧ g.onPartitionedTable i = .ok true ∧
      l.map (·.ddl) = [.addConstraintOnly i.owningRelName c.escapedConstraintName c.constraintDef]) ∨
    (∃ b text con, l.map (·.ddl) = .createIndex i b text :: (con ++
      if g.isPartitionAlreadyAttached i.owningRelName = true then [.attachIndex p i.sqName] else []) ∧
      (∀ x ∈ con, ∃ t c ty n, x = .alterTable t (.addUsingIndex c ty n)) ∧
      ¬ (g.onPartitionedTable i = .ok true ∧ i.constraint.isSome = true)) := by
  unfold IndexGen.add at h
  obtain ⟨l0, h1, h⟩ := except_bind_ok.mp h
  have hl := except_pure_ok.mp h
  have hm : l.map (·.ddl) = l0.map (·.ddl) := by
    rw [← hl]
    split
    · exact strip_ddl l0
    · rfl
  rw [hm]
  unfold IndexGen.addIdxStmtsWithHazards at h1
  rw [ite_error_ok] at h1
  obtain ⟨part, h2, h1⟩ := except_bind_ok.mp h1.2
  split at h1
  · rename_i c hcc
    cases h1
    exact Or.inl ⟨c, hcc, h2, rfl⟩
  · rename_i hno
    refine Or.inr ?_
    unfold IndexGen.createStatements at h1
    obtain ⟨cr, h3, h1⟩ := except_bind_ok.mp h1
    obtain ⟨con, h4, h1⟩ := except_bind_ok.mp h1
    have := except_pure_ok.mp h1
    rw [hp] at this
    dsimp only at this
    subst this
    obtain ⟨b, text, hcr⟩ : ∃ b text, cr.ddl = .createIndex i b text := by
      unfold IndexGen.buildCreateIndexStatement at h3
      split at h3
      · cases h3; exact ⟨_, _, rfl⟩
      · obtain ⟨text, _, h3⟩ := except_bind_ok.mp h3
        cases h3; exact ⟨_, _, rfl⟩
    refine ⟨b, text, con.map (·.ddl), ?_, ?_, ?_⟩
    · rw [List.map_cons, hcr, List.map_append]
      by_cases ha : g.isPartitionAlreadyAttached i.owningRelName = true
      · rw [if_pos ha, if_pos ha]; rfl
      · rw [if_neg ha, if_neg ha]; rfl
    · intro x hx
      obtain ⟨s, hs, rfl⟩ := List.mem_map.mp hx
      cases hcc : i.constraint with
      | none => rw [hcc] at h4; cases h4; cases hs
      | some c =>
        rw [hcc] at h4
        obtain ⟨s', h5, h4⟩ := except_bind_ok.mp h4
        cases h4
        obtain ⟨ty, _, h5⟩ := except_bind_ok.mp h5
        cases h5
        obtain rfl := List.mem_singleton.mp hs
        exact ⟨_, _, _, _, rfl⟩
    · rintro ⟨e, hc⟩
      rw [h2] at e
      cases e
      obtain ⟨c, hc⟩ := Option.isSome_iff_exists.mp hc
      exact hno c rfl hc

/-- what is written for an index that stays -/
theorem IndexGen.alter_part {g : IndexGen} {x : OldNew Index} {l : List Statement} (h : g.alter x = .ok l) :
    ∃ con, l.map (·.ddl) = con ++ (match x.old.parentIdx, x.new.parentIdx with
      | none, some p => [.attachIndex p x.new.sqName]
      | _, _ => []) ∧ ∀ y ∈ con, ∃ t c ty n, y = .alterTable t (.addUsingIndex c ty n) := by
  unfold IndexGen.alter at h
  obtain ⟨part, _, h⟩ := except_bind_ok.mp h
  dsimp only at h
  obtain ⟨con, h4, h⟩ := except_bind_ok.mp h
  rw [ite_error_ok] at h
  have := Except.ok.inj h.2
  subst this
  refine ⟨con.map (·.ddl), ?_, ?_⟩
  · rw [List.map_append]
    cases x.old.parentIdx <;> cases x.new.parentIdx <;> rfl
  · intro y hy
    obtain ⟨s, hs, rfl⟩ := List.mem_map.mp hy
    unfold IndexGen.constraintStatements at h4
    split at h4
    · obtain ⟨s', h5, h4⟩ := except_bind_ok.mp h4
      cases h4
      obtain ⟨ty, _, h5⟩ := except_bind_ok.mp h5
      cases h5
      obtain rfl := List.mem_singleton.mp hs
      exact ⟨_, _, _, _, rfl⟩
    · cases h4; cases hs

/-- a statement that builds the index of this name, or attaches it -/
def marksIndex (n : SQName) (x : Ddl) : Bool := createsIndex n x || attachesIndex n x

theorem marks_using {n : SQName} {x : Ddl} (h : ∃ t c ty m, x = .alterTable t (.addUsingIndex c ty m)) : marksIndex n x = false := by
  obtain ⟨t, c, ty, m, rfl⟩ := h
  rfl

theorem filter_marks_using {n : SQName} {l : List Ddl} (h : ∀ x ∈ l, ∃ t c ty m, x = .alterTable t (.addUsingIndex c ty m)) :
    l.filter (marksIndex n) = [] :=
  List.filter_eq_nil_iff.mpr fun x hx => by rw [marks_using (h x hx)]; exact Bool.false_ne_true

theorem marks_not_outer {n : SQName} {x : Ddl} (h : marksIndex n x = true) : ¬ x.IsOuter := by
  rcases (Bool.or_eq_true _ _).mp h with h | h
  · exact createsIndex_not_outer h
  · exact attachesIndex_not_outer h

/-- the statements that build an index or attach it -/
theorem PlanRun.marks_focus (dr : DiffRun opts old.normalize new.normalize d) (run : PlanRun opts d r r' stmts)
    (hni : (new.indexes.map Obj.getName).Nodup) {i : Index} (hi : i ∈ new.indexes) {p : SQName} (hp : i.parentIdx = some p) :
    (i ∈ d.indexDiffs.adds ∧
      ((∃ c, i.constraint = some c ∧ (SchemaGen.indexGen opts d run.s3).onPartitionedTable i = .ok true ∧
          (stmts.map (·.ddl)).filter (marksIndex i.sqName) = [] ∧
          ∃ s ∈ stmts, s.ddl = .addConstraintOnly i.owningRelName c.escapedConstraintName c.constraintDef) ∨
        ∃ b text, (stmts.map (·.ddl)).filter (marksIndex i.sqName) = .createIndex i b text ::
          if (SchemaGen.indexGen opts d run.s3).isPartitionAlreadyAttached i.owningRelName = true then [.attachIndex p i.sqName] else [])) ∨
    ∃ x ∈ d.indexDiffs.alters, x.new = i ∧ (stmts.map (·.ddl)).filter (marksIndex i.sqName) =
      if x.old.parentIdx = none then [.attachIndex p i.sqName] else [] := by
  have hI := (normalize_indexes_names new).nodup_iff.mpr hni
  have hi' := mem_normalize_indexes.mpr hi
  obtain ⟨dec, n1, n2, n3, d1, d2, d3⟩ := dr.index_decision hI (Obj.getName i)
  obtain ⟨A, B, C, e, ha, hb, hc, ha', hb', hc', hB, _⟩ := run.index_focus dr hI (q := Obj.getName i) (k := .addAlter)
    (P := fun s : Statement => marksIndex i.sqName s.ddl)
    (fun id s hs hm => by
      rcases (Bool.or_eq_true _ _).mp hm with hm | hm
      · obtain ⟨j, _, hid, hj⟩ := hs.createIndex_vertex (createsIndex_builds hm)
        rw [hid, hj _ hm]; rfl
      · obtain ⟨_, _, hid, _⟩ := hs.attachesIndex_vertex hm
        rw [hid]; rfl)
    (fun s ho => by
      cases hm : marksIndex i.sqName s.ddl with
      | false => rfl
      | true => exact absurd ho (marks_not_outer hm))
  have hB := hB rfl
  have key : (stmts.map (·.ddl)).filter (marksIndex i.sqName) = (A ++ C).map (·.ddl) := by
    rw [List.filter_map]
    have : stmts.filter (marksIndex i.sqName ∘ fun s : Statement => s.ddl) = A ++ B ++ C := e
    rw [this, hB, List.append_nil]
  have hfil : ∀ l : List Statement, (l.filter fun s : Statement => marksIndex i.sqName s.ddl).map (·.ddl) =
      (l.map (·.ddl)).filter (marksIndex i.sqName) := fun l => by rw [List.filter_map]; rfl
  have added : i ∈ d.indexDiffs.adds → i ∈ d.indexDiffs.adds ∧
      ((∃ c, i.constraint = some c ∧ (SchemaGen.indexGen opts d run.s3).onPartitionedTable i = .ok true ∧
          (stmts.map (·.ddl)).filter (marksIndex i.sqName) = [] ∧
          ∃ s ∈ stmts, s.ddl = .addConstraintOnly i.owningRelName c.escapedConstraintName c.constraintDef) ∨
        ∃ b text, (stmts.map (·.ddl)).filter (marksIndex i.sqName) = .createIndex i b text ::
          if (SchemaGen.indexGen opts d run.s3).isPartitionAlreadyAttached i.owningRelName = true then [.attachIndex p i.sqName] else []) := by
    intro h
    have hC := hc (d1 (List.mem_map_of_mem h))
    obtain ⟨l, hl, hA⟩ := ha' i h rfl
    rw [key, hC, List.append_nil, hA, hfil]
    refine ⟨h, ?_⟩
    rcases IndexGen.add_part hl hp with ⟨c, h1, h2, h3⟩ | ⟨b, text, con, h1, h2, h3⟩
    · refine Or.inl ⟨c, h1, h2, by rw [h3]; rfl, ?_⟩
      obtain ⟨v, hv, _, hvs⟩ := vertex_of_add (m := Except Err) (g := (SchemaGen.indexGen opts d run.s3).legacy) run.hindexes h
      have hvs : (SchemaGen.indexGen opts d run.s3).add i = .ok v.statements := hvs
      rw [hl] at hvs
      cases hvs
      have hm : Ddl.addConstraintOnly i.owningRelName c.escapedConstraintName c.constraintDef ∈ v.statements.map (·.ddl) := by
        rw [h3]; exact List.mem_singleton_self _
      obtain ⟨s, hs, es⟩ := List.mem_map.mp hm
      exact ⟨s, run.mem_of_graph (p := run.indexes) (by simp) (PartialGraph.mem_statements.mpr ⟨v, hv, hs⟩), es⟩
    · refine Or.inr ⟨b, text, ?_⟩
      rw [h1, List.filter_cons_of_pos (by simp [marksIndex, createsIndex]), List.filter_append, filter_marks_using h2]
      split
      · simp [marksIndex, attachesIndex]
      · rfl
  cases dec with
  | absent ho hn => exact absurd (List.mem_map_of_mem hi') hn
  | dropped o ho eo hn h => exact absurd (List.mem_map_of_mem hi') hn
  | added x hx ex ho h =>
    obtain rfl := List.inj_on_of_nodup_map hI hx hi' ex
    exact Or.inl (added h)
  | recreated o x ho hx eo ex hb h h' =>
    obtain rfl := List.inj_on_of_nodup_map hI hx hi' ex
    exact Or.inl (added h')
  | altered o x dx ho hx eo ex hbd h =>
    obtain rfl := List.inj_on_of_nodup_map hI hx hi' ex
    obtain ⟨_, _, hbd⟩ := hbd
    have hxn := (indexCompare_altered hbd).1
    refine Or.inr ⟨dx, h, hxn, ?_⟩
    have hA := ha fun hh => d1 hh (List.mem_map.mpr ⟨dx, h, by rw [hxn]⟩)
    obtain ⟨l, hl, hC⟩ := hc' dx h (by rw [hxn])
    rw [key, hA, List.nil_append, hC, hfil]
    obtain ⟨con, h1, h2⟩ := IndexGen.alter_part hl
    rw [h1, List.filter_append, filter_marks_using h2, List.nil_append, hxn, hp]
    cases hop : dx.old.parentIdx with
    | none => simp [marksIndex, attachesIndex]
    | some q => simp

theorem filter_ddl {l : List Statement} {P : Ddl → Bool} : (l.map (·.ddl)).filter P = (l.filter fun s => P s.ddl).map (·.ddl) := by
  rw [List.filter_map]; rfl

/-- **C92 (partial)**, first part.  An index of a partition that the plan creates becomes part of the index that the new schema says: later
the plan attaches the index, or the partition with its indexes.  Missing are indexes that come with `ALTER TABLE ONLY … ADD CONSTRAINT`,
see `C92_constraints_of_partitioned_partitions_violated`. -/
theorem C92_created_indexes_are_attached_partial (h : generateMigrationStatements r old new opts = .ok (stmts, r'))
    (hn : NamesUnique new.tables) (hni : NamesUnique new.indexes) {i : Index} (hi : i ∈ new.indexes) {p : SQName}
    (hp : i.parentIdx = some p) {t : Table} (ht : t ∈ new.tables) (hit : i.owningRelName = t.name) (hne : t.name.escapedName ≠ "")
    {a b : List Statement} {x : Statement} (e : stmts = a ++ x :: b) (hx : createsIndex i.sqName x.ddl = true) :
    ∃ y ∈ b, linksIndex p i.sqName t.name y.ddl = true := by
  obtain ⟨d, ⟨dr⟩, ⟨run⟩⟩ := plan_runs h
  have hxm : marksIndex i.sqName x.ddl = true := by unfold marksIndex; rw [hx]; rfl
  have hfx : (stmts.map (·.ddl)).filter (marksIndex i.sqName) = (a.map (·.ddl)).filter (marksIndex i.sqName) ++
      x.ddl :: (b.map (·.ddl)).filter (marksIndex i.sqName) := by
    rw [e, List.map_append, List.filter_append, List.map_cons, List.filter_cons_of_pos hxm]
  have hno : ∀ q, x.ddl ≠ .attachIndex q i.sqName := fun q hq => by rw [hq] at hx; cases hx
  rcases run.marks_focus dr hni hi hp with ⟨hadd, ⟨_, _, _, hf, _⟩ | ⟨cb, text, hf⟩⟩ | ⟨dx, _, _, hf⟩
  · rw [hfx] at hf
    cases hc : (a.map (·.ddl)).filter (marksIndex i.sqName) <;> rw [hc] at hf <;> cases hf
  · cases hat : (SchemaGen.indexGen opts d run.s3).isPartitionAlreadyAttached i.owningRelName with
    | true =>
      rw [hat, if_pos rfl, hfx] at hf
      have hb : .attachIndex p i.sqName ∈ (b.map (·.ddl)).filter (marksIndex i.sqName) := by
        cases hc : (a.map (·.ddl)).filter (marksIndex i.sqName) with
        | nil =>
          rw [hc, List.nil_append] at hf
          rw [(List.cons.inj hf).2]
          exact List.mem_singleton_self _
        | cons y ys =>
          rw [hc, List.cons_append] at hf
          have hf := (List.cons.inj hf).2
          cases ys with
          | nil =>
            rw [List.nil_append] at hf
            exact absurd (List.cons.inj hf).1 (hno p)
          | cons z zs => cases zs <;> cases hf
      obtain ⟨y, hy, ey⟩ := List.mem_map.mp (List.mem_filter.mp hb).1
      exact ⟨y, hy, by rw [ey]; simp [linksIndex]⟩
    | false =>
      have hlate : run.s3.attachedAfterIdxBuilds.get? i.owningRelName.getName = some true := by
        have hat : (!(run.s3.attachedAfterIdxBuilds.get? i.owningRelName.getName).getD false) = false := hat
        cases hg : run.s3.attachedAfterIdxBuilds.get? i.owningRelName.getName with
        | none => rw [hg] at hat; cases hat
        | some v => cases v with
          | true => rfl
          | false => rw [hg] at hat; cases hat
      rcases run.attached_late_of hlate with ⟨t', ht', et, q, hq, hqa⟩ | ⟨td, htd, et, hz⟩
      · have hname : t'.name = t.name := by
          obtain ⟨t0, h0, rfl, h1⟩ := dr.added_mem ht'
          obtain ⟨t1, h2, rfl⟩ := mem_normalize_tables h1
          rw [packIf_name] at et ⊢
          have : t1 = t := List.inj_on_of_nodup_map hn h2 ht (by rw [hit] at et; exact et)
          rw [this]; rfl
        obtain ⟨w, hw, _, s, s', hs⟩ := vertex_of_add (m := GenM)
          (g := AttachGen.legacy d.new.indexes (byName d.tableDiffs.adds)) (yields_of_run run.hattaches) ht'
        have hs : AttachGen.add t' s = .ok (w.statements, s') := hs
        unfold AttachGen.add at hs
        rw [hq] at hs
        obtain ⟨hs, _⟩ := genM_pure_ok.mp hs
        have hmem : stmt (.alterTable q (.attachPartition t'.name t'.forValues)) ∈ stmts :=
          run.mem_of_graph (p := run.attaches) (by simp) (PartialGraph.mem_statements.mpr
            ⟨w, hw, by rw [← hs]; exact List.mem_singleton_self _⟩)
        have hab : AllBefore (fun s => createsIndex i.sqName s.ddl = true) (fun s => attachesPartition t.name s.ddl = true) stmts := by
          refine run.allBefore (fun s hs => createsIndex_not_outer hs) (fun s hs => attachesPartition_not_outer hs) ?_
          intro u x w y hx hy hq1 hq2
          obtain ⟨t2, ht2, e2, rfl, _⟩ := hy.attachesPartition_vertex hq2
          obtain ⟨j, _, rfl, hj⟩ := hx.createIndex_vertex (createsIndex_builds hq1)
          have : t2 = t' := by
            obtain ⟨t0, _, rfl, h1⟩ := dr.added_mem ht'
            obtain ⟨t3, _, rfl, h3⟩ := dr.added_mem ht2
            rw [packIf_name] at e2 hname
            have : t3 = t0 := List.inj_on_of_nodup_map (normalize_tables_nodup hn) h3 h1
              (congrArg SQName.getName (e2.trans hname.symm))
            rw [this]
          subst this
          rw [hj _ hq1]
          exact .single ((run.declared_attach ht2 hq).2.2 hqa i (List.mem_filter.mpr
            ⟨by rw [dr.hnew]; exact mem_normalize_indexes.mpr hi, by rw [hit, e2]; simp⟩))
        refine ⟨_, hab.followed ?_ hmem (by simp [stmt, attachesPartition, hname]) a x b e hx, by
          simp [stmt, linksIndex, hname]⟩
        rintro s ⟨h1, h2⟩
        cases hd : s.ddl <;> rw [hd] at h1 h2 <;> first | cases h1 | cases h2
      · exfalso
        obtain ⟨_, _, _, _, _, _, _, h3, _⟩ := dr.altered htd
        rw [hz] at h3
        have h3 : (GoZero.zero : Table).name.fq = td.new.name.fq := h3
        have et : td.new.name.fq = i.owningRelName.fq := et
        rw [et, hit] at h3
        exact fq_length_ne hne h3.symm
  · rw [hfx] at hf
    split at hf
    · cases hc : (a.map (·.ddl)).filter (marksIndex i.sqName) with
      | nil =>
        rw [hc, List.nil_append] at hf
        exact absurd (List.cons.inj hf).1 (hno p)
      | cons y ys => rw [hc] at hf; cases ys <;> cases hf
    · cases hc : (a.map (·.ddl)).filter (marksIndex i.sqName) <;> rw [hc] at hf <;> cases hf

/-- **C92**, second part.  An index is attached at most once, and to the index that the new schema says. -/
theorem C92_attached_once_to_the_right_index (h : generateMigrationStatements r old new opts = .ok (stmts, r'))
    (hni : NamesUnique new.indexes) {i : Index} (hi : i ∈ new.indexes) {p : SQName} (hp : i.parentIdx = some p) :
    (stmts.map (·.ddl)).filter (attachesIndex i.sqName) = [] ∨
      (stmts.map (·.ddl)).filter (attachesIndex i.sqName) = [.attachIndex p i.sqName] := by
  obtain ⟨d, ⟨dr⟩, ⟨run⟩⟩ := plan_runs h
  have hf : (stmts.map (·.ddl)).filter (attachesIndex i.sqName) =
      ((stmts.map (·.ddl)).filter (marksIndex i.sqName)).filter (attachesIndex i.sqName) := by
    rw [List.filter_filter]
    refine List.filter_congr fun x _ => ?_
    unfold marksIndex
    cases attachesIndex i.sqName x <;> cases createsIndex i.sqName x <;> rfl
  rw [hf]
  rcases run.marks_focus dr hni hi hp with ⟨hadd, ⟨_, _, _, hf, _⟩ | ⟨cb, text, hf⟩⟩ | ⟨dx, _, _, hf⟩
  · rw [hf]; exact Or.inl rfl
  · rw [hf]
    split
    · exact Or.inr (by simp [attachesIndex])
    · exact Or.inl (by simp [attachesIndex])
  · rw [hf]
    split
    · exact Or.inr (by simp [attachesIndex])
    · exact Or.inl rfl

/-- **C92**, third part.  An index is created and attached after everything that builds, or attaches, the index that it is to
belong to. -/
theorem C92_indexes_after_those_of_the_table (h : generateMigrationStatements r old new opts = .ok (stmts, r'))
    (hni : NamesUnique new.indexes) (hdc : DistinctIndexConstraints new.indexes) {i pi : Index} (hi : i ∈ new.indexes)
    (hpi : pi ∈ new.indexes) (hp : i.parentIdx = some pi.sqName) :
    AllBefore (fun s => buildsIndex pi s.ddl = true)
      (fun s => createsIndex i.sqName s.ddl = true ∨ attachesIndex i.sqName s.ddl = true) stmts := by
  obtain ⟨d, ⟨dr⟩, ⟨run⟩⟩ := plan_runs h
  have hI := (normalize_indexes_names new).nodup_iff.mpr hni
  refine run.allBefore (fun s hs => buildsIndex_not_outer hs)
    (fun s hs => hs.elim createsIndex_not_outer attachesIndex_not_outer) ?_
  intro u x w y hx hy hq hq'
  rw [hx.buildsIndex_vertex hq hpi hdc fun j hj => mem_normalize_indexes.mp (indexDiff_adds_mem dr.hindexes hj)]
  rcases hq' with hq' | hq'
  · obtain ⟨j, hj, rfl, ej⟩ := hy.createIndex_vertex (createsIndex_builds hq')
    have : j = i := List.inj_on_of_nodup_map hI (indexDiff_adds_mem dr.hindexes hj) (mem_normalize_indexes.mpr hi)
      (congrArg SQName.getName (ej _ hq'))
    subst this
    exact .single ((run.declared_add_index hj).2.2 _ hp)
  · obtain ⟨j, ej, rfl, q, hjq, hj⟩ := hy.attachesIndex_vertex hq'
    rcases hj with ⟨hj, _⟩ | ⟨dx, hdx, rfl, _⟩
    · have : j = i := List.inj_on_of_nodup_map hI (indexDiff_adds_mem dr.hindexes hj) (mem_normalize_indexes.mpr hi)
        (congrArg SQName.getName ej)
      subst this
      exact .single ((run.declared_add_index hj).2.2 _ hp)
    · have : dx.new = i := List.inj_on_of_nodup_map hI (indexDiff_alters_new dr.hindexes hdx) (mem_normalize_indexes.mpr hi)
        (congrArg SQName.getName ej)
      rw [← this] at hp ⊢
      exact .single (run.declared_alter_index hdx _ hp)

/-- the comparison for an index that stays with the index it belongs to: that one stays too -/
theorem DiffRun.parent_stays (dr : DiffRun opts old.normalize new.normalize d) (hni : (new.indexes.map Obj.getName).Nodup)
    {x : OldNew Index} (hx : x ∈ d.indexDiffs.alters) {p : SQName} (hp : x.new.parentIdx = some p) (ho : x.old.parentIdx ≠ none) :
    x.old.parentIdx = some p ∧ ∃ y ∈ d.indexDiffs.alters, Obj.getName y.new = p.getName := by
  have hI := (normalize_indexes_names new).nodup_iff.mpr hni
  obtain ⟨k, n, k', o, h1, h2, h3, h4⟩ := diffLists_alters_mem (indexListDiff_eq _ _ _ ▸ dr.hindexes) hx
  obtain ⟨hxn, hb⟩ := indexCompare_altered h4
  subst hxn
  rcases buildIndexDiffAux_ok hb with ⟨_, e⟩ | ⟨_, q, hq, ⟨_, e⟩ | ⟨rfl, part, hpart, e⟩⟩
  · cases e
  · cases e
  · simp only [Option.some.injEq, Prod.mk.injEq] at e
    obtain ⟨e1, e2⟩ := e
    have hpo : x.old.parentIdx = o.parentIdx := by rw [e1]; exact Index.afterDiff_parent _ _ _
    have hop : o.parentIdx ≠ none := hpo ▸ ho
    have heq : o.parentIdx = some p := by
      have : Index.recreates part o x.new = false := e2.symm
      unfold Index.recreates at this
      simp only [if_neg hop] at this
      have := of_decide_eq_false this
      rw [not_not] at this
      rw [← hp, ← this]
      split <;> split <;> split <;> rfl
    refine ⟨hpo.trans heq, ?_⟩
    unfold parentRecreated at hq
    rw [heq, hp] at hq
    simp only [if_true] at hq
    cases hg : (indexDiffConfig old.normalize new.normalize dr.td0.adds).oldSchemaIndexesByName.get? p.getName with
    | none => rw [hg] at hq; cases hq
    | some po =>
      rw [hg] at hq
      dsimp only at hq
      cases hg' : (indexDiffConfig old.normalize new.normalize dr.td0.adds).newSchemaIndexesByName.get? p.getName with
      | none => rw [hg'] at hq; cases hq
      | some pn =>
        rw [hg'] at hq
        dsimp only at hq
        cases hr : buildIndexDiffAux (indexDiffConfig old.normalize new.normalize dr.td0.adds)
            ((indexDiffConfig old.normalize new.normalize dr.td0.adds).newSchemaIndexesByName.length + 1) [Obj.getName x.new] po pn with
        | error e => rw [hr] at hq; cases hq
        | ok z =>
          rw [hr] at hq
          cases z with
          | none => cases hq
          | some z =>
            obtain ⟨z1, z2⟩ := z
            have : z2 = false := Except.ok.inj hq
            subst this
            obtain ⟨m1, m2⟩ := byName_get?_some hg
            obtain ⟨m3, m4⟩ := byName_get?_some hg'
            obtain ⟨dec, -⟩ := dr.index_decision hI p.getName
            have hnm : ∀ i : Index, i ∈ new.normalize.indexes → Obj.getName i = p.getName → i = pn := fun i hi e =>
              List.inj_on_of_nodup_map hI hi m3 (e.trans m4.symm)
            have hfind : new.normalize.indexes.find? (fun y => Obj.getName y = Obj.getName po) = some pn := by
              cases hfi : new.normalize.indexes.find? (fun y => Obj.getName y = Obj.getName po) with
              | none =>
                have := List.find?_eq_none.mp hfi pn m3
                rw [m2, m4] at this
                simp at this
              | some w =>
                have h1 := List.mem_of_find?_eq_some hfi
                have h2 := List.find?_some hfi
                rw [hnm w h1 ((of_decide_eq_true h2).trans m2)]
            cases dec with
            | absent ho hn => exact absurd (List.mem_map.mpr ⟨pn, m3, m4⟩) hn
            | dropped o ho eo hn h => exact absurd (List.mem_map.mpr ⟨pn, m3, m4⟩) hn
            | added y hy ey ho h =>
              refine absurd (List.mem_map.mpr ⟨_, List.mem_map_of_mem m1, ?_⟩) ho
              rw [effectiveOldIndex_name]; exact m2
            | altered o y dy ho hy eo ey hbd h =>
              obtain ⟨_, _, hbd⟩ := hbd
              exact ⟨dy, h, by rw [(indexCompare_altered hbd).1]; exact ey⟩
            | recreated o y ho hy eo ey hbd h h' =>
              exfalso
              obtain ⟨_, _, dd, hbd⟩ := hbd
              obtain rfl := hnm y hy ey
              obtain ⟨o0, ho0, rfl⟩ := List.mem_map.mp ho
              have hoN := diffLists_old_nodup dr.hindexes
              rw [List.map_map] at hoN
              have : o0 = po := List.inj_on_of_nodup_map
                ((List.map_congr_left fun x _ => effectiveOldIndex_name _ _ x) ▸ hoN) ho0 m1
                (by rw [effectiveOldIndex_name] at eo; exact eo.trans m2.symm)
              subst this
              unfold indexCompare at hbd
              cases hbb : buildIndexDiff (indexDiffConfig old.normalize new.normalize dr.td0.adds)
                  (effectiveOldIndex (indexDiffConfig old.normalize new.normalize dr.td0.adds) new.normalize.indexes o0) y with
              | error e => rw [hbb] at hbd; cases hbd
              | ok z =>
                obtain ⟨o'', rfl⟩ := buildIndexDiff_effective hfind hr hbb
                rw [hbb] at hbd
                cases hbd

/-- an index that stays: nothing builds it, renames it or drops it -/
theorem PlanRun.stays_untouched (dr : DiffRun opts old.normalize new.normalize d) (run : PlanRun opts d r r' stmts)
    (hni : (new.indexes.map Obj.getName).Nodup) {sch n : String} (hk : IndexNameOk old.normalize new.normalize sch n)
    {y : OldNew Index} (hy : y ∈ d.indexDiffs.alters) (ey : Obj.getName y.new = indexName sch n) :
    ∀ s ∈ stmts, replacesIndex (indexName sch n) s.ddl = false := by
  have hI := (normalize_indexes_names new).nodup_iff.mpr hni
  obtain ⟨dec, n1, n2, n3, d1, d2, d3⟩ := dr.index_decision hI (indexName sch n)
  have hmem : indexName sch n ∈ d.indexDiffs.alters.map fun x : OldNew Index => Obj.getName x.new := List.mem_map.mpr ⟨y, hy, ey⟩
  have na : indexName sch n ∉ d.indexDiffs.adds.map Obj.getName := fun hh => d1 hh hmem
  have nd : indexName sch n ∉ d.indexDiffs.deletes.map Obj.getName := fun hh => d2 hh hmem
  obtain ⟨A, C, eM, a1, c1, a2, c2⟩ := run.makes_focus dr hk hI
  have hA := a1 na
  obtain ⟨l, hl, hC⟩ := c2 y hy ey
  have hD := (run.drops_focus dr hk hI).1 nd
  have hR := (run.rename_focus dr hI (indexName sch n)).1 na
  intro s hs
  have mk : ∀ s ∈ stmts, s.ddl.makesIndex (indexName sch n) = true →
      (∃ t c ty m, s.ddl = .alterTable t (.addUsingIndex c ty m)) ∨ ∃ q m, s.ddl = .attachIndex q m := by
    intro s hs hm
    have : s ∈ stmts.filter (fun s : Statement => s.ddl.makesIndex (indexName sch n)) := List.mem_filter.mpr ⟨hs, hm⟩
    rw [eM, hA, List.nil_append, hC] at this
    have hsl := List.mem_map_of_mem (f := fun s : Statement => s.ddl) (List.mem_filter.mp this).1
    obtain ⟨con, h1, h2⟩ := IndexGen.alter_part hl
    rw [h1] at hsl
    rcases List.mem_append.mp hsl with hsl | hsl
    · exact Or.inl (h2 _ hsl)
    · split at hsl
      · exact Or.inr ⟨_, _, List.mem_singleton.mp hsl⟩
      · cases hsl
  cases hd : s.ddl with
  | createIndex i b text =>
    cases hm : s.ddl.makesIndex (indexName sch n) with
    | false => rw [hd] at hm; exact hm
    | true => rcases mk s hs hm with ⟨_, _, _, _, e⟩ | ⟨_, _, e⟩ <;> rw [hd] at e <;> cases e
  | addConstraintOnly t c df =>
    cases hm : s.ddl.makesIndex (indexName sch n) with
    | false => rw [hd] at hm; exact hm
    | true => rcases mk s hs hm with ⟨_, _, _, _, e⟩ | ⟨_, _, e⟩ <;> rw [hd] at e <;> cases e
  | renameIndex q m =>
    have h1 := bool_filter hR s hs
    have h2 := run.no_onto dr hI hk hs
    rw [hd] at h1 h2
    show (decide (q.fq = _) || decide (beside q (escapeIdentifier m) = _)) = false
    exact Bool.or_eq_false_iff.mpr ⟨h1, h2⟩
  | dropIndex q b =>
    have h1 := bool_filter hD s hs
    rw [hd] at h1
    exact h1
  | alterTable t a =>
    cases a with
    | dropConstraint c =>
      have h1 := bool_filter hD s hs
      rw [hd] at h1
      exact h1
    | _ => rfl
  | _ => rfl

/-- **C92**, fourth part.  An index of a partition that the plan does not replace is attached by the plan, or belonged to that index
before, and the plan does not replace that one either. -/
theorem C92_kept_indexes_are_attached (h : generateMigrationStatements r old new opts = .ok (stmts, r'))
    (hni : NamesUnique new.indexes) {i : Index} (hi : i ∈ new.indexes) {sch n : String} {p : SQName}
    (hp : i.parentIdx = some p) (hpn : p.fq = indexName sch n) (hk : IndexNameOk old new sch n)
    (hkeep : ∀ s ∈ stmts, replacesIndex i.sqName.fq s.ddl = false) :
    (∃ s ∈ stmts, s.ddl = .attachIndex p i.sqName) ∨
      (∃ o ∈ old.indexes, o.sqName.fq = i.sqName.fq ∧ o.parentIdx = some p) ∧
        ∀ s ∈ stmts, replacesIndex p.fq s.ddl = false := by
  obtain ⟨d, ⟨dr⟩, ⟨run⟩⟩ := plan_runs h
  rcases run.marks_focus dr hni hi hp with ⟨hadd, ⟨c, hc, _, _, s, hs, es⟩ | ⟨cb, text, hf⟩⟩ | ⟨dx, hdx, rfl, hf⟩
  · exfalso
    have := hkeep s hs
    rw [es] at this
    have := of_decide_eq_false this
    rw [hk.newCon i hi c hc] at this
    exact this rfl
  · exfalso
    have : Ddl.createIndex i cb text ∈ (stmts.map (·.ddl)).filter (marksIndex i.sqName) := by rw [hf]; exact List.mem_cons_self
    obtain ⟨s, hs, es⟩ := List.mem_map.mp (List.mem_filter.mp this).1
    have := hkeep s hs
    rw [es] at this
    exact of_decide_eq_false this rfl
  · by_cases ho : dx.old.parentIdx = none
    · rw [if_pos ho] at hf
      have : Ddl.attachIndex p dx.new.sqName ∈ (stmts.map (·.ddl)).filter (marksIndex dx.new.sqName) := by
        rw [hf]; exact List.mem_singleton_self _
      obtain ⟨s, hs, es⟩ := List.mem_map.mp (List.mem_filter.mp this).1
      exact Or.inl ⟨s, hs, es⟩
    · obtain ⟨hop, y, hy, ey⟩ := dr.parent_stays hni hdx hp ho
      refine Or.inr ⟨?_, ?_⟩
      · obtain ⟨k, n', k', o, h1, h2, h3, h4⟩ := diffLists_alters_mem (indexListDiff_eq _ _ _ ▸ dr.hindexes) hdx
        obtain ⟨hxn, hb⟩ := indexCompare_altered h4
        subst hxn
        obtain ⟨part, _, _, e1, _⟩ := buildIndexDiffAux_some hb
        obtain ⟨o0, ho0, rfl⟩ := List.mem_map.mp (List.mem_of_getElem? h2)
        refine ⟨o0, mem_normalize_indexes.mp ho0, ?_, ?_⟩
        · rw [effectiveOldIndex_name] at h3; exact h3
        · rw [e1, Index.afterDiff_parent] at hop
          obtain ⟨c, ec⟩ := effectiveOldIndex_eq (indexDiffConfig old.normalize new.normalize dr.td0.adds) new.normalize.indexes o0
          rw [ec] at hop
          exact hop
      · rw [hpn]
        refine run.stays_untouched dr hni (indexNameOk_normalize hk) hy (ey.trans hpn)

/-- **C92**, refuted for indexes of partitions that are partitioned themselves and back constraints.  Whenever a plan builds such an
index and does not create its table, it neither attaches the index nor the table. -/
theorem C92_constraints_of_partitioned_partitions_violated (h : generateMigrationStatements r old new opts = .ok (stmts, r'))
    (hn : NamesUnique new.tables) (hni : NamesUnique new.indexes) {i : Index} (hi : i ∈ new.indexes) {p : SQName}
    (hp : i.parentIdx = some p) (hc : i.constraint.isSome = true) (hm : i.owningRelKind ≠ "m") {t : Table} (ht : t ∈ new.tables)
    (hit : i.owningRelName = t.name) (hpart : t.isPartitioned = true) (hex : ∀ s ∈ stmts, createsTable t.name s.ddl = false)
    (hnew : ∀ o ∈ old.indexes, o.sqName.fq ≠ i.sqName.fq) :
    (∃ c, i.constraint = some c ∧
      ∃ s ∈ stmts, s.ddl = .addConstraintOnly i.owningRelName c.escapedConstraintName c.constraintDef) ∧
    ∀ s ∈ stmts, ∀ q, linksIndex q i.sqName t.name s.ddl = false := by
  obtain ⟨d, ⟨dr⟩, ⟨run⟩⟩ := plan_runs h
  have hpt : (SchemaGen.indexGen opts d run.s3).onPartitionedTable i = .ok true := by
    show isIndexOnPartitionedTable (byName d.new.tables) i = .ok true
    unfold isIndexOnPartitionedTable
    rw [if_neg hm, hit, dr.hnew]
    have := byName_get?_of_mem (normalize_tables_nodup hn) (mem_normalize_tables_of ht)
    have : (byName new.normalize.tables).get? t.name.getName = some (normalizeTable t) := this
    rw [this]
    exact congrArg Except.ok hpart
  have hat : ∀ s ∈ stmts, attachesPartition t.name s.ddl = false := by
    intro s hs
    cases he : attachesPartition t.name s.ddl with
    | false => rfl
    | true =>
      exfalso
      obtain ⟨id, hsh⟩ := run.mem_shape hs (attachesPartition_not_outer he)
      obtain ⟨t', ht', et, _⟩ := hsh.attachesPartition_vertex he
      obtain ⟨s', hs', hcr⟩ := run.creates ht'
      rw [et, hex s' hs'] at hcr
      cases hcr
  have key : (stmts.map (·.ddl)).filter (marksIndex i.sqName) = [] ∧ ∃ c, i.constraint = some c ∧
      ∃ s ∈ stmts, s.ddl = .addConstraintOnly i.owningRelName c.escapedConstraintName c.constraintDef := by
    rcases run.marks_focus dr hni hi hp with ⟨hadd, ⟨c, hc, _, hf, hs⟩ | ⟨cb, text, hf⟩⟩ | ⟨dx, hdx, rfl, hf⟩
    · exact ⟨hf, c, hc, hs⟩
    · exfalso
      obtain ⟨v, hv, _, hvs⟩ := vertex_of_add (m := Except Err) (g := (SchemaGen.indexGen opts d run.s3).legacy) run.hindexes hadd
      have hvs : (SchemaGen.indexGen opts d run.s3).add i = .ok v.statements := hvs
      rcases IndexGen.add_part hvs hp with ⟨c, _, _, h3⟩ | ⟨_, _, _, _, _, h3⟩
      · have hmk : Ddl.createIndex i cb text ∈ (stmts.map (·.ddl)).filter (marksIndex i.sqName) := by
          rw [hf]; exact List.mem_cons_self
        obtain ⟨s, hs, es⟩ := List.mem_map.mp (List.mem_filter.mp hmk).1
        have hI := (normalize_indexes_names new).nodup_iff.mpr hni
        obtain ⟨_, _, _, _, d1, _⟩ := dr.index_decision hI (Obj.getName i)
        obtain ⟨A, B, C, e, _, _, hC, hA, _, _, hB, _⟩ := run.index_focus dr hI (q := Obj.getName i) (k := .addAlter)
          (P := fun s : Statement => createsIndex i.sqName s.ddl)
          (fun id s hs hm => by
            obtain ⟨j, _, hid, hj⟩ := hs.createIndex_vertex (createsIndex_builds hm)
            rw [hid, hj _ hm]; rfl)
          (fun s ho => by
            cases hm : createsIndex i.sqName s.ddl with
            | false => rfl
            | true => exact absurd ho (createsIndex_not_outer hm))
        obtain ⟨l, hl, hA⟩ := hA i hadd rfl
        rw [hvs] at hl
        cases hl
        rw [hC (d1 (List.mem_map_of_mem hadd)), hB rfl, hA, List.append_nil, List.append_nil] at e
        have hsm : s ∈ stmts.filter fun s : Statement => createsIndex i.sqName s.ddl :=
          List.mem_filter.mpr ⟨hs, by rw [es]; simp [createsIndex]⟩
        rw [e] at hsm
        have := List.mem_map_of_mem (f := fun s : Statement => s.ddl) (List.mem_filter.mp hsm).1
        rw [h3, List.mem_singleton, es] at this
        cases this
      · exact h3 ⟨hpt, hc⟩
    · exfalso
      obtain ⟨k, n', k', o, h1, h2, h3, h4⟩ := diffLists_alters_mem (indexListDiff_eq _ _ _ ▸ dr.hindexes) hdx
      obtain ⟨o0, ho0, rfl⟩ := List.mem_map.mp (List.mem_of_getElem? h2)
      rw [effectiveOldIndex_name] at h3
      have := (indexCompare_altered h4).1
      rw [← this] at h3
      exact hnew o0 (mem_normalize_indexes.mp ho0) h3
  refine ⟨key.2, fun s hs q => ?_⟩
  have h1 := hat s hs
  have h2 : marksIndex i.sqName s.ddl = false := by
    cases hmk : marksIndex i.sqName s.ddl with
    | false => rfl
    | true =>
      have : s.ddl ∈ (stmts.map (·.ddl)).filter (marksIndex i.sqName) :=
        List.mem_filter.mpr ⟨List.mem_map_of_mem hs, hmk⟩
      rw [key.1] at this
      cases this
  cases hd : s.ddl with
  | attachIndex q' m =>
    rw [hd] at h2
    have h2 : decide (m = i.sqName) = false := h2
    show (decide (q' = q) && decide (m = i.sqName)) = false
    rw [h2, Bool.and_false]
  | alterTable t' a =>
    cases a with
    | attachPartition m v => rw [hd] at h1; exact h1
    | _ => rfl
  | _ => rfl

end
/-! ### examples -/

namespace Samples

/-- partitions without indexes -/
def bareParts (l : List String) : Schema := { parts l with indexes := [] }

/-- the index of the partition is there, and belongs to no other -/
def looseParts : Schema := { parts ["a"] with indexes := [partIdx "i" "p" none, partIdx "ia" "a" none] }

/-- a table with a partition that has a partition -/
def deepParts (indexes : List Index) : Schema := { Schema.empty with
  tables := [parent "p" [col "x" "integer", col "y" "integer"] "LIST (x)",
    { partition "a" "p" [col "x" "integer", col "y" "integer"] "FOR VALUES IN (1)" with partitionKeyDef := "LIST (y)" },
    partition "b" "a" [col "x" "integer", col "y" "integer"] "FOR VALUES IN (2)"]
  indexes := indexes }

/-- an index on each of them -/
def deepIndexes : List Index := [partIdx "i" "p" none, partIdx "ia" "a" (some "i"), partIdx "ib" "b" (some "ia")]

end Samples

open Samples in
/-- the hypotheses of C92 can be met: indexes for partitions, old and new, which are attached themselves or with their table -/
example :
    (∃ stmts r', generateMigrationStatements rand (bareParts ["a"]) (parts ["a"]) opts = .ok (stmts, r') ∧
      stmts.map (·.ddl) = [
        .addConstraintOnly (pub "p") "\"i\"" "UNIQUE (x)",
        .createIndex (partIdx "ia" "a" (some "i")) true "CREATE UNIQUE INDEX CONCURRENTLY ia ON public.a USING btree (x)",
        .alterTable (pub "a") (.addUsingIndex "\"ia\"" "UNIQUE" "\"ia\""),
        .attachIndex (pub "i") (pub "ia")]) ∧
    (∃ stmts r', generateMigrationStatements rand (bareParts ["a"]) (parts ["a", "b"]) opts = .ok (stmts, r') ∧
      (∃ s ∈ stmts, createsIndex (pub "ib") s.ddl = true) ∧ (∃ s ∈ stmts, attachesIndex (pub "ia") s.ddl = true) ∧
      ∃ s ∈ stmts, attachesPartition (pub "b") s.ddl = true) ∧
    (∃ stmts r', generateMigrationStatements rand looseParts (parts ["a"]) opts = .ok (stmts, r') ∧
      stmts.map (·.ddl) = [.attachIndex (pub "i") (pub "ia")]) ∧
    NamesUnique (parts ["a", "b"]).tables ∧ NamesUnique (parts ["a", "b"]).indexes :=
  ⟨exists_plan (by decide +kernel), exists_plan (by decide +kernel), exists_plan (by decide +kernel), by unfold NamesUnique; decide,
    by unfold NamesUnique; decide⟩

open Samples in
/-- the hypotheses of the fourth part can be met: a partition is added, the others keep their indexes -/
example : (∃ stmts r', generateMigrationStatements rand (parts ["a"]) (parts ["a", "b"]) opts = .ok (stmts, r') ∧
      stmts ≠ [] ∧ ∀ s ∈ stmts, replacesIndex (pub "ia").fq s.ddl = false) ∧
    (pub "i").fq = indexName "public" "i" ∧ IndexNameOk (parts ["a"]) (parts ["a", "b"]) "public" "i" := by
  refine ⟨exists_plan (by decide +kernel), by decide, by decide, by unfold madeUp; decide, ?_, ?_, ?_⟩
  · unfold ConstraintNamed; decide
  · unfold ConstraintNamed; decide
  · exact ⟨by decide, by decide⟩

open Samples in
/-- A unique constraint for a table with partitions in two levels: the index of the partition is never attached to that of the table,
which stays invalid.  The hypotheses of the general statement are met. -/
theorem C92_index_in_the_middle_violated :
    (∃ stmts r', generateMigrationStatements rand (deepParts []) (deepParts deepIndexes) opts = .ok (stmts, r') ∧
      stmts.map (·.ddl) = [
        .addConstraintOnly (pub "p") "\"i\"" "UNIQUE (x)",
        .addConstraintOnly (pub "a") "\"ia\"" "UNIQUE (x)",
        .createIndex (partIdx "ib" "b" (some "ia")) true "CREATE UNIQUE INDEX CONCURRENTLY ib ON public.b USING btree (x)",
        .alterTable (pub "b") (.addUsingIndex "\"ib\"" "UNIQUE" "\"ib\""),
        .attachIndex (pub "ia") (pub "ib")]) ∧
    (∃ i ∈ (deepParts deepIndexes).indexes, i.parentIdx = some (pub "i") ∧ i.constraint.isSome = true ∧ i.owningRelKind ≠ "m" ∧
      ∃ t ∈ (deepParts deepIndexes).tables, i.owningRelName = t.name ∧ t.isPartitioned = true ∧
        ∀ o ∈ (deepParts []).indexes, o.sqName.fq ≠ i.sqName.fq) :=
  ⟨exists_plan (by decide +kernel), by decide⟩

end Verif
