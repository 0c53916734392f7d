import Verif.Spec.Attach
import Verif.Props.Partition
import Verif.Props.Columns
import Verif.Props.Check
import Verif.Props.PartColumns
import Verif.Props.TableUse
import Verif.Lemmas.IndexFate

/-!
# Partitions fit the tables they are attached to (C90)
-/

namespace Verif

open Spec

section
variable {opts : PlanOptions} {old new : Schema} {d : SchemaDiff} {r r' : Rand} {stmts : List Statement}

theorem attaches_not_outer {n : String} {x : Ddl} (h : attaches n x = true) : ¬ x.IsOuter := by
  cases x <;> first | (simp [attaches] at h; done) | exact id

theorem GraphShape.attaches_vertex {st : GenState} {id : VertexId} {s : Statement} {n : String}
    (h : GraphShape opts d st id s) (hs : attaches n s.ddl = true) :
    ∃ t ∈ d.tableDiffs.adds, t.name.fq = n ∧ id = AttachGen.vertexId t .addAlter ∧ ∃ p, t.parentTable = some p ∧
      s.ddl = .alterTable p (.attachPartition t.name t.forValues) := by
  cases h with
  | attachPartition t h p hp hid => exact ⟨t, h, of_decide_eq_true hs, hid, p, hp, rfl⟩
  | newTable t h ccs hc s hs' hid => cases hs' <;> exact absurd hs Bool.false_ne_true
  | alterTable td h s hs' hid =>
    cases hs' with
    | column cd h s hs' => cases hs' <;> exact absurd hs Bool.false_ne_true
    | _ => exact absurd hs Bool.false_ne_true
  | _ => exact absurd hs Bool.false_ne_true

/-- the table that is attached -/
theorem DiffRun.attached (dr : DiffRun opts old new d) (run : PlanRun opts d r r' stmts)
    (hn : (new.tables.map Obj.getName).Nodup) {t : Table} (ht : t ∈ new.tables) {id : VertexId} {s : Statement}
    (h : GraphShape opts d run.s3 id s) (hs : attaches t.name.fq s.ddl = true) :
    packIf opts t ∈ d.tableDiffs.adds ∧ id = AttachGen.vertexId t .addAlter ∧ ∃ p, t.parentTable = some p ∧
      s.ddl = .alterTable p (.attachPartition t.name t.forValues) := by
  obtain ⟨t', ht', e, hid, p, hp, hd⟩ := h.attaches_vertex hs
  obtain ⟨t0, h0, rfl, h1⟩ := dr.added_mem ht'
  rw [packIf_name] at e
  have : t0 = t := List.inj_on_of_nodup_map hn h1 ht e
  subst this
  rw [packIf_parent] at hp
  rw [packIf_name, packIf_forValues] at hd
  exact ⟨ht', by rw [hid]; unfold AttachGen.vertexId; rw [packIf_name], p, hp, hd⟩

/-- what is done to the table and to the partition is done before -/
theorem DiffRun.attached_last (dr : DiffRun opts old new d) (run : PlanRun opts d r r' stmts)
    (hn : (new.tables.map Obj.getName).Nodup) {t tp : Table} (ht : t ∈ new.tables) (htp : tp ∈ new.tables)
    (hp : t.parentTable = some tp.name) {P : Statement → Prop} (hout : ∀ s, P s → ¬ s.ddl.IsOuter)
    (hid : ∀ id s, GraphShape opts d run.s3 id s → P s → ∃ m k, (m = t.name.fq ∨ m = tp.name.fq) ∧ id = ⟨"table", m, k⟩) :
    AllBefore P (fun s => attaches t.name.fq s.ddl = true) stmts := by
  refine run.allBefore hout (fun s hs => attaches_not_outer hs) ?_
  intro u x w y hx hy hq hq'
  obtain ⟨hadd, rfl, _⟩ := dr.attached run hn ht hy hq'
  have hp' : (packIf opts t).parentTable = some tp.name := by rw [packIf_parent]; exact hp
  have h1 := (run.declared_attach hadd hp').1
  have h2 := (run.declared_table_add hadd).2 _ hp'
  rw [packIf_name] at h1 h2
  rw [show AttachGen.vertexId (packIf opts t) .addAlter = AttachGen.vertexId t .addAlter from by
    unfold AttachGen.vertexId; rw [packIf_name]] at h1
  obtain ⟨m, k, hm, rfl⟩ := hid u x hx hq
  rcases hm with rfl | rfl
  · cases k with
    | addAlter => exact .single h1
    | delete => exact .head (dr.declared_rebuild run hn ht) (.single h1)
  · cases k with
    | addAlter => exact .head h2 (.single h1)
    | delete => exact .head (dr.declared_rebuild run hn htp) (.head h2 (.single h1))

/-- a partition is attached at most once -/
theorem DiffRun.attached_once (dr : DiffRun opts old new d) (run : PlanRun opts d r r' stmts)
    (hn : (new.tables.map Obj.getName).Nodup) {t : Table} (ht : t ∈ new.tables) :
    (stmts.filter fun s => attaches t.name.fq s.ddl).length ≤ 1 := by
  have hkey : ∀ o x j i td, Obj.getName o = Obj.getName x → buildTableDiff o x j i = .ok (td, false) →
      Obj.getName (TableDiff.new td) = Obj.getName x := by
    intro o x j i td _ hb
    rw [(buildTableDiff_ok hb).2.1]
  obtain ⟨_, n1, n2, n3, _, _, _⟩ := diffLists_decision (key := fun td => Obj.getName td.new) dr.htd0 hn hkey t.name.fq
  have ea : d.tableDiffs.adds.map Obj.getName = dr.td0.adds.map Obj.getName := dr.addNames
  have el : d.tableDiffs.alters.map (fun td => Obj.getName td.new) = dr.td0.alters.map fun td => Obj.getName td.new := by
    rw [dr.halters, List.map_map]
    refine List.map_congr_left (f := _) fun td _ => ?_
    show Obj.getName (orderIf opts td).new = _
    rw [orderIf_new]
  have ed : d.tableDiffs.deletes.map Obj.getName = dr.td0.deletes.map Obj.getName := by rw [dr.hdeletes]
  have hadd : ∀ o : Table, ∀ l, yields (AttachGen.add o) l → l.length ≤ 1 ∧ ∀ s ∈ l, attaches o.name.fq s.ddl = true ∧
      ∀ n, n ≠ o.name.fq → attaches n s.ddl = false := by
    rintro o l ⟨s0, s1, hl⟩
    have hl : AttachGen.add o s0 = .ok (l, s1) := hl
    unfold AttachGen.add at hl
    cases ho : o.parentTable with
    | none =>
      rw [ho] at hl
      obtain ⟨rfl, _⟩ := genM_pure_ok.mp hl
      exact ⟨by simp, fun s hs => by cases hs⟩
    | some p =>
      rw [ho] at hl
      obtain ⟨rfl, _⟩ := genM_pure_ok.mp hl
      refine ⟨by simp, fun s hs => ?_⟩
      rw [List.mem_singleton.mp hs]
      exact ⟨decide_eq_true rfl, fun n hne => decide_eq_false fun e => hne e.symm⟩
  obtain ⟨A, B, C, e, a1, b1, c1, a2, b2, c2⟩ := legacy_focus (m := GenM)
    (g := AttachGen.legacy d.new.indexes (byName d.tableDiffs.adds)) (ld := d.tableDiffs)
    (yields_of_run run.hattaches) (key := fun td => Obj.getName td.new) (ea ▸ n1) (ed ▸ n2) (el ▸ n3) (n := t.name.fq)
    (P := fun s : Statement => attaches t.name.fq s.ddl)
    (by
      intro o ho l hl hne
      rw [List.filter_eq_nil_iff]
      intro s hs hP
      rw [((hadd o l hl).2 s hs).2 _ (fun e => hne e.symm)] at hP
      cases hP)
    (by
      rintro o ho l ⟨s0, s1, hl⟩ hne
      rw [← (genM_pure_ok.mp hl).1]; rfl)
    (by
      rintro o ho l ⟨s0, s1, hl⟩ hne
      rw [← (genM_pure_ok.mp hl).1]; rfl)
  have hB : B = [] := by
    by_cases hq : t.name.fq ∈ d.tableDiffs.deletes.map Obj.getName
    · obtain ⟨o, ho, eo⟩ := List.mem_map.mp hq
      obtain ⟨l, ⟨s0, s1, hl⟩, rfl⟩ := b2 o ho eo
      rw [← (genM_pure_ok.mp hl).1]; rfl
    · exact b1 hq
  have hC : C = [] := by
    by_cases hq : t.name.fq ∈ d.tableDiffs.alters.map (fun td => Obj.getName td.new)
    · obtain ⟨o, ho, eo⟩ := List.mem_map.mp hq
      obtain ⟨l, ⟨s0, s1, hl⟩, rfl⟩ := c2 o ho eo
      rw [← (genM_pure_ok.mp hl).1]; rfl
    · exact c1 hq
  have e : stmts.filter (fun s : Statement => attaches t.name.fq s.ddl) = A := by
    rw [run.part_filter (f := .attach) (by simp) (n := t.name.fq) (k := .addAlter)
      (fun id s h hs => (dr.attached run hn ht h hs).2.1)
      (fun s hs => by
        cases h : attaches t.name.fq s.ddl with
        | false => rfl
        | true => exact absurd hs (attaches_not_outer h))]
    refine Eq.trans e ?_
    rw [hB, hC]; simp
  rw [e]
  by_cases hq : t.name.fq ∈ d.tableDiffs.adds.map Obj.getName
  · obtain ⟨o, ho, eo⟩ := List.mem_map.mp hq
    obtain ⟨l, hl, rfl⟩ := a2 o ho eo
    exact (List.length_filter_le _ _).trans (hadd o l hl).1
  · rw [a1 hq]; simp

/-- nothing happens to the table and to the partition from the moment on at which the partition is attached -/
theorem DiffRun.attached_state (dr : DiffRun opts old new d) (run : PlanRun opts d r r' stmts)
    (hn : (new.tables.map Obj.getName).Nodup) {t tp : Table} (ht : t ∈ new.tables) (htp : tp ∈ new.tables)
    (hp : t.parentTable = some tp.name) {m : String} (hm : m = t.name.fq ∨ m = tp.name.fq) {σ : Type}
    {step : σ → Ddl → Option σ} {P : Ddl → Bool}
    (hskip : ∀ s x, P x = false → x.dropsTable m = false → step s x = some s) (hout : ∀ s : Statement, P s.ddl = true → ¬ s.ddl.IsOuter)
    (hid : ∀ id s, GraphShape opts d run.s3 id s → P s.ddl = true → id = ⟨"table", m, .addAlter⟩)
    (hnot : ∀ x, attaches t.name.fq x = true → P x = false) {a b : List Statement} {x : Statement} (e : stmts = a ++ x :: b)
    (hx : attaches t.name.fq x.ddl = true) (s0 : σ) : runWith step s0 a = runWith step s0 stmts := by
  have hlast := dr.attached_last run hn ht htp hp (P := fun s => P s.ddl = true ∨ s.ddl.dropsTable m = true)
    (by
      rintro s (h | h)
      · exact hout s h
      · exact dropsTable_not_outer h)
    (by
      rintro id s hg (h | h)
      · exact ⟨m, .addAlter, hm, hid id s hg h⟩
      · exact ⟨m, .delete, hm, dropsTable_vertex hg h⟩)
  rw [e] at hlast
  have hb := AllBefore.not_after hlast hx
  rw [e, runWith_append]
  cases hr : runWith step s0 a with
  | none => rfl
  | some s =>
    refine (runWith_keeps fun y hy => ?_).symm
    rcases List.mem_cons.mp hy with rfl | hy
    · refine hskip _ _ (hnot _ hx) ?_
      cases hs : y.ddl <;> rw [hs] at hx <;> first | cases hx | rfl
    · have := hb y hy
      exact hskip _ _ (Bool.eq_false_iff.mpr fun h => this (Or.inl h)) (Bool.eq_false_iff.mpr fun h => this (Or.inr h))

/-- the columns of the two tables are as they are to be when the partition is attached -/
theorem slots_attached (dr : DiffRun opts old new d) (run : PlanRun opts d r r' stmts)
    (hn : (new.tables.map Obj.getName).Nodup) {pg : Pg} {t tp : Table} (ht : t ∈ new.tables) (htp : tp ∈ new.tables)
    (hp : t.parentTable = some tp.name) {m : Table} (hm : m = t ∨ m = tp) (hpl : ColumnsPlannable pg old new m.name.fq)
    {a b : List Statement} {x : Statement} (e : stmts = a ++ x :: b) (hx : attaches t.name.fq x.ddl = true) (c : String) :
    runSlot pg m.name.fq c (slotOf old m.name.fq c) a = some (some (columnOf m c)) := by
  have hmem : m ∈ new.tables := by rcases hm with rfl | rfl <;> assumption
  have hm' : m.name.fq = t.name.fq ∨ m.name.fq = tp.name.fq := by
    rcases hm with rfl | rfl
    · exact Or.inl rfl
    · exact Or.inr rfl
  have hall := slots_converge dr run hn hpl c
  rw [slotOf_some hn hmem rfl] at hall
  rw [← hall]
  refine dr.attached_state run hn ht htp hp hm' (P := fun x => x.onSlots m.name.fq)
    (fun s x h h' => slotStep_skip pg h h' s) (fun s h => onSlots_inner h) (fun id s hg h => slot_id hg h) ?_ e hx _
  intro x h
  cases x with
  | alterTable q ac =>
    cases ac with
    | attachPartition => simp [Ddl.onSlots, onColumns]
    | _ => cases h
  | _ => cases h

/-- the check constraints of a new partition -/
theorem run_newPartition {cols : String → List String} {n k : String} {g : TableGen} {t : Table} {l : List Statement}
    (run : AddRun g t l) (ht : t.name.fq = n) {p : SQName} (hp : t.parentTable = some p)
    (hu : (((g.tablesInNewSchemaByName.get? p.getName).getD GoZero.zero).checkConstraints.map (·.name)).Nodup) :
    runCheck cols n k none l =
      some (checkAmong ((g.tablesInNewSchemaByName.get? p.getName).getD GoZero.zero).checkConstraints k) := by
  have hcc := run.hcheckConstraints
  unfold TableGen.partitionChecks at hcc
  rw [hp] at hcc
  dsimp only at hcc
  split at hcc
  · cases hcc
  split at hcc
  · cases hcc
  rename_i h2
  split at hcc
  · cases hcc
  rename_i h3
  split at hcc
  · cases hcc
  have hc0 : t.checkConstraints = [] := List.length_eq_zero_iff.mp (Nat.eq_zero_of_not_pos h2)
  have hp0 : t.policies = [] := List.length_eq_zero_iff.mp (Nat.eq_zero_of_not_pos h3)
  rw [hc0, List.nil_append, Except.ok.injEq] at hcc
  rw [hcc] at hu ⊢
  have hpol := run.hpolicies
  rw [hp0] at hpol
  refine run_newTable (g := g) (t := { t with parentTable := none, checkConstraints := run.checkConstraints }) ⟨run.checkConstraints,
    run.columnDefs, run.checks, run.replica, _, run.policies, run.privileges, rfl, run.hcolumns, run.hchecks, run.hreplica, rfl,
    ?_, run.hprivileges, run.hstmts⟩ ht rfl hu
  rw [hp0]
  exact hpol

/-- a new partition has the check constraints of its table -/
theorem runCheck_newPartition {cols : String → List String} {n k : String} {K : String → Bool}
    (hK : ∀ q, readsAs q k = true → K q = true) {g : TableGen} {t tp : Table} {l : List Statement} (hl : g.add t = .ok l)
    (e : t.name.fq = n) (hp : t.parentTable = some tp.name) (hg : g.tablesInNewSchemaByName.get? tp.name.getName = some tp)
    (hu : (tp.checkConstraints.map (·.name)).Nodup) :
    runCheck cols n k none (l.filter fun s => s.ddl.aroundCheck n K) = some (checkAmong tp.checkConstraints k) := by
  obtain ⟨run⟩ := add_run hl
  have h := run_newPartition (cols := cols) (k := k) run e hp (by rw [hg]; exact hu)
  rw [hg] at h
  rw [runCheck_focus hK, filter_or_left] at h
  · exact h
  · rw [List.filter_eq_nil_iff]
    intro s hs
    obtain ⟨ccs, _, hsh⟩ := TableGen.add_shape hl hs
    cases hsh <;> exact fun h => by cases h

theorem checks_of_added (dr : DiffRun opts old new d) (run : PlanRun opts d r r' stmts) (hr : FromReader r)
    (hn : (new.tables.map Obj.getName).Nodup) {t tp : Table} (ht : t ∈ new.tables) (htp : tp ∈ new.tables)
    (hp : t.parentTable = some tp.name) (hadd : packIf opts t ∈ d.tableDiffs.adds) {cols : String → List String} {k : String}
    (hroot : ∀ o ∈ old.tables, o.name.fq = t.name.fq → o.parentTable = none)
    (hu : (tp.checkConstraints.map (·.name)).Nodup) (hk : Apart old new t.name.fq k) :
    runCheck cols t.name.fq k (checkOf old t.name.fq k) stmts = some (checkAmong tp.checkConstraints k) := by
  have hK : ∀ q, readsAs q k = true → freeNames old new t.name.fq q = true := fun q h => freeNames_iff.mpr ⟨k, h, hk⟩
  have un : ∀ {x : Table}, x ∈ new.tables → x.name.fq = t.name.fq → x = t := fun hx ex =>
    List.inj_on_of_nodup_map hn hx ht ex
  have hg : (SchemaGen.tableGen d).tablesInNewSchemaByName.get? tp.name.getName = some tp := by
    show (byName d.new.tables).get? _ = _
    rw [dr.hnew]
    exact byName_get?_of_mem hn htp
  rw [runCheck_focus hK]
  cases check_fate dr run hr hn t.name.fq with
  | absent h1 h2 h hd => exact absurd (List.mem_map.mpr ⟨t, ht, rfl⟩) h2
  | dropped o h1 e h2 h hd => exact absurd (List.mem_map.mpr ⟨t, ht, rfl⟩) h2
  | added t' h1 e h2 hm l hl h hd =>
    obtain rfl := un h1 e
    rw [filter_or_left hd, h, checkOf_none h2]
    exact runCheck_newPartition hK hl (by rw [packIf_name]) (by rw [packIf_parent]; exact hp) hg hu
  | recreated o t' h1 h2 eo e hb hm l hl h hd hbefore =>
    obtain rfl := un h2 e
    have hd := hd (hroot o h1 eo)
    have hf := hbefore.filter_eq (by
      intro s hs
      cases hx : s.ddl <;> rw [hx] at hs <;> first | exact absurd hs.1 (by intro h; cases h) | exact absurd hs.2 (by intro h; cases h))
    have hf' : stmts.filter (fun s => s.ddl.aroundCheck t'.name.fq (freeNames old new t'.name.fq) || s.ddl.dropsTable t'.name.fq) =
        stmt (.dropTable o.name) [.deletesData] statementTimeoutTableDrop ::
          l.filter fun s => s.ddl.aroundCheck t'.name.fq (freeNames old new t'.name.fq) := by
      rw [← h, ← List.singleton_append, ← hd]
      simp only [Bool.decide_eq_true] at hf
      rw [← hf]
      refine List.filter_congr fun s _ => ?_
      rw [Bool.eq_iff_iff, Bool.or_eq_true, decide_eq_true_iff]
      exact Or.comm
    rw [hf', run_drop_table eo]
    exact runCheck_newPartition hK hl (by rw [packIf_name]) (by rw [packIf_parent]; exact hp) hg hu
  | altered o t' h1 h2 eo e td hb hm l hl h hd =>
    obtain rfl := un h2 e
    obtain ⟨i, j, hb⟩ := hb
    refine absurd ?_ (dr.added_ne_altered hn hadd hm)
    rw [packIf_name, orderIf_new, (buildTableDiff_ok hb).2.1]

/-- the check constraints are as they are to be when the partition is attached -/
theorem checks_attached (dr : DiffRun opts old new d) (run : PlanRun opts d r r' stmts) (hr : FromReader r)
    (hn : (new.tables.map Obj.getName).Nodup) {t tp : Table} (ht : t ∈ new.tables) (htp : tp ∈ new.tables)
    (hp : t.parentTable = some tp.name) {cols : String → List String} {k : String}
    (hpl : ChecksPlannable cols old new tp.name.fq) (htm : TemporaryMentions cols) (hok : DrawsDiffer r r')
    (hroot : ∀ o ∈ old.tables, o.name.fq = t.name.fq → o.parentTable = none)
    (hkp : Apart old new tp.name.fq k) (hk : Apart old new t.name.fq k)
    {a b : List Statement} {x : Statement} (e : stmts = a ++ x :: b) (hx : attaches t.name.fq x.ddl = true) :
    runCheck cols tp.name.fq k (checkOf old tp.name.fq k) a = some (checkAmong tp.checkConstraints k) ∧
    runCheck cols t.name.fq k (checkOf old t.name.fq k) a = some (checkAmong tp.checkConstraints k) := by
  have hadd : packIf opts t ∈ d.tableDiffs.adds := by
    obtain ⟨v, hv, a1, a2, b1, b2, _, _, hvs⟩ := run.block e (attaches_not_outer hx)
    exact (dr.attached run hn ht (run.vertex_shape hv (s := x) (by rw [hvs]; simp)) hx).1
  have hnot : ∀ m, ∀ x, attaches t.name.fq x = true → x.aroundCheck m (freeNames old new m) = false := by
    intro m x h
    cases x with
    | alterTable q ac => cases ac <;> first | rfl | cases h
    | _ => cases h
  have hout : ∀ m, ∀ s : Statement, s.ddl.aroundCheck m (freeNames old new m) = true → ¬ s.ddl.IsOuter := by
    intro m s h
    cases hs : s.ddl <;> rw [hs] at h <;> first | exact id | cases h
  have step : ∀ m, (m = t.name.fq ∨ m = tp.name.fq) → Apart old new m k → ∀ s0,
      runCheck cols m k s0 a = runCheck cols m k s0 stmts := by
    intro m hm hk s0
    have hK : ∀ q, readsAs q k = true → freeNames old new m q = true := fun q h => freeNames_iff.mpr ⟨k, h, hk⟩
    exact dr.attached_state run hn ht htp hp hm (P := fun x => x.aroundCheck m (freeNames old new m))
      (fun s x h h' => checkStep_other hK h h' s) (hout m) (fun id s hg h => around_id dr run hr m hg h) (hnot m) e hx s0
  refine ⟨?_, ?_⟩
  · rw [step _ (Or.inr rfl) hkp, checks_converge dr run hr hn hpl htm hok hkp, checkOf_of_mem hn htp]
  · rw [step _ (Or.inl rfl) hk]
    exact checks_of_added dr run hr hn ht htp hp hadd hroot (hpl.checks tp (Or.inr htp) rfl).unique hk

/-- **C90**, columns: a partition fits its table when it is attached.  Take a table of the target and one of its partitions,
the columns of which fit (they do in any database).  Wherever the plan attaches the partition, it attaches it to this table,
for its values, and nowhere else; every statement before is accepted on both tables, and both tables are there, each with the
columns of the target, so that they fit.  Missing: tables that are partitions before, and the changes of kept columns that
C19 refutes. -/
theorem C90_partitions_fit_partial (h : generateMigrationStatements r old new opts = .ok (stmts, r'))
    (hn : NamesUnique new.tables) {pg : Pg} {t tp : Table} (ht : t ∈ new.tables) (htp : tp ∈ new.tables)
    (hp : t.parentTable = some tp.name) (hpl : ColumnsPlannable pg old new t.name.fq)
    (hpl' : ColumnsPlannable pg old new tp.name.fq) (hfit : ∀ c, ColumnFits (columnOf tp c) (columnOf t c))
    {a b : List Statement} {x : Statement} (e : stmts = a ++ x :: b) (hx : attaches t.name.fq x.ddl = true) :
    x.ddl = .alterTable tp.name (.attachPartition t.name t.forValues) ∧
    (∀ y ∈ a ++ b, attaches t.name.fq y.ddl = false) ∧
    ∀ c, ∃ st st', runSlot pg tp.name.fq c (slotOf old tp.name.fq c) a = some (some st) ∧
      runSlot pg t.name.fq c (slotOf old t.name.fq c) a = some (some st') ∧ ColumnFits st st' := by
  obtain ⟨d, ⟨dr⟩, ⟨run⟩⟩ := plan_runs h
  have ho : NamesUnique old.tables := (normalize_tables_names old).nodup_iff.mp (diffLists_old_nodup dr.htd0)
  have hn' := normalize_tables_nodup hn
  have ht' := mem_normalize_tables_of ht
  have htp' := mem_normalize_tables_of htp
  refine ⟨?_, ?_, fun c => ⟨columnOf tp c, columnOf t c, ?_, ?_, hfit c⟩⟩
  · obtain ⟨v, hv, a1, a2, b1, b2, _, _, hvs⟩ := run.block e (attaches_not_outer hx)
    obtain ⟨_, _, p, hp', hd⟩ := dr.attached run hn' ht' (run.vertex_shape hv (s := x) (by rw [hvs]; simp)) hx
    have : p = tp.name := by
      have := hp.symm.trans hp'
      cases this
      rfl
    rw [this] at hd
    exact hd
  · have hone : (stmts.filter fun s => attaches t.name.fq s.ddl).length ≤ 1 := dr.attached_once run (t := normalizeTable t) hn' ht'
    rw [e, List.filter_append, List.filter_cons, if_pos hx, List.length_append, List.length_cons] at hone
    have h1 : (a.filter fun s => attaches t.name.fq s.ddl) = [] := List.length_eq_zero_iff.mp (by omega)
    have h2 : (b.filter fun s => attaches t.name.fq s.ddl) = [] := List.length_eq_zero_iff.mp (by omega)
    intro y hy
    rcases List.mem_append.mp hy with hy | hy
    · exact filter_nil_false h1 y hy
    · exact filter_nil_false h2 y hy
  · rw [← find_normalize ho _ c old rfl]
    exact slots_attached dr run hn' ht' htp' hp (Or.inr rfl) (columnsPlannable_normalize hpl') e hx c
  · rw [← find_normalize ho _ c old rfl]
    exact slots_attached dr run hn' ht' htp' hp (Or.inl rfl) (columnsPlannable_normalize hpl) e hx c

/-- **C90**, check constraints: when a partition is attached, it has every check constraint of its table, as the table has it
at this moment, which is as the target has it.  Missing: tables that are partitions before. -/
theorem C90_partitions_are_checked_partial (h : generateMigrationStatements r old new opts = .ok (stmts, r'))
    (hr : FromReader r) (ho : NamesUnique old.tables) (hn : NamesUnique new.tables) {t tp : Table} (ht : t ∈ new.tables)
    (htp : tp ∈ new.tables) (hp : t.parentTable = some tp.name) {cols : String → List String} {k : String}
    (hpl : ChecksPlannable cols old new tp.name.fq) (htm : TemporaryMentions cols) (hok : DrawsDiffer r r')
    (hroot : ∀ o ∈ old.tables, o.name.fq = t.name.fq → o.parentTable = none ∧ ChecksOk cols o)
    (hkp : Apart old new tp.name.fq k) (hk : Apart old new t.name.fq k)
    {a b : List Statement} {x : Statement} (e : stmts = a ++ x :: b) (hx : attaches t.name.fq x.ddl = true) :
    ∃ st st', runCheck cols tp.name.fq k (checkOf old tp.name.fq k) a = some st ∧
      runCheck cols t.name.fq k (checkOf old t.name.fq k) a = some st' ∧ CheckFits st st' ∧ st = checkOf new tp.name.fq k := by
  obtain ⟨d, ⟨dr⟩, ⟨run⟩⟩ := plan_runs h
  have h1 := checks_attached dr run hr (normalize_tables_nodup hn) (mem_normalize_tables_of ht) (mem_normalize_tables_of htp) hp
    (checksPlannable_normalize hpl) htm hok
    (fun o h e => by
      obtain ⟨o0, h0, rfl⟩ := mem_normalize_tables h
      exact (hroot o0 h0 e).1) (apart_normalize hkp) (apart_normalize hk) e hx
  have hn1 := checkAmong_normalize (hpl.checks tp (Or.inr htp) rfl) k
  rw [checkOf_normalize ho (n := tp.name.fq) (fun t h => hpl.checks t (Or.inl h)),
    checkOf_normalize ho (n := t.name.fq) (fun o h e => (hroot o h e).2), checkOf_of_mem hn htp, ← hn1]
  refine ⟨_, _, h1.1, h1.2, ?_, rfl⟩
  cases checkAmong (normalizeTable tp).checkConstraints k with
  | none => trivial
  | some c => exact ⟨rfl, rfl, id⟩

end

namespace Samples

/-- before: a partitioned table with a check constraint, and a table `q` -/
def oldAttach : Schema := { Schema.empty with
  tables := [{ parent "p" [col "k" "integer", col "x" "integer"] "LIST (k)" with checkConstraints := [positive "kept" 1] },
    table "q" [col "k" "integer", col "x" "integer"]] }

/-- after: `x` has another type, `v` is new, and so is a check constraint; `p1` is a new partition, and `q` is one now -/
def newAttach : Schema := { Schema.empty with
  tables := [{ parent "p" [col "k" "integer", col "x" "bigint", notNull { col "v" "integer" with default := "7" }] "LIST (k)" with
      checkConstraints := [positive "kept" 1, positive "fresh" 2] },
    partition "p1" "p" [col "k" "integer", notNull (col "x" "bigint"), notNull (col "v" "integer")] "FOR VALUES IN (1)",
    partition "q" "p" [col "k" "integer", col "x" "bigint", notNull (col "v" "integer")] "FOR VALUES IN (2)"] }

theorem columnFits_of {p t : Table} (h : p.columns.map (·.name) = t.columns.map (·.name))
    (h' : ∀ c ∈ p.columns.map (·.name), ColumnFits (columnOf p c) (columnOf t c)) (c : String) :
    ColumnFits (columnOf p c) (columnOf t c) := by
  by_cases hc : c ∈ p.columns.map (·.name)
  · exact h' c hc
  · rw [columnOf_none hc, columnOf_none (h ▸ hc)]
    trivial

/-- the tables of the name are roots with proper constraints -/
theorem plannable_named {cols : String → List String} {old new : Schema} {n : String}
    (h : ∀ t ∈ old.tables ++ new.tables, t.name.fq = n → t.parentTable = none ∧ (t.columns.map (·.name)).Nodup ∧
      (t.checkConstraints.map (·.name)).Nodup ∧ ∀ c ∈ t.checkConstraints, nameOk c.name = true ∧
        ¬ "pgschemadiff_tmpnn_".toList <+: c.name.toList ∧ ∀ x ∈ cols c.expression, x ∈ c.keyColumns) :
    ChecksPlannable cols old new n :=
  ⟨fun t ht e => (h t (List.mem_append.mpr ht) e).1, fun t ht e => by
    obtain ⟨_, h2, h3, h4⟩ := h t (List.mem_append.mpr ht) e
    exact ⟨h2, h3, fun c hc => (h4 c hc).1, fun c hc => (h4 c hc).2.1, fun c hc => (h4 c hc).2.2⟩⟩

theorem attach_checks (n : String) : ∀ o ∈ oldAttach.tables, o.name.fq = n → o.parentTable = none ∧ ChecksOk sampleCols o := by
  intro o ho _
  have : ∀ t ∈ oldAttach.tables, t.parentTable = none ∧ (t.columns.map (·.name)).Nodup ∧
      (t.checkConstraints.map (·.name)).Nodup ∧ ∀ c ∈ t.checkConstraints, nameOk c.name = true ∧
        ¬ "pgschemadiff_tmpnn_".toList <+: c.name.toList ∧ ∀ x ∈ sampleCols c.expression, x ∈ c.keyColumns := by decide +kernel
  obtain ⟨h1, h2, h3, h4⟩ := this o ho
  exact ⟨h1, h2, h3, fun c hc => (h4 c hc).1, fun c hc => (h4 c hc).2.1, fun c hc => (h4 c hc).2.2⟩

/-- where `t` is attached in a list of statements -/
theorem split_at {l : List Statement} {p : Statement → Bool} (h : l.any p = true) : ∃ a x b, l = a ++ x :: b ∧ p x = true := by
  obtain ⟨x, hx, hp⟩ := List.any_eq_true.mp h
  obtain ⟨a, b, e⟩ := List.append_of_mem hx
  exact ⟨a, x, b, e, hp⟩

/-- the partitions of the sample -/
def sampleParts : List Table := newAttach.tables.drop 1

/-- their table -/
def sampleParent : Table := newAttach.tables.head (by decide)

end Samples

open Samples

/-- the hypotheses of `C90_partitions_fit_partial` and `C90_partitions_are_checked_partial` can be met, for a partition of a new
name and for a table that becomes a partition: both are attached to `p`, the columns of which have changed, and which has a new
check constraint -/
example : ∃ stmts r', generateMigrationStatements readerRand oldAttach newAttach opts = .ok (stmts, r') ∧ stmts.length = 14 ∧
    sampleParts.length = 2 ∧ ∀ t ∈ sampleParts, ∃ a x b, stmts = a ++ x :: b ∧
      x.ddl = .alterTable sampleParent.name (.attachPartition t.name t.forValues) ∧
      (∀ c, ∃ st st', runSlot pg sampleParent.name.fq c (slotOf oldAttach sampleParent.name.fq c) a = some (some st) ∧
        runSlot pg t.name.fq c (slotOf oldAttach t.name.fq c) a = some (some st') ∧ ColumnFits st st') ∧
      ∀ k ∈ ["kept", "fresh"], ∃ st st',
        runCheck sampleCols sampleParent.name.fq k (checkOf oldAttach sampleParent.name.fq k) a = some (some st) ∧
        runCheck sampleCols t.name.fq k (checkOf oldAttach t.name.fq k) a = some (some st') := by
  obtain ⟨stmts, r', h, e, hpos, h3⟩ := exists_plan_pos (r := readerRand) (old := oldAttach) (new := newAttach) (opts := opts)
    (P := fun stmts k => stmts.length = 14 ∧ k ≤ 4 ∧
      ∀ t ∈ sampleParts, stmts.any (fun s => attaches t.name.fq s.ddl) = true) (by decide +kernel)
  refine ⟨stmts, r', h, e, rfl, fun t ht => ?_⟩
  obtain ⟨a, x, b, ea, hx⟩ := split_at (h3 t ht)
  have facts : ∀ t ∈ sampleParts, t.parentTable = some sampleParent.name ∧
      sampleParent.columns.map (·.name) = t.columns.map (·.name) ∧
      (∀ c ∈ sampleParent.columns.map (·.name), ColumnFits (columnOf sampleParent c) (columnOf t c)) := by
    decide +kernel
  obtain ⟨f1, f2, f3⟩ := facts t ht
  have ho : NamesUnique oldAttach.tables := by unfold NamesUnique; decide +kernel
  have hn : NamesUnique newAttach.tables := by unfold NamesUnique; decide +kernel
  have hcol : ∀ n, ColumnsPlannable pg oldAttach newAttach n := columnsPlannable_of (by decide +kernel)
  have hm : t ∈ newAttach.tables := List.mem_of_mem_drop ht
  have hmp : sampleParent ∈ newAttach.tables := List.head_mem _
  obtain ⟨g1, _, g2⟩ := C90_partitions_fit_partial h hn hm hmp f1 (hcol _) (hcol _) (columnFits_of f2 f3) ea hx
  refine ⟨a, x, b, ea, g1, g2, fun k hk => ?_⟩
  have kk : ∀ k ∈ ["kept", "fresh"], ¬ "pgschemadiff_tmpidx_".toList <+: k.toList ∧
      (checkOf newAttach sampleParent.name.fq k).isSome = true := by decide +kernel
  obtain ⟨k1, k2⟩ := kk k hk
  obtain ⟨st, st', c1, c2, c3, c4⟩ := C90_partitions_are_checked_partial h (fromReader_ofBytes _) ho hn hm hmp f1
    (cols := sampleCols) (k := k) (plannable_named (by decide +kernel)) sampleCols_temporary (readerRand_differ hpos) (attach_checks _)
    (apart_of ⟨rfl, rfl⟩ ⟨rfl, rfl⟩ k1) (apart_of ⟨rfl, rfl⟩ ⟨rfl, rfl⟩ k1) ea hx
  rw [← c4] at k2
  cases st with
  | none => cases k2
  | some st =>
    cases st' with
    | none => exact c3.elim
    | some st' => exact ⟨st, st', c1, c2⟩

end Verif
