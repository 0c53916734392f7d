import Verif.Lemmas.SelfOk
import Verif.Lemmas.Edges
import Verif.Lemmas.IndexShape
import Verif.Props.Routine
import Verif.Props.Sequence
import Verif.Props.Partition
import Verif.Spec.Acyclic

/-!
# The graph of a plan has no cycles
-/

namespace Verif

open Spec

/-- ranks of vertices -/
abbrev Rank := ℕ ×ₗ ℕ ×ₗ ℕ ×ₗ ℤ

/-- a rank -/
def rk (a b c : ℕ) (e : ℤ) : Rank := toLex (a, toLex (b, toLex (c, e)))

theorem rk_lt {a b c a' b' c' : ℕ} {e e' : ℤ} :
    rk a b c e < rk a' b' c' e' ↔ a < a' ∨ a = a' ∧ (b < b' ∨ b = b' ∧ (c < c' ∨ c = c' ∧ e < e')) := by
  unfold rk
  rw [Prod.Lex.toLex_lt_toLex, Prod.Lex.toLex_lt_toLex, Prod.Lex.toLex_lt_toLex]

/-- what the ranks are made of -/
structure Ranking (old new : Schema) where
  level : String → ℕ
  hlevel : ∀ t ∈ old.tables ++ new.tables, ∀ p, t.parentTable = some p → level p.fq = level t.name.fq
  handover : ∀ o ∈ old.sequences, ∀ s ∈ new.sequences, o.name.fq = s.name.fq → ∀ a b, o.owner = some a → s.owner = some b → a ≠ b →
    level b.tableName.fq < level a.tableName.fq
  oldTable : String → ℕ
  holdTable : ∀ t ∈ old.tables, ∀ p, t.parentTable = some p → oldTable p.fq < oldTable t.name.fq
  newTable : String → ℕ
  hnewTable : ∀ t ∈ new.tables, ∀ p, t.parentTable = some p → newTable p.fq < newTable t.name.fq
  oldFn : String → ℕ
  holdFn : ∀ f ∈ old.functions, ∀ g ∈ f.dependsOnFunctions, oldFn g.fq < oldFn f.name.fq
  newFn : String → ℕ
  hnewFn : ∀ f ∈ new.functions, ∀ g ∈ f.dependsOnFunctions, newFn g.fq < newFn f.name.fq

theorem ranking {old new : Schema} (ho : Orderable old) (hn : Orderable new) (hs : OneWay old new) :
    Nonempty (Ranking old new) := by
  obtain ⟨l, h1, h2⟩ := hs
  obtain ⟨a, ha⟩ := ho.tableTree
  obtain ⟨b, hb⟩ := hn.tableTree
  obtain ⟨c, hc⟩ := ho.functionCalls
  obtain ⟨e, he⟩ := hn.functionCalls
  refine ⟨⟨l, h1, h2, a, fun t ht p hp => ha t ht _ (by simp [hp]), b, fun t ht p hp => hb t ht _ (by simp [hp]), c,
    fun f hf g hg => hc f hf _ (List.mem_map_of_mem hg), e, fun f hf g hg => he f hf _ (List.mem_map_of_mem hg)⟩⟩

/-- the owner of a sequence: in the new schema, or in the old one if the new one does not have the sequence -/
def ownerIn (old new : Schema) (n : String) : Option SequenceOwner :=
  match new.sequences.find? fun s => s.name.fq = n with
  | some s => s.owner
  | none => (old.sequences.find? fun s => s.name.fq = n).bind (·.owner)

namespace Ranking

variable {old new : Schema} (R : Ranking old new) (adds : GoMap String Table)

/-- the rank of a vertex of a table (or of a view that is created) -/
noncomputable def table (n : String) : DiffType → Rank
  | .delete => rk 1 (R.level n) 0 (R.oldTable n)
  | .addAlter => open Classical in if n ∈ new.views.map (·.name.fq) then rk 2 0 0 0 else rk 1 (R.level n) 4 (R.newTable n)

/-- the rank of a vertex of an index -/
def index (n : String) : DiffType → Rank
  | .delete =>
    match old.indexes.find? fun i => i.sqName.fq = n with
    | none => rk 2 1 0 0
    | some i => if i.owningRelKind = "m" then rk 2 1 0 0 else rk 1 (R.level i.owningRelName.fq) 3 (R.oldTable i.owningRelName.fq)
  | .addAlter =>
    match new.indexes.find? fun i => i.sqName.fq = n with
    | none => rk 2 4 0 0
    | some i => rk 2 4 0 (R.newTable i.owningRelName.fq)

/-- the rank of the vertex that attaches a partition -/
def attach (n : String) : Rank :=
  match new.tables.find? fun t => t.name.fq = n with
  | none => rk 2 5 0 0
  | some t =>
    match t.parentTable with
    | none => rk 2 5 0 0
    | some p => if adds.has p.getName then rk 2 3 0 0 else rk 2 5 0 0

/-- the rank of a vertex of a sequence -/
def sequence (n : String) : DiffType → Rank
  | .delete =>
    match ownerIn old new n with
    | none => rk 0 1 0 0
    | some o => rk 1 (R.level o.tableName.fq) 1 0
  | .addAlter =>
    match ownerIn old new n with
    | none => rk 0 2 0 0
    | some o => rk 1 (R.level o.tableName.fq) 2 0

/-- the rank of the vertex of the owner of a sequence -/
def ownership (n : String) : Rank :=
  match ownerIn old new n with
  | none => rk 0 3 0 0
  | some o => rk 1 (R.level o.tableName.fq) 5 0

/-- the rank of a vertex -/
noncomputable def rank (v : VertexId) : Rank :=
  if v.objType = "table" then R.table v.objId v.diffType
  else if v.objType = "index" then R.index v.objId v.diffType
  else if v.objType = "attachpartition" then attach (new := new) adds v.objId
  else if v.objType = "sequence" then R.sequence v.objId v.diffType
  else if v.objType = "sequence_ownership" then R.ownership v.objId
  else if v.objType = "fkconstraint" then match v.diffType with
    | .delete => rk 0 0 0 0
    | .addAlter => rk 2 5 0 0
  else if v.objType = "materialized_view" then match v.diffType with
    | .delete => rk 0 0 0 0
    | .addAlter => rk 2 2 0 0
  else if v.objType = "function" then match v.diffType with
    | .delete => rk 2 7 0 (-(R.oldFn v.objId : ℤ))
    | .addAlter => rk 2 0 0 (R.newFn v.objId)
  else if v.objType = "trigger" then match v.diffType with
    | .delete => rk 0 0 0 0
    | .addAlter => rk 2 6 0 0
  else if v.objType = "procedure" then rk 2 8 0 0
  else rk 0 0 0 0

section
variable {R adds}

theorem rank_table (n : SQName) (y : DiffType) : R.rank adds (tableVertexId n y) = R.table n.fq y := rfl
theorem rank_index (n : SQName) (y : DiffType) : R.rank adds (indexVertexId n y) = R.index n.fq y := by
  unfold rank; rfl
theorem rank_attach (t : Table) (y : DiffType) : R.rank adds (AttachGen.vertexId t y) = attach (new := new) adds t.name.fq := by
  unfold rank; rfl
theorem rank_sequence (n : SQName) (y : DiffType) : R.rank adds (sequenceVertexId n y) = R.sequence n.fq y := by
  unfold rank; rfl
theorem rank_ownership (s : Sequence) (y : DiffType) : R.rank adds (OwnershipGen.vertexId s y) = R.ownership s.name.fq := by
  unfold rank; rfl
theorem rank_fk_delete (c : ForeignKeyConstraint) : R.rank adds (FkGen.vertexId c .delete) = rk 0 0 0 0 := by unfold rank; rfl
theorem rank_fk_add (c : ForeignKeyConstraint) : R.rank adds (FkGen.vertexId c .addAlter) = rk 2 5 0 0 := by unfold rank; rfl
theorem rank_mv_delete (n : SQName) : R.rank adds (matViewVertexId n .delete) = rk 0 0 0 0 := by unfold rank; rfl
theorem rank_mv_add (n : SQName) : R.rank adds (matViewVertexId n .addAlter) = rk 2 2 0 0 := by unfold rank; rfl
theorem rank_fn_delete (n : SQName) : R.rank adds (functionVertexId n .delete) = rk 2 7 0 (-(R.oldFn n.fq : ℤ)) := by
  unfold rank; rfl
theorem rank_fn_add (n : SQName) : R.rank adds (functionVertexId n .addAlter) = rk 2 0 0 (R.newFn n.fq) := by unfold rank; rfl
theorem rank_trigger_delete (t : Trigger) : R.rank adds (TriggerGen.vertexId t .delete) = rk 0 0 0 0 := by unfold rank; rfl
theorem rank_trigger_add (t : Trigger) : R.rank adds (TriggerGen.vertexId t .addAlter) = rk 2 6 0 0 := by unfold rank; rfl
theorem rank_procedure (n : SQName) (y : DiffType) : R.rank adds (procedureVertexId n y) = rk 2 8 0 0 := by unfold rank; rfl
theorem rank_view (n : SQName) (y : DiffType) : R.rank adds (viewVertexId n y) = rk 0 0 0 0 := by unfold rank; rfl
theorem rank_rename (n : SQName) (y : DiffType) : R.rank adds (renameIndexVertexId n y) = rk 0 0 0 0 := by unfold rank; rfl

/-- a table comes after the first and before the last vertices -/
theorem table_bounds (n : String) (y : DiffType) : ∃ a b c e, R.table n y = rk a b c e ∧ (a = 1 ∨ a = 2 ∧ b = 0 ∧ c = 0 ∧ e = 0) := by
  cases y with
  | delete => exact ⟨_, _, _, _, rfl, Or.inl rfl⟩
  | addAlter =>
    unfold table
    dsimp only
    split
    · exact ⟨_, _, _, _, rfl, Or.inr ⟨rfl, rfl, rfl, rfl⟩⟩
    · exact ⟨_, _, _, _, rfl, Or.inl rfl⟩

theorem low_table {n : String} {y : DiffType} {b c : ℕ} {e : ℤ} : rk 0 b c e < R.table n y := by
  obtain ⟨a', b', c', e', h, h'⟩ := R.table_bounds n y
  rw [h, rk_lt]; omega

theorem table_high {n : String} {y : DiffType} {b : ℕ} (h : 0 < b) {c : ℕ} {e : ℤ} : R.table n y < rk 2 b c e := by
  obtain ⟨a', b', c', e', h1, h'⟩ := R.table_bounds n y
  rw [h1, rk_lt]; omega

theorem table_delete_high {n : String} {b c : ℕ} {e : ℤ} : R.table n .delete < rk 2 b c e := by
  unfold table
  dsimp only
  rw [rk_lt]; omega

theorem index_delete (hu : (old.indexes.map Obj.getName).Nodup) {i : Index} (hi : i ∈ old.indexes) :
    R.index i.sqName.fq .delete = if i.owningRelKind = "m" then rk 2 1 0 0
      else rk 1 (R.level i.owningRelName.fq) 3 (R.oldTable i.owningRelName.fq) := by
  unfold index
  rw [find_named (f := fun i : Index => i.sqName.fq) hu hi]

theorem index_delete_bounds (n : String) : ∃ a b c e, R.index n .delete = rk a b c e ∧ (a = 1 ∨ a = 2) := by
  unfold index
  dsimp only
  split
  · exact ⟨_, _, _, _, rfl, Or.inr rfl⟩
  · split
    · exact ⟨_, _, _, _, rfl, Or.inr rfl⟩
    · exact ⟨_, _, _, _, rfl, Or.inl rfl⟩

theorem index_add (hu : (new.indexes.map Obj.getName).Nodup) {i : Index} (hi : i ∈ new.indexes) :
    R.index i.sqName.fq .addAlter = rk 2 4 0 (R.newTable i.owningRelName.fq) := by
  unfold index
  rw [find_named (f := fun i : Index => i.sqName.fq) hu hi]

theorem index_add_bounds (n : String) : ∃ c e, R.index n .addAlter = rk 2 4 c e := by
  unfold index
  dsimp only
  split <;> exact ⟨_, _, rfl⟩

theorem attach_bounds (n : String) : ∃ b, attach (new := new) adds n = rk 2 b 0 0 ∧ 3 ≤ b := by
  unfold attach
  split
  · exact ⟨_, rfl, by omega⟩
  · split
    · exact ⟨_, rfl, by omega⟩
    · split
      · exact ⟨_, rfl, by omega⟩
      · exact ⟨_, rfl, by omega⟩

theorem attach_eq (hu : (new.tables.map Obj.getName).Nodup) {t : Table} (ht : t ∈ new.tables) {p : SQName}
    (hp : t.parentTable = some p) :
    attach (new := new) adds t.name.fq = if adds.has p.getName then rk 2 3 0 0 else rk 2 5 0 0 := by
  unfold attach
  rw [find_named (f := fun t : Table => t.name.fq) hu ht]
  dsimp only
  rw [hp]

theorem table_add {n : String} (h : n ∉ new.views.map (·.name.fq)) :
    R.table n .addAlter = rk 1 (R.level n) 4 (R.newTable n) := by
  unfold table
  dsimp only
  exact if_neg h

/-- what comes before every vertex that adds the table -/
theorem lt_table_add {n : String} {c : ℕ} {e : ℤ} (h : c < 4) : rk 1 (R.level n) c e < R.table n .addAlter := by
  unfold table
  dsimp only
  split
  · rw [rk_lt]; omega
  · rw [rk_lt]; omega

end

end Ranking

section
variable {opts : PlanOptions} {old new : Schema} {d : SchemaDiff} {r : Rand} {st : GenState}

theorem ownerIn_new (hu : (new.sequences.map Obj.getName).Nodup) {s : Sequence} (hs : s ∈ new.sequences) :
    ownerIn old new s.name.fq = s.owner := by
  unfold ownerIn
  rw [find_named (f := fun s : Sequence => s.name.fq) hu hs]

theorem DiffRun.new_table (dr : DiffRun opts old new d) {t : Table} (h : NewOf d.tableDiffs t) :
    ∃ t0 ∈ new.tables, t0.name = t.name ∧ t0.parentTable = t.parentTable := by
  cases h with
  | add mem =>
    obtain ⟨t0, _, rfl, h0⟩ := dr.added_mem mem
    exact ⟨t0, h0, (packIf_name opts t0).symm, (packIf_parent opts t0).symm⟩
  | alter x mem e =>
    obtain ⟨_, _, _, i, j, h1, _⟩ := dr.altered mem
    rw [e]
    exact ⟨x.new, List.mem_of_getElem? h1, rfl, rfl⟩

theorem DiffRun.new_index (dr : DiffRun opts old new d) {i : Index} (h : NewOf d.indexDiffs i) : i ∈ new.indexes := by
  cases h with
  | add mem => exact indexDiff_adds_mem dr.hindexes mem
  | alter x mem e =>
    rw [e]
    exact indexDiff_alters_new dr.hindexes mem

theorem DiffRun.new_sequence (dr : DiffRun opts old new d) {s : Sequence} (h : NewOf d.sequenceDiffs s) : s ∈ new.sequences := by
  cases h with
  | add mem => exact diffLists_adds_mem dr.hsequences mem
  | alter x mem e =>
    obtain ⟨i, y, j, o, h1, _, _, h4⟩ := diffLists_alters_mem dr.hsequences mem
    rw [e, ((buildSequenceDiff_ok h4).2 rfl).1]
    exact List.mem_of_getElem? h1

theorem DiffRun.new_function (dr : DiffRun opts old new d) {f : Function} (h : NewOf d.functionDiffs f) : f ∈ new.functions := by
  cases h with
  | add mem => exact diffLists_adds_mem dr.hfunctions mem
  | alter x mem e =>
    obtain ⟨i, y, j, o, h1, _, _, h4⟩ := diffLists_alters_mem dr.hfunctions mem
    cases h4
    rw [e]
    exact List.mem_of_getElem? h1

theorem DiffRun.deleted_index (dr : DiffRun opts old new d) {i : Index} (h : i ∈ d.indexDiffs.deletes) :
    ∃ i0 ∈ old.indexes, i.sqName = i0.sqName ∧ i.owningRelName = i0.owningRelName ∧ i.owningRelKind = i0.owningRelKind ∧
      i.parentIdx = i0.parentIdx := by
  obtain ⟨i0, h0, _, c, rfl⟩ := indexDiff_deletes_mem dr.hindexes h
  exact ⟨i0, h0, rfl, rfl, rfl, rfl⟩

theorem DiffRun.deleted_sequence (dr : DiffRun opts old new d) (hu : (new.sequences.map Obj.getName).Nodup) {s : Sequence}
    (h : s ∈ d.sequenceDiffs.deletes) {o : SequenceOwner} (ho : s.owner = some o) : ownerIn old new s.name.fq = some o := by
  have hm := diffLists_deletes_mem dr.hsequences h
  have hN := diffLists_old_nodup dr.hsequences
  by_cases hx : Obj.getName s ∈ new.sequences.map Obj.getName
  · obtain ⟨x, hx, e⟩ := List.mem_map.mp hx
    obtain ⟨_, c2, _⟩ := C08_every_object_once dr.hsequences hu
    obtain ⟨j, hj⟩ := List.mem_iff_getElem?.mp hm
    rcases (c2 j s hj).mp h with hh | ⟨i, x', sd, hi, en, hb⟩
    · exact absurd (List.mem_map.mpr ⟨x, hx, e⟩) hh
    · obtain ⟨w, h1, h2, _⟩ := (buildSequenceDiff_ok hb).1 rfl
      have en : s.name.fq = x'.name.fq := en
      rw [en, ownerIn_new hu (List.mem_of_getElem? hi), h2, ← h1, ho]
  · unfold ownerIn
    rw [find_unnamed (f := fun s : Sequence => s.name.fq) (n := s.name.fq) fun y hy e => hx (List.mem_map.mpr ⟨y, hy, e⟩)]
    dsimp only
    rw [find_named (f := fun s : Sequence => s.name.fq) hN hm]
    exact ho

/-- what the names of a schema have to meet for the ranks of its vertices to be meaningful -/
structure NamesApart (s : Schema) : Prop where
  tables : NamesUnique s.tables
  indexes : NamesUnique s.indexes
  sequences : NamesUnique s.sequences

/-- every dependency of the graph goes up -/
theorem DiffRun.edge_up (dr : DiffRun opts old new d) (R : Ranking old new) (ho : Orderable old) (hn : Orderable new)
    (hu : NamesApart new) {a b : VertexId} (h : PlanEdge opts d st a b) :
    R.rank (byName d.tableDiffs.adds) a < R.rank (byName d.tableDiffs.adds) b := by
  have hT : (new.tables.map Obj.getName).Nodup := hu.tables
  have hI : (new.indexes.map Obj.getName).Nodup := hu.indexes
  have hS : (new.sequences.map Obj.getName).Nodup := hu.sequences
  have hIo : (old.indexes.map Obj.getName).Nodup := by
    have := diffLists_old_nodup dr.hindexes
    rw [List.map_map] at this
    have e : (Obj.getName ∘ effectiveOldIndex (indexDiffConfig old new dr.td0.adds) new.indexes : Index → String) =
        Obj.getName := funext fun i => effectiveOldIndex_name _ _ _
    rwa [e] at this
  cases h with
  | tableRebuild t h =>
    rw [Ranking.rank_table, Ranking.rank_table]
    exact Ranking.lt_table_add (by omega)
  | tableParentAdd t h p hp =>
    obtain ⟨t0, h0, e1, e2⟩ := dr.new_table h
    have hv : p.fq ∉ new.views.map (·.name.fq) := fun hh => by
      obtain ⟨v, hv, e⟩ := List.mem_map.mp hh
      exact hn.viewParent v hv t0 h0 p (e2.trans hp) e.symm
    rw [Ranking.rank_table, Ranking.rank_table, Ranking.table_add hv]
    have l1 := R.hlevel t0 (List.mem_append_right _ h0) p (e2.trans hp)
    have l2 := R.hnewTable t0 h0 p (e2.trans hp)
    rw [e1] at l1 l2
    unfold Ranking.table
    dsimp only
    split <;> rw [rk_lt] <;> omega
  | tableParentDelete t h p hp =>
    have h0 : t ∈ old.tables := diffLists_deletes_mem dr.htd0 (dr.hdeletes ▸ h)
    have l1 := R.hlevel t (List.mem_append_left _ h0) p hp
    have l2 := R.holdTable t h0 p hp
    rw [Ranking.rank_table, Ranking.rank_table]
    unfold Ranking.table
    dsimp only
    rw [rk_lt]; omega
  | attachAfterTable t h =>
    rw [Ranking.rank_table, Ranking.rank_attach]
    obtain ⟨b, e, hb⟩ := Ranking.attach_bounds (new := new) (adds := byName d.tableDiffs.adds) t.name.fq
    rw [e]
    exact Ranking.table_high (by omega)
  | attachBeforeIndex t h p hp hnew i hi hr =>
    obtain ⟨t0, h0, e1, e2⟩ := dr.new_table h
    rw [Ranking.rank_attach, Ranking.rank_index, ← e1, Ranking.attach_eq hT h0 (e2.trans hp), if_pos hnew]
    obtain ⟨c, e, h1⟩ := R.index_add_bounds i.sqName.fq
    rw [h1, rk_lt]; omega
  | attachAfterIndex t h p hp hold i hi hr =>
    obtain ⟨t0, h0, e1, e2⟩ := dr.new_table h
    rw [Ranking.rank_attach, Ranking.rank_index, ← e1, Ranking.attach_eq hT h0 (e2.trans hp), if_neg (by rw [hold]; simp)]
    obtain ⟨c, e, h1⟩ := R.index_add_bounds i.sqName.fq
    rw [h1, rk_lt]; omega
  | indexAfterRename i h =>
    rw [Ranking.rank_rename, Ranking.rank_index]
    obtain ⟨c, e, h1⟩ := R.index_add_bounds i.sqName.fq
    rw [h1, rk_lt]; omega
  | indexAfterOwner i h =>
    obtain ⟨c, e, h1⟩ := R.index_add_bounds i.sqName.fq
    rw [Ranking.rank_index, h1]
    unfold IndexGen.owningRelVertexId
    split
    · rw [Ranking.rank_mv_add, rk_lt]; omega
    · rw [Ranking.rank_table]; exact Ranking.table_high (by omega)
  | indexAfterParent i h p hp =>
    have hi := dr.new_index h
    obtain ⟨_, j, hj, ej, _, t, ht, et, q, hq, eq⟩ := hn.indexParent i hi p hp
    rw [Ranking.rank_index, Ranking.rank_index, ← ej, Ranking.index_add hI hj, Ranking.index_add hI hi, rk_lt]
    have := R.hnewTable t ht q hq
    rw [et, eq] at this
    omega
  | indexDeleteAfterRename i h =>
    rw [Ranking.rank_rename, Ranking.rank_index]
    obtain ⟨a, b, c, e, h1, h2⟩ := R.index_delete_bounds i.sqName.fq
    rw [h1, rk_lt]; omega
  | indexDeleteAfterOwner i h =>
    obtain ⟨i0, h0, e1, e2, e3, _⟩ := dr.deleted_index h
    unfold IndexGen.owningRelVertexId
    rw [Ranking.rank_index, e1, e2, e3, Ranking.index_delete hIo h0]
    split
    · rw [Ranking.rank_mv_delete, rk_lt]; omega
    · rw [Ranking.rank_table]
      unfold Ranking.table
      dsimp only
      rw [rk_lt]; omega
  | indexDeleteAfterParent i h p hp =>
    obtain ⟨i0, h0, e1, e2, e3, e4⟩ := dr.deleted_index h
    obtain ⟨hm, j, hj, ej, hm', t, ht, et, q, hq, eq⟩ := ho.indexParent i0 h0 p (e4 ▸ hp)
    rw [Ranking.rank_index, Ranking.rank_index, ← ej, e1, Ranking.index_delete hIo hj, Ranking.index_delete hIo h0, if_neg hm,
      if_neg hm', rk_lt]
    have l1 := R.hlevel t (List.mem_append_left _ ht) q hq
    have l2 := R.holdTable t ht q hq
    rw [et, eq] at l1 l2
    omega
  | indexDeleteBeforeOwner i h x hx =>
    obtain ⟨i0, h0, e1, e2, e3, e4⟩ := dr.deleted_index h
    have hr : R.rank (byName d.tableDiffs.adds) (indexVertexId i.sqName .delete) = _ :=
      (Ranking.rank_index _ _).trans (e1 ▸ Ranking.index_delete hIo h0)
    unfold IndexGen.depsOnRelationAddAlter at hx
    split at hx
    · rename_i hm
      rw [if_pos (e3 ▸ hm)] at hr
      split at hx
      · rw [List.mem_singleton] at hx
        subst hx
        show R.rank _ (indexVertexId i.sqName .delete) < R.rank _ (matViewVertexId _ _)
        rw [hr, Ranking.rank_mv_add, rk_lt]; omega
      · cases hx
    · rename_i hm
      rw [if_neg (e3 ▸ hm)] at hr
      split at hx
      · cases hx
      · rename_i t ht
        obtain ⟨t1, t2⟩ := byName_get?_some ht
        have t1 : t ∈ d.new.tables := t1
        have t2 : t.name.fq = i.owningRelName.fq := t2
        rw [dr.hnew] at t1
        split at hx
        · rcases List.mem_cons.mp hx with rfl | hx
          · show R.rank _ (indexVertexId i.sqName .delete) < R.rank _ (tableVertexId _ _)
            rw [hr, Ranking.rank_table, e2]
            exact Ranking.lt_table_add (by omega)
          · cases hp : t.parentTable with
            | none => rw [hp] at hx; cases hx
            | some p =>
              rw [hp] at hx
              rw [List.mem_singleton] at hx
              subst hx
              show R.rank _ (indexVertexId i.sqName .delete) < R.rank _ (tableVertexId _ _)
              rw [hr, Ranking.rank_table, ← e2, ← t2, ← R.hlevel t (List.mem_append_right _ t1) p hp]
              exact Ranking.lt_table_add (by omega)
        · cases hx
  | fkRebuild c h => rw [Ranking.rank_fk_delete, Ranking.rank_fk_add, rk_lt]; omega
  | fkAfterOwner c h => rw [Ranking.rank_table, Ranking.rank_fk_add]; exact Ranking.table_high (by omega)
  | fkAfterForeign c h => rw [Ranking.rank_table, Ranking.rank_fk_add]; exact Ranking.table_high (by omega)
  | fkAfterIndex c h i hi =>
    obtain ⟨c', e, h1⟩ := R.index_add_bounds i.sqName.fq
    rw [Ranking.rank_index, Ranking.rank_fk_add, h1, rk_lt]; omega
  | fkDeleteBeforeOwner c h => rw [Ranking.rank_table, Ranking.rank_fk_delete]; exact Ranking.low_table
  | fkDeleteBeforeForeign c h => rw [Ranking.rank_table, Ranking.rank_fk_delete]; exact Ranking.low_table
  | fkDeleteBeforeIndex c h i hi =>
    obtain ⟨a, b, c, e, h1, h2⟩ := R.index_delete_bounds i.sqName.fq
    rw [Ranking.rank_index, Ranking.rank_fk_delete, h1, rk_lt]; omega
  | sequenceRebuild s h =>
    rw [Ranking.rank_sequence, Ranking.rank_sequence]
    unfold Ranking.sequence
    dsimp only
    split <;> rw [rk_lt] <;> omega
  | sequenceBeforeOwner s h o hso =>
    rw [Ranking.rank_sequence, Ranking.rank_table]
    unfold Ranking.sequence
    dsimp only
    rw [ownerIn_new hS (dr.new_sequence h), hso]
    exact Ranking.lt_table_add (by omega)
  | sequenceDeleteAfterOwner s h o hso =>
    rw [Ranking.rank_sequence, Ranking.rank_table]
    unfold Ranking.sequence Ranking.table
    dsimp only
    rw [dr.deleted_sequence hS h hso]
    dsimp only
    rw [rk_lt]; omega
  | ownershipAfterSequence s h =>
    rw [Ranking.rank_sequence, Ranking.rank_ownership]
    unfold Ranking.sequence Ranking.ownership
    dsimp only
    split <;> rw [rk_lt] <;> omega
  | ownershipBeforeOldOwner s x h e o hxo hne =>
    obtain ⟨i, y, j, z, h1, h2, h3, h4⟩ := diffLists_alters_mem dr.hsequences h
    have hx := ((buildSequenceDiff_ok h4).2 rfl).1
    subst hx
    subst e
    rw [Ranking.rank_ownership, Ranking.rank_table]
    unfold Ranking.ownership Ranking.table
    dsimp only at hxo hne ⊢
    rw [ownerIn_new hS (List.mem_of_getElem? h1)]
    cases hy : s.owner with
    | none => dsimp only; rw [rk_lt]; omega
    | some w =>
      dsimp only
      have := R.handover z (List.mem_of_getElem? h2) s (List.mem_of_getElem? h1) h3 o w hxo hy
        fun e => hne (by rw [hxo, hy, e])
      rw [rk_lt]; omega
  | ownershipAfterOwner s h o hso =>
    have hm := dr.new_sequence h
    have hv : o.tableName.fq ∉ new.views.map (·.name.fq) := fun hh => by
      obtain ⟨v, hv, e⟩ := List.mem_map.mp hh
      exact hn.viewOwner v hv s hm o hso e.symm
    rw [Ranking.rank_ownership, Ranking.rank_table, Ranking.table_add hv]
    unfold Ranking.ownership
    rw [ownerIn_new hS hm, hso]
    dsimp only
    rw [rk_lt]; omega
  | functionAfterUsed f h g hg =>
    have := R.hnewFn f (dr.new_function h) g hg
    rw [Ranking.rank_fn_add, Ranking.rank_fn_add, rk_lt]; omega
  | functionBeforeOldUsed f x h e g hg => rw [Ranking.rank_fn_add, Ranking.rank_fn_delete, rk_lt]; omega
  | functionDeleteBeforeUsed f h g hg =>
    have := R.holdFn f (diffLists_deletes_mem dr.hfunctions h) g hg
    rw [Ranking.rank_fn_delete, Ranking.rank_fn_delete, rk_lt]; omega
  | procedureAfter a p h y ha =>
    rw [Ranking.rank_procedure]
    rcases ha with ⟨t, ht, rfl⟩ | ⟨f, hf, rfl⟩ | ⟨s, hs, rfl⟩
    · rw [Ranking.rank_table]; exact Ranking.table_high (by omega)
    · rw [Ranking.rank_fn_add, rk_lt]; omega
    · rw [Ranking.rank_sequence]
      unfold Ranking.sequence
      dsimp only
      split <;> rw [rk_lt] <;> omega
  | triggerAfterFunction t h => rw [Ranking.rank_fn_add, Ranking.rank_trigger_add, rk_lt]; omega
  | triggerAfterOwner t h => rw [Ranking.rank_table, Ranking.rank_trigger_add]; exact Ranking.table_high (by omega)
  | triggerBeforeOldFunction t x h e => rw [Ranking.rank_fn_delete, Ranking.rank_trigger_add, rk_lt]; omega
  | triggerDeleteBeforeFunction t h => rw [Ranking.rank_fn_delete, Ranking.rank_trigger_delete, rk_lt]; omega
  | triggerDeleteBeforeOwner t h => rw [Ranking.rank_table, Ranking.rank_trigger_delete]; exact Ranking.low_table
  | viewRebuild v h => rw [Ranking.rank_table, Ranking.rank_view]; exact Ranking.low_table
  | viewAfterTable v h t ht y =>
    have hm := diffLists_adds_mem dr.hviews h
    have hv : t.name.fq ∉ new.views.map (·.name.fq) := fun hh => by
      obtain ⟨w, hw, e⟩ := List.mem_map.mp hh
      exact hn.viewReads w hw v hm t ht e.symm
    have hr : R.table v.name.fq .addAlter = rk 2 0 0 0 := by
      unfold Ranking.table
      exact if_pos (List.mem_map.mpr ⟨v, hm, rfl⟩)
    rw [Ranking.rank_table, Ranking.rank_table, hr]
    cases y with
    | delete => exact Ranking.table_delete_high
    | addAlter => rw [Ranking.table_add hv, rk_lt]; omega
  | viewDeleteBeforeTable v h t ht y => rw [Ranking.rank_table, Ranking.rank_view]; exact Ranking.low_table
  | matViewRebuild v h => rw [Ranking.rank_mv_delete, Ranking.rank_mv_add, rk_lt]; omega
  | matViewAfterTable v h t ht y => rw [Ranking.rank_table, Ranking.rank_mv_add]; exact Ranking.table_high (by omega)
  | matViewDeleteBeforeTable v h t ht y => rw [Ranking.rank_table, Ranking.rank_mv_delete]; exact Ranking.low_table

end
end Verif
