import Verif.Lemmas.Gen
import Verif.Lemmas.ByName
import Verif.Lemmas.GoSort
import Verif.Props.DiffLists

/-!
# Taking the schema diff apart
-/

namespace Verif

/-! ### list diffs without and with distinct names -/

section
variable {S D : Type} [Obj S] {old new : List S} {buildDiff : S → S → Nat → Nat → Except Err (D × Bool)}
  {r : ListDiff S D}

theorem diffLists_adds_mem (h : diffLists old new buildDiff = .ok r) {x : S} (hx : x ∈ r.adds) : x ∈ new := by
  rw [(C08_classification h).1, List.mem_filterMap] at hx
  obtain ⟨⟨y, k⟩, hp, hv⟩ := hx
  have hy := List.mem_of_getElem? (List.mem_zipIdx_iff_getElem?.mp hp)
  simp only at hv
  cases hvv : verdict buildDiff old new y k <;> rw [hvv] at hv <;> simp only [Option.some.injEq, reduceCtorEq] at hv
  · exact hv ▸ hy
  · exact hv ▸ hy

theorem diffLists_deletes_mem (h : diffLists old new buildDiff = .ok r) {x : S} (hx : x ∈ r.deletes) : x ∈ old :=
  (((C08_classification h).2.2.2.2 x).mp hx).1

theorem diffLists_deletes_nodup (h : diffLists old new buildDiff = .ok r) : (r.deletes.map Obj.getName).Nodup :=
  (C08_classification h).2.2.1

theorem diffLists_old_nodup (h : diffLists old new buildDiff = .ok r) : (old.map Obj.getName).Nodup :=
  ((C08_succeeds_iff old new buildDiff).mp ⟨r, h⟩).1

theorem diffLists_alters_mem (h : diffLists old new buildDiff = .ok r) {d : D} (hd : d ∈ r.alters) :
    ∃ i x j o, new[i]? = some x ∧ old[j]? = some o ∧ Obj.getName o = Obj.getName x ∧
      buildDiff o x j i = .ok (d, false) := by
  rw [(C08_classification h).2.1, List.mem_filterMap] at hd
  obtain ⟨⟨x, i⟩, hp, hv⟩ := hd
  have hx := List.mem_zipIdx_iff_getElem?.mp hp
  simp only at hx hv
  unfold verdict at hv
  cases hm : matchOf old new x i with
  | none => rw [hm] at hv; cases hv
  | some q =>
    obtain ⟨o, j⟩ := q
    rw [hm] at hv
    simp only at hv
    have hns : namesake old (Obj.getName x) = some (o, j) := by
      unfold matchOf at hm
      split at hm
      · cases hm
      · exact hm
    obtain ⟨k1, k2⟩ := namesake_some hns
    cases hb : buildDiff o x j i with
    | error e => rw [hb] at hv; cases hv
    | ok q =>
      obtain ⟨d', b⟩ := q
      rw [hb] at hv
      cases b with
      | true => cases hv
      | false => cases hv; exact ⟨i, x, j, o, hx, k1, k2, hb⟩

/-- a new object is added or altered -/
theorem diffLists_new_cases (h : diffLists old new buildDiff = .ok r) (hn : (new.map Obj.getName).Nodup) {x : S}
    (hx : x ∈ new) : x ∈ r.adds ∨ ∃ o ∈ old, ∃ d ∈ r.alters, ∃ j i, new[i]? = some x ∧ Obj.getName o = Obj.getName x ∧
      buildDiff o x j i = .ok (d, false) := by
  obtain ⟨c1, _, c3, _⟩ := C08_every_object_once h hn
  obtain ⟨i, hi⟩ := List.mem_iff_getElem?.mp hx
  by_cases ha : x ∈ r.adds
  · exact Or.inl ha
  · right
    have hh := (not_congr (c1 i x hi)).mp ha
    rw [not_or, not_not] at hh
    obtain ⟨o, ho, e⟩ := List.mem_map.mp hh.1
    obtain ⟨j, hj⟩ := List.mem_iff_getElem?.mp ho
    cases hb : buildDiff o x j i with
    | error e' =>
      exfalso
      obtain ⟨_, c⟩ := (C08_succeeds_iff old new buildDiff).mp ⟨r, h⟩
      have hns : namesake old (Obj.getName x) = some (o, j) := e ▸ namesake_of_mem (diffLists_old_nodup h) hj
      refine c i x o j e' hi ?_ hb
      unfold matchOf
      rw [if_neg, hns]
      intro hm
      obtain ⟨y, hy, e⟩ := List.mem_map.mp hm
      obtain ⟨k, hk⟩ := List.mem_iff_getElem?.mp hy
      rw [List.getElem?_take] at hk
      split at hk
      · rename_i hlt
        have e1 : (new.map Obj.getName)[i]? = some (Obj.getName x) := by simp [hi]
        have e2 : (new.map Obj.getName)[k]? = some (Obj.getName x) := by simp [hk, e]
        obtain ⟨hi, f1⟩ := List.getElem?_eq_some_iff.mp e1
        obtain ⟨hk', f2⟩ := List.getElem?_eq_some_iff.mp e2
        have := hn.getElem_inj_iff.mp (f1.trans f2.symm)
        omega
      · cases hk
    | ok q =>
      obtain ⟨d, b⟩ := q
      cases b with
      | true => exact absurd ⟨j, o, d, hj, e, hb⟩ hh.2
      | false => exact ⟨o, ho, d, (c3 d).mpr ⟨i, x, j, o, hi, hj, e, hb⟩, j, i, hi, e, hb⟩

/-- an added object is not altered -/
theorem diffLists_adds_not_altered (h : diffLists old new buildDiff = .ok r) (hn : (new.map Obj.getName).Nodup) {x : S}
    (hx : x ∈ r.adds) {i : Nat} {y o : S} {j : Nat} {d : D} (hy : new[i]? = some y) (ho : old[j]? = some o)
    (e : Obj.getName o = Obj.getName y) (hb : buildDiff o y j i = .ok (d, false)) : Obj.getName x ≠ Obj.getName y := by
  intro hxy
  obtain ⟨c1, _, _, c4, _⟩ := C08_every_object_once h hn
  have hxn : x ∈ new := c4.subset hx
  have : x = y := List.inj_on_of_nodup_map hn hxn (List.mem_of_getElem? hy) hxy
  subst this
  have hold := diffLists_old_nodup h
  rcases (c1 i x hy).mp hx with h1 | ⟨j', o', d', k1, k2, k3⟩
  · exact h1 (List.mem_map.mpr ⟨o, List.mem_of_getElem? ho, e⟩)
  · have : j = j' := by
      have e1 : (old.map Obj.getName)[j]? = some (Obj.getName x) := by simp [ho, e]
      have e2 : (old.map Obj.getName)[j']? = some (Obj.getName x) := by simp [k1, k2]
      obtain ⟨_, f1⟩ := List.getElem?_eq_some_iff.mp e1
      obtain ⟨_, f2⟩ := List.getElem?_eq_some_iff.mp e2
      exact hold.getElem_inj_iff.mp (f1.trans f2.symm)
    subst this
    rw [ho] at k1; cases k1
    rw [hb] at k3; cases k3

end

/-! ### the whole diff -/

/-- what data packing does to a table -/
def packIf (opts : PlanOptions) (t : Table) : Table :=
  if opts.dataPackNewTables then { t with columns := packColumns t.columns } else t

/-- what ignoring the column order does to the diff of a table -/
def orderIf (opts : PlanOptions) (d : TableDiff) : TableDiff :=
  if opts.ignoreChangesToColOrder then ignoreColumnOrder d else d

/-- everything a successful `buildSchemaDiff` with the transforms went through; `old` and `new` are normalized -/
structure DiffRun (opts : PlanOptions) (old new : Schema) (d : SchemaDiff) where
  td0 : ListDiff Table TableDiff
  hold : d.old = old
  hnew : d.new = new
  hschemas : diffLists old.namedSchemas new.namedSchemas pairDiff = .ok d.namedSchemaDiffs
  hextensions : diffLists old.extensions new.extensions pairDiff = .ok d.extensionDiffs
  henums : diffLists old.enums new.enums pairDiff = .ok d.enumDiffs
  htd0 : diffLists old.tables new.tables buildTableDiff = .ok td0
  hadds : d.tableDiffs.adds = td0.adds.map (packIf opts)
  hdeletes : d.tableDiffs.deletes = td0.deletes
  halters : d.tableDiffs.alters = td0.alters.map (orderIf opts)
  hindexes : indexListDiff (indexDiffConfig old new td0.adds) old.indexes new.indexes = .ok d.indexDiffs
  hfks : diffLists old.foreignKeyConstraints new.foreignKeyConstraints
    (buildForeignKeyConstraintDiff (newFkGen old new td0.adds) (byName td0.adds)) = .ok d.foreignKeyConstraintDiffs
  hsequences : diffLists old.sequences new.sequences (buildSequenceDiff (byName td0.adds)) = .ok d.sequenceDiffs
  hfunctions : diffLists old.functions new.functions pairDiff = .ok d.functionDiffs
  hprocedures : diffLists old.procedures new.procedures pairDiff = .ok d.procedureDiffs
  htriggers : diffLists old.triggers new.triggers (buildTriggerDiff (byName td0.adds)) = .ok d.triggerDiffs
  hviews : diffLists old.views new.views (buildViewDiff (byName td0.deletes) (diffByName td0.alters)) = .ok d.viewDiffs
  hmatViews : diffLists old.materializedViews new.materializedViews
    (buildMaterializedViewDiff (byName td0.deletes) (diffByName td0.alters)) = .ok d.materializedViewDiffs
  hopts : opts.dataPackNewTables = true → opts.ignoreChangesToColOrder = true

theorem diff_run {opts : PlanOptions} {old new : Schema} {d0 d : SchemaDiff}
    (h0 : buildNormalizedSchemaDiff old new = .ok d0) (h : transformDiff opts d0 = .ok d) :
    Nonempty (DiffRun opts old new d) := by
  unfold buildNormalizedSchemaDiff at h0
  simp only [except_bind_ok, except_pure_ok] at h0
  obtain ⟨x1, h1, x2, h2, x3, h3, td0, h4, x5, h5, x6, h6, x7, h7, x8, h8, x9, h9, x10, h10, x11, h11, x12, h12, rfl⟩ := h0
  unfold transformDiff at h
  split at h
  · cases h
  · rename_i hc
    have hopts : opts.dataPackNewTables = true → opts.ignoreChangesToColOrder = true := by
      intro hp; simpa [hp] using hc
    cases h
    have e1 : packIf opts = fun t => if opts.dataPackNewTables then { t with columns := packColumns t.columns } else t := rfl
    have e2 : orderIf opts = fun d => if opts.ignoreChangesToColOrder then ignoreColumnOrder d else d := rfl
    refine ⟨⟨td0, ?_, ?_, ?_, ?_, ?_, h4, ?_, ?_, ?_, ?_, ?_, ?_, ?_, ?_, ?_, ?_, ?_, hopts⟩⟩ <;>
      (cases hi : opts.ignoreChangesToColOrder <;> cases hp : opts.dataPackNewTables <;>
        simp_all [removeChangesToColumnOrdering, dataPackNewTables])

theorem packIf_name (opts : PlanOptions) (t : Table) : (packIf opts t).name = t.name := by
  unfold packIf; split <;> rfl

@[simp] theorem packIf_getName (opts : PlanOptions) (t : Table) : Obj.getName (packIf opts t) = Obj.getName t := by
  show (packIf opts t).name.getName = _; rw [packIf_name]; rfl

@[simp] theorem orderIf_old (opts : PlanOptions) (d : TableDiff) : (orderIf opts d).old = d.old := by
  unfold orderIf; split <;> rfl

@[simp] theorem orderIf_new (opts : PlanOptions) (d : TableDiff) : (orderIf opts d).new = d.new := by
  unfold orderIf; split <;> rfl

section
variable {opts : PlanOptions} {old new : Schema} {d : SchemaDiff}

theorem DiffRun.addNames (run : DiffRun opts old new d) :
    d.tableDiffs.adds.map Obj.getName = run.td0.adds.map Obj.getName := by
  rw [run.hadds, List.map_map]
  exact List.map_congr_left fun t _ => packIf_getName opts t

theorem buildTableDiff_ok {o n : Table} {i j : Nat} {td : TableDiff} (h : buildTableDiff o n i j = .ok (td, false)) :
    td.old = o ∧ td.new = n ∧ o.isPartitioned = n.isPartitioned ∧ o.partitionKeyDef = n.partitionKeyDef ∧
    o.parentTable = n.parentTable ∧
    diffLists o.columns n.columns buildColumnDiff = .ok td.columnsDiff ∧
    diffLists o.checkConstraints n.checkConstraints buildCheckConstraintDiff = .ok td.checkConstraintDiff ∧
    (∃ psg, newPolicyGen (nilableTable o) n = .ok psg ∧ buildPolicyDiffs psg o.policies n.policies = .ok td.policiesDiff) ∧
    diffLists o.privileges n.privileges buildPrivilegeDiff = .ok td.privilegesDiff := by
  unfold buildTableDiff at h
  split at h
  · cases h
  · split at h
    · cases h
    · split at h
      · cases h
      · rename_i h1 h2 h3
        simp only [except_bind_ok, except_pure_ok] at h
        obtain ⟨c, hc, cc, hcc, psg, hpsg, p, hp, pr, hpr, e⟩ := h
        simp only [Prod.mk.injEq, and_true] at e
        subst e
        exact ⟨rfl, rfl, not_not.mp h1, not_not.mp h2, not_not.mp h3, hc, hcc, ⟨psg, hpsg, hp⟩, hpr⟩

/-- an altered table: where it comes from -/
theorem DiffRun.altered (run : DiffRun opts old new d) {td : TableDiff} (h : td ∈ d.tableDiffs.alters) :
    ∃ td0 ∈ run.td0.alters, td = orderIf opts td0 ∧ ∃ i j, new.tables[i]? = some td.new ∧ old.tables[j]? = some td.old ∧
      Obj.getName td.old = Obj.getName td.new ∧ buildTableDiff td.old td.new j i = .ok (td0, false) := by
  rw [run.halters, List.mem_map] at h
  obtain ⟨td0, h0, rfl⟩ := h
  obtain ⟨i, x, j, o, hx, ho, e, hb⟩ := diffLists_alters_mem run.htd0 h0
  obtain ⟨e1, e2, _⟩ := buildTableDiff_ok hb
  refine ⟨td0, h0, rfl, i, j, ?_, ?_, ?_, ?_⟩
  · rw [orderIf_new, e2]; exact hx
  · rw [orderIf_old, e1]; exact ho
  · rw [orderIf_new, e2, orderIf_old, e1]; exact e
  · rw [orderIf_new, e2, orderIf_old, e1]; exact hb

theorem DiffRun.added_mem (run : DiffRun opts old new d) {t : Table} (h : t ∈ d.tableDiffs.adds) :
    ∃ t0 ∈ run.td0.adds, t = packIf opts t0 ∧ t0 ∈ new.tables := by
  rw [run.hadds, List.mem_map] at h
  obtain ⟨t0, h0, rfl⟩ := h
  exact ⟨t0, h0, rfl, diffLists_adds_mem run.htd0 h0⟩

/-- an added table is not altered -/
theorem DiffRun.added_ne_altered (run : DiffRun opts old new d) (hn : (new.tables.map Obj.getName).Nodup) {t : Table}
    (ht : t ∈ d.tableDiffs.adds) {td : TableDiff} (htd : td ∈ d.tableDiffs.alters) : t.name ≠ td.new.name := by
  obtain ⟨t0, h0, rfl, _⟩ := run.added_mem ht
  obtain ⟨td0, _, rfl, i, j, h2, h3, h4, h5⟩ := run.altered htd
  rw [packIf_name]
  intro e
  exact diffLists_adds_not_altered run.htd0 hn h0 h2 h3 h4 h5 (congrArg SQName.getName e)

end

/-! ### normalization -/

theorem sortObjs_perm {S : Type} [Obj S] (l : List S) : (sortObjs l).Perm l := sortBy_perm _ _

theorem map_normalize_names {S : Type} [Obj S] {l : List S} {f : S → S} (hf : ∀ x, Obj.getName (f x) = Obj.getName x) :
    (((sortObjs l).map f).map Obj.getName).Perm (l.map Obj.getName) := by
  rw [List.map_map]
  have : (Obj.getName ∘ f : S → String) = Obj.getName := funext hf
  rw [this]
  exact (sortObjs_perm l).map _

theorem normalize_tables_names (s : Schema) : (s.normalize.tables.map Obj.getName).Perm (s.tables.map Obj.getName) :=
  map_normalize_names fun _ => rfl

theorem normalize_tables_nodup {s : Schema} (h : (s.tables.map Obj.getName).Nodup) :
    (s.normalize.tables.map Obj.getName).Nodup := (normalize_tables_names s).nodup_iff.mpr h

theorem mem_normalize_tables {s : Schema} {t : Table} (h : t ∈ s.normalize.tables) :
    ∃ t0 ∈ s.tables, t = normalizeTable t0 := by
  obtain ⟨t0, h0, rfl⟩ := List.mem_map.mp h
  exact ⟨t0, (sortObjs_perm _).mem_iff.mp h0, rfl⟩

theorem mem_normalize_tables_of {s : Schema} {t : Table} (h : t ∈ s.tables) : normalizeTable t ∈ s.normalize.tables :=
  List.mem_map_of_mem ((sortObjs_perm _).mem_iff.mpr h)

/-- objects that are never recreated: those without old namesake are added -/
theorem never_adds {S D : Type} [Obj S] {old new : List S} {buildDiff : S → S → Nat → Nat → Except Err (D × Bool)}
    {r : ListDiff S D} (hb : ∀ o n i j d, buildDiff o n i j ≠ .ok (d, true))
    (h : diffLists old new buildDiff = .ok r) (hn : (new.map Obj.getName).Nodup) {x : S} :
    x ∈ r.adds ↔ x ∈ new ∧ Obj.getName x ∉ old.map Obj.getName := by
  obtain ⟨c1, _⟩ := C08_every_object_once h hn
  constructor
  · intro hx
    have hx' := diffLists_adds_mem h hx
    obtain ⟨i, hi⟩ := List.mem_iff_getElem?.mp hx'
    rcases (c1 i x hi).mp hx with h1 | ⟨j, o, d, _, _, hb'⟩
    · exact ⟨hx', h1⟩
    · exact absurd hb' (hb _ _ _ _ _)
  · rintro ⟨hx, h1⟩
    obtain ⟨i, hi⟩ := List.mem_iff_getElem?.mp hx
    exact (c1 i x hi).mpr (Or.inl h1)

/-- objects that are never recreated: those without new namesake are deleted -/
theorem never_deletes {S D : Type} [Obj S] {old new : List S} {buildDiff : S → S → Nat → Nat → Except Err (D × Bool)}
    {r : ListDiff S D} (hb : ∀ o n i j d, buildDiff o n i j ≠ .ok (d, true))
    (h : diffLists old new buildDiff = .ok r) {x : S} :
    x ∈ r.deletes ↔ x ∈ old ∧ Obj.getName x ∉ new.map Obj.getName := by
  rw [(C08_classification h).2.2.2.2 x]
  refine and_congr_right fun _ => ⟨?_, Or.inl⟩
  rintro (h1 | ⟨p, _, hp⟩)
  · exact h1
  · unfold verdict at hp
    split at hp
    · cases hp
    · rename_i o j _
      cases hbd : buildDiff o p.1 j p.2 with
      | error e => rw [hbd] at hp; cases hp
      | ok q =>
        obtain ⟨d, b⟩ := q
        rw [hbd] at hp
        cases b with
        | true => exact absurd hbd (hb _ _ _ _ _)
        | false => cases hp

/-- objects that are never recreated: those without old namesake are added -/
theorem pairDiff_adds {S : Type} [Obj S] {old new : List S} {r : ListDiff S (OldNew S)}
    (h : diffLists old new pairDiff = .ok r) (hn : (new.map Obj.getName).Nodup) {x : S} :
    x ∈ r.adds ↔ x ∈ new ∧ Obj.getName x ∉ old.map Obj.getName := by
  obtain ⟨c1, _⟩ := C08_every_object_once h hn
  constructor
  · intro hx
    have hx' := diffLists_adds_mem h hx
    obtain ⟨i, hi⟩ := List.mem_iff_getElem?.mp hx'
    rcases (c1 i x hi).mp hx with h1 | ⟨j, o, d, _, _, hb⟩
    · exact ⟨hx', h1⟩
    · cases hb
  · rintro ⟨hx, h1⟩
    obtain ⟨i, hi⟩ := List.mem_iff_getElem?.mp hx
    exact (c1 i x hi).mpr (Or.inl h1)

/-- objects that are never recreated: those without new namesake are deleted -/
theorem pairDiff_deletes {S : Type} [Obj S] {old new : List S} {r : ListDiff S (OldNew S)}
    (h : diffLists old new pairDiff = .ok r) {x : S} :
    x ∈ r.deletes ↔ x ∈ old ∧ Obj.getName x ∉ new.map Obj.getName := by
  rw [(C08_classification h).2.2.2.2 x]
  refine and_congr_right fun _ => ⟨?_, Or.inl⟩
  rintro (h1 | ⟨p, _, hp⟩)
  · exact h1
  · unfold verdict at hp
    split at hp
    · cases hp
    · simp only [pairDiff] at hp; cases hp

/-- objects that are never recreated: namesakes are altered -/
theorem pairDiff_alters {S : Type} [Obj S] {old new : List S} {r : ListDiff S (OldNew S)}
    (h : diffLists old new pairDiff = .ok r) (hn : (new.map Obj.getName).Nodup) {d : OldNew S} :
    d ∈ r.alters ↔ d.old ∈ old ∧ d.new ∈ new ∧ Obj.getName d.old = Obj.getName d.new := by
  obtain ⟨_, _, c3, _⟩ := C08_every_object_once h hn
  rw [c3 d]
  constructor
  · rintro ⟨i, x, j, o, hx, ho, e, hb⟩
    cases hb
    exact ⟨List.mem_of_getElem? ho, List.mem_of_getElem? hx, e⟩
  · rintro ⟨h1, h2, e⟩
    obtain ⟨i, hi⟩ := List.mem_iff_getElem?.mp h2
    obtain ⟨j, hj⟩ := List.mem_iff_getElem?.mp h1
    exact ⟨i, d.new, j, d.old, hi, hj, e, rfl⟩

theorem map_filterMap_sublist {α β γ : Type} {g : α → Option β} {f : β → γ} {f' : α → γ} :
    ∀ {l : List α}, (∀ a ∈ l, ∀ b, g a = some b → f b = f' a) → ((l.filterMap g).map f).Sublist (l.map f') := by
  intro l
  induction l with
  | nil => intro _; exact List.Sublist.refl _
  | cons a l ih =>
    intro h
    have ih := ih fun a ha => h a (List.mem_cons_of_mem _ ha)
    rw [List.filterMap_cons, List.map_cons]
    split
    · exact ih.cons _
    · rename_i b hb
      rw [List.map_cons, h a List.mem_cons_self b hb]
      exact ih.cons_cons _

/-- the names of the altered objects, in the order of the new ones -/
theorem diffLists_alters_sublist {S D : Type} [Obj S] {old new : List S}
    {buildDiff : S → S → Nat → Nat → Except Err (D × Bool)} {r : ListDiff S D} {nm : D → String}
    (h : diffLists old new buildDiff = .ok r)
    (hnm : ∀ o x j i d, Obj.getName o = Obj.getName x → buildDiff o x j i = .ok (d, false) → nm d = Obj.getName x) :
    (r.alters.map nm).Sublist (new.map Obj.getName) := by
  have e : new.map Obj.getName = new.zipIdx.map fun p => Obj.getName p.1 := by
    conv_lhs => rw [← List.zipIdx_map_fst 0 new]
    rw [List.map_map]; rfl
  rw [(C08_classification h).2.1, e]
  refine map_filterMap_sublist ?_
  rintro ⟨x, i⟩ _ d hv
  simp only at hv
  unfold verdict at hv
  cases hm : matchOf old new x i with
  | none => rw [hm] at hv; cases hv
  | some q =>
    obtain ⟨o, j⟩ := q
    rw [hm] at hv
    simp only at hv
    have hns : namesake old (Obj.getName x) = some (o, j) := by
      unfold matchOf at hm
      split at hm
      · cases hm
      · exact hm
    cases hb : buildDiff o x j i with
    | error e => rw [hb] at hv; cases hv
    | ok q =>
      obtain ⟨d', b⟩ := q
      rw [hb] at hv
      cases b with
      | true => cases hv
      | false => cases hv; exact hnm o x j i _ (namesake_some hns).2 hb

/-- alterations are of different objects -/
theorem pairDiff_alters_nodup {S : Type} [Obj S] {old new : List S} {r : ListDiff S (OldNew S)}
    (h : diffLists old new pairDiff = .ok r) (hn : (new.map Obj.getName).Nodup) :
    (r.alters.map fun d => Obj.getName d.new).Nodup := by
  refine (diffLists_alters_sublist (nm := fun d : OldNew S => Obj.getName d.new) h ?_).nodup hn
  intro o x j i d _ hb
  cases hb; rfl

/-- a successful run of the plan generator, taken apart -/
theorem plan_runs {r r' : Rand} {old new : Schema} {opts : PlanOptions} {stmts : List Statement}
    (h : generateMigrationStatements r old new opts = .ok (stmts, r')) :
    ∃ d, Nonempty (DiffRun opts old.normalize new.normalize d) ∧ Nonempty (PlanRun opts d r r' stmts) := by
  obtain ⟨d0, d, h1, h2, h3⟩ := plan_run h
  exact ⟨d, diff_run h1 h2, h3⟩

end Verif
