import Verif.Props.Fetch

/-!
# C45: include and exclude filters
-/

namespace Verif

open Spec

variable {α β : Type}

/-! ### the filter -/

theorem foldl_apply (opts : List GetSchemaOpt) (o : GetSchemaOptions) (x : String) :
    (x ∈ (opts.foldl GetSchemaOpt.apply o).includeSchemas ↔ x ∈ o.includeSchemas ∨ Included opts x) ∧
    (x ∈ (opts.foldl GetSchemaOpt.apply o).excludeSchemas ↔ x ∈ o.excludeSchemas ∨ Excluded opts x) := by
  induction opts generalizing o with
  | nil => simp [Included, Excluded]
  | cons a opts ih =>
    rw [List.foldl_cons]
    obtain ⟨h1, h2⟩ := ih (GetSchemaOpt.apply o a)
    rw [h1, h2]
    cases a with
    | withIncludeSchemas l =>
      simp only [GetSchemaOpt.apply, List.mem_append, Included, Excluded, List.mem_cons, GetSchemaOpt.withIncludeSchemas.injEq,
        reduceCtorEq, false_or, or_and_right, exists_or, exists_eq_left, or_assoc, and_self]
    | withExcludeSchemas l =>
      simp only [GetSchemaOpt.apply, List.mem_append, Included, Excluded, List.mem_cons, GetSchemaOpt.withExcludeSchemas.injEq,
        reduceCtorEq, false_or, or_and_right, exists_or, exists_eq_left, or_assoc, and_self]

theorem mem_include {opts : List GetSchemaOpt} {x : String} :
    x ∈ (getSchemaOptions opts).includeSchemas ↔ Included opts x := by
  rw [getSchemaOptions, (foldl_apply opts ⟨[], []⟩ x).1]; simp

theorem mem_exclude {opts : List GetSchemaOpt} {x : String} :
    x ∈ (getSchemaOptions opts).excludeSchemas ↔ Excluded opts x := by
  rw [getSchemaOptions, (foldl_apply opts ⟨[], []⟩ x).2]; simp

theorem get?_foldl_true (a : List String) (m : GoMap String Bool) (x : String) :
    (a.foldl (fun m s => m.set s true) m).get? x = if x ∈ a then some true else m.get? x := by
  induction a generalizing m with
  | nil => simp
  | cons s a ih =>
    rw [List.foldl_cons, ih, GoMap.get?_set]
    by_cases h : x ∈ a
    · simp [h]
    · by_cases h' : s = x
      · simp [h, h']
      · simp [h, h', Ne.symm h']

theorem mem_intersect {a b : List String} {x : String} : x ∈ intersect a b ↔ x ∈ a ∧ x ∈ b := by
  unfold intersect
  simp only [List.mem_filter, get?_foldl_true]
  by_cases h : x ∈ a
  · simp [h]
  · simp [h]

/-- **C45**: overlapping lists are rejected. -/
theorem C45_overlap_rejected {db : Db} {isPool : Bool} {opts : List GetSchemaOpt} {x : String} (hi : Included opts x)
    (he : Excluded opts x) : ∃ e, (getSchema db isPool opts).eval = .error e := by
  have : x ∈ intersect (getSchemaOptions opts).includeSchemas (getSchemaOptions opts).excludeSchemas :=
    mem_intersect.mpr ⟨mem_include.mpr hi, mem_exclude.mpr he⟩
  refine ⟨.other "schemas are both included and excluded", ?_⟩
  rw [getSchema_eval]
  unfold buildNameFilter
  rw [if_pos (List.length_pos_of_mem this)]
  rfl

theorem include_accepts {l : List String} {n : SQName} :
    buildIncludeSchemasFilter l n = true ↔ l = [] ∨ n.schemaName ∈ l := by
  unfold buildIncludeSchemasFilter
  split
  · rename_i h
    simp [List.length_eq_zero_iff.mp h]
  · rename_i h
    have : l ≠ [] := fun e => h (by simp [e])
    simp [this, orNameFilter, schemaNameFilter]

theorem exclude_accepts {l : List String} {n : SQName} : buildExcludeSchemasFilter l n = true ↔ n.schemaName ∉ l := by
  unfold buildExcludeSchemasFilter
  split
  · rename_i h
    simp [List.length_eq_zero_iff.mp h]
  · rename_i h
    have : l ≠ [] := fun e => h (by simp [e])
    simp only [andNameFilter, List.length_map, if_neg h, List.all_map, List.all_eq_true, notSchemaNameFilter,
      Function.comp, decide_eq_true_eq]
    exact ⟨fun h hm => h _ hm rfl, fun h x hx e => h (e ▸ hx)⟩

/-- the filter that is built accepts a name iff its schema is wanted -/
theorem buildNameFilter_ok {opts : List GetSchemaOpt} (h : ∀ x, ¬ (Included opts x ∧ Excluded opts x)) :
    ∃ f, buildNameFilter (getSchemaOptions opts) = .ok f ∧ ∀ n, f n = true ↔ Wanted opts n.schemaName := by
  have hi : ¬ (intersect (getSchemaOptions opts).includeSchemas (getSchemaOptions opts).excludeSchemas).length > 0 := by
    intro hl
    obtain ⟨x, hx⟩ := List.exists_mem_of_length_pos hl
    obtain ⟨h1, h2⟩ := mem_intersect.mp hx
    exact h x ⟨mem_include.mp h1, mem_exclude.mp h2⟩
  refine ⟨_, if_neg hi, fun n => ?_⟩
  have e : (getSchemaOptions opts).includeSchemas = [] ↔ ∀ x, ¬ Included opts x := by
    rw [List.eq_nil_iff_forall_not_mem]
    exact forall_congr' fun x => not_congr mem_include
  simp only [andNameFilter, List.length_cons, List.length_nil, List.all_cons, List.all_nil, Bool.and_true]
  rw [if_neg (by omega), Bool.and_eq_true, include_accepts, exclude_accepts, mem_include, mem_exclude, e]
  rfl

/-! ### what is fetched -/

theorem byTable_get (l : List (α × SQName)) (k : String) :
    ((SchemaFetcher.byTable l).get? k).getD [] = (l.filter fun x => x.2.fq = k).map Prod.fst := by
  unfold SchemaFetcher.byTable
  induction l using List.reverseRecOn with
  | nil => rfl
  | append_singleton l x ih =>
    rw [List.foldl_append, List.filter_append, List.map_append]
    simp only [List.foldl_cons, List.foldl_nil, GoMap.get?_set, List.filter_cons, List.filter_nil]
    by_cases e : x.2.fq = k
    · subst e
      simp [ih]
    · simp [e, ih]

/-- a fetcher that keeps the objects of some schemas -/
def keeping (db : Db) (keep : String → Bool) : SchemaFetcher := ⟨db, .synchronous, fun n => keep n.schemaName⟩

theorem filter_byTable {keep : String → Bool} {l : List (α × SQName)} {name : SQName} (hn : NoNul name.schemaName)
    (hl : ∀ x ∈ l, NoNul x.2.schemaName) (hk : keep name.schemaName = true) :
    ((SchemaFetcher.byTable (l.filter fun x => keep x.2.schemaName)).get? name.fq).getD []
      = ((SchemaFetcher.byTable l).get? name.fq).getD [] := by
  rw [byTable_get, byTable_get, List.filter_filter]
  congr 1
  refine List.filter_congr fun x hx => ?_
  by_cases e : x.2.fq = name.fq
  · rw [C07_qualified_name_injective (hl x hx) hn e]
    simp [hk]
  · simp [e]

/-- filtering after a fetch -/
theorem eval_filter {ρ : Type} (r : Except Err (List ρ)) (g : ρ → α) (name : α → SQName) (keep : String → Bool) :
    ((Fetch.query r >>= fun raw => pure (filterSliceByName (raw.map g) name fun n => keep n.schemaName) : Fetch (List α))).eval
      = ((Fetch.query r >>= fun raw => pure (filterSliceByName (raw.map g) name fun _ => true) : Fetch (List α))).eval >>=
        fun l => .ok (l.filter fun x => keep (name x).schemaName) := by
  cases r with
  | error e => rfl
  | ok raw =>
    show Except.ok _ = Except.ok _
    unfold filterSliceByName
    rw [List.filter_filter]
    simp

theorem mapM_filter {ρ : Type} {g g' : ρ → Except Err α} {p : α → Bool} {rows : List ρ}
    (h : ∀ r ∈ rows, (∃ e, g r = .error e ∧ g' r = .error e) ∨
      ∃ a b, g r = .ok a ∧ g' r = .ok b ∧ p a = p b ∧ (p a = true → a = b)) :
    (rows.mapM g >>= fun l => Except.ok (l.filter p)) = rows.mapM g' >>= fun l => .ok (l.filter p) := by
  induction rows with
  | nil => rfl
  | cons r rows ih =>
    rw [List.mapM_cons, List.mapM_cons]
    have ih := ih fun r hr => h r (List.mem_cons_of_mem _ hr)
    obtain ⟨e, h1, h2⟩ | ⟨a, b, h1, h2, h3, h4⟩ := h r List.mem_cons_self
    · rw [h1, h2]; rfl
    · rw [h1, h2]
      have key : ∀ l l' : List α, l.filter p = l'.filter p → (a :: l).filter p = (b :: l').filter p := by
        intro l l' e
        rw [List.filter_cons, List.filter_cons, ← h3, e]
        by_cases hp : p a = true
        · rw [h4 hp]
        · rw [if_neg hp, if_neg hp]
      revert ih
      cases rows.mapM g with
      | error e =>
        cases rows.mapM g' with
        | error e' => intro h; cases h; rfl
        | ok l => intro h; cases h
      | ok l =>
        cases rows.mapM g' with
        | error e' => intro h; cases h
        | ok l' =>
          intro h
          exact congrArg Except.ok (key l l' (Except.ok.inj h))

theorem filter_true {l : List α} {name : α → SQName} : filterSliceByName l name (fun _ => true) = l := by
  unfold filterSliceByName
  exact List.filter_eq_self.mpr fun _ _ => rfl

/-- filtering after any computation -/
theorem eval_then_filter (p : Fetch (List α)) (name : α → SQName) (keep : String → Bool) :
    (p >>= fun l => pure (filterSliceByName l name fun n => keep n.schemaName) : Fetch (List α)).eval
      = (p >>= fun l => pure (filterSliceByName l name fun _ => true) : Fetch (List α)).eval >>=
        fun l => .ok (l.filter fun x => keep (name x).schemaName) := by
  rw [eval_bind, eval_bind]
  cases p.eval with
  | error e => rfl
  | ok l =>
    show Except.ok _ = Except.ok _
    rw [filter_true]
    rfl

section

variable (db : Db) (keep : String → Bool)

/-- the fetcher that keeps everything -/
abbrev keepAll (db : Db) : SchemaFetcher := keeping db fun _ => true

theorem checks_filter : (keeping db keep).fetchCheckCons.eval = (keepAll db).fetchCheckCons.eval >>=
    fun l => .ok (l.filter fun x => keep x.2.schemaName) := by
  unfold SchemaFetcher.fetchCheckCons
  rw [eval_bind, eval_bind]
  simp only [keeping, eval_query]
  cases db.getCheckConstraints with
  | error e => rfl
  | ok rows => exact eval_then_filter _ _ keep

theorem policies_filter : (keeping db keep).fetchPolicies.eval = (keepAll db).fetchPolicies.eval >>=
    fun l => .ok (l.filter fun x => keep x.2.schemaName) := eval_filter ..

theorem privileges_filter : (keeping db keep).fetchPrivileges.eval = (keepAll db).fetchPrivileges.eval >>=
    fun l => .ok (l.filter fun x => keep x.2.schemaName) := eval_filter ..

variable {db}

theorem checks_noNul (hn : NoNulSchemas db) {l : List (CheckConstraint × SQName)}
    (h : (keepAll db).fetchCheckCons.eval = .ok l) : ∀ x ∈ l, NoNul x.2.schemaName := by
  obtain ⟨rows, h1, h2⟩ := eval_bind_ok.mp h
  obtain ⟨ccs, h3, h4⟩ := eval_bind_ok.mp h2
  rw [forkAll_eval] at h3
  cases h4
  rw [show (keepAll db).nameFilter = fun _ => true from rfl, filter_true]
  have h3 := mapM_ok.mp h3
  have hr := hn.checks rows h1
  clear * - h3 hr
  induction h3 with
  | nil => simp
  | cons h _ ih =>
    intro x hx
    obtain rfl | hx := List.mem_cons.mp hx
    · obtain ⟨cc, -, h⟩ := eval_bind_ok.mp h
      cases h
      exact hr _ List.mem_cons_self
    · exact ih (fun r h => hr r (List.mem_cons_of_mem _ h)) x hx

theorem policies_noNul (hn : NoNulSchemas db) {l : List (Policy × SQName)}
    (h : (keepAll db).fetchPolicies.eval = .ok l) : ∀ x ∈ l, NoNul x.2.schemaName := by
  obtain ⟨rows, h1, h2⟩ := eval_bind_ok.mp h
  cases h2
  rw [show (keepAll db).nameFilter = fun _ => true from rfl, filter_true]
  intro x hx
  obtain ⟨r, hr, rfl⟩ := List.mem_map.mp hx
  exact hn.policies rows h1 r hr

theorem privileges_noNul (hn : NoNulSchemas db) {l : List (TablePrivilege × SQName)}
    (h : (keepAll db).fetchPrivileges.eval = .ok l) : ∀ x ∈ l, NoNul x.2.schemaName := by
  obtain ⟨rows, h1, h2⟩ := eval_bind_ok.mp h
  cases h2
  rw [show (keepAll db).nameFilter = fun _ => true from rfl, filter_true]
  intro x hx
  obtain ⟨r, hr, rfl⟩ := List.mem_map.mp hx
  exact hn.privileges rows h1 r hr

theorem tables_filter (hn : NoNulSchemas db) : (keeping db keep).fetchTables.eval = (keepAll db).fetchTables.eval >>=
    fun l => .ok (l.filter fun x => keep x.name.schemaName) := by
  unfold SchemaFetcher.fetchTables
  simp only [eval_bind, eval_query, forkAll_eval, eval_pure]
  rw [checks_filter db keep, policies_filter db keep, privileges_filter db keep]
  show (db.getTables >>= fun rows => _) = (db.getTables >>= fun rows => _) >>= _
  cases ht : db.getTables with
  | error e => rfl
  | ok rows =>
  simp only [bind, Except.bind]
  cases hc : (keepAll db).fetchCheckCons.eval with
  | error e => rfl
  | ok ccs =>
  cases hpo : (keepAll db).fetchPolicies.eval with
  | error e => rfl
  | ok pos =>
  cases hpr : (keepAll db).fetchPrivileges.eval with
  | error e => rfl
  | ok prs =>
  have key := mapM_filter (rows := rows) (p := fun x : Table => keep x.name.schemaName)
    (g := fun r => ((keeping db keep).buildTable r (SchemaFetcher.byTable (ccs.filter fun x => keep x.2.schemaName))
      (SchemaFetcher.byTable (pos.filter fun x => keep x.2.schemaName))
      (SchemaFetcher.byTable (prs.filter fun x => keep x.2.schemaName))).eval)
    (g' := fun r => ((keepAll db).buildTable r (SchemaFetcher.byTable ccs) (SchemaFetcher.byTable pos)
      (SchemaFetcher.byTable prs)).eval) ?_
  · refine key.trans ?_
    simp only [bind, Except.bind]
    cases rows.mapM fun r => ((keepAll db).buildTable r (SchemaFetcher.byTable ccs) (SchemaFetcher.byTable pos)
      (SchemaFetcher.byTable prs)).eval with
    | error e => rfl
    | ok l =>
      show Except.ok _ = Except.ok _
      congr 1
      show _ = List.filter _ (filterSliceByName l _ fun _ => true)
      rw [filter_true]
  · intro r hr
    unfold SchemaFetcher.buildTable
    simp only [eval_bind, eval_query, eval_pure]
    show (∃ e, (db.getColumnsForTable r.oid >>= _) = _ ∧ (db.getColumnsForTable r.oid >>= _) = _) ∨
      ∃ a b, (db.getColumnsForTable r.oid >>= _) = _ ∧ (db.getColumnsForTable r.oid >>= _) = _ ∧ _
    cases db.getColumnsForTable r.oid with
    | error e => exact .inl ⟨e, rfl, rfl⟩
    | ok cols =>
      refine .inr ⟨_, _, rfl, rfl, rfl, fun hk => ?_⟩
      have hk : keep r.tableSchemaName = true := hk
      have hnn : NoNul r.tableSchemaName := hn.tables rows ht r hr
      rw [filter_byTable (name := ⟨r.tableSchemaName, escapeIdentifier r.tableName⟩) hnn (checks_noNul hn hc) hk,
        filter_byTable (name := ⟨r.tableSchemaName, escapeIdentifier r.tableName⟩) hnn (policies_noNul hn hpo) hk,
        filter_byTable (name := ⟨r.tableSchemaName, escapeIdentifier r.tableName⟩) hnn (privileges_noNul hn hpr) hk]

theorem functions_filter : (keeping db keep).fetchFunctions.eval = (keepAll db).fetchFunctions.eval >>=
    fun l => .ok (l.filter fun x => keep x.name.schemaName) := by
  unfold SchemaFetcher.fetchFunctions
  rw [eval_bind, eval_bind]
  simp only [keeping, eval_query]
  cases db.getProcs 'f' with
  | error e => rfl
  | ok rows => exact eval_then_filter _ _ keep

theorem views_filter : (keeping db keep).fetchViews.eval = (keepAll db).fetchViews.eval >>=
    fun l => .ok (l.filter fun x => keep x.name.schemaName) := by
  unfold SchemaFetcher.fetchViews
  rw [eval_bind, eval_bind]
  simp only [keeping, eval_query]
  cases db.getViews with
  | error e => rfl
  | ok rows => exact eval_then_filter _ _ keep

theorem materializedViews_filter : (keeping db keep).fetchMaterializedViews.eval = (keepAll db).fetchMaterializedViews.eval >>=
    fun l => .ok (l.filter fun x => keep x.name.schemaName) := by
  unfold SchemaFetcher.fetchMaterializedViews
  rw [eval_bind, eval_bind]
  simp only [keeping, eval_query]
  cases db.getMaterializedViews with
  | error e => rfl
  | ok rows => exact eval_then_filter _ _ keep

/-- what is kept of a part -/
def keptPart : ∀ i, SchemaFetcher.PartType i → SchemaFetcher.PartType i
  | 0 => List.filter fun x : NamedSchema => keep x.name
  | 1 => List.filter fun x : Extension => keep x.name.schemaName
  | 2 => List.filter fun x : Enum => keep x.name.schemaName
  | 3 => List.filter fun x : Table => keep x.name.schemaName
  | 4 => List.filter fun x : Index => keep x.owningRelName.schemaName
  | 5 => List.filter fun x : ForeignKeyConstraint => keep x.owningTable.schemaName
  | 6 => List.filter fun x : Sequence => keep x.name.schemaName
  | 7 => List.filter fun x : Function => keep x.name.schemaName
  | 8 => List.filter fun x : Procedure => keep x.name.schemaName
  | 9 => List.filter fun x : Trigger => keep x.owningTable.schemaName
  | 10 => List.filter fun x : View => keep x.name.schemaName
  | 11 => List.filter fun x : MaterializedView => keep x.name.schemaName

theorem part_filter (hn : NoNulSchemas db) : ∀ i, ((keeping db keep).part i).eval = ((keepAll db).part i).eval >>=
    fun l => .ok (keptPart keep i l)
  | 0 => eval_filter ..
  | 1 => eval_filter ..
  | 2 => eval_filter ..
  | 3 => tables_filter keep hn
  | 4 => eval_filter ..
  | 5 => eval_filter ..
  | 6 => eval_filter ..
  | 7 => functions_filter keep
  | 8 => eval_filter ..
  | 9 => eval_filter ..
  | 10 => views_filter keep
  | 11 => materializedViews_filter keep

theorem collect_map {n : Nat} {β : Fin n → Type} (rs : ∀ i, Except Err (β i)) (g : ∀ i, β i → β i) :
    (collect fun i => rs i >>= fun a => .ok (g i a)) = collect rs >>= fun f => .ok fun i => g i (f i) := by
  induction n with
  | zero =>
    show Except.ok _ = Except.ok _
    congr 1
    funext i
    exact i.elim0
  | succ n ih =>
    rw [collect_succ, collect_succ]
    cases rs 0 with
    | error e => rfl
    | ok a =>
      simp only [bind, Except.bind]
      have ih := ih (fun i => rs i.succ) fun i => g i.succ
      simp only [bind, Except.bind] at ih
      rw [ih]
      cases collect fun i => rs i.succ with
      | error e => rfl
      | ok f =>
        show Except.ok _ = Except.ok _
        congr 1
        funext i
        refine Fin.cases ?_ (fun i => ?_) i <;> rfl

theorem fetched_filter (hn : NoNulSchemas db) : fetched db (fun n => keep n.schemaName) =
    fetched db (fun _ => true) >>= fun all => .ok (restrict keep all) := by
  unfold fetched SchemaFetcher.getSchema
  rw [eval_bind, eval_bind]
  show (collect (fun i => ((keeping db keep).part i).eval) >>= fun p => Except.ok (SchemaFetcher.assemble p)) =
    (collect (fun i => ((keepAll db).part i).eval) >>= fun p => Except.ok (SchemaFetcher.assemble p)) >>= _
  simp only [part_filter keep hn]
  rw [collect_map]
  cases collect fun i => ((keepAll db).part i).eval with
  | error e => rfl
  | ok p => rfl

end

/-- **C45**: unless the lists overlap, what is fetched are exactly the objects, of everything there is, whose schema is in the
include list (when one is given) and not in the exclude list. -/
theorem C45_fetched_iff_wanted {db : Db} (hn : NoNulSchemas db) {isPool : Bool} {opts : List GetSchemaOpt}
    (h : ∀ x, ¬ (Included opts x ∧ Excluded opts x)) {keep : String → Bool} (hk : ∀ x, keep x = true ↔ Wanted opts x) :
    (getSchema db isPool opts).eval = (getSchema db isPool []).eval >>= fun all => .ok (restrict keep all) := by
  obtain ⟨f, hf, hw⟩ := buildNameFilter_ok h
  have e : f = fun n => keep n.schemaName := by
    funext n
    rw [Bool.eq_iff_iff, hw, hk]
  rw [getSchema_eval, getSchema_eval, hf, e]
  refine (fetched_filter keep hn).trans ?_
  rfl

/-- **C45**: in terms of the objects of one kind: a table of the database is fetched iff its schema is wanted (the schema returned
by any execution). -/
theorem C45_table_fetched_iff {db : Db} (hn : NoNulSchemas db) {isPool : Bool} {opts : List GetSchemaOpt}
    (h : ∀ x, ¬ (Included opts x ∧ Excluded opts x)) {some all : Schema} {s s'} {c c' : Bool} {tr tr' : List Bool}
    (hs : (getSchema db isPool opts).process.Run c s tr) (ho : (getSchema db isPool opts).process.outcome s = .some (.ok some))
    (hs' : (getSchema db isPool []).process.Run c' s' tr')
    (ho' : (getSchema db isPool []).process.outcome s' = .some (.ok all)) (t : Table) :
    t ∈ some.tables ↔ t ∈ all.tables ∧ Wanted opts t.name.schemaName := by
  classical
  have e1 : (getSchema db isPool opts).eval = .ok some :=
    (C61_cancellation_is_an_error (getSchema_limited ..) hs ho).elim Eq.symm fun ⟨_, h⟩ => (nomatch h)
  have e2 : (getSchema db isPool []).eval = .ok all :=
    (C61_cancellation_is_an_error (getSchema_limited ..) hs' ho').elim Eq.symm fun ⟨_, h⟩ => (nomatch h)
  rw [C45_fetched_iff_wanted hn h (keep := fun x => decide (Wanted opts x)) (by simp), e2] at e1
  cases e1
  simp [restrict]

/-! ### examples -/

example : NoNulSchemas Samples.db := by
  constructor
  · intro rows h; cases h; decide +kernel
  · intro rows h; cases h; decide +kernel
  · intro rows h; cases h; simp
  · intro rows h; cases h; decide +kernel

/-- only the schema `audit` -/
example : ((getSchema Samples.db true [.withIncludeSchemas ["audit"]]).eval.toOption.map fun s =>
    (s.namedSchemas.map (·.name), s.tables.map (·.name.fq), s.enums.length, s.functions.length)) =
    some (["audit"], ["\"audit\".\"log\""], 1, 0) := by
  rw [getSchema_eval]
  decide +kernel

example : ∀ x, ¬ (Included [.withIncludeSchemas ["audit"], .withExcludeSchemas ["public"]] x ∧
    Excluded [.withIncludeSchemas ["audit"], .withExcludeSchemas ["public"]] x) := by
  rintro x ⟨⟨l, hl, hx⟩, l', hl', hx'⟩
  simp only [List.mem_cons, GetSchemaOpt.withIncludeSchemas.injEq, GetSchemaOpt.withExcludeSchemas.injEq, reduceCtorEq,
    List.not_mem_nil, or_false, false_or] at hl hl'
  subst hl hl'
  simp only [List.mem_cons, List.not_mem_nil, or_false] at hx hx'
  exact absurd (hx.symm.trans hx') (by decide)

/-- overlapping lists -/
example : ∃ e, (getSchema Samples.db true [.withIncludeSchemas ["a", "b"], .withExcludeSchemas ["b"]]).eval = .error e :=
  C45_overlap_rejected (x := "b") ⟨_, List.mem_cons_self, by simp⟩ ⟨_, List.mem_cons_of_mem _ List.mem_cons_self, by simp⟩

end Verif
