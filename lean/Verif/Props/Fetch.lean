import Verif.Spec.Filter
import Verif.Lemmas.Process
import Verif.Lemmas.GoMap
import Verif.Props.Escape
import Verif.Props.RelOptions

/-!
# C45, C49, C61: fetching a schema
-/

namespace Verif

open Spec

variable {α β : Type}

/-! ### executions -/

theorem run_good {p : Process α} {v : Except Err α} (g : Good p v) {c : Bool} {s : p.State} {tr : List Bool}
    (h : p.Run c s tr) : g.inv c s ∧ tr.length + g.measure s ≤ g.measure p.init := by
  induction h with
  | init => exact ⟨g.init, by simp⟩
  | step _ hs ih =>
    obtain ⟨h1, h2⟩ := g.step _ _ _ ih.1 hs
    refine ⟨h1, ?_⟩
    simp only [List.length_cons]
    omega
  | cancel _ ih => exact ⟨g.cancel _ ih.1, ih.2⟩

/-- **C61**: whatever the interleaving of its goroutines, a fetching computation whose context is not cancelled returns what
it returns when run sequentially: the same value, or the same error. -/
theorem C61_schedule_independent {f : Fetch α} (hl : f.Limited) {s : f.process.State} {tr : List Bool} {r : Except Err α}
    (h : f.process.Run false s tr) (ho : f.process.outcome s = some r) : r = f.eval := by
  obtain ⟨g⟩ := fetch_good f hl
  obtain h | ⟨h, -⟩ := g.fits _ _ _ (run_good g h).1 ho
  · exact h
  · cases h

/-- **C61**: if the context gets cancelled at any point of any interleaving, the result is still that of the sequential run, or
an error: never a value that lacks something. -/
theorem C61_cancellation_is_an_error {f : Fetch α} (hl : f.Limited) {c : Bool} {s : f.process.State} {tr : List Bool}
    {r : Except Err α} (h : f.process.Run c s tr) (ho : f.process.outcome s = some r) : r = f.eval ∨ ∃ e, r = .error e := by
  obtain ⟨g⟩ := fetch_good f hl
  exact (g.fits _ _ _ (run_good g h).1 ho).imp id And.right

/-- **C61**: no deadlock: as long as there is no result, some goroutine can go on. -/
theorem C61_no_deadlock {f : Fetch α} (hl : f.Limited) {c : Bool} {s : f.process.State} {tr : List Bool}
    (h : f.process.Run c s tr) (ho : f.process.outcome s = none) : ∃ s', f.process.step c s s' := by
  obtain ⟨g⟩ := fetch_good f hl
  exact g.progress _ _ (run_good g h).1 ho

/-- **C61**: no execution is infinite: there is a bound on the number of steps of all executions. -/
theorem C61_terminates {f : Fetch α} (hl : f.Limited) : ∃ bound, ∀ c s tr, f.process.Run c s tr → tr.length ≤ bound := by
  obtain ⟨g⟩ := fetch_good f hl
  exact ⟨g.measure f.process.init, fun c s tr h => by have := (run_good g h).2; omega⟩

/-- **C61**: a result never changes, although goroutines may still be running. -/
theorem C61_result_is_final {f : Fetch α} (hl : f.Limited) {c : Bool} {s s' : f.process.State} {tr : List Bool}
    {r : Except Err α} (h : f.process.Run c s tr) (ho : f.process.outcome s = some r) (hs : f.process.step c s s') :
    f.process.outcome s' = some r := by
  obtain ⟨g⟩ := fetch_good f hl
  exact g.stable _ _ _ _ (run_good g h).1 ho hs

/-- **C61**: every execution can be continued to one with a result. -/
theorem C61_every_run_completes {f : Fetch α} (hl : f.Limited) {c : Bool} {s : f.process.State} {tr : List Bool}
    (h : f.process.Run c s tr) : ∃ s' tr' r, f.process.Run c s' tr' ∧ f.process.outcome s' = some r := by
  obtain ⟨bound, hb⟩ := C61_terminates hl
  obtain ⟨n, hn⟩ : ∃ n, tr.length + n = bound + 1 := ⟨bound + 1 - tr.length, by have := hb _ _ _ h; omega⟩
  induction n generalizing s tr with
  | zero => have := hb _ _ _ h; omega
  | succ n ih =>
    cases ho : f.process.outcome s with
    | some r => exact ⟨s, tr, r, h, ho⟩
    | none =>
      obtain ⟨s', hs⟩ := C61_no_deadlock hl h ho
      exact ih (.step h hs) (by simp only [List.length_cons]; omega)

/-! ### sequential results -/

theorem eval_bind (p : Fetch β) (k : β → Fetch α) : (p >>= k).eval = p.eval >>= fun a => (k a).eval := by
  show (Fetch.andThen p k).eval = _
  rw [Fetch.eval]
  cases p.eval <;> rfl

@[simp] theorem eval_pure (a : α) : (pure a : Fetch α).eval = .ok a := rfl
@[simp] theorem eval_query (r : Except Err α) : (Fetch.query r).eval = r := rfl
@[simp] theorem eval_ofExcept (r : Except Err α) : (Fetch.ofExcept r).eval = r := rfl

theorem bind_eq_ok {ε : Type} {x : Except ε β} {k : β → Except ε α} {b : α} :
    (x >>= k) = .ok b ↔ ∃ a, x = .ok a ∧ k a = .ok b := by
  cases x with
  | error e => exact ⟨fun h => (nomatch h), fun ⟨a, h, _⟩ => (nomatch h)⟩
  | ok a => exact ⟨fun h => ⟨a, rfl, h⟩, fun ⟨a', h, h'⟩ => by cases h; exact h'⟩

theorem eval_bind_ok {p : Fetch β} {k : β → Fetch α} {b : α} :
    (p >>= k).eval = .ok b ↔ ∃ a, p.eval = .ok a ∧ (k a).eval = .ok b := by
  rw [eval_bind, bind_eq_ok]

theorem collect_succ {n : Nat} {β : Fin (n + 1) → Type} (rs : ∀ i, Except Err (β i)) :
    collect rs = rs 0 >>= fun a => (collect fun i => rs i.succ) >>= fun f => .ok (Fin.cons a f) := by
  conv_lhs => unfold collect
  cases rs 0 with
  | error e => rfl
  | ok a =>
    simp only [bind, Except.bind]
    cases collect fun i => rs i.succ <;> rfl

theorem collect_list {ρ : Type} (g : ρ → Except Err α) (rows : List ρ) :
    (collect (β := fun _ => α) fun i : Fin rows.length => g (rows.get i)) >>= (fun f => .ok (List.ofFn f)) = rows.mapM g := by
  induction rows with
  | nil => rfl
  | cons r rs ih =>
    rw [List.mapM_cons, ← ih]
    have e := collect_succ (n := rs.length) (β := fun _ => α) fun i => g ((r :: rs).get i)
    refine (congrArg (fun x => x >>= fun f => Except.ok (List.ofFn f)) e).trans ?_
    show (g r >>= fun a => (collect fun i => g (rs.get i)) >>= _) >>= _ = _
    cases g r with
    | error e => rfl
    | ok a =>
      simp only [bind, Except.bind]
      cases collect (β := fun _ => α) fun i : Fin rs.length => g (rs.get i) with
      | error e => rfl
      | ok f =>
        show Except.ok (List.ofFn (Fin.cons (α := fun _ => α) a f)) = .ok (a :: List.ofFn f)
        rw [List.ofFn_cons]

theorem forkAll_eval {ρ : Type} (s : SchemaFetcher) (rows : List ρ) (f : ρ → Fetch α) :
    (s.forkAll rows f).eval = rows.mapM fun r => (f r).eval := by
  rw [← collect_list, SchemaFetcher.forkAll, eval_bind]
  rfl

theorem mapM_ok {ρ ε : Type} {g : ρ → Except ε α} {rows : List ρ} {l : List α} :
    rows.mapM g = .ok l ↔ List.Forall₂ (fun r a => g r = .ok a) rows l := by
  induction rows generalizing l with
  | nil =>
    rw [List.mapM_nil]
    constructor
    · intro h; cases h; exact .nil
    · intro h; cases h; rfl
  | cons r rs ih =>
    rw [List.mapM_cons, bind_eq_ok]
    constructor
    · rintro ⟨a, h1, h2⟩
      obtain ⟨l', h3, h4⟩ := bind_eq_ok.mp h2
      cases h4
      exact .cons h1 (ih.mp h3)
    · intro h
      cases h with
      | cons h1 h2 => exact ⟨_, h1, bind_eq_ok.mpr ⟨_, ih.mpr h2, rfl⟩⟩

/-! ### the schema -/

theorem limited_bind {p : Fetch β} {k : β → Fetch α} (hp : p.Limited) (hk : ∀ a, (k a).Limited) : (p >>= k).Limited := ⟨hp, hk⟩

theorem limited_forkAll {ρ : Type} {s : SchemaFetcher} (hs : s.runner ≠ .limited 0) {rows : List ρ} {f : ρ → Fetch α}
    (h : ∀ r, (f r).Limited) : (s.forkAll rows f).Limited :=
  limited_bind ⟨hs, fun i => h (rows.get i)⟩ fun _ => trivial

theorem part_limited {s : SchemaFetcher} (hs : s.runner ≠ .limited 0) : ∀ i, (s.part i).Limited
  | 0 => limited_bind trivial fun _ => trivial
  | 1 => limited_bind trivial fun _ => trivial
  | 2 => limited_bind trivial fun _ => trivial
  | 3 => limited_bind trivial fun _ => limited_bind
    (limited_bind trivial fun _ => limited_bind (limited_forkAll hs fun _ => limited_bind
      (limited_bind (limited_bind trivial fun _ => trivial) fun _ => trivial) fun _ => trivial) fun _ => trivial)
    fun _ => limited_bind (limited_bind trivial fun _ => trivial) fun _ => limited_bind (limited_bind trivial fun _ => trivial)
      fun _ => limited_bind (limited_forkAll hs fun _ => limited_bind trivial fun _ => trivial) fun _ => trivial
  | 4 => limited_bind trivial fun _ => trivial
  | 5 => limited_bind trivial fun _ => trivial
  | 6 => limited_bind trivial fun _ => trivial
  | 7 => limited_bind trivial fun _ => limited_bind (limited_forkAll hs fun _ => limited_bind
      (limited_bind trivial fun _ => trivial) fun _ => trivial) fun _ => trivial
  | 8 => limited_bind trivial fun _ => trivial
  | 9 => limited_bind trivial fun _ => trivial
  | 10 => limited_bind trivial fun _ => limited_bind trivial fun _ => trivial
  | 11 => limited_bind trivial fun _ => limited_bind trivial fun _ => trivial

theorem getSchema_limited (db : Db) (isPool : Bool) (opts : List GetSchemaOpt) : (getSchema db isPool opts).Limited := by
  unfold getSchema
  split
  · trivial
  · refine limited_bind ⟨?_, part_limited ?_⟩ fun _ => trivial <;> cases isPool <;> simp

/-- the sequential result with a given filter -/
def fetched (db : Db) (f : NameFilter) : Except Err Schema := (SchemaFetcher.getSchema ⟨db, .synchronous, f⟩).eval

theorem getSchema_eval (db : Db) (isPool : Bool) (opts : List GetSchemaOpt) :
    (getSchema db isPool opts).eval = buildNameFilter (getSchemaOptions opts) >>= fetched db := by
  unfold getSchema
  cases buildNameFilter (getSchemaOptions opts) with
  | error e => rfl
  | ok f =>
    show (SchemaFetcher.getSchema _).eval = fetched db f
    unfold fetched SchemaFetcher.getSchema
    rw [eval_bind, eval_bind]
    congr 1
    show (collect fun i => _) = collect fun i => _
    congr 1
    funext i
    match i with
    | 0 => rfl
    | 1 => rfl
    | 2 => rfl
    | 3 =>
      show (SchemaFetcher.fetchTables _).eval = (SchemaFetcher.fetchTables _).eval
      simp only [SchemaFetcher.fetchTables, SchemaFetcher.fetchCheckCons, SchemaFetcher.fetchPolicies,
        SchemaFetcher.fetchPrivileges, SchemaFetcher.buildTable, SchemaFetcher.buildCheckConstraint,
        SchemaFetcher.fetchDependsOnFunctions, eval_bind, forkAll_eval, eval_query, eval_pure]
    | 4 => rfl
    | 5 => rfl
    | 6 => rfl
    | 7 =>
      show (SchemaFetcher.fetchFunctions _).eval = (SchemaFetcher.fetchFunctions _).eval
      simp only [SchemaFetcher.fetchFunctions, SchemaFetcher.buildFunction, SchemaFetcher.fetchDependsOnFunctions,
        eval_bind, forkAll_eval, eval_query, eval_pure]
    | 8 => rfl
    | 9 => rfl
    | 10 => rfl
    | 11 => rfl

/-- **C61**: `GetSchema` on a pool (concurrently) and on a connection (synchronously) return the same, in every interleaving. -/
theorem C61_pool_or_connection {db : Db} {opts : List GetSchemaOpt} {s s'} {tr tr' : List Bool} {r r' : Except Err Schema}
    (h : (getSchema db true opts).process.Run false s tr) (ho : (getSchema db true opts).process.outcome s = some r)
    (h' : (getSchema db false opts).process.Run false s' tr')
    (ho' : (getSchema db false opts).process.outcome s' = some r') : r = r' := by
  rw [C61_schedule_independent (getSchema_limited ..) h ho, C61_schedule_independent (getSchema_limited ..) h' ho',
    getSchema_eval, getSchema_eval]

/-- there is a value -/
def IsOk {α : Type} (r : Except Err α) : Prop := ∃ x, r = .ok x

theorem isOk_then {p : Fetch β} {g : β → α} : IsOk (p >>= fun a => (pure (g a) : Fetch α)).eval ↔ IsOk p.eval := by
  constructor
  · rintro ⟨x, h⟩
    obtain ⟨a, h, -⟩ := eval_bind_ok.mp h
    exact ⟨a, h⟩
  · rintro ⟨a, h⟩
    exact ⟨g a, eval_bind_ok.mpr ⟨a, h, rfl⟩⟩

theorem isOk_bind {p : Fetch β} {k : β → Fetch α} : IsOk (p >>= k).eval ↔ ∃ a, p.eval = .ok a ∧ IsOk (k a).eval := by
  constructor
  · rintro ⟨x, h⟩
    obtain ⟨a, h, h'⟩ := eval_bind_ok.mp h
    exact ⟨a, h, x, h'⟩
  · rintro ⟨a, h, x, h'⟩
    exact ⟨x, eval_bind_ok.mpr ⟨a, h, h'⟩⟩

theorem isOk_mapM {ρ : Type} {g : ρ → Except Err α} {rows : List ρ} : IsOk (rows.mapM g) ↔ ∀ r ∈ rows, IsOk (g r) := by
  constructor
  · rintro ⟨l, h⟩
    have h := mapM_ok.mp h
    clear * - h
    induction h with
    | nil => simp
    | cons h _ ih =>
      intro r hr
      obtain rfl | hr := List.mem_cons.mp hr
      · exact ⟨_, h⟩
      · exact ih r hr
  · intro h
    induction rows with
    | nil => exact ⟨[], rfl⟩
    | cons r rows ih =>
      obtain ⟨a, ha⟩ := h r List.mem_cons_self
      obtain ⟨l, hl⟩ := ih fun r hr => h r (List.mem_cons_of_mem _ hr)
      exact ⟨a :: l, mapM_ok.mpr (.cons ha (mapM_ok.mp hl))⟩

theorem isOk_forkAll {ρ : Type} {s : SchemaFetcher} {rows : List ρ} {f : ρ → Fetch α} :
    IsOk (s.forkAll rows f).eval ↔ ∀ r ∈ rows, IsOk (f r).eval := by
  rw [forkAll_eval, isOk_mapM]

theorem isOk_relOptions {l : List String} : IsOk (relOptionsToMap l) ↔ ∀ o ∈ l, '=' ∈ o.toList := by
  constructor
  · rintro ⟨m, h⟩ o ho
    by_contra hn
    obtain ⟨e, he⟩ := (C49_error_iff l).mpr ⟨o, ho, hn⟩
    rw [h] at he; cases he
  · intro h
    cases e : relOptionsToMap l with
    | ok m => exact ⟨m, rfl⟩
    | error e' =>
      obtain ⟨o, ho, hn⟩ := (C49_error_iff l).mp ⟨e', e⟩
      exact absurd (h o ho) hn

theorem isOk_dependencies {db : Db} {l : List String} :
    IsOk (parseJSONTableDependencies db l) ↔ ∀ j ∈ l, ∃ x, db.unmarshal j = .ok x := by
  unfold parseJSONTableDependencies
  rw [isOk_mapM]
  refine forall₂_congr fun j _ => ?_
  constructor
  · rintro ⟨x, h⟩
    obtain ⟨a, h, -⟩ := bind_eq_ok.mp h
    exact ⟨a, h⟩
  · rintro ⟨a, h⟩
    exact ⟨_, bind_eq_ok.mpr ⟨a, h, rfl⟩⟩

theorem isOk_buildView {s : SchemaFetcher} {v : GetViewsRow} : IsOk (s.buildView v) ↔
    (∀ o ∈ v.relOptions, '=' ∈ o.toList) ∧ ∀ j ∈ v.tableDependencies, ∃ x, s.db.unmarshal j = .ok x := by
  rw [← isOk_relOptions, ← isOk_dependencies]
  constructor
  · rintro ⟨x, h⟩
    obtain ⟨a, h1, h⟩ := bind_eq_ok.mp h
    obtain ⟨b, h2, h⟩ := bind_eq_ok.mp h
    exact ⟨⟨a, h1⟩, b, h2⟩
  · rintro ⟨⟨a, h1⟩, b, h2⟩
    exact ⟨_, bind_eq_ok.mpr ⟨a, h1, bind_eq_ok.mpr ⟨b, h2, rfl⟩⟩⟩

theorem isOk_buildMaterializedView {s : SchemaFetcher} {v : GetMaterializedViewsRow} : IsOk (s.buildMaterializedView v) ↔
    (∀ o ∈ v.relOptions, '=' ∈ o.toList) ∧ ∀ j ∈ v.tableDependencies, ∃ x, s.db.unmarshal j = .ok x := by
  rw [← isOk_relOptions, ← isOk_dependencies]
  constructor
  · rintro ⟨x, h⟩
    obtain ⟨a, h1, h⟩ := bind_eq_ok.mp h
    obtain ⟨b, h2, h⟩ := bind_eq_ok.mp h
    exact ⟨⟨a, h1⟩, b, h2⟩
  · rintro ⟨⟨a, h1⟩, b, h2⟩
    exact ⟨_, bind_eq_ok.mpr ⟨a, h1, bind_eq_ok.mpr ⟨b, h2, rfl⟩⟩⟩

theorem isOk_tables {s : SchemaFetcher} : IsOk s.fetchTables.eval ↔
    (∃ rows, s.db.getTables = .ok rows ∧ ∀ r ∈ rows, ∃ x, s.db.getColumnsForTable r.oid = .ok x) ∧
    (∃ rows, s.db.getCheckConstraints = .ok rows ∧ ∀ r ∈ rows, ∃ x, s.db.getDependsOnFunctions "pg_constraint" r.oid = .ok x) ∧
    (∃ x, s.db.getPolicies = .ok x) ∧ ∃ x, s.db.getTablePrivileges = .ok x := by
  unfold SchemaFetcher.fetchTables
  rw [isOk_bind]
  constructor
  · rintro ⟨rows, h1, h2⟩
    obtain ⟨cc, h3, h4⟩ := isOk_bind.mp h2
    obtain ⟨po, h5, h6⟩ := isOk_bind.mp h4
    obtain ⟨pr, h7, h8⟩ := isOk_bind.mp h6
    refine ⟨⟨rows, h1, fun r hr => isOk_then.mp (isOk_forkAll.mp (isOk_then.mp h8) r hr)⟩, ?_,
      isOk_then.mp ⟨_, h5⟩, isOk_then.mp ⟨_, h7⟩⟩
    obtain ⟨crows, g1, g2⟩ := isOk_bind.mp ⟨_, h3⟩
    exact ⟨crows, g1, fun r hr => isOk_then.mp (isOk_then.mp (isOk_then.mp (isOk_forkAll.mp (isOk_then.mp g2) r hr)))⟩
  · rintro ⟨⟨rows, h1, h2⟩, ⟨crows, g1, g2⟩, h5, h7⟩
    have hc : IsOk s.fetchCheckCons.eval := isOk_bind.mpr ⟨crows, g1, isOk_then.mpr (isOk_forkAll.mpr fun r hr =>
      isOk_then.mpr (isOk_then.mpr (isOk_then.mpr (g2 r hr))))⟩
    have hpo : IsOk s.fetchPolicies.eval := isOk_then.mpr h5
    have hpr : IsOk s.fetchPrivileges.eval := isOk_then.mpr h7
    obtain ⟨cc, hc⟩ := hc
    obtain ⟨po, hpo⟩ := hpo
    obtain ⟨pr, hpr⟩ := hpr
    exact ⟨rows, h1, isOk_bind.mpr ⟨cc, hc, isOk_bind.mpr ⟨po, hpo, isOk_bind.mpr ⟨pr, hpr,
      isOk_then.mpr (isOk_forkAll.mpr fun r hr => isOk_then.mpr (h2 r hr))⟩⟩⟩⟩

theorem isOk_functions {s : SchemaFetcher} : IsOk s.fetchFunctions.eval ↔
    ∃ rows, s.db.getProcs 'f' = .ok rows ∧ ∀ r ∈ rows, ∃ x, s.db.getDependsOnFunctions "pg_proc" r.oid = .ok x := by
  unfold SchemaFetcher.fetchFunctions
  rw [isOk_bind]
  refine exists_congr fun rows => and_congr Iff.rfl ?_
  rw [isOk_then, isOk_forkAll]
  exact forall₂_congr fun r _ => isOk_then.trans isOk_then

theorem isOk_views {s : SchemaFetcher} : IsOk s.fetchViews.eval ↔
    ∃ rows, s.db.getViews = .ok rows ∧ ∀ r ∈ rows, (∀ o ∈ r.relOptions, '=' ∈ o.toList) ∧
      ∀ j ∈ r.tableDependencies, ∃ x, s.db.unmarshal j = .ok x := by
  unfold SchemaFetcher.fetchViews
  rw [isOk_bind]
  refine exists_congr fun rows => and_congr Iff.rfl ?_
  rw [isOk_then, eval_ofExcept, isOk_mapM]
  exact forall₂_congr fun r _ => isOk_buildView

theorem isOk_materializedViews {s : SchemaFetcher} : IsOk s.fetchMaterializedViews.eval ↔
    ∃ rows, s.db.getMaterializedViews = .ok rows ∧ ∀ r ∈ rows, (∀ o ∈ r.relOptions, '=' ∈ o.toList) ∧
      ∀ j ∈ r.tableDependencies, ∃ x, s.db.unmarshal j = .ok x := by
  unfold SchemaFetcher.fetchMaterializedViews
  rw [isOk_bind]
  refine exists_congr fun rows => and_congr Iff.rfl ?_
  rw [isOk_then, eval_ofExcept, isOk_mapM]
  exact forall₂_congr fun r _ => isOk_buildMaterializedView

theorem isOk_fetched {db : Db} {f : NameFilter} : IsOk (fetched db f) ↔ Answers db := by
  unfold fetched SchemaFetcher.getSchema
  rw [isOk_then]
  have : IsOk (Fetch.fork Runner.synchronous (SchemaFetcher.part ⟨db, .synchronous, f⟩)).eval ↔
      ∀ i, IsOk (SchemaFetcher.part ⟨db, .synchronous, f⟩ i).eval := by
    constructor
    · rintro ⟨x, h⟩ i
      exact ⟨_, collect_ok.mp h i⟩
    · intro h
      exact ⟨fun i => (h i).choose, collect_ok.mpr fun i => (h i).choose_spec⟩
  rw [this]
  constructor
  · intro h
    obtain ⟨t1, t2, t3, t4⟩ := isOk_tables.mp (h 3)
    exact ⟨isOk_then.mp (h 0), isOk_then.mp (h 1), isOk_then.mp (h 2), t1, t2, t3, t4, isOk_then.mp (h 4), isOk_then.mp (h 5),
      isOk_then.mp (h 6), isOk_functions.mp (h 7), isOk_then.mp (h 8), isOk_then.mp (h 9), isOk_views.mp (h 10),
      isOk_materializedViews.mp (h 11)⟩
  · intro h i
    match i with
    | 0 => exact isOk_then.mpr h.namedSchemas
    | 1 => exact isOk_then.mpr h.extensions
    | 2 => exact isOk_then.mpr h.enums
    | 3 => exact isOk_tables.mpr ⟨h.tables, h.checks, h.policies, h.privileges⟩
    | 4 => exact isOk_then.mpr h.indexes
    | 5 => exact isOk_then.mpr h.foreignKeys
    | 6 => exact isOk_then.mpr h.sequences
    | 7 => exact isOk_functions.mpr h.functions
    | 8 => exact isOk_then.mpr h.procedures
    | 9 => exact isOk_then.mpr h.triggers
    | 10 => exact isOk_views.mpr h.views
    | 11 => exact isOk_materializedViews.mpr h.materializedViews

/-- **C61**: if a schema is returned, in any interleaving, cancelled or not, then everything that was needed was there. -/
theorem C61_no_incomplete_schema {db : Db} {isPool : Bool} {opts : List GetSchemaOpt} {s} {c : Bool} {tr : List Bool}
    {schema : Schema} (h : (getSchema db isPool opts).process.Run c s tr)
    (ho : (getSchema db isPool opts).process.outcome s = some (.ok schema)) : Answers db := by
  have : (getSchema db isPool opts).eval = .ok schema := by
    obtain h | ⟨e, h⟩ := C61_cancellation_is_an_error (getSchema_limited ..) h ho
    · exact h.symm
    · cases h
  rw [getSchema_eval] at this
  obtain ⟨f, -, h⟩ := bind_eq_ok.mp this
  exact isOk_fetched.mp ⟨_, h⟩

/-! ### examples -/

namespace Samples

/-- a database with two schemas, a table in each, one with a check constraint that calls a function, and a view -/
def db : Db where
  getSchemas := .ok ["public", "audit"]
  getExtensions := .ok []
  getEnums := .ok [⟨"mood", "audit", ["sad", "ok"]⟩]
  getTables := .ok [⟨1, "t", "public", "d", false, false, "", "", "", ""⟩, ⟨2, "log", "audit", "d", false, false, "", "", "", ""⟩]
  getColumnsForTable oid :=
    if oid = 1 then .ok [⟨"id", true, false, 4, "", none, none, none, none, none, none, "", "", "", "", false, "integer"⟩]
    else .ok []
  getCheckConstraints := .ok [⟨3, "positive", ["id"], "t", "public", true, false, "f(id) > 0"⟩]
  getDependsOnFunctions _ oid := if oid = 3 then .ok [⟨"f", "public", "integer"⟩] else .ok []
  getPolicies := .ok []
  getTablePrivileges := .ok [⟨"log", "audit", "reader", "SELECT", some false⟩]
  getIndexes := .ok []
  getForeignKeyConstraints := .ok []
  getSequences := .ok []
  getProcs kind := if kind = 'f' then .ok [⟨4, "f", "public", "sql", "integer", "CREATE FUNCTION …"⟩] else .ok []
  getTriggers := .ok []
  getViews := .ok [⟨"public", "v", ["security_barrier=true"], ["…"], "SELECT id FROM t"⟩]
  getMaterializedViews := .ok []
  unmarshal _ := .ok ⟨"public", "t", ["id"]⟩

/-- the same, but the functions a check constraint depends on cannot be fetched -/
def brokenDb : Db := { db with getDependsOnFunctions := fun _ _ => .error (.other "connection reset") }

end Samples

/-- a fetch from a pool, two levels of goroutines: some execution returns the schema -/
example : ∃ s tr schema, (getSchema Samples.db true []).process.Run false s tr ∧
    (getSchema Samples.db true []).process.outcome s = some (.ok schema) ∧
    schema.tables.map (fun t => (t.name.fq, t.checkConstraints.map (·.name))) =
      [("\"public\".\"t\"", ["positive"]), ("\"audit\".\"log\"", [])] ∧ Answers Samples.db := by
  obtain ⟨s, tr, r, h, ho⟩ := C61_every_run_completes (getSchema_limited Samples.db true []) .init
  have e := C61_schedule_independent (getSchema_limited ..) h ho
  have : ∃ x, (getSchema Samples.db true []).eval = .ok x ∧ x.tables.map (fun t => (t.name.fq, t.checkConstraints.map (·.name))) =
      [("\"public\".\"t\"", ["positive"]), ("\"audit\".\"log\"", [])] := by
    rw [getSchema_eval]
    exact ⟨_, rfl, by decide +kernel⟩
  obtain ⟨x, hx, ht⟩ := this
  rw [e, hx] at ho
  exact ⟨s, tr, x, h, ho, ht, C61_no_incomplete_schema h ho⟩

/-- if one query fails every execution returns its error -/
example {s tr r} (h : (getSchema Samples.brokenDb true []).process.Run false s tr)
    (ho : (getSchema Samples.brokenDb true []).process.outcome s = some r) : r = .error (.other "connection reset") :=
  (C61_schedule_independent (getSchema_limited ..) h ho).trans ((getSchema_eval ..).trans rfl)

end Verif
