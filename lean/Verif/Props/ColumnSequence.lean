import Verif.Spec.ColumnOrder
import Verif.Props.Columns
import Verif.Props.ColumnOrder

/-!
# The order of columns (C72)
-/

namespace Verif

open Spec

/-! ### running additions and removals -/

/-- the column a statement adds to the table -/
def Ddl.addedName (n : String) : Ddl → Option String
  | .alterTable t (.addColumn d) => if t.fq = n then some d.name else none
  | _ => none

/-- the column a statement drops from the table -/
def Ddl.droppedName (n : String) : Ddl → Option String
  | .alterTable t (.dropColumn c) => if t.fq = n then some c else none
  | _ => none

theorem orderStep_skip {n : String} {x : Ddl} (h : x.onSlots n = false) (h' : x.dropsTable n = false)
    (s : Option (List String)) : orderStep n s x = some s := by
  cases x with
  | createTable t defs p => exact if_neg (of_decide_eq_false h)
  | dropTable t => exact if_neg (of_decide_eq_false h')
  | alterTable t a =>
    by_cases e : t.fq = n
    · refine (if_pos e).trans ?_
      cases a <;> first
        | (exfalso; revert h; simp [Ddl.onSlots, onColumns, e]; done)
        | (cases s <;> rfl)
    · exact if_neg e
  | _ => rfl

theorem orderStep_alter (n : String) (l : List String) (t : SQName) (a : TableAction) :
    orderStep n (some l) (.alterTable t a) = if t.fq = n then (orderAction l a).map some else some (some l) := by
  cases a <;> rfl

/-- a statement that neither creates nor drops the table -/
theorem orderStep_some {n : String} {x : Ddl} (h : x.dropsTable n = false) (hc : ∀ t defs p, x = .createTable t defs p → t.fq ≠ n)
    (l : List String) :
    (∃ a, x.addedName n = some a ∧ x.droppedName n = none ∧
      orderStep n (some l) x = if a ∈ l then none else some (some (l ++ [a]))) ∨
    (∃ c, x.addedName n = none ∧ x.droppedName n = some c ∧
      orderStep n (some l) x = if c ∈ l then some (some (l.filter (· ≠ c))) else none) ∨
    (x.addedName n = none ∧ x.droppedName n = none ∧ orderStep n (some l) x = some (some l)) := by
  cases x with
  | createTable t defs p => exact Or.inr (Or.inr ⟨rfl, rfl, if_neg (hc _ _ _ rfl)⟩)
  | dropTable t => exact Or.inr (Or.inr ⟨rfl, rfl, if_neg (of_decide_eq_false h)⟩)
  | alterTable t a =>
    by_cases e : t.fq = n
    · rw [orderStep_alter, if_pos e]
      cases a with
      | addColumn d =>
        refine Or.inl ⟨d.name, if_pos e, rfl, ?_⟩
        simp only [orderAction]
        split <;> rfl
      | dropColumn c =>
        refine Or.inr (Or.inl ⟨c, rfl, if_pos e, ?_⟩)
        simp only [orderAction]
        split <;> rfl
      | _ => exact Or.inr (Or.inr ⟨rfl, rfl, rfl⟩)
    · refine Or.inr (Or.inr ⟨?_, ?_, if_neg e⟩)
      · cases a with
        | addColumn d => exact if_neg e
        | _ => rfl
      · cases a with
        | dropColumn c => exact if_neg e
        | _ => rfl
  | _ => exact Or.inr (Or.inr ⟨rfl, rfl, rfl⟩)

/-- added columns go to the end, in the order in which they are added; the others keep their order -/
theorem runOrder_alter {n : String} {stmts : List Statement}
    (hd : ∀ x ∈ stmts, x.ddl.dropsTable n = false)
    (hc : ∀ x ∈ stmts, ∀ t defs p, x.ddl = .createTable t defs p → t.fq ≠ n) {l : List String}
    (hA : (stmts.filterMap fun s => s.ddl.addedName n).Nodup) (hAl : ∀ a ∈ stmts.filterMap fun s => s.ddl.addedName n, a ∉ l)
    (hD : (stmts.filterMap fun s => s.ddl.droppedName n).Nodup)
    (hDl : ∀ c ∈ stmts.filterMap fun s => s.ddl.droppedName n, c ∈ l) :
    runOrder n (some l) stmts = some (some (l.filter (fun c => c ∉ stmts.filterMap fun s => s.ddl.droppedName n) ++
      stmts.filterMap fun s => s.ddl.addedName n)) := by
  induction stmts generalizing l with
  | nil => simp [runOrder, runWith]
  | cons x xs ih =>
    have hd' := fun y hy => hd y (List.mem_cons_of_mem _ hy)
    have hc' := fun y hy => hc y (List.mem_cons_of_mem _ hy)
    rcases orderStep_some (hd x List.mem_cons_self) (hc x List.mem_cons_self) l with ⟨a, h1, h2, h3⟩ | ⟨c, h1, h2, h3⟩ | ⟨h1, h2, h3⟩
    · rw [List.filterMap_cons_some (f := fun s : Statement => s.ddl.addedName n) h1] at hA hAl ⊢
      rw [List.filterMap_cons_none (f := fun s : Statement => s.ddl.droppedName n) h2] at hD hDl ⊢
      have hal : a ∉ l := hAl a List.mem_cons_self
      rw [if_neg hal] at h3
      unfold runOrder
      rw [runWith_cons h3]
      have hcn := List.nodup_cons.mp hA
      refine (ih hd' hc' hcn.2 ?_ hD ?_).trans ?_
      · intro b hb hb'
        rcases List.mem_append.mp hb' with hb' | hb'
        · exact hAl b (List.mem_cons_of_mem _ hb) hb'
        · rw [List.mem_singleton.mp hb'] at hb; exact hcn.1 hb
      · intro c hc; exact List.mem_append_left _ (hDl c hc)
      · have : a ∉ xs.filterMap fun s => s.ddl.droppedName n := fun h => hal (hDl a h)
        rw [List.filter_append, List.filter_cons, if_pos (by simpa using this)]
        simp
    · rw [List.filterMap_cons_none (f := fun s : Statement => s.ddl.addedName n) h1] at hA hAl ⊢
      rw [List.filterMap_cons_some (f := fun s : Statement => s.ddl.droppedName n) h2] at hD hDl ⊢
      have hcl : c ∈ l := hDl c List.mem_cons_self
      rw [if_pos hcl] at h3
      unfold runOrder
      rw [runWith_cons h3]
      have hcn := List.nodup_cons.mp hD
      refine (ih hd' hc' hA ?_ hcn.2 ?_).trans ?_
      · intro a ha ha'
        exact hAl a ha (List.mem_filter.mp ha').1
      · intro b hb
        refine List.mem_filter.mpr ⟨hDl b (List.mem_cons_of_mem _ hb), ?_⟩
        refine decide_eq_true fun e => ?_
        subst e; exact hcn.1 hb
      · rw [List.filter_filter]
        congr 3
        refine List.filter_congr fun y _ => ?_
        by_cases hy : y = c <;> simp [hy]
    · rw [List.filterMap_cons_none (f := fun s : Statement => s.ddl.addedName n) h1] at hA hAl ⊢
      rw [List.filterMap_cons_none (f := fun s : Statement => s.ddl.droppedName n) h2] at hD hDl ⊢
      unfold runOrder
      rw [runWith_cons h3]
      exact ih hd' hc' hA hAl hD hDl

/-! ### the columns added and dropped by a plan -/

theorem column_names {t : SQName} {ld : ListDiff Column ColumnDiff} {p : PartialGraph Statement} {n : String} (e : t.fq = n)
    (h : generatePartialGraph (columnGen t) ld = .ok p) :
    (p.statements.filterMap fun s => s.ddl.addedName n) = ld.adds.map (·.name) ∧
    (p.statements.filterMap fun s => s.ddl.droppedName n) = ld.deletes.map (·.name) := by
  obtain ⟨adds, deletes, alters, h1, h2, h3, rfl⟩ := yields_generatePartialGraph (m := Except Err) (g := columnGen t) h
  rw [PartialGraph.statements_concat, List.flatMap_append, List.flatMap_append]
  clear h
  have k1 : ∀ (f : Statement → Option String) (g : Column → List String),
      (∀ c ∈ ld.adds, ∀ def_ s, buildColumnDefinition c = .ok def_ → s.ddl = .alterTable t (.addColumn def_) →
        (f s).toList = g c) → (adds.flatMap (·.statements)).filterMap f = ld.adds.flatMap g := by
    intro f g hf
    generalize ld.adds = xs at h1 hf
    induction h1 with
    | nil => rfl
    | @cons c q cs qs hc _ ih =>
      obtain ⟨l, deps, k1, _, rfl⟩ := toNew_add (m := Except Err) (g := columnLegacy t) hc
      obtain ⟨def_, hd, k1⟩ := except_bind_ok.mp k1
      obtain ⟨s, rfl, hs⟩ : ∃ s : Statement, l = [s] ∧ s.ddl = .alterTable t (.addColumn def_) := by
        cases k1; exact ⟨_, rfl, rfl⟩
      rw [List.flatMap_cons, List.flatMap_cons, single_statements, List.filterMap_append,
        ih fun y hy => hf y (List.mem_cons_of_mem _ hy), ← hf c List.mem_cons_self def_ s hd hs]
      congr 1
  have k2 : ∀ (f : Statement → Option String) (g : Column → List String),
      (∀ c ∈ ld.deletes, ∀ s, s.ddl = .alterTable t (.dropColumn c.name) →
        (f s).toList = g c) → (deletes.flatMap (·.statements)).filterMap f = ld.deletes.flatMap g := by
    intro f g hf
    generalize ld.deletes = xs at h2 hf
    induction h2 with
    | nil => rfl
    | @cons c q cs qs hc _ ih =>
      obtain ⟨l, deps, k1, _, rfl⟩ := toNew_delete (m := Except Err) (g := columnLegacy t) hc
      obtain ⟨s, rfl, hs⟩ : ∃ s : Statement, l = [s] ∧ s.ddl = .alterTable t (.dropColumn c.name) := by
        cases k1; exact ⟨_, rfl, rfl⟩
      rw [List.flatMap_cons, List.flatMap_cons, single_statements, List.filterMap_append,
        ih fun y hy => hf y (List.mem_cons_of_mem _ hy), ← hf c List.mem_cons_self s hs]
      congr 1
  have k3 : ∀ (f : Statement → Option String), (∀ cd s, ColumnShape t cd s → f s = none) →
      (alters.flatMap (·.statements)).filterMap f = [] := by
    intro f hf
    rw [List.filterMap_eq_nil_iff]
    intro s hs
    obtain ⟨q, hq, hs⟩ := List.mem_flatMap.mp hs
    obtain ⟨cd, hcd, hb⟩ := forall₂_right h3 hq
    obtain ⟨l, deps, k1, _, rfl⟩ := toNew_alter (m := Except Err) (g := columnLegacy t) hb
    rw [single_statements] at hs
    exact hf cd s (ColumnGen.alter_shape k1 hs)
  constructor
  · rw [List.filterMap_append, List.filterMap_append, k1 _ (fun c => [c.name]), k2 _ (fun _ => []), k3]
    · simp [List.map_eq_flatMap]
    · intro cd s hs; cases hs <;> rfl
    · intro c _ s hs; rw [hs]; rfl
    · intro c _ def_ s hd hs; rw [hs]; simp [Ddl.addedName, e, buildColumnDefinition_name hd]
  · rw [List.filterMap_append, List.filterMap_append, k1 _ (fun _ => []), k2 _ (fun c => [c.name]), k3]
    · simp [List.map_eq_flatMap]
    · intro cd s hs; cases hs <;> rfl
    · intro c _ s hs; rw [hs]; simp [Ddl.droppedName, e]
    · intro c _ def_ s hd hs; rw [hs]; rfl

section
variable {opts : PlanOptions} {old new : Schema} {d : SchemaDiff} {r r' : Rand} {stmts : List Statement}

/-- the names of the columns -/
def Spec.columnNames (t : Table) : List String := t.columns.map (·.name)

/-- the order of the columns of a table that is altered in place -/
theorem order_altered {n : String} {o t : Table} {td : TableDiff} {i j : Nat}
    (hb : buildTableDiff o t j i = .ok (td, false)) {g : TableGen} {l : List Statement}
    (hl : yields (g.alter (orderIf opts td)) l) (h : stmts.filter (fun s => s.ddl.onSlots n) = l.filter fun s => s.ddl.onSlots n)
    (hd : stmts.filter (fun s : Statement => s.ddl.dropsTable n) = []) (e : t.name.fq = n) (hp : t.parentTable = none)
    (hu : (columnNames t).Nodup) :
    ∃ added, runOrder n (some (columnNames o)) stmts =
      some (some ((columnNames o).filter (fun c => c ∈ columnNames t) ++ added)) ∧
      added.Perm ((columnNames t).filter fun c => c ∉ columnNames o) := by
  obtain ⟨_, e2, _, _, _, hcols, _⟩ := buildTableDiff_ok hb
  obtain ⟨tr⟩ := table_run hl
  have hnew : (orderIf opts td).new = t := (orderIf_new opts td).trans e2
  have hisp : (orderIf opts td).new.isPartition = false := by rw [hnew]; simp [Table.isPartition, hp]
  obtain ⟨p, hg, hperm⟩ := tr.kind_perm hisp (P := fun s => s.ddl.columnKind) fun _ h => h
  rw [hnew] at hg
  obtain ⟨m1, m2⟩ := column_names e hg
  rw [orderIf_columnsAdds] at m1
  rw [orderIf_columnsDeletes] at m2
  have hou : (columnNames o).Nodup := diffLists_old_nodup hcols
  have hslots : ∀ s ∈ l, s.ddl.onSlots n = true → s.ddl.columnKind = true := by
    intro s hs hp
    cases (table_alter_origin hl hs).shape with
    | column cd h s hs' => cases hs' <;> rfl
    | addColumn c h => rfl
    | dropColumn c h => rfl
    | partDropNotNull => rfl
    | partSetNotNull => rfl
    | _ => simp [stmt, Ddl.onSlots, onColumns, validateConstraintStatement] at hp
  -- the names come from the statements of the column generator
  have hfm : ∀ (f : Statement → Option String), (∀ s, s.ddl.onSlots n = false → f s = none) →
      (∀ s, s.ddl.columnKind = false → f s = none) →
      (stmts.filterMap f).Perm (p.statements.filterMap f) := by
    intro f h1 h2
    have key : ∀ (q : Statement → Bool), (∀ s, q s = false → f s = none) → ∀ l : List Statement,
        l.filterMap f = (l.filter q).filterMap f := by
      intro q hq l
      induction l with
      | nil => rfl
      | cons x xs ih =>
        rw [List.filter_cons]
        cases hx : q x with
        | false => rw [List.filterMap_cons_none (hq x hx), ih]; rfl
        | true =>
          cases hfx : f x with
          | none => rw [List.filterMap_cons_none hfx, if_pos rfl, List.filterMap_cons_none hfx, ih]
          | some y => rw [List.filterMap_cons_some hfx, if_pos rfl, List.filterMap_cons_some hfx, ih]
    rw [key _ h1 stmts, h, ← key _ h1 l, key _ h2 l, key _ h2 p.statements]
    exact hperm.filterMap f
  have hA := hfm (fun s => s.ddl.addedName n) (by
    intro s hs
    cases hd : s.ddl with
    | alterTable t a =>
      rw [hd] at hs
      cases a with
      | addColumn d => exact if_neg (by simpa [Ddl.onSlots, onColumns] using hs)
      | _ => rfl
    | _ => rfl) (by
    intro s hs
    cases hd : s.ddl with
    | alterTable t a => rw [hd] at hs; cases a <;> first | (exfalso; cases hs; done) | rfl
    | _ => rfl)
  have hD := hfm (fun s => s.ddl.droppedName n) (by
    intro s hs
    cases hd : s.ddl with
    | alterTable t a =>
      rw [hd] at hs
      cases a with
      | dropColumn d => exact if_neg (by simpa [Ddl.onSlots, onColumns] using hs)
      | _ => rfl
    | _ => rfl) (by
    intro s hs
    cases hd : s.ddl with
    | alterTable t a => rw [hd] at hs; cases a <;> first | (exfalso; cases hs; done) | rfl
    | _ => rfl)
  rw [m1] at hA
  rw [m2] at hD
  obtain ⟨c1, c2, _, c4, c5, _⟩ := C08_every_object_once hcols hu
  obtain ⟨_, n1, n2, _⟩ := diffLists_decision hcols hu (key := fun cd => cd.new.name)
    (fun o x j i d _ hb => by cases hb; rfl) ""
  have hadds : (td.columnsDiff.adds.map (·.name)).Perm ((columnNames t).filter fun c => c ∉ columnNames o) := by
    refine (List.perm_ext_iff_of_nodup n1 (hu.filter _)).mpr fun c => ?_
    constructor
    · intro hc
      obtain ⟨x, hx, rfl⟩ := List.mem_map.mp hc
      obtain ⟨i, hi⟩ := List.mem_iff_getElem?.mp (c4.subset hx)
      rcases (c1 i x hi).mp hx with h | ⟨_, _, _, _, _, h⟩
      · exact List.mem_filter.mpr ⟨List.mem_map_of_mem (c4.subset hx), decide_eq_true h⟩
      · cases h
    · intro hc
      obtain ⟨h1, h2⟩ := List.mem_filter.mp hc
      obtain ⟨x, hx, rfl⟩ := List.mem_map.mp h1
      obtain ⟨i, hi⟩ := List.mem_iff_getElem?.mp hx
      exact List.mem_map_of_mem ((c1 i x hi).mpr (Or.inl (of_decide_eq_true h2)))
  have hdels : ∀ c, c ∈ td.columnsDiff.deletes.map (·.name) ↔ c ∈ columnNames o ∧ c ∉ columnNames t := by
    intro c
    constructor
    · intro hc
      obtain ⟨x, hx, rfl⟩ := List.mem_map.mp hc
      obtain ⟨i, hi⟩ := List.mem_iff_getElem?.mp (c5 x hx)
      rcases (c2 i x hi).mp hx with h | ⟨_, _, _, _, _, h⟩
      · exact ⟨List.mem_map_of_mem (c5 x hx), h⟩
      · cases h
    · rintro ⟨h1, h2⟩
      obtain ⟨x, hx, rfl⟩ := List.mem_map.mp h1
      obtain ⟨i, hi⟩ := List.mem_iff_getElem?.mp hx
      exact List.mem_map_of_mem ((c2 i x hi).mpr (Or.inl h2))
  have hdn : (td.columnsDiff.deletes.map (·.name)).Nodup := n2
  have hA := hA.trans hadds
  refine ⟨stmts.filterMap fun s => s.ddl.addedName n, ?_, hA⟩
  rw [runOrder_alter (filter_nil_false hd)]
  · congr 3
    refine List.filter_congr fun c hc => ?_
    have : (c ∈ stmts.filterMap fun s => s.ddl.droppedName n) ↔ c ∉ columnNames t := by
      rw [hD.mem_iff, hdels]
      exact ⟨fun h => h.2, fun h => ⟨hc, h⟩⟩
    simp only [this]
    simp
  · intro x hx t' defs p' hx' e'
    have h1 : x ∈ stmts.filter fun s => s.ddl.onSlots n :=
      List.mem_filter.mpr ⟨hx, by rw [hx']; exact decide_eq_true (p := t'.fq = n) e'⟩
    rw [h] at h1
    obtain ⟨h2, h3⟩ := List.mem_filter.mp h1
    have := hslots x h2 h3
    rw [hx'] at this
    cases this
  · exact hA.nodup_iff.mpr (hu.filter _)
  · intro a ha
    simpa using (List.mem_filter.mp (hA.mem_iff.mp ha)).2
  · exact hD.nodup_iff.mpr hdn
  · intro c hc
    exact ((hdels c).mp (hD.mem_iff.mp hc)).1

theorem order_create {t : Table} {defs : List ColumnDef} (p : Option String)
    (hdefs : List.Forall₂ (fun c d => buildColumnDefinition c = .ok d) (packIf opts t).columns defs)
    (hu : (columnNames t).Nodup) {n : String} (e : t.name.fq = n) :
    orderStep n none (.createTable (packIf opts t).name defs p) = some (some (columnNames (packIf opts t))) := by
  have hperm := packIf_columns opts t
  have hnames : defs.map (·.name) = columnNames (packIf opts t) := by
    unfold columnNames
    generalize (packIf opts t).columns = cols at hdefs
    induction hdefs with
    | nil => rfl
    | cons hd _ ih => rw [List.map_cons, List.map_cons, ih, buildColumnDefinition_name hd]
  have hnd : (defs.map (·.name)).Nodup := by rw [hnames]; exact (hperm.map _).nodup_iff.mpr hu
  refine (if_pos ?_).trans ((if_pos hnd).trans ?_)
  · rw [packIf_name]; exact e
  · rw [hnames]

theorem orderOf_some {s : Schema} (hn : (s.tables.map Obj.getName).Nodup) {t : Table} (ht : t ∈ s.tables) {n : String}
    (e : t.name.fq = n) : orderOf s n = some (columnNames t) := by
  unfold orderOf
  cases hf : s.tables.find? (fun t => t.name.fq = n) with
  | none => exact absurd e (by simpa using List.find?_eq_none.mp hf t ht)
  | some y =>
    have : y = t := List.inj_on_of_nodup_map hn (List.mem_of_find?_eq_some hf) ht
      ((by simpa using List.find?_some hf : y.name.fq = n).trans e.symm)
    rw [this]; rfl

theorem orderOf_none {s : Schema} {n : String} (h : n ∉ s.tables.map Obj.getName) : orderOf s n = none := by
  unfold orderOf
  rw [List.find?_eq_none.mpr]
  · rfl
  · intro t ht e
    exact h (List.mem_map.mpr ⟨t, ht, of_decide_eq_true (p := t.name.fq = n) e⟩)

/-- what the theorem asks of the tables called `n` -/
structure Spec.OrderPlannable (old new : Schema) (n : String) : Prop where
  /-- the tables are no partitions -/
  oldRoot : ∀ o ∈ old.tables, o.name.fq = n → o.parentTable = none
  newRoot : ∀ t ∈ new.tables, t.name.fq = n → t.parentTable = none
  names : ∀ t ∈ new.tables, t.name.fq = n → (columnNames t).Nodup

/-- how the columns end up: those that stay in their old order, then the others; in a new table in the given order, unless
they are packed -/
def Spec.OrderEnds (opts : PlanOptions) (old : Schema) (t : Table) (cols : List String) : Prop :=
  cols.Perm (columnNames t) ∧
  (∀ o ∈ old.tables, o.name.fq = t.name.fq → o.isPartitioned = t.isPartitioned →
    (columnNames o).filter (fun c => c ∈ columnNames t) <+: cols) ∧
  ((∀ o ∈ old.tables, o.name.fq = t.name.fq → o.isPartitioned ≠ t.isPartitioned) → opts.dataPackNewTables = false →
    cols = columnNames t)

theorem order_runs (dr : DiffRun opts old new d) (run : PlanRun opts d r r' stmts)
    (hn : (new.tables.map Obj.getName).Nodup) {n : String} (hp : OrderPlannable old new n) :
    (n ∉ new.tables.map Obj.getName → runOrder n (orderOf old n) stmts = some none) ∧
    ∀ t ∈ new.tables, t.name.fq = n → ∃ cols, runOrder n (orderOf old n) stmts = some (some cols) ∧
      OrderEnds opts old t cols := by
  have hno := diffLists_old_nodup dr.htd0
  have hskip : ∀ {s : Option (List String)} {x : Statement}, x.ddl.onSlots n = false → x.ddl.dropsTable n = false →
      orderStep n s x.ddl = some s := fun h h' => orderStep_skip h h' _
  have hdrop : ∀ {o : Table} (x : List String), o.name.fq = n →
      orderStep n (some x) (stmt (.dropTable o.name) [.deletesData] statementTimeoutTableDrop).ddl = some none :=
    fun x e => if_pos e
  have hsame : ∀ {t t' : Table}, t ∈ new.tables → t' ∈ new.tables → t.name.fq = n → t'.name.fq = n → t' = t :=
    fun h h' e e' => List.inj_on_of_nodup_map hn h' h (e'.trans e.symm)
  have hsameO : ∀ {t t' : Table}, t ∈ old.tables → t' ∈ old.tables → t.name.fq = n → t'.name.fq = n → t' = t :=
    fun h h' e e' => List.inj_on_of_nodup_map hno h' h (e'.trans e.symm)
  have hpacked : ∀ t : Table, opts.dataPackNewTables = false → columnNames (packIf opts t) = columnNames t := by
    intro t ho
    unfold packIf
    rw [if_neg (by rw [ho]; simp)]
  cases slot_fate dr run hn n with
  | absent ho hn' h hd =>
    refine ⟨fun _ => ?_, fun t ht e => absurd (List.mem_map.mpr ⟨t, ht, e⟩) hn'⟩
    rw [orderOf_none ho]
    exact runWith_keeps fun x hx => hskip (filter_nil_false h x hx) (filter_nil_false hd x hx)
  | dropped o ho e hn' h hd =>
    refine ⟨fun _ => ?_, fun t ht e => absurd (List.mem_map.mpr ⟨t, ht, e⟩) hn'⟩
    have hd := hd (hp.oldRoot o ho e)
    rw [orderOf_some hno ho e]
    unfold runOrder
    obtain ⟨a, b, rfl, _, ha, hb⟩ := split_once hd
    have hP := filter_nil_false h
    rw [runWith_at (fun y hy => hskip (hP y (by simp [hy])) (ha y hy)) (hdrop _ e)]
    exact runWith_keeps fun y hy => hskip (hP y (by simp [hy])) (hb y hy)
  | added t ht e ho hm l hl h hd =>
    refine ⟨fun h => absurd (List.mem_map.mpr ⟨t, ht, e⟩) h, fun t' ht' e' => ?_⟩
    rw [hsame ht ht' e e']
    obtain ⟨defs, p, s, hdefs, hs, hf⟩ := add_slots hl (n := n) (by rw [packIf_name]; exact e)
    rw [hf] at h
    rw [orderOf_none ho]
    have hD := filter_nil_false hd
    refine ⟨columnNames (packIf opts t), ?_, (packIf_columns opts t).map _, ?_, fun _ => hpacked t⟩
    · obtain ⟨a, b, rfl, _, ha, hb⟩ := split_once h
      have hstep := order_create p hdefs (hp.names t ht e) e
      rw [← hs] at hstep
      unfold runOrder
      rw [runWith_at (s' := some (columnNames (packIf opts t))) (fun y hy => hskip (ha y hy) (hD y (by simp [hy]))) hstep]
      exact runWith_keeps fun y hy => hskip (hb y hy) (hD y (by simp [hy]))
    · intro o ho' eo _
      exact absurd (List.mem_map.mpr ⟨o, ho', eo.trans e⟩) ho
  | recreated o t ho ht eo e hb hm l hl h hd hbefore =>
    refine ⟨fun h => absurd (List.mem_map.mpr ⟨t, ht, e⟩) h, fun t' ht' e' => ?_⟩
    rw [hsame ht ht' e e']
    obtain ⟨defs, p, s, hdefs, hs, hf⟩ := add_slots hl (n := n) (by rw [packIf_name]; exact e)
    rw [hf] at h
    have hd := hd (hp.oldRoot o ho eo)
    rw [orderOf_some hno ho eo]
    refine ⟨columnNames (packIf opts t), ?_, (packIf_columns opts t).map _, ?_, fun _ => hpacked t⟩
    · unfold runOrder
      obtain ⟨a, b, rfl, hx, ha, hb⟩ := split_once hd
      have haP : ∀ y ∈ a, y.ddl.onSlots n = false := by
        intro y hy
        have := hbefore.not_before hx y hy
        simpa using this
      rw [runWith_at (fun y hy => hskip (haP y hy) (ha y hy)) (hdrop _ eo)]
      have h := split_filter h haP (by rfl)
      obtain ⟨a', b', rfl, _, ha', hb'⟩ := split_once h
      have hstep := order_create p hdefs (hp.names t ht e) e
      rw [← hs] at hstep
      rw [runWith_at (s' := some (columnNames (packIf opts t))) (fun y hy => hskip (ha' y hy) (hb y (by simp [hy]))) hstep]
      exact runWith_keeps fun y hy => hskip (hb' y hy) (hb y (by simp [hy]))
    · intro o' ho' eo' hpart
      have : o' = o := hsameO ho ho' eo (eo'.trans e)
      subst this
      obtain ⟨i, j, td, hb⟩ := hb
      exfalso
      unfold buildTableDiff at hb
      rw [if_neg (not_not.mpr hpart)] at hb
      split at hb
      · cases hb
      · rw [if_neg (not_not.mpr ((hp.oldRoot _ ho eo).trans (hp.newRoot t ht e).symm))] at hb
        simp only [except_bind_ok, except_pure_ok] at hb
        obtain ⟨_, _, _, _, _, _, _, _, _, _, e⟩ := hb
        cases e
  | altered o t ho ht eo e td hb hm l hl h hd =>
    refine ⟨fun h => absurd (List.mem_map.mpr ⟨t, ht, e⟩) h, fun t' ht' e' => ?_⟩
    rw [hsame ht ht' e e']
    obtain ⟨i, j, hb⟩ := hb
    obtain ⟨added, h1, h2⟩ := order_altered hb hl h hd e (hp.newRoot t ht e) (hp.names t ht e)
    rw [orderOf_some hno ho eo]
    refine ⟨_, h1, ?_, ?_, ?_⟩
    · refine (List.Perm.append_left _ h2).trans ?_
      have hu := hp.names t ht e
      have hou : (columnNames o).Nodup := diffLists_old_nodup (buildTableDiff_ok hb).2.2.2.2.2.1
      refine List.Perm.trans (l₂ := (columnNames t).filter (fun c => c ∈ columnNames o) ++
        (columnNames t).filter fun c => c ∉ columnNames o) ?_ ?_
      · refine List.Perm.append_right _ ((List.perm_ext_iff_of_nodup (hou.filter _) (hu.filter _)).mpr fun c => ?_)
        simp [and_comm]
      · have := List.filter_append_perm (fun c => decide (c ∈ columnNames o)) (columnNames t)
        refine List.Perm.trans (List.Perm.append_left _ ?_) this
        exact .of_eq (List.filter_congr fun c _ => by simp)
    · intro o' ho' eo' _
      have : o' = o := hsameO ho ho' eo (eo'.trans e)
      subst this
      exact List.prefix_append _ _
    · intro hne
      exact absurd (buildTableDiff_ok hb).2.2.1 (hne o ho (eo.trans e.symm))

theorem orderOf_normalize {s : Schema} (hn : (s.tables.map Obj.getName).Nodup) (n : String) :
    orderOf s.normalize n = orderOf s n := by
  by_cases h : n ∈ s.tables.map Obj.getName
  · obtain ⟨t, ht, e⟩ := List.mem_map.mp h
    rw [orderOf_some hn ht e, orderOf_some (normalize_tables_nodup hn) (mem_normalize_tables_of ht) e]
    rfl
  · rw [orderOf_none h, orderOf_none]
    intro h'
    obtain ⟨t, ht, e⟩ := List.mem_map.mp h'
    obtain ⟨t0, ht0, rfl⟩ := mem_normalize_tables ht
    exact h (List.mem_map.mpr ⟨t0, ht0, e⟩)

/-- **C72**: the order of columns.  Run on the columns of a table that is no partition, every plan is accepted, and ends with
the columns of the target: in a table altered in place, those that stay keep their old order and come first; in a new or
recreated table, they are in the order of the target, unless they are packed.  Missing: the added columns need not be in
the order of the target, see `C72_added_columns_violated`; partitions. -/
theorem C72_column_order_partial (h : generateMigrationStatements r old new opts = .ok (stmts, r'))
    (hn : NamesUnique new.tables) {n : String} (hp : OrderPlannable old new n) :
    (n ∉ new.tables.map Obj.getName → runOrder n (orderOf old n) stmts = some none) ∧
    ∀ t ∈ new.tables, t.name.fq = n → ∃ cols, runOrder n (orderOf old n) stmts = some (some cols) ∧
      OrderEnds opts old t cols := by
  obtain ⟨d, ⟨dr⟩, ⟨run⟩⟩ := plan_runs h
  have ho : NamesUnique old.tables := (normalize_tables_names old).nodup_iff.mp (diffLists_old_nodup dr.htd0)
  rw [← orderOf_normalize ho]
  have hp' : OrderPlannable old.normalize new.normalize n := by
    refine ⟨?_, ?_, ?_⟩
    · intro o h e
      obtain ⟨o0, h0, rfl⟩ := mem_normalize_tables h
      exact hp.oldRoot o0 h0 e
    · intro t h e
      obtain ⟨t0, h0, rfl⟩ := mem_normalize_tables h
      exact hp.newRoot t0 h0 e
    · intro t h e
      obtain ⟨t0, h0, rfl⟩ := mem_normalize_tables h
      exact hp.names t0 h0 e
  obtain ⟨h1, h2⟩ := order_runs dr run (normalize_tables_nodup hn) hp'
  refine ⟨fun h => h1 fun h' => h ?_, ?_⟩
  · obtain ⟨t, ht, e⟩ := List.mem_map.mp h'
    obtain ⟨t0, ht0, rfl⟩ := mem_normalize_tables ht
    exact List.mem_map.mpr ⟨t0, ht0, e⟩
  · intro t ht e
    obtain ⟨cols, k1, k2, k3, k4⟩ := h2 _ (mem_normalize_tables_of ht) e
    refine ⟨cols, k1, k2, ?_, ?_⟩
    · intro o ho eo hpart
      exact k3 (normalizeTable o) (mem_normalize_tables_of ho) eo hpart
    · intro hne
      refine k4 fun o ho eo => ?_
      obtain ⟨o0, ho0, rfl⟩ := mem_normalize_tables ho
      exact hne o0 ho0 eo

/-- **C72**, order respected: if in the target at most one column is new, and it is the last one, a table altered in place
ends with exactly the columns of the target, in its order. -/
theorem C72_order_respected_partial (h : generateMigrationStatements r old new opts = .ok (stmts, r'))
    (hi : opts.ignoreChangesToColOrder = false) (hn : NamesUnique new.tables) {n : String} (hp : OrderPlannable old new n)
    {o t : Table} (ho : o ∈ old.tables) (ht : t ∈ new.tables) (eo : o.name = t.name) (e : t.name.fq = n)
    (hpart : o.isPartitioned = t.isPartitioned) {kept added : List String} (hk : columnNames t = kept ++ added)
    (hkept : ∀ c ∈ kept, c ∈ columnNames o) (hadded : added.length ≤ 1) :
    runOrder n (orderOf old n) stmts = some (some (columnNames t)) := by
  have hu := hp.names t ht e
  have hroot := hp.oldRoot o ho (eo ▸ e)
  have hroot' := hp.newRoot t ht e
  have hou : (columnNames o).Nodup := by
    obtain ⟨d, ⟨dr⟩, ⟨run⟩⟩ := plan_runs h
    obtain ⟨td0, hb, _⟩ := plan_altered dr run (normalize_tables_nodup hn) (mem_normalize_tables_of ht)
      (mem_normalize_tables_of ho) eo hpart (hroot.trans hroot'.symm)
    exact diffLists_old_nodup (buildTableDiff_ok hb).2.2.2.2.2.1
  obtain ⟨cols, hrun, hperm, hpre, _⟩ := (C72_column_order_partial h hn hp).2 t ht e
  have hpre := hpre o ho (by rw [eo]) hpart
  rw [hrun]
  -- columns that stay keep their index
  have hidx : ∀ (i : Nat) (c : String), (columnNames t)[i]? = some c → c ∈ columnNames o → (columnNames o)[i]? = some c := by
    intro i c hc hm
    obtain ⟨j, hj⟩ := List.mem_iff_getElem?.mp hm
    unfold columnNames at hc hj
    rw [List.getElem?_map] at hc hj
    obtain ⟨x, hx, ex⟩ := Option.map_eq_some_iff.mp hc
    obtain ⟨y, hy, ey⟩ := Option.map_eq_some_iff.mp hj
    have := C52_order_respected_partial h hi hn ho ht eo hpart hroot hroot' hu hy hx (ey.trans ex.symm)
    subst this
    unfold columnNames
    rw [List.getElem?_map, hy, Option.map_some, ey]
  -- so the old columns begin with those that stay
  have main : ∀ (k a : List String), columnNames t = k ++ a → (∀ c ∈ k, c ∈ columnNames o) → (∀ c ∈ a, c ∉ columnNames o) →
      a.length ≤ 1 → cols = columnNames t := by
    intro k a hk hko hao hlen
    have hkp : k <+: columnNames o := by
      rw [List.prefix_iff_getElem?]
      intro i hi
      refine hidx i _ ?_ (hko _ (List.getElem_mem hi))
      rw [hk, List.getElem?_append_left hi, List.getElem?_eq_getElem hi]
    obtain ⟨rest, hrest⟩ := hkp
    have hf : (columnNames o).filter (fun c => c ∈ columnNames t) = k := by
      rw [← hrest, List.filter_append, List.filter_eq_self.mpr, List.filter_eq_nil_iff.mpr, List.append_nil]
      · intro c hc hc'
        have hc' : c ∈ columnNames t := of_decide_eq_true hc'
        rw [hk] at hc'
        rcases List.mem_append.mp hc' with h' | h'
        · rw [← hrest] at hou
          exact (List.nodup_append.mp hou).2.2 c h' c hc rfl
        · exact hao c h' (by rw [← hrest]; exact List.mem_append_right _ hc)
      · intro c hc
        exact decide_eq_true (by rw [hk]; exact List.mem_append_left _ hc)
    rw [hf] at hpre
    obtain ⟨b, rfl⟩ := hpre
    rw [hk] at hperm ⊢
    have hb := (List.perm_append_left_iff k).mp hperm
    match a, hlen, hb with
    | [], _, hb => rw [hb.eq_nil]
    | [x], _, hb => rw [List.perm_singleton.mp hb]
  congr 2
  match added, hadded, hk with
  | [], _, hk => exact main kept [] hk hkept (by simp) (by simp)
  | [x], _, hk =>
    by_cases hx : x ∈ columnNames o
    · refine main (kept ++ [x]) [] (by rw [hk, List.append_nil]) ?_ (by simp) (by simp)
      intro c hc
      rcases List.mem_append.mp hc with h' | h'
      · exact hkept c h'
      · rw [List.mem_singleton.mp h']; exact hx
    · exact main kept [x] hk hkept (by simpa using hx) (by simp)

end

open Samples

namespace Samples

/-- the order of columns counts -/
def ordered : PlanOptions := ⟨false, false, false⟩

/-- the table that loses its last column and gets another one -/
def oldSequence : Schema := { Schema.empty with tables := [table "a" [col "x" "integer", col "w" "integer"], table "b" [col "z" "text"]] }

def newSequence (cols : List Column) : Schema := { Schema.empty with tables := [table "a" cols] }

end Samples

/-- **C72** fails in general: the order of columns counts, two columns are added at the end of a table, and they end up in
the order of their names, not in that of the target. -/
theorem C72_added_columns_violated :
    NamesUnique (newSequence [col "x" "integer", col "z" "integer", col "y" "integer"]).tables ∧
    (∀ n, OrderPlannable oldSequence (newSequence [col "x" "integer", col "z" "integer", col "y" "integer"]) n) ∧
    orderOf (newSequence [col "x" "integer", col "z" "integer", col "y" "integer"]) (pub "a").fq = some ["x", "z", "y"] ∧
    ∃ stmts r', generateMigrationStatements Samples.rand oldSequence
        (newSequence [col "x" "integer", col "z" "integer", col "y" "integer"]) ordered = .ok (stmts, r') ∧
      runOrder (pub "a").fq (orderOf oldSequence (pub "a").fq) stmts = some (some ["x", "y", "z"]) := by
  refine ⟨by unfold NamesUnique; decide +kernel, fun n => ⟨?_, ?_, ?_⟩, by decide +kernel,
    exists_plan (P := fun stmts => runOrder (pub "a").fq (orderOf oldSequence (pub "a").fq) stmts = some (some ["x", "y", "z"]))
      (by decide +kernel)⟩
  · exact fun o ho _ => (by decide +kernel : ∀ o ∈ oldSequence.tables, o.parentTable = none) o ho
  · exact fun o ho _ => (by decide +kernel : ∀ o ∈ (newSequence [col "x" "integer", col "z" "integer",
      col "y" "integer"]).tables, o.parentTable = none) o ho
  · exact fun o ho _ => (by decide +kernel : ∀ o ∈ (newSequence [col "x" "integer", col "z" "integer",
      col "y" "integer"]).tables, (columnNames o).Nodup) o ho

/-- the theorems are not vacuous: a column dropped, one added, the order counts -/
example : NamesUnique (newSequence [col "x" "integer", col "y" "integer"]).tables ∧
    (∀ n, OrderPlannable oldSequence (newSequence [col "x" "integer", col "y" "integer"]) n) ∧
    columnNames (table "a" [col "x" "integer", col "y" "integer"]) = ["x"] ++ ["y"] ∧
    ∃ stmts r', generateMigrationStatements Samples.rand oldSequence (newSequence [col "x" "integer", col "y" "integer"]) ordered =
        .ok (stmts, r') ∧ runOrder (pub "a").fq (orderOf oldSequence (pub "a").fq) stmts = some (some ["x", "y"]) ∧
      runOrder (pub "b").fq (orderOf oldSequence (pub "b").fq) stmts = some none := by
  refine ⟨by unfold NamesUnique; decide +kernel, fun n => ⟨?_, ?_, ?_⟩, rfl,
    exists_plan (P := fun stmts => runOrder (pub "a").fq (orderOf oldSequence (pub "a").fq) stmts = some (some ["x", "y"]) ∧
      runOrder (pub "b").fq (orderOf oldSequence (pub "b").fq) stmts = some none) (by decide +kernel)⟩
  · exact fun o ho _ => (by decide +kernel : ∀ o ∈ oldSequence.tables, o.parentTable = none) o ho
  · exact fun o ho _ => (by decide +kernel : ∀ o ∈ (newSequence [col "x" "integer", col "y" "integer"]).tables,
      o.parentTable = none) o ho
  · exact fun o ho _ => (by decide +kernel : ∀ o ∈ (newSequence [col "x" "integer", col "y" "integer"]).tables,
      (columnNames o).Nodup) o ho

end Verif
