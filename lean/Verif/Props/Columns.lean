import Verif.Spec.Columns
import Verif.Lemmas.TableFate
import Verif.Props.Check
import Verif.Props.Column
import Verif.Props.DataPack

/-!
# Tables and columns converge (C71)
-/

namespace Verif

open Spec

/-! ### the statements about a table and its columns -/

/-- creates the table `n`, or is about one of its columns -/
def Ddl.onSlots (n : String) : Ddl → Bool
  | .createTable t _ _ => t.fq = n
  | .alterTable t a => t.fq = n && onColumns a
  | .analyze t _ => t.fq = n
  | _ => false

theorem slotStep_skip (pg : Pg) {n c : String} {x : Ddl} (h : x.onSlots n = false) (h' : x.dropsTable n = false) (s : Slot) :
    slotStep pg n c s x = some s := by
  cases x with
  | createTable t defs p => exact if_neg (of_decide_eq_false h)
  | dropTable t => exact if_neg (of_decide_eq_false h')
  | alterTable t a => exact if_neg (by rw [show (decide (t.fq = n) && onColumns a) = false from h]; simp)
  | _ => rfl

section
variable {opts : PlanOptions} {old new : Schema} {d : SchemaDiff} {r r' : Rand} {stmts : List Statement}

theorem slot_id {st : GenState} {n : String} {id : VertexId} {s : Statement} (h : GraphShape opts d st id s)
    (hs : s.ddl.onSlots n = true) : id = ⟨"table", n, .addAlter⟩ := by
  cases h with
  | newTable t h ccs hc s hs' hid =>
    cases hs' with
    | create defs p => have := of_decide_eq_true hs; rw [hid]; unfold tableVertexId; rw [← this]
    | check c h => simp [stmt, Ddl.onSlots, onColumns] at hs
    | replica => simp [stmt, Ddl.onSlots, onColumns] at hs
    | enableRLS => simp [stmt, Ddl.onSlots, onColumns] at hs
    | forceRLS => simp [stmt, Ddl.onSlots, onColumns] at hs
    | _ => cases hs
  | alterTable td h s hs' hid =>
    have key : td.new.name.fq = n → id = ⟨"table", n, .addAlter⟩ := by
      intro e; rw [hid]; unfold tableVertexId; rw [← e]
    cases hs' with
    | column cd h s hs' =>
      refine key ?_
      cases hs' <;> simp [stmt, Ddl.onSlots, onColumns] at hs <;> exact hs
    | addColumn c h => refine key ?_; simp [stmt, Ddl.onSlots, onColumns] at hs; exact hs
    | dropColumn c h => refine key ?_; simp [stmt, Ddl.onSlots, onColumns] at hs; exact hs
    | partDropNotNull => refine key ?_; simp [stmt, Ddl.onSlots, onColumns] at hs; exact hs
    | partSetNotNull => refine key ?_; simp [stmt, Ddl.onSlots, onColumns] at hs; exact hs
    | _ => simp [stmt, Ddl.onSlots, onColumns, validateConstraintStatement] at hs
  | _ => simp [stmt, Ddl.onSlots, onColumns, validateConstraintStatement] at hs

/-- what happens to the columns of one table -/
theorem slot_fate (dr : DiffRun opts old new d) (run : PlanRun opts d r r' stmts)
    (hn : (new.tables.map Obj.getName).Nodup) (n : String) :
    TableFate opts old new d n (fun s => s.ddl.onSlots n) stmts := by
  refine table_fate dr run hn (fun id s h hs => slot_id h hs) ?_ ?_
  · intro s h
    cases hs : s.ddl with
    | alterTable t a => rw [hs] at h; cases a <;> cases h
    | _ => rw [hs] at h; first | (exfalso; cases h; done) | rfl
  · intro s h
    cases hs : s.ddl <;> rw [hs] at h <;> first | (exfalso; cases h; done) | rfl

/-! ### a new table -/

theorem find_perm {l l' : List Column} (h : l.Perm l') (hn : (l.map (·.name)).Nodup) (c : String) :
    l.find? (fun x => x.name = c) = l'.find? fun x => x.name = c := by
  have hn' : (l'.map (·.name)).Nodup := (h.map _).nodup_iff.mp hn
  have key : ∀ {l : List Column}, (l.map (·.name)).Nodup → ∀ {x}, x ∈ l → x.name = c →
      l.find? (fun x => x.name = c) = some x := by
    intro l hn x hx e
    cases hf : l.find? (fun x => x.name = c) with
    | none => exact absurd e (by simpa using List.find?_eq_none.mp hf x hx)
    | some y =>
      have : y = x := List.inj_on_of_nodup_map hn (List.mem_of_find?_eq_some hf) hx
        ((by simpa using List.find?_some hf : y.name = c).trans e.symm)
      rw [this]
  cases hf : l.find? (fun x => x.name = c) with
  | none =>
    refine (List.find?_eq_none.mpr fun x hx => ?_).symm
    exact List.find?_eq_none.mp hf x (h.mem_iff.mpr hx)
  | some y => exact (key hn' (h.mem_iff.mp (List.mem_of_find?_eq_some hf)) (by simpa using List.find?_some hf)).symm

theorem packIf_columns (opts : PlanOptions) (t : Table) : (packIf opts t).columns.Perm t.columns := by
  unfold packIf
  split
  · exact List.perm_insertionSort _ _
  · exact .refl _

/-- the columns of a created table -/
theorem created_slot {pg : Pg} {l : List Column} {defs : List ColumnDef}
    (h : List.Forall₂ (fun c d => buildColumnDefinition c = .ok d) l defs) (hok : ∀ c ∈ l, ColumnOk pg c) (c : String) :
    defs.map (·.name) = l.map (·.name) ∧ defs.all definitionOk = true ∧
      (defs.find? fun d => d.name = c).map (ColState.created pg) = (l.find? fun x => x.name = c).map .of := by
  induction h with
  | nil => exact ⟨rfl, rfl, rfl⟩
  | @cons x d l defs hd _ ih =>
    obtain ⟨i1, i2, i3⟩ := ih fun y hy => hok y (List.mem_cons_of_mem _ hy)
    obtain ⟨_, k1, k2, _⟩ := created_of hd (hok x List.mem_cons_self)
    have hname := buildColumnDefinition_name hd
    refine ⟨by simp [hname, i1], by simp only [List.all_cons, k2, i2]; rfl, ?_⟩
    rw [List.find?_cons, List.find?_cons]
    by_cases e : x.name = c
    · simp [hname, e, k1]
    · simp only [hname, e]
      exact i3

/-- the statements of a new table that are about its columns -/
theorem add_slots {g : TableGen} {t : Table} {l : List Statement} (h : g.add t = .ok l) {n : String} (e : t.name.fq = n) :
    ∃ defs p s, List.Forall₂ (fun c d => buildColumnDefinition c = .ok d) t.columns defs ∧
      s.ddl = .createTable t.name defs p ∧ l.filter (fun s => s.ddl.onSlots n) = [s] := by
  obtain ⟨ccs, defs, rest, _, hdefs, rfl, hrest⟩ := TableGen.add_create h
  refine ⟨defs, if t.isPartitioned then some t.partitionKeyDef else none,
    stmt (.createTable t.name defs (if t.isPartitioned then some t.partitionKeyDef else none)), hdefs, rfl, ?_⟩
  rw [List.filter_cons]
  refine (if_pos (decide_eq_true (p := t.name.fq = n) e)).trans ?_
  rw [List.filter_eq_nil_iff.mpr]
  intro s hs hp
  obtain ⟨h1, h2⟩ := hrest s hs
  cases h1 with
  | create defs p => exact h2 _ _ _ rfl
  | check c h => simp [stmt, Ddl.onSlots, onColumns] at hp
  | replica => simp [stmt, Ddl.onSlots, onColumns] at hp
  | enableRLS => simp [stmt, Ddl.onSlots, onColumns] at hp
  | forceRLS => simp [stmt, Ddl.onSlots, onColumns] at hp
  | _ => cases hp

/-- `CREATE TABLE` where there is no table -/
theorem slot_create {pg : Pg} {t : Table} {defs : List ColumnDef} (p : Option String)
    (hdefs : List.Forall₂ (fun c d => buildColumnDefinition c = .ok d) (packIf opts t).columns defs)
    (hu : (t.columns.map (·.name)).Nodup) (hok : ∀ c ∈ t.columns, ColumnOk pg c) {n : String} (e : t.name.fq = n) (c : String) :
    slotStep pg n c none (.createTable (packIf opts t).name defs p) = some (some (columnOf t c)) := by
  have hperm := packIf_columns opts t
  obtain ⟨k1, k2, k3⟩ := created_slot hdefs (fun x hx => hok x (hperm.mem_iff.mp hx)) c
  have hnd : (defs.map (·.name)).Nodup := by rw [k1]; exact (hperm.map _).nodup_iff.mpr hu
  refine (if_pos ?_).trans ((if_pos ⟨hnd, k2⟩).trans ?_)
  · rw [packIf_name]; exact e
  · rw [k3, find_perm hperm ((hperm.map _).nodup_iff.mpr hu)]
    rfl

/-! ### a table that is altered -/

theorem mem_column_graph {t : SQName} {ld : ListDiff Column ColumnDiff} {p : PartialGraph Statement}
    (h : generatePartialGraph (columnGen t) ld = .ok p) {s : Statement} (hs : s ∈ p.statements) :
    (∃ c ∈ ld.adds, ∃ def_, buildColumnDefinition c = .ok def_ ∧ s.ddl = .alterTable t (.addColumn def_)) ∨
    (∃ c ∈ ld.deletes, s.ddl = .alterTable t (.dropColumn c.name)) ∨
    ∃ cd ∈ ld.alters, ColumnShape t cd s := by
  cases mem_of_legacy (m := Except Err) (g := columnLegacy t) h hs with
  | add o mem l h hs =>
    obtain ⟨def_, hd, h⟩ := except_bind_ok.mp h
    cases h
    rw [List.mem_singleton.mp hs]
    exact Or.inl ⟨o, mem, def_, hd, rfl⟩
  | delete o mem l h hs =>
    cases h
    rw [List.mem_singleton.mp hs]
    exact Or.inr (Or.inl ⟨o, mem, rfl⟩)
  | alter o mem l h hs => exact Or.inr (Or.inr ⟨o, mem, ColumnGen.alter_shape h hs⟩)

/-- the statements of the column generator that are not about a column leave it alone -/
theorem slotStep_other {pg : Pg} {t : SQName} {ld : ListDiff Column ColumnDiff} {p : PartialGraph Statement}
    (h : generatePartialGraph (columnGen t) ld = .ok p) (hnames : ∀ cd ∈ ld.alters, cd.old.name = cd.new.name)
    {s : Statement} (hs : s ∈ p.statements) {n c : String} (hc : s.ddl.onColumn t c = false) (x : Option ColState) :
    slotStep pg n c (some x) s.ddl = some (some x) := by
  have key : ∀ a, s.ddl = .alterTable t a → slotAction pg c x a = some x → slotStep pg n c (some x) s.ddl = some (some x) := by
    intro a e h
    rw [e]
    by_cases hb : (decide (t.fq = n) && onColumns a) = true
    · exact (if_pos hb).trans (by rw [h]; rfl)
    · exact if_neg hb
  rcases mem_column_graph h hs with ⟨c', _, def_, hd, e⟩ | ⟨c', _, e⟩ | ⟨cd, hcd, hsh⟩
  · refine key _ e ?_
    rw [e] at hc
    exact if_neg (by simpa [Ddl.onColumn] using hc)
  · refine key _ e ?_
    rw [e] at hc
    exact if_neg (by simpa [Ddl.onColumn] using hc)
  · rw [hsh.onColumn (hnames cd hcd)] at hc
    have hne : cd.new.name ≠ c := fun e => of_decide_eq_false hc ⟨rfl, e⟩
    have hne' : cd.old.name ≠ c := by rw [hnames cd hcd]; exact hne
    cases hsh with
    | analyze => rfl
    | _ => exact key _ rfl (if_neg (by assumption))

/-- on the column that a diff alters, the statements act as they do on a column alone -/
theorem slot_alter {pg : Pg} {t : SQName} {cd : ColumnDiff} {l : List Statement} (h : ColumnGen.alter t cd = .ok l)
    (hname : cd.old.name = cd.new.name) {n : String} (e : t.fq = n) (st : ColState) :
    runWith (slotStep pg n cd.new.name) (some (some st)) l = (runColumn pg t cd.new.name st l).map fun x => some (some x) := by
  have hsh : ∀ s ∈ l, ColumnShape t cd s := fun s hs => ColumnGen.alter_shape h hs
  clear h
  induction l generalizing st with
  | nil => rfl
  | cons s l ih =>
    have hstep : slotStep pg n cd.new.name (some (some st)) s.ddl =
        (columnStep pg t cd.new.name st s.ddl).map fun x => some (some x) := by
      have key : ∀ a, slotStep pg n cd.new.name (some (some st)) (.alterTable t (.alterColumn cd.new.name a)) =
          (columnStep pg t cd.new.name st (.alterTable t (.alterColumn cd.new.name a))).map fun x => some (some x) := by
        intro a
        refine (if_pos (by simp [e, onColumns])).trans ?_
        rw [show columnStep pg t cd.new.name st (.alterTable t (.alterColumn cd.new.name a)) = alterColumn pg st a from
            if_pos ⟨rfl, rfl⟩, show slotAction pg cd.new.name (some st) (.alterColumn cd.new.name a) =
            ((some st).bind fun st => alterColumn pg st a).map some from if_pos rfl]
        simp [Option.map_map, Function.comp_def]
      cases hsh s List.mem_cons_self with
      | analyze => rfl
      | _ => first | exact key _ | (simp only [stmt, hname]; exact key _)
    rw [runWith, runColumn, hstep]
    cases hc : columnStep pg t cd.new.name st s.ddl with
    | none => rfl
    | some st' => exact ih st' fun s hs => hsh s (List.mem_cons_of_mem _ hs)

theorem filter_named {l : List Column} (hn : (l.map (·.name)).Nodup) {x : Column} (hx : x ∈ l) {c : String} (e : x.name = c) :
    l.filter (fun y => y.name = c) = [x] := by
  induction l with
  | nil => cases hx
  | cons y l ih =>
    simp only [List.map_cons, List.nodup_cons] at hn
    rw [List.filter_cons]
    rcases List.mem_cons.mp hx with rfl | hx
    · rw [if_pos (by simpa using e), List.filter_eq_nil_iff.mpr]
      intro z hz hz'
      exact hn.1 (List.mem_map.mpr ⟨z, hz, (by simpa using hz' : z.name = c).trans e.symm⟩)
    · rw [if_neg (by
        intro hy
        exact hn.1 (List.mem_map.mpr ⟨x, hx, e.trans (by simpa using hy : y.name = c).symm⟩))]
      exact ih hn.2 hx

theorem filter_unnamed {l : List Column} {c : String} (h : c ∉ l.map (·.name)) : l.filter (fun y => y.name = c) = [] := by
  rw [List.filter_eq_nil_iff]
  intro y hy hy'
  exact h (List.mem_map.mpr ⟨y, hy, by simpa using hy'⟩)

theorem columnOf_some {t : Table} (hn : (t.columns.map (·.name)).Nodup) {x : Column} (hx : x ∈ t.columns) {c : String}
    (e : x.name = c) : columnOf t c = some (.of x) := by
  unfold columnOf
  rw [← List.head?_filter, filter_named hn hx e]
  rfl

theorem columnOf_none {t : Table} {c : String} (h : c ∉ t.columns.map (·.name)) : columnOf t c = none := by
  unfold columnOf
  rw [← List.head?_filter, filter_unnamed h]
  rfl

theorem slotStep_isSome {pg : Pg} {n c : String} {x : Ddl} (h : x.dropsTable n = false) {s s' : Slot} (hs : s.isSome = true)
    (e : slotStep pg n c s x = some s') : s'.isSome = true := by
  obtain ⟨y, rfl⟩ := Option.isSome_iff_exists.mp hs
  have keep : ∀ {z : Slot}, some (some y) = some z → z.isSome = true := by
    intro z h; cases h; rfl
  cases x with
  | createTable t defs p =>
    have e : (if t.fq = n then none else some (some y)) = some s' := e
    split at e
    · cases e
    · exact keep e
  | dropTable t =>
    have e : (if t.fq = n then some none else some (some y)) = some s' := e
    rw [if_neg (of_decide_eq_false h)] at e
    exact keep e
  | alterTable t a =>
    have e : (if (decide (t.fq = n) && onColumns a) = true then (slotAction pg c y a).map some else some (some y)) = some s' := e
    split at e
    · obtain ⟨z, _, rfl⟩ := Option.map_eq_some_iff.mp e
      rfl
    · exact keep e
  | _ => exact keep e

/-- a column that is kept: what C19 asks for -/
structure KeptColumn (pg : Pg) (o c : Column) : Prop where
  case : CaseDistinct o c
  generated : o.isGenerated = c.isGenerated
  using_ : o.isGenerated = true → TypeChange o c → pg.usingOnGenerated = true
  identity : TypeChange o c → ∀ i, c.identity = some i → identityOk o.type i = true ∧ rebase o.type c.type i = i
  default : TypeChange o c → o.default ≠ "" → c.default ≠ "" →
    ∃ e, pg.castDefault o.type c.type o.default = some e ∧ (o.default = c.default → e = c.default)

/-- the column of a table that is altered in place -/
theorem slot_altered {pg : Pg} {n : String} {o t : Table} {td : TableDiff} {i j : Nat}
    (hb : buildTableDiff o t j i = .ok (td, false)) {g : TableGen} {l : List Statement}
    (hl : yields (g.alter (orderIf opts td)) l) (h : stmts.filter (fun s => s.ddl.onSlots n) = l.filter fun s => s.ddl.onSlots n)
    (hd : stmts.filter (fun s : Statement => s.ddl.dropsTable n) = []) (e : t.name.fq = n) (hp : t.parentTable = none)
    (hu : (t.columns.map (·.name)).Nodup) (hoko : ∀ c ∈ o.columns, ColumnOk pg c) (hok : ∀ c ∈ t.columns, ColumnOk pg c)
    (hkept : ∀ oc ∈ o.columns, ∀ c ∈ t.columns, oc.name = c.name → KeptColumn pg oc c) (c : String) :
    runSlot pg n c (some (columnOf o c)) stmts = some (some (columnOf t c)) := by
  obtain ⟨_, e2, _, _, _, hcols, _⟩ := buildTableDiff_ok hb
  obtain ⟨tr⟩ := table_run hl
  have hnew : (orderIf opts td).new = t := (orderIf_new opts td).trans e2
  have hisp : (orderIf opts td).new.isPartition = false := by rw [hnew]; simp [Table.isPartition, hp]
  have hnames : ∀ cd ∈ (orderIf opts td).columnsDiff.alters, cd.old.name = cd.new.name := by
    intro cd hcd
    obtain ⟨cd0, h0, x1, x2⟩ := orderIf_columns opts td hcd
    rw [x1, x2]; exact ((columnsDiff_alters hcols).1 cd0 h0).2.2
  obtain ⟨p, hg, hperm⟩ := tr.kind_perm hisp (P := fun s => s.ddl.columnKind) fun _ h => h
  have hkind : ∀ s ∈ l, s.ddl.onSlots n = true → s.ddl.columnKind = true := by
    intro s hs hp
    cases (table_alter_origin hl hs).shape with
    | column cd h s hs' => cases hs' <;> rfl
    | addColumn c h => rfl
    | dropColumn c h => rfl
    | partDropNotNull => rfl
    | partSetNotNull => rfl
    | _ => simp [stmt, Ddl.onSlots, onColumns, validateConstraintStatement] at hp
  have hmem : ∀ s ∈ stmts, s.ddl.onSlots n = true → s ∈ p.statements := by
    intro s hs hp
    have h1 : s ∈ stmts.filter fun s => s.ddl.onSlots n := List.mem_filter.mpr ⟨hs, hp⟩
    rw [h] at h1
    have h2 := (List.mem_filter.mp h1).1
    exact (List.mem_filter.mp (hperm.mem_iff.mp (List.mem_filter.mpr ⟨h2, hkind s h2 hp⟩))).1
  have hcs : ∀ s : Statement, s.ddl.onColumn t.name c = true → s.ddl.onSlots n = true := by
    intro s hs
    have htn := decide_eq_true (p := t.name.fq = n) e
    unfold Ddl.onColumn at hs
    split at hs
    · rename_i he; obtain ⟨h1, _⟩ := Bool.and_eq_true_iff.mp hs
      rw [he, of_decide_eq_true h1]; simp [Ddl.onSlots, onColumns, e]
    · rename_i he; obtain ⟨h1, _⟩ := Bool.and_eq_true_iff.mp hs
      rw [he, of_decide_eq_true h1]; simp [Ddl.onSlots, onColumns, e]
    · rename_i he; obtain ⟨h1, _⟩ := Bool.and_eq_true_iff.mp hs
      rw [he, of_decide_eq_true h1]; simp [Ddl.onSlots, onColumns, e]
    · rename_i he; obtain ⟨h1, _⟩ := Bool.and_eq_true_iff.mp hs
      rw [he, of_decide_eq_true h1]; simp [Ddl.onSlots, e]
    · cases hs
  have hdrops := filter_nil_false hd
  have hrun : runSlot pg n c (some (columnOf o c)) stmts =
      runWith (slotStep pg n c) (some (columnOf o c)) (l.filter fun s => s.ddl.onColumn t.name c) := by
    unfold runSlot
    rw [runWith_filter (I := fun s : Slot => s.isSome = true) (P := fun s => s.ddl.onColumn t.name c) ?_ ?_ rfl]
    · congr 1
      have hf : ∀ l : List Statement, l.filter (fun s => s.ddl.onColumn t.name c) =
          (l.filter fun s => s.ddl.onSlots n).filter fun s => s.ddl.onColumn t.name c := by
        intro l
        rw [List.filter_filter]
        refine List.filter_congr fun s _ => ?_
        cases hc : s.ddl.onColumn t.name c with
        | false => rfl
        | true => rw [hcs s hc]; rfl
      rw [hf stmts, h, ← hf l]
    · intro x hx hc s hs
      obtain ⟨y, rfl⟩ := Option.isSome_iff_exists.mp hs
      cases ho : x.ddl.onSlots n with
      | false => exact slotStep_skip pg ho (hdrops x hx) _
      | true => rw [hnew] at hg; exact slotStep_other hg hnames (hmem x hx ho) hc y
    · intro x hx _ s s' hs he
      exact slotStep_isSome (hdrops x hx) hs he
  rw [hrun]
  have hpl : (l.filter fun s => s.ddl.onColumn t.name c).Perm (p.statements.filter fun s => s.ddl.onColumn t.name c) := by
    have hf : ∀ l : List Statement, l.filter (fun s => s.ddl.onColumn t.name c) =
        (l.filter fun s => s.ddl.columnKind).filter fun s => s.ddl.onColumn t.name c := by
      intro l
      rw [List.filter_filter]
      refine List.filter_congr fun s _ => ?_
      cases hc : s.ddl.onColumn t.name c with
      | false => rfl
      | true => rw [Ddl.onColumn_kind hc]; rfl
    rw [hf l, hf p.statements]
    exact hperm.filter _
  rw [hnew] at hg
  obtain ⟨adds, deletes, alters, k1, k2, k3, k4⟩ := column_graph hg hnames c
  rw [orderIf_columnsAdds] at k2
  rw [orderIf_columnsDeletes] at k3
  obtain ⟨dec, n1, n2, n3, n4, n5, n6⟩ := diffLists_decision hcols hu (key := fun cd => cd.new.name)
    (fun o x j i d _ hb => by cases hb; rfl) c
  have hou := diffLists_old_nodup hcols
  have hadds : c ∉ td.columnsDiff.adds.map (·.name) → adds = [] := by
    intro h
    rw [filter_unnamed h] at k2
    cases k2; rfl
  have hdels : c ∉ td.columnsDiff.deletes.map (·.name) → deletes = [] := by
    intro h
    rw [filter_unnamed h] at k3
    cases k3; rfl
  have halts : c ∉ td.columnsDiff.alters.map (fun cd => cd.new.name) → alters = [] := by
    intro h
    refine k4 fun cd hcd e => h ?_
    obtain ⟨cd0, h0, x1, x2⟩ := orderIf_columns opts td hcd
    exact List.mem_map.mpr ⟨cd0, h0, by rw [← x2]; exact e⟩
  have hsub : ∀ x ∈ td.columnsDiff.adds, x ∈ t.columns := fun x hx => diffLists_adds_mem hcols hx
  have hsub' : ∀ x ∈ td.columnsDiff.deletes, x ∈ o.columns := fun x hx => diffLists_deletes_mem hcols hx
  have hnadd : c ∉ t.columns.map (·.name) → c ∉ td.columnsDiff.adds.map (·.name) := by
    intro h h'
    obtain ⟨x, hx, ex⟩ := List.mem_map.mp h'
    exact h (List.mem_map.mpr ⟨x, hsub x hx, ex⟩)
  have hndel : c ∉ o.columns.map (·.name) → c ∉ td.columnsDiff.deletes.map (·.name) := by
    intro h h'
    obtain ⟨x, hx, ex⟩ := List.mem_map.mp h'
    exact h (List.mem_map.mpr ⟨x, hsub' x hx, ex⟩)
  cases dec with
  | absent h1 h2 =>
    have : l.filter (fun s => s.ddl.onColumn t.name c) = [] := by
      rw [k1, hadds (hnadd h2), hdels (hndel h1), halts fun h => h1 (n6 h).1] at hpl
      exact hpl.eq_nil
    rw [this, columnOf_none h1, columnOf_none h2]
    rfl
  | dropped x hx ex h2 hdel =>
    rw [filter_named n2 hdel ex] at k3
    rw [k1, hadds (hnadd h2), halts fun h => h2 (n6 h).2] at hpl
    rcases k3 with _ | ⟨hs, _ | _⟩
    rename_i s
    have : l.filter (fun s => s.ddl.onColumn t.name c) = [s] := List.perm_singleton.mp hpl
    rw [this, columnOf_some hou hx ex, columnOf_none h2]
    rw [show x.name = c from ex] at hs
    have hstep : slotStep pg n c (some (some (.of x))) s.ddl = some (some none) := by
      rw [hs]
      refine (if_pos (by simp [e, onColumns])).trans ?_
      simp [slotAction]
    rw [runWith_cons hstep]
    rfl
  | added x hx ex h1 hadd =>
    rw [filter_named n1 hadd ex] at k2
    rw [k1, hdels (hndel h1), halts fun h => h1 (n6 h).1] at hpl
    rcases k2 with _ | ⟨⟨def_, hdef, hs⟩, _ | _⟩
    rename_i s
    have : l.filter (fun s => s.ddl.onColumn t.name c) = [s] := List.perm_singleton.mp hpl
    rw [this, columnOf_some hu hx ex, columnOf_none h1]
    obtain ⟨_, q1, q2, _⟩ := created_of hdef (hok x hx)
    have hstep : slotStep pg n c (some none) s.ddl = some (some (some (.of x))) := by
      rw [hs]
      refine (if_pos (by simp [e, onColumns])).trans ?_
      simp [slotAction, buildColumnDefinition_name hdef, show x.name = c from ex, q1, q2]
    rw [runWith_cons hstep]
    rfl
  | recreated x y hx hy ex ey hb' _ _ => obtain ⟨_, _, _, hb'⟩ := hb'; cases hb'
  | altered x y cd hx hy ex ey hb' hcd =>
    have hcin : c ∈ td.columnsDiff.alters.map fun cd => cd.new.name := by
      obtain ⟨_, _, hb'⟩ := hb'
      cases hb'
      exact List.mem_map.mpr ⟨_, hcd, ey⟩
    obtain ⟨cd', hcd', g1, g2⟩ := mem_orderIf_columns opts hcd
    have ho : cd'.old = x := by obtain ⟨_, _, hb'⟩ := hb'; cases hb'; exact g1
    have hn : cd'.new = y := by obtain ⟨_, _, hb'⟩ := hb'; cases hb'; exact g2
    obtain ⟨lc, m1, m2⟩ := tr.column_filter hisp hcd' (by
      rw [orderIf_column_names]; exact n3) hnames
    rw [hnew] at m1 m2
    have hbody : l.filter (fun s => s.ddl.onColumn t.name c) = lc := by
      rw [← m2, hn, show y.name = c from ey]
      refine List.filter_congr fun s hs => ?_
      cases hk : s.ddl.onColumn t.name c with
      | false =>
        refine (Bool.eq_false_iff.mpr fun hb => ?_).symm
        refine Bool.false_ne_true (hk.symm.trans ?_)
        unfold Ddl.columnBody at hb
        split at hb
        · rename_i he; rw [he]; exact hb
        · rename_i he; rw [he]; exact hb
        · cases hb
      | true =>
        have hsp : s ∈ p.statements := by
          refine (List.mem_filter.mp (hperm.mem_iff.mp (List.mem_filter.mpr ⟨hs, Ddl.onColumn_kind hk⟩))).1
        rcases mem_column_graph hg hsp with ⟨c', hc', def_, hd, es⟩ | ⟨c', hc', es⟩ | ⟨cd, hcd, hsh⟩
        · rw [orderIf_columnsAdds] at hc'
          rw [es] at hk
          have : c'.name = c := by simpa [Ddl.onColumn, buildColumnDefinition_name hd] using hk
          exact absurd hcin (n4 (List.mem_map.mpr ⟨c', hc', this⟩))
        · rw [orderIf_columnsDeletes] at hc'
          rw [es] at hk
          have : c'.name = c := by simpa [Ddl.onColumn] using hk
          exact absurd hcin (n5 (List.mem_map.mpr ⟨c', hc', this⟩))
        · rw [hsh.columnBody (hnames cd hcd), ← hsh.onColumn (hnames cd hcd), hk]
    have hname : cd'.old.name = cd'.new.name := hnames cd' hcd'
    have hk : KeptColumn pg x y := hkept x hx y hy (by rw [← ho, ← hn]; exact hname)
    rw [hbody, columnOf_some hou hx ex, columnOf_some hu hy ey]
    have := slot_alter (pg := pg) m1 hname e (.of x)
    rw [hn, show y.name = c from ey] at this
    rw [this, ← ho, ← show y.name = c from ey, ← hn, runColumn_alter pg t.name cd' m1 hname]
    · rw [Option.map_some, ho, hn, hk.generated]
      rfl
    · rw [ho]; exact hoko x hx
    · rw [hn]; exact hok y hy
    all_goals rw [ho, hn]
    · exact hk.case
    · intro hg
      have hg' := hk.generated ▸ hg
      refine ⟨?_, (hok y hy).generated hg', hk.using_ hg⟩
      cases hi : y.identity with
      | none => rfl
      | some i => exact absurd ((hok y hy).identity i hi).2.2.1 (by rw [hg']; simp)
    · exact hk.identity
    · exact hk.default

/-! ### C71 -/

/-- what the theorem asks of the tables called `n` -/
structure Spec.ColumnsPlannable (pg : Pg) (old new : Schema) (n : String) : Prop where
  /-- the table is no partition, unless it is new -/
  oldRoot : ∀ o ∈ old.tables, o.name.fq = n → o.parentTable = none
  /-- the columns are as Postgres can have them -/
  names : ∀ t ∈ new.tables, t.name.fq = n → (t.columns.map (·.name)).Nodup
  oldOk : ∀ o ∈ old.tables, o.name.fq = n → ∀ c ∈ o.columns, ColumnOk pg c
  newOk : ∀ t ∈ new.tables, t.name.fq = n → ∀ c ∈ t.columns, ColumnOk pg c
  /-- columns that are kept change in ways C19 covers -/
  kept : ∀ o ∈ old.tables, ∀ t ∈ new.tables, o.name.fq = n → t.name.fq = n → o.isPartitioned = t.isPartitioned →
    ∀ oc ∈ o.columns, ∀ c ∈ t.columns, oc.name = c.name → KeptColumn pg oc c

theorem slotOf_some {s : Schema} (hn : (s.tables.map Obj.getName).Nodup) {t : Table} (ht : t ∈ s.tables) {n : String}
    (e : t.name.fq = n) (c : String) : slotOf s n c = some (columnOf t c) := by
  unfold slotOf
  cases hf : s.tables.find? (fun t => t.name.fq = n) with
  | none => exact absurd e (by simpa using List.find?_eq_none.mp hf t ht)
  | some y =>
    have : y = t := List.inj_on_of_nodup_map hn (List.mem_of_find?_eq_some hf) ht
      ((by simpa using List.find?_some hf : y.name.fq = n).trans e.symm)
    rw [this]; rfl

theorem slotOf_none {s : Schema} {n : String} (h : n ∉ s.tables.map Obj.getName) (c : String) : slotOf s n c = none := by
  unfold slotOf
  rw [List.find?_eq_none.mpr]
  · rfl
  · intro t ht e
    exact h (List.mem_map.mpr ⟨t, ht, of_decide_eq_true (p := t.name.fq = n) e⟩)

theorem slots_converge (dr : DiffRun opts old new d) (run : PlanRun opts d r r' stmts)
    (hn : (new.tables.map Obj.getName).Nodup) {pg : Pg} {n : String} (hp : ColumnsPlannable pg old new n) (c : String) :
    runSlot pg n c (slotOf old n c) stmts = some (slotOf new n c) := by
  have hno := diffLists_old_nodup dr.htd0
  have hskip : ∀ {s : Slot} {x : Statement}, x.ddl.onSlots n = false → x.ddl.dropsTable n = false →
      slotStep pg n c s x.ddl = some s := fun h h' => slotStep_skip pg h h' _
  have hdrop : ∀ {o : Table} (x : Option ColState), o.name.fq = n →
      slotStep pg n c (some x) (stmt (.dropTable o.name) [.deletesData] statementTimeoutTableDrop).ddl = some none :=
    fun x e => if_pos e
  unfold runSlot
  cases slot_fate dr run hn n with
  | absent ho hn' h hd =>
    rw [slotOf_none ho, slotOf_none hn']
    exact runWith_keeps fun x hx => hskip (filter_nil_false h x hx) (filter_nil_false hd x hx)
  | dropped o ho e hn' h hd =>
    have hd := hd (hp.oldRoot o ho e)
    rw [slotOf_some hno ho e, slotOf_none hn']
    obtain ⟨a, b, rfl, _, ha, hb⟩ := split_once hd
    have hP := filter_nil_false h
    rw [runWith_at (fun y hy => hskip (hP y (by simp [hy])) (ha y hy)) (hdrop _ e)]
    exact runWith_keeps fun y hy => hskip (hP y (by simp [hy])) (hb y hy)
  | added t ht e ho hm l hl h hd =>
    obtain ⟨defs, p, s, hdefs, hs, hf⟩ := add_slots hl (n := n) (by rw [packIf_name]; exact e)
    rw [hf] at h
    rw [slotOf_none ho, slotOf_some hn ht e]
    have hD := filter_nil_false hd
    obtain ⟨a, b, rfl, _, ha, hb⟩ := split_once h
    have hstep := slot_create p hdefs (hp.names t ht e) (hp.newOk t ht e) e c
    rw [← hs] at hstep
    rw [runWith_at (s' := some (columnOf t c)) (fun y hy => hskip (ha y hy) (hD y (by simp [hy]))) hstep]
    exact runWith_keeps fun y hy => hskip (hb y hy) (hD y (by simp [hy]))
  | recreated o t ho ht eo e hb hm l hl h hd hbefore =>
    obtain ⟨defs, p, s, hdefs, hs, hf⟩ := add_slots hl (n := n) (by rw [packIf_name]; exact e)
    rw [hf] at h
    have hd := hd (hp.oldRoot o ho eo)
    rw [slotOf_some hno ho eo, slotOf_some hn ht e]
    obtain ⟨a, b, rfl, hx, ha, hb⟩ := split_once hd
    have haP : ∀ y ∈ a, y.ddl.onSlots n = false := by
      intro y hy
      have := hbefore.not_before hx y hy
      simpa using this
    rw [runWith_at (fun y hy => hskip (haP y hy) (ha y hy)) (hdrop _ eo)]
    have h := split_filter h haP (by rfl)
    obtain ⟨a', b', rfl, _, ha', hb'⟩ := split_once h
    have hstep := slot_create p hdefs (hp.names t ht e) (hp.newOk t ht e) e c
    rw [← hs] at hstep
    rw [runWith_at (s' := some (columnOf t c)) (fun y hy => hskip (ha' y hy) (hb y (by simp [hy]))) hstep]
    exact runWith_keeps fun y hy => hskip (hb' y hy) (hb y (by simp [hy]))
  | altered o t ho ht eo e td hb hm l hl h hd =>
    obtain ⟨i, j, hb⟩ := hb
    rw [slotOf_some hno ho eo, slotOf_some hn ht e]
    obtain ⟨_, _, hkind, _, hparent, _⟩ := buildTableDiff_ok hb
    exact slot_altered hb hl h hd e (hparent.symm.trans (hp.oldRoot o ho eo)) (hp.names t ht e) (hp.oldOk o ho eo) (hp.newOk t ht e)
      (hp.kept o ho t ht eo e hkind) c

theorem find_normalize {l : List Table} (hn : (l.map Obj.getName).Nodup) (n c : String) :
    ∀ (s : Schema), s.tables = l → slotOf s.normalize n c = slotOf s n c := by
  rintro s rfl
  by_cases h : n ∈ s.tables.map Obj.getName
  · obtain ⟨t, ht, e⟩ := List.mem_map.mp h
    rw [slotOf_some hn ht e, slotOf_some (normalize_tables_nodup hn) (mem_normalize_tables_of ht) e]
    rfl
  · rw [slotOf_none h, slotOf_none]
    intro h'
    obtain ⟨t, ht, e⟩ := List.mem_map.mp h'
    obtain ⟨t0, ht0, rfl⟩ := mem_normalize_tables ht
    exact h (List.mem_map.mpr ⟨t0, ht0, e⟩)

theorem columnsPlannable_normalize {pg : Pg} {n : String} (hp : ColumnsPlannable pg old new n) :
    ColumnsPlannable pg old.normalize new.normalize n := by
  refine ⟨?_, ?_, ?_, ?_, ?_⟩
  · intro o h e
    obtain ⟨o0, h0, rfl⟩ := mem_normalize_tables h
    exact hp.oldRoot o0 h0 e
  · intro t h e
    obtain ⟨t0, h0, rfl⟩ := mem_normalize_tables h
    exact hp.names t0 h0 e
  · intro o h e
    obtain ⟨o0, h0, rfl⟩ := mem_normalize_tables h
    exact hp.oldOk o0 h0 e
  · intro t h e
    obtain ⟨t0, h0, rfl⟩ := mem_normalize_tables h
    exact hp.newOk t0 h0 e
  · intro o h t h' e e' hpart
    obtain ⟨o0, h0, rfl⟩ := mem_normalize_tables h
    obtain ⟨t0, h0', rfl⟩ := mem_normalize_tables h'
    exact hp.kept o0 h0 t0 h0' e e' hpart

/-- **C71**: tables and columns converge.  Take a table name and a column name.  Running the plan never creates a table that
exists, never drops or alters a table that does not, accepts every statement about the columns of the table, and ends with
the table absent, or present without the column, or present with the column as the target has it: type, collation, NOT NULL,
default, generated or not, identity.  Missing: partitions that are there before, whose columns are those of their parent
(C89); and the changes of kept columns that C19 refutes. -/
theorem C71_tables_and_columns_converge_partial (h : generateMigrationStatements r old new opts = .ok (stmts, r'))
    (hn : NamesUnique new.tables) {pg : Pg} {n : String} (hp : ColumnsPlannable pg old new n) (c : String) :
    runSlot pg n c (slotOf old n c) stmts = some (slotOf new n c) := by
  obtain ⟨d, ⟨dr⟩, ⟨run⟩⟩ := plan_runs h
  have ho : NamesUnique old.tables := (normalize_tables_names old).nodup_iff.mp (diffLists_old_nodup dr.htd0)
  rw [← find_normalize ho n c old rfl, ← find_normalize hn n c new rfl]
  exact slots_converge dr run (normalize_tables_nodup hn) (columnsPlannable_normalize hp) c

end

namespace Samples

/-- the old schema: `a` is altered, `b` is dropped, `p` is recreated since it is no longer partitioned -/
def oldColumns : Schema := { Schema.empty with
  tables := [table "a" [col "x" "integer", { col "y" "integer" with default := "1" }, col "w" "integer"],
    table "b" [col "z" "integer"], parent "p" [col "x" "integer"] "LIST (x)"] }

/-- the new schema: in `a`, `x` changes its type and becomes an identity column, `y` loses its default, `w` is dropped and
`v` is added; `c` is new -/
def newColumns : Schema := { Schema.empty with
  tables := [table "a" [{ col "x" "bigint" with
      isNullable := false
      identity := some { intIdentity with maxValue := 1000 } }, col "y" "integer", { col "v" "integer" with default := "7" }],
    table "c" [col "z" "integer", { col "g" "integer" with
      isGenerated := true
      generationExpression := "z + 1" }], table "p" [col "x" "integer", col "u" "integer"]] }

/-- checks `KeptColumn` in the Postgres of the samples -/
def keptOk (o c : Column) : Bool :=
  decide ((equalFold o.type c.type = true → o.type = c.type) ∧
    (equalFold o.collation.fq c.collation.fq = true → o.collation = c.collation) ∧ o.isGenerated = c.isGenerated ∧
    c.identity.all (fun i => decide (identityOk o.type i = true ∧ rebase o.type c.type i = i)) = true)

theorem keptColumn_of {o c : Column} (h : keptOk o c = true) : KeptColumn pg o c := by
  obtain ⟨h1, h2, h3, h4⟩ := of_decide_eq_true h
  refine ⟨⟨h1, h2⟩, h3, fun _ _ => rfl, ?_, fun _ _ _ => ⟨o.default, rfl, id⟩⟩
  intro _ i hi
  rw [hi] at h4
  exact of_decide_eq_true h4

/-- checks `ColumnsPlannable` for all names -/
def columnsChecked (old new : Schema) : Bool :=
  decide ((∀ o ∈ old.tables, o.parentTable = none ∧ ∀ c ∈ o.columns, ColumnOk pg c) ∧
    (∀ t ∈ new.tables, (t.columns.map (·.name)).Nodup ∧ ∀ c ∈ t.columns, ColumnOk pg c) ∧
    ∀ o ∈ old.tables, ∀ t ∈ new.tables, o.name.fq = t.name.fq → o.isPartitioned = t.isPartitioned →
      ∀ oc ∈ o.columns, ∀ c ∈ t.columns, oc.name = c.name → keptOk oc c = true)

theorem columnsPlannable_of {old new : Schema} (h : columnsChecked old new = true) (n : String) :
    ColumnsPlannable pg old new n := by
  obtain ⟨h1, h2, h3⟩ := of_decide_eq_true h
  exact ⟨fun o ho _ => (h1 o ho).1, fun t ht _ => (h2 t ht).1, fun o ho _ => (h1 o ho).2,
    fun t ht _ => (h2 t ht).2, fun o ho t ht e e' hp oc hoc c hc hn =>
      keptColumn_of (h3 o ho t ht (e.trans e'.symm) hp oc hoc c hc hn)⟩

end Samples

open Samples

/-- `C71_tables_and_columns_converge_partial` is not vacuous: a table altered in place (a column changed, one added, one
dropped), one dropped, one created and one recreated -/
example : NamesUnique newColumns.tables ∧ (∀ n, ColumnsPlannable pg oldColumns newColumns n) ∧
    slotOf oldColumns (pub "a").fq "x" ≠ slotOf newColumns (pub "a").fq "x" ∧
    ∃ stmts r', generateMigrationStatements Samples.rand oldColumns newColumns opts = .ok (stmts, r') ∧
      stmts.length = 14 ∧ (stmts.any fun s : Statement => s.ddl.render = "ALTER TABLE \"public\".\"a\" DROP COLUMN \"w\"") ∧
      (stmts.any fun s : Statement => s.ddl.render = "DROP TABLE \"public\".\"p\"") :=
  ⟨by unfold NamesUnique; decide +kernel, columnsPlannable_of (by decide +kernel), by decide +kernel,
    exists_plan (P := fun stmts => stmts.length = 14 ∧
      (stmts.any fun s : Statement => s.ddl.render = "ALTER TABLE \"public\".\"a\" DROP COLUMN \"w\"") ∧
      (stmts.any fun s : Statement => s.ddl.render = "DROP TABLE \"public\".\"p\"")) (by decide +kernel)⟩

end Verif
