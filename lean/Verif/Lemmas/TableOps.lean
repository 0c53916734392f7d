import Verif.Lemmas.TableFate
import Verif.Lemmas.PlanFate

/-!
# How a plan makes and drops a table
-/

namespace Verif

/-- a statement that creates the table `n` -/
def Ddl.createsTable (n : String) : Ddl → Bool
  | .createTable x _ _ => x.fq = n
  | _ => false

theorem allBefore_or {σ : Type} {P Q R : σ → Prop} {l : List σ} (h1 : AllBefore P Q l) (h2 : AllBefore P R l) :
    AllBefore P (fun s => Q s ∨ R s) l := by
  refine List.Pairwise.imp ?_ (List.Pairwise.and h1 h2)
  rintro a b ⟨h1, h2⟩ ⟨h | h, hp⟩
  · exact h1 ⟨h, hp⟩
  · exact h2 ⟨h, hp⟩

theorem allBefore_nil_left {σ : Type} {p : σ → Bool} {Q : σ → Prop} {l : List σ} (h : l.filter p = []) :
    AllBefore (fun s => p s = true) Q l := allBefore_of_not_left fun s hs hp => List.filter_eq_nil_iff.mp h s hs hp

theorem allBefore_nil_right {σ : Type} {p : σ → Bool} {Q : σ → Prop} {l : List σ} (h : l.filter p = []) :
    AllBefore Q (fun s => p s = true) l := allBefore_of_not_right fun s hs hp => List.filter_eq_nil_iff.mp h s hs hp

theorem filter_or_of_before {σ : Type} {p q : σ → Bool} {l : List σ}
    (h : AllBefore (fun s => p s = true) (fun s => q s = true) l) (hd : ∀ s, p s = true → q s = true → False) :
    l.filter (fun s => p s || q s) = l.filter p ++ l.filter q := by
  have := h.filter_eq fun s hs => hd s hs.1 hs.2
  simp only [Bool.decide_eq_true] at this
  rw [← this]
  refine List.filter_congr fun s _ => ?_
  rw [Bool.decide_or, Bool.decide_eq_true, Bool.decide_eq_true]

/-- four kinds of statements, one after the other -/
theorem filter_four {σ : Type} {a b c e : σ → Bool} {l : List σ}
    (ab : AllBefore (fun s => a s = true) (fun s => b s = true) l)
    (ac : AllBefore (fun s => a s = true) (fun s => c s = true) l)
    (ae : AllBefore (fun s => a s = true) (fun s => e s = true) l)
    (bc : AllBefore (fun s => b s = true) (fun s => c s = true) l)
    (be : AllBefore (fun s => b s = true) (fun s => e s = true) l)
    (ce : AllBefore (fun s => c s = true) (fun s => e s = true) l)
    (hab : ∀ s, a s = true → b s = true → False) (hac : ∀ s, a s = true → c s = true → False)
    (hae : ∀ s, a s = true → e s = true → False) (hbc : ∀ s, b s = true → c s = true → False)
    (hbe : ∀ s, b s = true → e s = true → False) (hce : ∀ s, c s = true → e s = true → False) :
    l.filter (fun s => a s || (b s || (c s || e s))) = l.filter a ++ (l.filter b ++ (l.filter c ++ l.filter e)) := by
  have or_true : ∀ {x y : Bool}, (x || y) = true ↔ x = true ∨ y = true := by simp
  have h3 : AllBefore (fun s => b s = true) (fun s => (c s || e s) = true) l :=
    (allBefore_or bc be).mono (fun _ _ h => h) fun s _ h => or_true.mp h
  have h2 : AllBefore (fun s => a s = true) (fun s => (b s || (c s || e s)) = true) l :=
    (allBefore_or ab (allBefore_or ac ae)).mono (fun _ _ h => h) fun s _ h =>
      (or_true.mp h).imp id fun h => or_true.mp h
  rw [filter_or_of_before h2 fun s h h' => (or_true.mp h').elim (hab s h) fun h' => (or_true.mp h').elim (hac s h) (hae s h),
    filter_or_of_before h3 fun s h h' => (or_true.mp h').elim (hbc s h) (hbe s h), filter_or_of_before ce hce]

section
variable {opts : PlanOptions} {old new : Schema} {d : SchemaDiff} {r r' : Rand} {stmts : List Statement}

theorem GraphShape.createTable_vertex {st : GenState} {id : VertexId} {s : Statement} (h : GraphShape opts d st id s)
    {n : String} (hs : s.ddl.createsTable n = true) :
    ∃ t ∈ d.tableDiffs.adds, t.name.fq = n ∧ id = tableVertexId t.name .addAlter := by
  cases h with
  | newTable t h ccs hc s hs' hid =>
    cases hs' with
    | create cols hcols => exact ⟨t, h, of_decide_eq_true (p := t.name.fq = n) hs, hid⟩
    | _ => cases hs
  | alterTable td h s hs' hid =>
    cases hs' with
    | column cd h s hs' => cases hs' <;> cases hs
    | _ => cases hs
  | _ => cases hs

theorem GraphShape.dropTable_vertex {st : GenState} {id : VertexId} {s : Statement} (h : GraphShape opts d st id s)
    {n : String} (hs : s.ddl.dropsTable n = true) :
    ∃ t ∈ d.tableDiffs.deletes, t.name.fq = n ∧ id = tableVertexId t.name .delete := by
  cases h with
  | dropTable t h hp hid => exact ⟨t, h, of_decide_eq_true (p := t.name.fq = n) hs, hid⟩
  | newTable t h ccs hc s hs' hid => cases hs' <;> cases hs
  | alterTable td h s hs' hid =>
    cases hs' with
    | column cd h s hs' => cases hs' <;> cases hs
    | _ => cases hs
  | _ => cases hs

/-- how a plan makes and drops the table `n` -/
inductive TableOps (opts : PlanOptions) (old new : Schema) (d : SchemaDiff) (n : String) (stmts : List Statement) : Prop where
  | absent (ho : n ∉ old.tables.map Obj.getName) (hn : n ∉ new.tables.map Obj.getName)
      (hc : stmts.filter (fun s : Statement => s.ddl.createsTable n) = [])
      (hd : stmts.filter (fun s : Statement => s.ddl.dropsTable n) = [])
  | dropped (o : Table) (ho : o ∈ old.tables) (e : o.name.fq = n) (hn : n ∉ new.tables.map Obj.getName)
      (hc : stmts.filter (fun s : Statement => s.ddl.createsTable n) = [])
      (hd : o.parentTable = none → ∃ s, s.ddl = .dropTable o.name ∧
        stmts.filter (fun s : Statement => s.ddl.dropsTable n) = [s])
  | added (t : Table) (ht : t ∈ new.tables) (e : t.name.fq = n) (ho : n ∉ old.tables.map Obj.getName)
      (hm : packIf opts t ∈ d.tableDiffs.adds)
      (hc : ∃ s cols p, s.ddl = .createTable t.name cols p ∧
        stmts.filter (fun s : Statement => s.ddl.createsTable n) = [s])
      (hd : stmts.filter (fun s : Statement => s.ddl.dropsTable n) = [])
  | recreated (o t : Table) (ho : o ∈ old.tables) (ht : t ∈ new.tables) (eo : o.name.fq = n) (e : t.name.fq = n)
      (hm : packIf opts t ∈ d.tableDiffs.adds)
      (hc : ∃ s cols p, s.ddl = .createTable t.name cols p ∧
        stmts.filter (fun s : Statement => s.ddl.createsTable n) = [s])
      (hd : o.parentTable = none → ∃ s, s.ddl = .dropTable o.name ∧
        stmts.filter (fun s : Statement => s.ddl.dropsTable n) = [s])
      (hbefore : AllBefore (fun s : Statement => s.ddl.dropsTable n = true) (fun s => s.ddl.createsTable n = true) stmts)
  | altered (o t : Table) (ho : o ∈ old.tables) (ht : t ∈ new.tables) (eo : o.name.fq = n) (e : t.name.fq = n)
      (td : TableDiff) (hb : ∃ i j, buildTableDiff o t j i = .ok (td, false)) (hm : orderIf opts td ∈ d.tableDiffs.alters)
      (hc : stmts.filter (fun s : Statement => s.ddl.createsTable n) = [])
      (hd : stmts.filter (fun s : Statement => s.ddl.dropsTable n) = [])

theorem add_creates {t : Table} {l : List Statement} (h : (SchemaGen.tableGen d).add t = .ok l) {n : String} (e : t.name.fq = n) :
    ∃ s cols p, s.ddl = .createTable t.name cols p ∧ l.filter (fun s : Statement => s.ddl.createsTable n) = [s] := by
  obtain ⟨ccs, cols, rest, _, _, rfl, hr⟩ := TableGen.add_create h
  refine ⟨stmt (.createTable t.name cols (if t.isPartitioned then some t.partitionKeyDef else none)), cols, _, rfl, ?_⟩
  have : rest.filter (fun s : Statement => s.ddl.createsTable n) = [] := by
    rw [List.filter_eq_nil_iff]
    intro s hs hh
    have := (hr s hs).2
    cases hd : s.ddl <;> rw [hd] at hh this <;> first | cases hh | exact this _ _ _ rfl
  have hh : Ddl.createsTable n (stmt (.createTable t.name cols (if t.isPartitioned then some t.partitionKeyDef else none))).ddl =
    true := decide_eq_true (p := t.name.fq = n) e
  rw [List.filter_cons, if_pos hh]
  rw [this]

theorem table_ops (dr : DiffRun opts old new d) (run : PlanRun opts d r r' stmts) (hn : (new.tables.map Obj.getName).Nodup)
    (n : String) : TableOps opts old new d n stmts := by
  have fate := table_fate dr run hn (n := n) (P := fun s : Statement => s.ddl.createsTable n) (by
      intro id s h hs
      obtain ⟨t, _, rfl, hid⟩ := h.createTable_vertex hs
      exact hid) (by
      intro s h
      cases hs : s.ddl <;> rw [hs] at h <;> first | rfl | cases h) (by
      intro s h
      cases hs : s.ddl <;> rw [hs] at h <;> first | rfl | cases h)
  cases fate with
  | absent ho hn h hd => exact .absent ho hn h hd
  | dropped o ho e hn h hd => exact .dropped o ho e hn h fun hp => ⟨_, rfl, hd hp⟩
  | added t ht e ho hm l hl h hd =>
    obtain ⟨s, cols, p, h1, h2⟩ := add_creates hl (n := n) (by rw [packIf_name]; exact e)
    rw [packIf_name] at h1
    exact .added t ht e ho hm ⟨s, cols, p, h1, h.trans h2⟩ hd
  | recreated o t ho ht eo e hb hm l hl h hd hbefore =>
    obtain ⟨s, cols, p, h1, h2⟩ := add_creates hl (n := n) (by rw [packIf_name]; exact e)
    rw [packIf_name] at h1
    exact .recreated o t ho ht eo e hm ⟨s, cols, p, h1, h.trans h2⟩ (fun hp => ⟨_, rfl, hd hp⟩) hbefore
  | altered o t ho ht eo e td hb hm l hl h hd =>
    refine .altered o t ho ht eo e td hb hm ?_ hd
    rw [h, List.filter_eq_nil_iff]
    intro s hs hh
    have := (table_alter_origin hl hs).shape
    cases this with
    | column cd h s hs' => cases hs' <;> cases hh
    | _ => cases hh

end
end Verif
