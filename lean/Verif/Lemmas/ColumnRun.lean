import Verif.Lemmas.Focus

/-!
# The statements of a plan that add, drop or alter columns
-/

namespace Verif

/-- statements about a column of a table -/
def Ddl.onColumn (n : SQName) (c : String) : Ddl → Bool
  | .alterTable t (.addColumn d) => t = n && d.name = c
  | .alterTable t (.dropColumn c') => t = n && c' = c
  | .alterTable t (.alterColumn c' _) => t = n && c' = c
  | .analyze t c' => t = n && c' = c
  | _ => false

/-- statements about columns -/
def Ddl.columnKind : Ddl → Bool
  | .alterTable _ (.addColumn _) => true
  | .alterTable _ (.dropColumn _) => true
  | .alterTable _ (.alterColumn _ _) => true
  | .analyze _ _ => true
  | _ => false

theorem Ddl.onColumn_kind {n : SQName} {c : String} {x : Ddl} (h : x.onColumn n c = true) : x.columnKind = true := by
  unfold Ddl.onColumn at h
  split at h <;> first | rfl | cases h

theorem Ddl.onColumn_tableBody {n : SQName} {c : String} {x : Ddl} (h : x.onColumn n c = true) : x.tableBody n = true := by
  unfold Ddl.onColumn at h
  split at h <;> simp_all [Ddl.tableBody]

/-- the statements about columns are those of the generator of columns -/
theorem BaseRun.kind_perm {d : TableDiff} {temps : List CheckConstraint} {body : List Statement}
    (run : BaseRun d temps body) {P : Statement → Bool} (hP : ∀ s, P s = true → s.ddl.columnKind = true) :
    (body.filter P).Perm (run.columns.statements.filter P) := by
  have hother : ∀ p ∈ [run.checks, run.policies, run.privileges], ∀ s ∈ p.statements, s.ddl.columnKind = false := by
    intro p hp s hs
    simp only [List.mem_cons, List.not_mem_nil, or_false] at hp
    rcases hp with rfl | rfl | rfl
    · cases mem_of_legacy (m := Except Err) run.hchecks hs with
      | add o mem l h hs =>
        rcases (CheckGen.add_ok h).2 with ⟨hv, rfl⟩ | ⟨hv, _, rfl⟩
        · rw [List.mem_singleton.mp hs]; rfl
        · simp only [List.mem_cons, List.not_mem_nil, or_false] at hs
          rcases hs with rfl | rfl <;> rfl
      | delete o mem l h hs =>
        obtain ⟨_, rfl⟩ := CheckGen.delete_ok h
        rw [List.mem_singleton.mp hs]; rfl
      | alter o mem l h hs =>
        obtain ⟨_, _, _, rfl⟩ := CheckGen.alter_ok h
        split at hs
        · rw [List.mem_singleton.mp hs]; rfl
        · cases hs
    · cases mem_of_legacy (m := Except Err) run.hpolicies hs with
      | add o mem l h hs =>
        obtain ⟨cmd, hcmd, h⟩ := except_bind_ok.mp h
        cases h; rw [List.mem_singleton.mp hs]; rfl
      | delete o mem l h hs => cases h; rw [List.mem_singleton.mp hs]; rfl
      | alter o mem l h hs =>
        obtain ⟨_, ⟨_, _, _, rfl⟩ | rfl⟩ := PolicyGen.alter_ok h
        · cases hs
        · rw [List.mem_singleton.mp hs]; rfl
    · cases mem_of_legacy (m := Except Err) run.hprivileges hs with
      | add o mem l h hs => cases h; rw [List.mem_singleton.mp hs]; rfl
      | delete o mem l h hs => cases h; rw [List.mem_singleton.mp hs]; rfl
      | alter o mem l h hs => cases h; cases hs
  have hnil : ∀ l : List Statement, (∀ s ∈ l, s.ddl.columnKind = false) → l.filter P = [] := by
    intro l hl
    rw [List.filter_eq_nil_iff]
    intro s hs hp
    exact absurd (hP s hp) (by rw [hl s hs]; simp)
  have h1 : (run.ordered.filter P).Perm (run.columns.statements.filter P) := by
    refine ((C02_order_is_permutation _ run.hordered).filter P).trans ?_
    rw [PartialGraph.statements_concat, List.flatMap_cons, List.filter_append, filter_flatMap,
      flatMap_eq_nil_of fun p hp => hnil _ (hother p hp), List.append_nil]
  have h2 : (run.dropTemps.flatMap (·.statements)).filter P = [] := by
    rw [filter_flatMap, forall₂_flatMap_nil run.hdropTemps]
    intro a ha b hb
    obtain ⟨l, deps, k1, _, rfl⟩ := toNew_delete (m := Except Err) (g := (TableGen.checkGen d).legacy) hb
    obtain ⟨_, rfl⟩ := CheckGen.delete_ok k1
    rw [single_statements]
    exact hnil _ fun s hs => by rw [List.mem_singleton.mp hs]; rfl
  have e : body.filter P = run.ordered.filter P := by
    conv_lhs => rw [run.hbody]
    rw [List.filter_append, h2, List.append_nil]
  rw [e]
  exact h1

theorem TableRun.kind_perm {g : TableGen} {d : TableDiff} {stmts : List Statement} (run : TableRun g d stmts)
    (hp : d.new.isPartition = false) {P : Statement → Bool} (hP : ∀ s, P s = true → s.ddl.columnKind = true) :
    ∃ p, generatePartialGraph (columnGen d.new.name) d.columnsDiff = .ok p ∧ (stmts.filter P).Perm (p.statements.filter P) := by
  obtain ⟨b⟩ := base_run (run.hbase hp)
  refine ⟨b.columns, b.hcolumns, ?_⟩
  have hnil : ∀ l : List Statement, (∀ s ∈ l, s.ddl.columnKind = false) → l.filter P = [] := by
    intro l hl
    rw [List.filter_eq_nil_iff]
    intro s hs hp
    exact absurd (hP s hp) (by rw [hl s hs]; simp)
  have e : ∀ (c : Bool) (x : Statement), x.ddl.columnKind = false → (if c then [x] else []).filter P = [] := by
    intro c x hx
    refine hnil _ fun s hs => ?_
    cases c
    · cases hs
    · rw [List.mem_singleton.mp hs]; exact hx
  have er : run.replica.filter P = [] := by
    rcases run.hreplica with ⟨_, e⟩ | ⟨_, s, h, e⟩
    · rw [e]; rfl
    · rw [e]
      obtain ⟨ty, _, rfl⟩ := alterReplicaIdentityStatement_ok h
      exact hnil _ fun s hs => by rw [List.mem_singleton.mp hs]; rfl
  have es : stmts.filter P = run.body.filter P := by
    conv_lhs => rw [run.hstmts]
    simp only [List.filter_append, er]
    rw [e _ _ rfl, e _ _ rfl, e _ _ rfl, e _ _ rfl]
    simp
  rw [es]
  exact b.kind_perm hP

theorem ColumnShape.onColumn {t t' : SQName} {cd : ColumnDiff} {c : String} {s : Statement} (h : ColumnShape t cd s)
    (hn : cd.old.name = cd.new.name) : s.ddl.onColumn t' c = decide (t = t' ∧ cd.new.name = c) := by
  cases h <;> simp [stmt, Ddl.onColumn, hn, Bool.decide_and]

theorem buildColumnDefinition_name {c : Column} {d : ColumnDef} (h : buildColumnDefinition c = .ok d) : d.name = c.name := by
  obtain ⟨i, _, h⟩ := except_bind_ok.mp h
  cases h; rfl

/-- the statements about the columns with a name, given the differences of the columns -/
theorem column_graph {t : SQName} {ld : ListDiff Column ColumnDiff} {p : PartialGraph Statement}
    (h : generatePartialGraph (columnGen t) ld = .ok p) (hnames : ∀ cd ∈ ld.alters, cd.old.name = cd.new.name) (n : String) :
    ∃ adds deletes alters, p.statements.filter (fun s => s.ddl.onColumn t n) = adds ++ deletes ++ alters ∧
      List.Forall₂ (fun c s => ∃ def_, buildColumnDefinition c = .ok def_ ∧ s.ddl = .alterTable t (.addColumn def_))
        (ld.adds.filter fun c => c.name = n) adds ∧
      List.Forall₂ (fun (c : Column) s => s.ddl = .alterTable t (.dropColumn c.name)) (ld.deletes.filter fun c => c.name = n) deletes ∧
      ((∀ cd ∈ ld.alters, cd.new.name ≠ n) → alters = []) := by
  obtain ⟨adds, deletes, alters, h1, h2, h3, e⟩ := yields_generatePartialGraph (m := Except Err) (g := columnGen t) h
  refine ⟨adds.flatMap fun p => p.statements.filter fun s => s.ddl.onColumn t n,
    deletes.flatMap fun p => p.statements.filter fun s => s.ddl.onColumn t n,
    alters.flatMap fun p => p.statements.filter fun s => s.ddl.onColumn t n, ?_, ?_, ?_, ?_⟩
  · rw [e, PartialGraph.statements_concat, List.flatMap_append, List.flatMap_append, List.filter_append, List.filter_append,
      filter_flatMap, filter_flatMap, filter_flatMap]
  · clear e h2 h3
    generalize ld.adds = xs at h1
    induction h1 with
    | nil => exact .nil
    | @cons c q cs qs hc _ ih =>
      obtain ⟨l, deps, k1, _, rfl⟩ := toNew_add (m := Except Err) (g := columnLegacy t) hc
      obtain ⟨def_, hd, k1⟩ := except_bind_ok.mp k1
      cases k1
      have hname := buildColumnDefinition_name hd
      rw [List.flatMap_cons, single_statements, List.filter_cons]
      by_cases hn : c.name = n
      · rw [if_pos (by simpa using hn), List.filter_cons, if_pos (by simp [stmt, Ddl.onColumn, hname, hn])]
        exact .cons ⟨def_, hd, rfl⟩ ih
      · rw [if_neg (by simpa using hn), List.filter_cons, if_neg (by simp [stmt, Ddl.onColumn, hname, hn])]
        exact ih
  · clear e h1 h3
    generalize ld.deletes = xs at h2
    induction h2 with
    | nil => exact .nil
    | @cons c q cs qs hc _ ih =>
      obtain ⟨l, deps, k1, _, rfl⟩ := toNew_delete (m := Except Err) (g := columnLegacy t) hc
      cases k1
      rw [List.flatMap_cons, single_statements, List.filter_cons]
      by_cases hn : c.name = n
      · rw [if_pos (by simpa using hn), List.filter_cons, if_pos (by simp [stmt, Ddl.onColumn, hn])]
        exact .cons rfl ih
      · rw [if_neg (by simpa using hn), List.filter_cons, if_neg (by simp [stmt, Ddl.onColumn, hn])]
        exact ih
  · intro hne
    refine forall₂_flatMap_nil h3 ?_
    intro cd hcd b hb
    obtain ⟨l, deps, k1, _, rfl⟩ := toNew_alter (m := Except Err) (g := columnLegacy t) hb
    rw [single_statements, List.filter_eq_nil_iff]
    intro s hs hp
    rw [(ColumnGen.alter_shape k1 hs).onColumn (hnames cd hcd)] at hp
    exact hne cd hcd (of_decide_eq_true hp).2

end Verif
