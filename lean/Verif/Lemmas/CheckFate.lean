import Verif.Lemmas.Check

/-!
# What becomes of one check constraint of an altered table
-/

namespace Verif

open Spec

theorem getTargetColumns_names {l : List Column} : ∀ {ks : List String} {cs : List Column},
    getTargetColumns ks (byName l) = .ok cs → cs.map (·.name) = ks ∧ ∀ k ∈ ks, k ∈ l.map (·.name) := by
  intro ks
  induction ks with
  | nil => intro cs h; cases h; exact ⟨rfl, by simp⟩
  | cons k ks ih =>
    intro cs h
    unfold getTargetColumns at h
    split at h
    · cases h
    · rename_i c hc
      obtain ⟨cs', h1, h⟩ := except_bind_ok.mp h
      cases h
      obtain ⟨hm, hn⟩ := byName_get?_some hc
      obtain ⟨e, hk⟩ := ih h1
      refine ⟨by rw [List.map_cons, e]; exact congrArg (· :: ks) hn, ?_⟩
      intro x hx
      rcases List.mem_cons.mp hx with rfl | hx
      · exact List.mem_map.mpr ⟨c, hm, hn⟩
      · exact hk x hx

/-- an altered table, its constraints and the temporary ones -/
structure CheckScene (cols : String → List String) (n : String) (td : TableDiff) (temps : List CheckConstraint) : Prop where
  name : td.new.name.fq = n
  diff : diffLists td.old.checkConstraints td.new.checkConstraints buildCheckConstraintDiff = .ok td.checkConstraintDiff
  old : ChecksOk cols td.old
  new : ChecksOk cols td.new
  deleted : ∀ c ∈ td.columnsDiff.deletes, c.name ∉ td.new.columns.map (·.name)
  altered : ∀ cd ∈ td.columnsDiff.alters, cd.new.name ∉ td.columnsDiff.adds.map (·.name) ∧ cd.new.name ∈ td.new.columns.map (·.name)
  tempName : ∀ c ∈ temps, "pgschemadiff_tmpnn_".toList <+: c.name.toList
  tempOk : ∀ c ∈ temps, NoNul c.name
  tempUnique : (temps.map (·.name)).Nodup
  tempCols : ∀ c ∈ temps, ∀ x ∈ cols c.expression, x ∈ c.keyColumns

section
variable {cols : String → List String} {n : String} {td : TableDiff} {temps : List CheckConstraint} {body : List Statement}

/-- what is generated for the check constraints -/
def checkParts (td : TableDiff) (temps : List CheckConstraint) : ListDiff CheckConstraint (OldNew CheckConstraint) :=
  { td.checkConstraintDiff with adds := td.checkConstraintDiff.adds ++ temps }

theorem buildCheckConstraintDiff_ok {o x : CheckConstraint} {i j : Nat} {cd : OldNew CheckConstraint} {b : Bool}
    (h : buildCheckConstraintDiff o x i j = .ok (cd, b)) : cd = ⟨o, x⟩ ∧
      (b = false → o.expression = x.expression ∧ (o.isValid = true → x.isValid = true) ∧ o.isInheritable = x.isInheritable) := by
  unfold buildCheckConstraintDiff at h
  simp only [Except.ok.injEq, Prod.mk.injEq] at h
  refine ⟨h.1.symm, fun hb => ?_⟩
  have h2 := h.2.trans hb
  simp only [Bool.or_eq_false_iff, decide_eq_false_iff_not, not_not, Bool.and_eq_false_iff, Bool.not_eq_false'] at h2
  refine ⟨h2.1.1, fun hv => ?_, h2.2⟩
  rcases h2.1.2 with h3 | h3
  · rw [hv] at h3; cases h3
  · exact h3

namespace CheckScene
variable (sc : CheckScene cols n td temps)
include sc

theorem decision (k : String) :
    Decision td.old.checkConstraints td.new.checkConstraints buildCheckConstraintDiff td.checkConstraintDiff k ∧
      (td.checkConstraintDiff.adds.map Obj.getName).Nodup ∧ (td.checkConstraintDiff.deletes.map Obj.getName).Nodup ∧
      (td.checkConstraintDiff.alters.map fun cd => cd.new.name).Nodup ∧
      (k ∈ td.checkConstraintDiff.adds.map Obj.getName → k ∉ td.checkConstraintDiff.alters.map fun cd => cd.new.name) ∧
      (k ∈ td.checkConstraintDiff.deletes.map Obj.getName → k ∉ td.checkConstraintDiff.alters.map fun cd => cd.new.name) ∧
      (k ∈ td.checkConstraintDiff.alters.map (fun cd => cd.new.name) →
        k ∈ td.old.checkConstraints.map Obj.getName ∧ k ∈ td.new.checkConstraints.map Obj.getName) :=
  diffLists_decision (key := fun cd : OldNew CheckConstraint => cd.new.name) sc.diff sc.new.unique
    (fun o x j i cd _ hb => by rw [(buildCheckConstraintDiff_ok hb).1]; rfl) k

theorem addsMem {c : CheckConstraint} (h : c ∈ td.checkConstraintDiff.adds) : c ∈ td.new.checkConstraints :=
  diffLists_adds_mem sc.diff h

theorem deletesMem {c : CheckConstraint} (h : c ∈ td.checkConstraintDiff.deletes) : c ∈ td.old.checkConstraints :=
  diffLists_deletes_mem sc.diff h

theorem altersMem {cd : OldNew CheckConstraint} (h : cd ∈ td.checkConstraintDiff.alters) :
    cd.old ∈ td.old.checkConstraints ∧ cd.new ∈ td.new.checkConstraints ∧ cd.old.name = cd.new.name ∧
      cd.old.expression = cd.new.expression ∧ (cd.old.isValid = true → cd.new.isValid = true) ∧
      cd.old.isInheritable = cd.new.isInheritable := by
  obtain ⟨i, x, j, y, h1, h2, h3, h4⟩ := diffLists_alters_mem sc.diff h
  obtain ⟨rfl, hb⟩ := buildCheckConstraintDiff_ok h4
  exact ⟨List.mem_of_getElem? h2, List.mem_of_getElem? h1, h3, hb rfl⟩

theorem noNul {c : CheckConstraint} (h : c ∈ td.old.checkConstraints ∨ c ∈ td.new.checkConstraints ∨ c ∈ temps) : NoNul c.name := by
  rcases h with h | h | h
  · exact nameOk_iff.mp (sc.old.names c h)
  · exact nameOk_iff.mp (sc.new.names c h)
  · exact sc.tempOk c h

theorem tempNew {c x : CheckConstraint} (h : c ∈ temps) (hx : x ∈ td.old.checkConstraints ∨ x ∈ td.new.checkConstraints) :
    x.name ≠ c.name := by
  intro e
  have := sc.tempName c h
  rw [← e] at this
  rcases hx with hx | hx
  · exact sc.old.notTemporary x hx this
  · exact sc.new.notTemporary x hx this

theorem partsUnique : ((checkParts td temps).adds.map Obj.getName).Nodup := by
  show ((td.checkConstraintDiff.adds ++ temps).map Obj.getName).Nodup
  rw [List.map_append, List.nodup_append]
  refine ⟨(sc.decision "").2.1, sc.tempUnique, ?_⟩
  rintro a ha b hb rfl
  obtain ⟨x, hx, e⟩ := List.mem_map.mp ha
  obtain ⟨c, hc, e'⟩ := List.mem_map.mp hb
  exact sc.tempNew hc (Or.inr (sc.addsMem hx)) (e.trans e'.symm)

/-- the vertex of a statement that drops the constraint -/
theorem shape_drops {psg : PolicyGen} {id : VertexId} {s : Statement} (h : BaseShape td temps psg id s) {k : String}
    (hs : s.ddl.dropsCheck n k = true) : id = ⟨"checkconstraint", k, .delete⟩ := by
  cases h with
  | dropCheck c h hid =>
    simp only [stmt, Ddl.dropsCheck, Bool.and_eq_true, decide_eq_true_eq] at hs
    rw [readsAs_escape (sc.noNul (Or.inl (sc.deletesMem h)))] at hs
    rw [hid, ← of_decide_eq_true hs.2]; rfl
  | column cd h s hsh => cases hsh <;> cases hs
  | _ => cases hs

/-- the vertex of a statement that adds or validates the constraint -/
theorem shape_makes {psg : PolicyGen} {id : VertexId} {s : Statement} (h : BaseShape td temps psg id s) {k : String}
    (hs : s.ddl.makesCheck n k = true) : id = ⟨"checkconstraint", k, .addAlter⟩ ∧
      ((∃ c ∈ (checkParts td temps).adds, c.name = k) ∨ ∃ cd ∈ td.checkConstraintDiff.alters, cd.new.name = k) := by
  cases h with
  | addCheck c h hid =>
    simp only [stmt, Ddl.makesCheck, Bool.and_eq_true, decide_eq_true_eq] at hs
    exact ⟨by rw [hid, ← hs.2]; rfl, Or.inl ⟨c, List.mem_append.mpr h, hs.2⟩⟩
  | validateCheck c h hv hid =>
    simp only [stmt, validateConstraintStatement, Ddl.makesCheck, Bool.and_eq_true, decide_eq_true_eq] at hs
    have hno : NoNul c.name := by
      rcases h with (h | h) | ⟨cd, h, rfl⟩
      · exact sc.noNul (Or.inr (Or.inl (sc.addsMem h)))
      · exact sc.noNul (Or.inr (Or.inr h))
      · exact sc.noNul (Or.inr (Or.inl (sc.altersMem h).2.1))
    rw [readsAs_escape hno] at hs
    have e := of_decide_eq_true hs.2
    refine ⟨by rw [hid, ← e]; rfl, ?_⟩
    rcases h with h | ⟨cd, h, rfl⟩
    · exact Or.inl ⟨c, List.mem_append.mpr h, e⟩
    · exact Or.inr ⟨cd, h, e⟩
  | column cd h s hsh => cases hsh <;> cases hs
  | _ => cases hs

omit sc in
theorem _root_.Verif.BaseRun.checks_filter (base : BaseRun td temps body) {P : Statement → Bool} {k : String} {x : DiffType}
    (hid : ∀ id s, BaseShape td temps base.psg id s → P s = true → id = ⟨"checkconstraint", k, x⟩) :
    base.ordered.filter P = base.checks.statements.filter P := by
  have h1 : base.ordered.filter P = base.graph.statements.filter P := by
    refine order_filter base.hordered (⟨"checkconstraint", k, x⟩ : VertexId).text ?_
    intro v hv s hs hp
    rw [hid v.id s ((base.vertex_origin hv hs).shape base.hpsg) hp]
  rw [h1]
  have other : ∀ p ∈ [base.columns, base.checks, base.policies, base.privileges], (∀ v ∈ p.vertices, v.id.objType ≠ "checkconstraint") →
      p.statements.filter P = [] := by
    intro p hp hv
    rw [List.filter_eq_nil_iff]
    intro s hs hq
    obtain ⟨v, hv', hs⟩ := PartialGraph.mem_statements.mp hs
    have hv'' : v ∈ base.graph.vertices := PartialGraph.mem_vertices_concat.mpr ⟨p, hp, hv'⟩
    have := hid v.id s ((base.vertex_origin hv'' hs).shape base.hpsg) hq
    exact hv v hv' (by rw [this])
  have e1 := other base.columns (by simp) fun v hv => by
    rw [(vertex_of_legacy (m := Except Err) (g := columnLegacy td.new.name) base.hcolumns hv).type (t := "column") fun _ _ => rfl]; decide
  have e2 := other base.policies (by simp) fun v hv => by
    rw [(vertex_of_legacy (m := Except Err) (g := base.psg.legacy) base.hpolicies hv).type (t := "policy") fun _ _ => rfl]; decide
  have e3 := other base.privileges (by simp) fun v hv => by
    rw [(vertex_of_legacy (m := Except Err) (g := PrivilegeGen.legacy td.new.name) base.hprivileges hv).type (t := "privilege") fun _ _ => rfl]; decide
  unfold BaseRun.graph
  rw [PartialGraph.statements_concat]
  simp only [List.flatMap_cons, List.flatMap_nil, List.filter_append, e1, e2, e3, List.nil_append, List.append_nil, List.filter_nil]

theorem focus (base : BaseRun td temps body) {P : Statement → Bool} {k : String} {x : DiffType}
    (hid : ∀ id s, BaseShape td temps base.psg id s → P s = true → id = ⟨"checkconstraint", k, x⟩) :
    ∃ A B C, base.ordered.filter P = A ++ B ++ C ∧
      (k ∉ (checkParts td temps).adds.map Obj.getName → A = []) ∧
      (k ∉ td.checkConstraintDiff.deletes.map Obj.getName → B = []) ∧
      (k ∉ td.checkConstraintDiff.alters.map (fun cd => cd.new.name) → C = []) ∧
      (∀ c ∈ (checkParts td temps).adds, c.name = k → ∃ l, (TableGen.checkGen td).add c = .ok l ∧ A = l.filter P) ∧
      (∀ c ∈ td.checkConstraintDiff.deletes, c.name = k → ∃ l, (TableGen.checkGen td).delete c = .ok l ∧ B = l.filter P) ∧
      (∀ cd ∈ td.checkConstraintDiff.alters, cd.new.name = k → ∃ l, (TableGen.checkGen td).alter cd = .ok l ∧ C = l.filter P) := by
  rw [base.checks_filter hid]
  obtain ⟨_, _, n2, n3, _⟩ := sc.decision k
  have key : ∀ {id : VertexId} {s : Statement}, LegacyPlaced (TableGen.checkGen td).legacy (checkParts td temps) id s → P s = true →
      id = ⟨"checkconstraint", k, x⟩ := fun h hp => hid _ _ ((BaseOrigin.check h).shape base.hpsg) hp
  refine legacy_focus (m := Except Err) (g := (TableGen.checkGen td).legacy) (ld := checkParts td temps)
    (key := fun cd : OldNew CheckConstraint => cd.new.name) base.hchecks sc.partsUnique n2 n3 ?_ ?_ ?_
  · intro o ho l hl hne
    rw [List.filter_eq_nil_iff]
    intro s hs hp
    have := key (.add o ho l hl hs rfl) hp
    injection this with _ h2 _
    exact hne h2
  · intro o ho l hl hne
    rw [List.filter_eq_nil_iff]
    intro s hs hp
    have := key (.delete o ho l hl hs rfl) hp
    injection this with _ h2 _
    exact hne h2
  · intro o ho l hl hne
    rw [List.filter_eq_nil_iff]
    intro s hs hp
    have := key (.alter o ho l hl hs rfl) hp
    injection this with _ h2 _
    exact hne h2

theorem add_statements {c : CheckConstraint} (hc : NoNul c.name) {l : List Statement} (h : (TableGen.checkGen td).add c = .ok l) :
    l.filter (fun s : Statement => s.ddl.makesCheck n c.name) = l ∧ l.filter (fun s : Statement => s.ddl.dropsCheck n c.name) = [] ∧
      runCheck cols n c.name none l = some (some (checkState c)) := by
  have hn : (TableGen.checkGen td).tableName.fq = n := sc.name
  have hr : readsAs (escapeIdentifier c.name) c.name = true := by rw [readsAs_escape hc]; exact decide_eq_true rfl
  rcases (CheckGen.add_ok h).2 with ⟨hv, rfl⟩ | ⟨hv, _, rfl⟩
  · refine ⟨?_, ?_, ?_⟩
    · simp [CheckGen.createStatement, stmt, Ddl.makesCheck, hn]
    · simp [CheckGen.createStatement, stmt, Ddl.dropsCheck]
    · simp [CheckGen.createStatement, stmt, runCheck, runWith, checkStep, hn, checkAction, checkState]
  · refine ⟨?_, ?_, ?_⟩
    · simp [CheckGen.createStatement, stmt, validateConstraintStatement, Ddl.makesCheck, hn, hr]
    · simp [CheckGen.createStatement, stmt, validateConstraintStatement, Ddl.dropsCheck]
    · simp [CheckGen.createStatement, stmt, validateConstraintStatement, runCheck, runWith, checkStep, hn, checkAction, checkState, hr, hv]

theorem delete_statements {c : CheckConstraint} (hc : NoNul c.name) {l : List Statement} (h : (TableGen.checkGen td).delete c = .ok l) :
    l.filter (fun s : Statement => s.ddl.makesCheck n c.name) = [] ∧ ∃ x, l = [x] ∧
      l.filter (fun s : Statement => s.ddl.dropsCheck n c.name) = [x] := by
  have hn : (TableGen.checkGen td).tableName.fq = n := sc.name
  have hr : readsAs (escapeIdentifier c.name) c.name = true := by rw [readsAs_escape hc]; exact decide_eq_true rfl
  obtain ⟨_, rfl⟩ := CheckGen.delete_ok h
  refine ⟨?_, _, rfl, ?_⟩
  · simp [stmt, Ddl.makesCheck]
  · simp [stmt, Ddl.dropsCheck, hn, hr]

theorem alter_statements {cd : OldNew CheckConstraint} (hcd : cd ∈ td.checkConstraintDiff.alters) {l : List Statement}
    (h : (TableGen.checkGen td).alter cd = .ok l) :
    l.filter (fun s : Statement => s.ddl.makesCheck n cd.new.name) = l ∧
      l.filter (fun s : Statement => s.ddl.dropsCheck n cd.new.name) = [] ∧
      runCheck cols n cd.new.name (some (checkState cd.old)) l = some (some (checkState cd.new)) ∧
      (cd.old.isValid = true → l = []) := by
  have hn : (TableGen.checkGen td).tableName.fq = n := sc.name
  obtain ⟨_, hnew, _, he, hv, hi⟩ := sc.altersMem hcd
  have hr : readsAs (escapeIdentifier cd.new.name) cd.new.name = true := by
    rw [readsAs_escape (sc.noNul (Or.inr (Or.inl hnew)))]; exact decide_eq_true rfl
  obtain ⟨_, _, _, rfl⟩ := CheckGen.alter_ok h
  cases hb : CheckGen.becomesValid cd with
  | true =>
    simp only [CheckGen.becomesValid, Bool.and_eq_true, Bool.not_eq_true'] at hb
    refine ⟨?_, ?_, ?_, ?_⟩
    · simp [stmt, validateConstraintStatement, Ddl.makesCheck, hn, hr]
    · simp [stmt, validateConstraintStatement, Ddl.dropsCheck]
    · simp [stmt, validateConstraintStatement, runCheck, runWith, checkStep, hn, checkAction, checkState, hr, he, hi, hb.2]
    · intro h; rw [h] at hb; cases hb.1
  | false =>
    refine ⟨rfl, rfl, ?_, fun _ => rfl⟩
    have : cd.old.isValid = cd.new.isValid := by
      unfold CheckGen.becomesValid at hb
      cases h1 : cd.old.isValid with
      | true => exact (hv h1).symm
      | false => rw [h1] at hb; exact (by simpa using hb : cd.new.isValid = false).symm
    simp [runCheck, runWith, checkState, he, hi, this]

/-- the statements that drop the constraint -/
theorem drops (base : BaseRun td temps body) (k : String) :
    (k ∉ td.checkConstraintDiff.deletes.map Obj.getName → base.ordered.filter (fun s : Statement => s.ddl.dropsCheck n k) = []) ∧
    (∀ o ∈ td.checkConstraintDiff.deletes, o.name = k →
      ∃ x, base.ordered.filter (fun s : Statement => s.ddl.dropsCheck n k) = [x]) := by
  obtain ⟨A, B, C, e, fa, fb, fc, ga, gb, gc⟩ := sc.focus base (P := fun s : Statement => s.ddl.dropsCheck n k) (k := k)
    fun id s h hp => sc.shape_drops h hp
  have hA : A = [] := by
    by_cases hm : k ∈ (checkParts td temps).adds.map Obj.getName
    · obtain ⟨c, hc, rfl⟩ := List.mem_map.mp hm
      obtain ⟨l, hl, rfl⟩ := ga c hc rfl
      refine (sc.add_statements (sc.noNul ?_) hl).2.1
      rcases List.mem_append.mp hc with h | h
      · exact Or.inr (Or.inl (sc.addsMem h))
      · exact Or.inr (Or.inr h)
    · exact fa hm
  have hC : C = [] := by
    by_cases hm : k ∈ td.checkConstraintDiff.alters.map fun cd => cd.new.name
    · obtain ⟨c, hc, rfl⟩ := List.mem_map.mp hm
      obtain ⟨l, hl, rfl⟩ := gc c hc rfl
      exact (sc.alter_statements hc hl).2.1
    · exact fc hm
  rw [hA, hC, List.nil_append, List.append_nil] at e
  refine ⟨fun h => by rw [e, fb h], fun o ho ek => ?_⟩
  obtain ⟨l, hl, rfl⟩ := gb o ho ek
  subst ek
  obtain ⟨_, x, _, hx⟩ := sc.delete_statements (sc.noNul (Or.inl (sc.deletesMem ho))) hl
  exact ⟨x, e.trans hx⟩

/-- the statements that add and validate the constraint -/
theorem makes (base : BaseRun td temps body) (k : String) :
    (k ∉ (checkParts td temps).adds.map Obj.getName → k ∉ td.checkConstraintDiff.alters.map (fun cd => cd.new.name) →
      base.ordered.filter (fun s : Statement => s.ddl.makesCheck n k) = []) ∧
    (∀ c ∈ (checkParts td temps).adds, c.name = k → ∃ l, base.ordered.filter (fun s : Statement => s.ddl.makesCheck n k) = l ∧
      l ≠ [] ∧ runCheck cols n k none l = some (some (checkState c))) ∧
    (∀ cd ∈ td.checkConstraintDiff.alters, cd.new.name = k →
      ∃ l, base.ordered.filter (fun s : Statement => s.ddl.makesCheck n k) = l ∧
      runCheck cols n k (some (checkState cd.old)) l = some (some (checkState cd.new)) ∧ (cd.old.isValid = true → l = [])) := by
  obtain ⟨A, B, C, e, fa, fb, fc, ga, gb, gc⟩ := sc.focus base (P := fun s : Statement => s.ddl.makesCheck n k) (k := k)
    fun id s h hp => (sc.shape_makes h hp).1
  have hB : B = [] := by
    by_cases hm : k ∈ td.checkConstraintDiff.deletes.map Obj.getName
    · obtain ⟨c, hc, rfl⟩ := List.mem_map.mp hm
      obtain ⟨l, hl, rfl⟩ := gb c hc rfl
      exact (sc.delete_statements (sc.noNul (Or.inl (sc.deletesMem hc))) hl).1
    · exact fb hm
  rw [hB, List.append_nil] at e
  obtain ⟨_, _, _, _, k1, _, k3⟩ := sc.decision k
  have apart : k ∈ (checkParts td temps).adds.map Obj.getName → k ∉ td.checkConstraintDiff.alters.map fun cd => cd.new.name := by
    intro hm ha
    obtain ⟨c, hc, ec⟩ := List.mem_map.mp hm
    rcases List.mem_append.mp hc with h | h
    · exact k1 (List.mem_map.mpr ⟨c, h, ec⟩) ha
    · obtain ⟨x, hx, ex⟩ := List.mem_map.mp (k3 ha).2
      exact sc.tempNew h (Or.inr hx) (ex.trans ec.symm)
  refine ⟨fun h1 h2 => by rw [e, fa h1, fc h2]; rfl, fun c hc ek => ?_, fun cd hcd ek => ?_⟩
  · obtain ⟨l, hl, rfl⟩ := ga c hc ek
    have hm : k ∈ (checkParts td temps).adds.map Obj.getName := ek ▸ List.mem_map_of_mem hc
    rw [fc (apart hm), List.append_nil] at e
    subst ek
    have hno : NoNul c.name := by
      rcases List.mem_append.mp hc with h | h
      · exact sc.noNul (Or.inr (Or.inl (sc.addsMem h)))
      · exact sc.noNul (Or.inr (Or.inr h))
    obtain ⟨h1, _, h3⟩ := sc.add_statements hno hl
    rw [h1] at e
    refine ⟨l, e, ?_, h3⟩
    rintro rfl
    cases h3
  · obtain ⟨l, hl, rfl⟩ := gc cd hcd ek
    have hm : k ∈ td.checkConstraintDiff.alters.map fun cd => cd.new.name := List.mem_map.mpr ⟨cd, hcd, ek⟩
    rw [fa fun h => apart h hm, List.nil_append] at e
    subst ek
    obtain ⟨h1, _, h3, h4⟩ := sc.alter_statements hcd hl
    rw [h1] at e
    exact ⟨l, e, h3, h4⟩

omit sc in
theorem _root_.Verif.BaseRun.mem_shape (base : BaseRun td temps body) {s : Statement} (hs : s ∈ base.ordered) :
    ∃ id, BaseShape td temps base.psg id s := by
  have key : ∀ p ∈ [base.columns, base.checks, base.policies, base.privileges], s ∈ p.statements →
      ∃ id, BaseShape td temps base.psg id s := by
    intro p hp hs
    obtain ⟨v, hv, hs⟩ := PartialGraph.mem_statements.mp hs
    exact ⟨v.id, (base.vertex_origin (PartialGraph.mem_vertices_concat.mpr ⟨p, hp, hv⟩) hs).shape base.hpsg⟩
  rcases base.mem_ordered.mp hs with hs | hs | hs | hs
  · exact key _ (by simp) hs
  · exact key _ (by simp) hs
  · exact key _ (by simp) hs
  · exact key _ (by simp) hs

/-- the columns of what is added are columns of the new table -/
theorem addKeys (base : BaseRun td temps body) {c : CheckConstraint} (hc : c ∈ (checkParts td temps).adds) :
    ∀ x ∈ c.keyColumns, x ∈ td.new.columns.map (·.name) := by
  obtain ⟨deps, h1, _⟩ := deps_of_add (m := Except Err) (g := (TableGen.checkGen td).legacy) base.hchecks hc
  have h1 : (TableGen.checkGen td).addAlterDeps c GoZero.zero = .ok deps := h1
  unfold CheckGen.addAlterDeps at h1
  obtain ⟨cs, h2, _⟩ := except_bind_ok.mp h1
  exact (getTargetColumns_names h2).2

theorem alterKeys (base : BaseRun td temps body) {cd : OldNew CheckConstraint} (hc : cd ∈ td.checkConstraintDiff.alters) :
    ∀ x ∈ cd.new.keyColumns, x ∈ td.new.columns.map (·.name) := by
  obtain ⟨deps, h1, _⟩ := deps_of_alter (m := Except Err) (g := (TableGen.checkGen td).legacy) base.hchecks hc
  have h1 : (TableGen.checkGen td).addAlterDeps cd.new cd.old = .ok deps := h1
  unfold CheckGen.addAlterDeps at h1
  obtain ⟨cs, h2, _⟩ := except_bind_ok.mp h1
  exact (getTargetColumns_names h2).2

theorem addCols {c : CheckConstraint} (hc : c ∈ (checkParts td temps).adds) : ∀ x ∈ cols c.expression, x ∈ c.keyColumns := by
  rcases List.mem_append.mp hc with h | h
  · exact sc.new.mentions c (sc.addsMem h)
  · exact sc.tempCols c h

/-- the columns that are dropped -/
def _root_.Verif.droppedColumns (td : TableDiff) : List String := td.columnsDiff.deletes.map (·.name)

theorem not_dropped {x : String} (h : x ∈ td.new.columns.map (·.name)) : x ∉ droppedColumns td := by
  intro hd
  obtain ⟨c, hc, rfl⟩ := List.mem_map.mp hd
  exact sc.deleted c hc h

/-- what is inside of the table does not create or drop it, and drops only deleted columns -/
theorem inside (base : BaseRun td temps body) {s : Statement} (hs : s ∈ base.ordered) (k : String) :
    s.ddl.dropsTable n = false ∧ (∀ t c p, s.ddl = .createTable t c p → t.fq ≠ n) ∧
      (∀ c, s.ddl.dropsColumnOf n c = true → c ∈ droppedColumns td) ∧
      (∀ t e a b, s.ddl = .alterTable t (.addCheck k e a b) → t.fq = n → ∀ c ∈ cols e, c ∉ droppedColumns td) := by
  obtain ⟨id, h⟩ := base.mem_shape hs
  cases h with
  | dropColumn c h hid =>
    refine ⟨rfl, fun t c p h => (by cases h), fun x hx => ?_, fun t e a b h => (by cases h)⟩
    simp only [stmt, Ddl.dropsColumnOf, Bool.and_eq_true, decide_eq_true_eq] at hx
    exact hx.2 ▸ List.mem_map_of_mem h
  | addCheck c h hid =>
    refine ⟨rfl, fun t c p h => (by cases h), fun x hx => (by cases hx), fun t e a b h' _ x hx => ?_⟩
    cases h'
    have hm : c ∈ (checkParts td temps).adds := List.mem_append.mpr h
    exact sc.not_dropped (sc.addKeys base hm x (sc.addCols hm x hx))
  | column cd h s hsh =>
    cases hsh <;> exact ⟨rfl, fun t c p h => (by cases h), fun x hx => (by cases hx), fun t e a b h => (by cases h)⟩
  | _ => exact ⟨rfl, fun t c p h => (by cases h), fun x hx => (by cases hx), fun t e a b h => (by cases h)⟩

/-! ### orders -/

theorem drops_before_makes (base : BaseRun td temps body) (k : String) :
    AllBefore (fun s : Statement => s.ddl.dropsCheck n k = true) (fun s => s.ddl.makesCheck n k = true) base.ordered := by
  refine base.allBefore fun u x v y hu hv hx hy => ?_
  rw [sc.shape_drops hu hx]
  obtain ⟨hv, h⟩ := sc.shape_makes hv hy
  rw [hv]
  refine .single ?_
  have key : ∀ (c old : CheckConstraint) (deps : List Dependency), c.name = k → (TableGen.checkGen td).addAlterDeps c old = .ok deps →
      mustRunBefore (⟨"checkconstraint", k, .delete⟩ : VertexId) ⟨"checkconstraint", k, .addAlter⟩ ∈ deps := by
    rintro c old deps rfl h
    unfold CheckGen.addAlterDeps at h
    obtain ⟨cs, _, h⟩ := except_bind_ok.mp h
    split at h <;> (rw [except_pure_ok] at h; rw [← h]; exact List.mem_cons_self)
  rcases h with ⟨c, hc, e⟩ | ⟨cd, hc, e⟩
  · obtain ⟨deps, h1, h2⟩ := deps_of_add (m := Except Err) (g := (TableGen.checkGen td).legacy) base.hchecks hc
    exact base.declared_before (p := base.checks) (by simp) (h2 _ (key _ GoZero.zero deps e h1))
  · obtain ⟨deps, h1, h2⟩ := deps_of_alter (m := Except Err) (g := (TableGen.checkGen td).legacy) base.hchecks hc
    exact base.declared_before (p := base.checks) (by simp) (h2 _ (key _ cd.old deps e h1))

theorem drops_before_column (base : BaseRun td temps body) {o : CheckConstraint} (ho : o ∈ td.checkConstraintDiff.deletes) {c : String}
    (hc : c ∈ o.keyColumns) :
    AllBefore (fun s : Statement => s.ddl.dropsCheck n o.name = true) (fun s => s.ddl.dropsColumnOf n c = true) base.ordered := by
  refine base.allBefore fun u x v y hu hv hx hy => ?_
  rw [sc.shape_drops hu hx]
  obtain ⟨hd, hv⟩ : c ∈ droppedColumns td ∧ v = columnVertexId c .delete := by
    cases hv with
    | dropColumn c' h hid =>
      simp only [stmt, Ddl.dropsColumnOf, Bool.and_eq_true, decide_eq_true_eq] at hy
      rw [← hy.2]
      exact ⟨List.mem_map_of_mem h, hid⟩
    | column cd h s hsh => cases hsh <;> cases hy
    | _ => cases hy
  rw [hv]
  refine .single ?_
  obtain ⟨deps, h1, h2⟩ := deps_of_delete (m := Except Err) (g := (TableGen.checkGen td).legacy) base.hchecks ho
  refine base.declared_before (p := base.checks) (by simp) (h2 (mustRunBefore (CheckGen.vertexId o .delete) _) ?_)
  have h1 : (TableGen.checkGen td).deleteDeps o = .ok deps := h1
  unfold CheckGen.deleteDeps at h1
  obtain ⟨cs, h3, h1⟩ := except_bind_ok.mp h1
  obtain ⟨e, _⟩ := getTargetColumns_names h3
  rw [← e] at hc
  obtain ⟨tc, htc, rfl⟩ := List.mem_map.mp hc
  have hhas : (TableGen.checkGen td).deletedColumnsByName.has tc.name = true := byName_has.mpr hd
  split at h1
  · rw [except_pure_ok] at h1; rw [← h1]
    refine List.mem_map.mpr ⟨tc, htc, ?_⟩
    rw [if_pos hhas]
  · rw [except_pure_ok] at h1; rw [← h1]
    refine List.mem_flatMap.mpr ⟨tc, htc, ?_⟩
    rw [if_pos hhas]; simp

omit sc in
/-- the vertex of a statement that makes a column NOT NULL -/
theorem _root_.Verif.BaseShape.notNull {psg : PolicyGen} {id : VertexId} {s : Statement} (h : BaseShape td temps psg id s) {c : String}
    (hs : s.ddl.setsNotNull n c = true) : id = columnVertexId c .addAlter ∧
      ∃ cd ∈ td.columnsDiff.alters, cd.new.name = c ∧ cd.old.isNullable = true ∧ cd.new.isNullable = false := by
  cases h with
  | column cd h s hsh hid =>
    cases hsh with
    | setNotNull hn =>
      simp only [stmt, Ddl.setsNotNull, Bool.and_eq_true, decide_eq_true_eq] at hs
      rw [← hs.2]
      exact ⟨hid, cd, h, rfl, hn⟩
    | _ => cases hs
  | _ => cases hs

omit sc in
theorem _root_.Verif.isValidNotNullCC_keys {c : CheckConstraint} (h : isValidNotNullCC c = true) : ∃ x, c.keyColumns = [x] ∧ c.isValid = true := by
  unfold isValidNotNullCC at h
  simp only [Bool.and_eq_true, decide_eq_true_eq] at h
  exact (List.length_eq_one_iff.mp h.1.1).imp fun x hx => ⟨hx, h.1.2⟩

theorem makes_before_notNull (base : BaseRun td temps body) {x : CheckConstraint} {c : String}
    (hx : x ∈ (checkParts td temps).adds ∨ ∃ cd ∈ td.checkConstraintDiff.alters, x = cd.new)
    (hr : isValidNotNullCC x = true) (hk : x.keyColumns = [c]) (hc : c ∉ td.columnsDiff.adds.map (·.name)) :
    AllBefore (fun s : Statement => s.ddl.makesCheck n x.name = true) (fun s => s.ddl.setsNotNull n c = true) base.ordered := by
  refine base.allBefore fun u a v b hu hv ha hb => ?_
  rw [(sc.shape_makes hu ha).1, (hv.notNull hb).1]
  refine .single ?_
  have key : ∀ (old : CheckConstraint) (deps : List Dependency), (TableGen.checkGen td).addAlterDeps x old = .ok deps →
      mustRunBefore (⟨"checkconstraint", x.name, .addAlter⟩ : VertexId) (columnVertexId c .addAlter) ∈ deps := by
    intro old deps h
    unfold CheckGen.addAlterDeps at h
    obtain ⟨cs, h3, h⟩ := except_bind_ok.mp h
    obtain ⟨e, _⟩ := getTargetColumns_names h3
    rw [hk] at e
    obtain ⟨tc, rfl, et⟩ := List.map_eq_singleton_iff.mp e
    have : (TableGen.checkGen td).isOnValidNotNullPreExistingColumn x [tc] = true := by
      unfold CheckGen.isOnValidNotNullPreExistingColumn
      dsimp only
      rw [hr, Bool.and_true, Bool.not_eq_true', ← Bool.not_eq_true]
      intro hh
      exact hc (et ▸ byName_has.mp hh)
    rw [if_pos this, except_pure_ok] at h
    rw [← h, ← et]
    exact List.mem_cons_of_mem _ (List.mem_cons_self ..)
  rcases hx with hx | ⟨cd, hx, rfl⟩
  · obtain ⟨deps, h1, h2⟩ := deps_of_add (m := Except Err) (g := (TableGen.checkGen td).legacy) base.hchecks hx
    exact base.declared_before (p := base.checks) (by simp) (h2 _ (key GoZero.zero deps h1))
  · obtain ⟨deps, h1, h2⟩ := deps_of_alter (m := Except Err) (g := (TableGen.checkGen td).legacy) base.hchecks hx
    exact base.declared_before (p := base.checks) (by simp) (h2 _ (key cd.old deps h1))

theorem notNull_before_drops (base : BaseRun td temps body) {o : CheckConstraint} {c : String} (ho : o ∈ td.checkConstraintDiff.deletes)
    (hr : isValidNotNullCC o = true) (hk : o.keyColumns = [c]) (hc : c ∉ droppedColumns td) :
    AllBefore (fun s : Statement => s.ddl.setsNotNull n c = true) (fun s => s.ddl.dropsCheck n o.name = true) base.ordered := by
  refine base.allBefore fun u a v b hu hv ha hb => ?_
  rw [sc.shape_drops hv hb, (hu.notNull ha).1]
  refine .single ?_
  obtain ⟨deps, h1, h2⟩ := deps_of_delete (m := Except Err) (g := (TableGen.checkGen td).legacy) base.hchecks ho
  refine base.declared_after (p := base.checks) (by simp) (h2 (mustRunAfter (CheckGen.vertexId o .delete) _) ?_)
  have h1 : (TableGen.checkGen td).deleteDeps o = .ok deps := h1
  unfold CheckGen.deleteDeps at h1
  obtain ⟨cs, h3, h1⟩ := except_bind_ok.mp h1
  obtain ⟨e, _⟩ := getTargetColumns_names h3
  rw [hk] at e
  obtain ⟨tc, rfl, et⟩ := List.map_eq_singleton_iff.mp e
  rw [if_pos hr, except_pure_ok] at h1
  rw [← h1]
  refine List.mem_map.mpr ⟨tc, List.mem_cons_self .., ?_⟩
  have hhas : ¬ (TableGen.checkGen td).deletedColumnsByName.has tc.name = true := fun h => hc (et ▸ byName_has.mp h)
  rw [if_neg hhas, et]

/-! ### running -/

omit sc in
theorem _root_.Verif.checkAmong_of_mem {l : List CheckConstraint} (hu : (l.map (·.name)).Nodup) {c : CheckConstraint} (hc : c ∈ l) :
    checkAmong l c.name = some (checkState c) := by
  unfold checkAmong
  have : l.find? (fun x => decide (x.name = c.name)) = some c := by
    induction l with
    | nil => cases hc
    | cons x l ih =>
      rw [List.map_cons, List.nodup_cons] at hu
      rcases List.mem_cons.mp hc with rfl | hc
      · rw [List.find?_cons_of_pos (by simp)]
      · have hne : ¬ x.name = c.name := fun e => hu.1 (e ▸ List.mem_map_of_mem hc)
        rw [List.find?_cons_of_neg (by simpa using hne)]
        exact ih hu.2 hc
  rw [this]; rfl

omit sc in
theorem _root_.Verif.checkAmong_none {l : List CheckConstraint} {k : String} (h : k ∉ l.map (·.name)) : checkAmong l k = none := by
  unfold checkAmong
  rw [List.find?_eq_none.mpr, Option.map_none]
  intro c hc e
  exact h (of_decide_eq_true e ▸ List.mem_map_of_mem hc)

theorem allUnique : ((td.new.checkConstraints ++ temps).map (·.name)).Nodup := by
  rw [List.map_append, List.nodup_append]
  refine ⟨sc.new.unique, sc.tempUnique, ?_⟩
  rintro a ha b hb rfl
  obtain ⟨x, hx, e⟩ := List.mem_map.mp ha
  obtain ⟨c, hc, e'⟩ := List.mem_map.mp hb
  exact sc.tempNew hc (Or.inr hx) (e.trans e'.symm)

/-- part of the statements, when the constraint is not dropped among them -/
theorem run_kept (base : BaseRun td temps body) {l : List Statement} (hl : l.Sublist base.ordered) (k : String)
    (hd : l.filter (fun s : Statement => s.ddl.dropsCheck n k) = []) {st : Option CheckState}
    (hst : Unaffected cols (droppedColumns td) st) :
    runCheck cols n k st l = runCheck cols n k st (l.filter fun s : Statement => s.ddl.makesCheck n k) := by
  have hin : ∀ s ∈ l, _ := fun s hs => sc.inside base (hl.subset hs) k
  refine (runCheck_inside (D := droppedColumns td) (fun s hs => (hin s hs).1) (fun s hs => (hin s hs).2.1)
    (fun s hs => (hin s hs).2.2.1) (fun s hs => (hin s hs).2.2.2) hst).trans ?_
  congr 1
  refine List.filter_congr fun s hs => ?_
  have hf : s.ddl.dropsCheck n k = false := by simpa using List.filter_eq_nil_iff.mp hd s hs
  rw [hf, Bool.false_or]

/-- part of the statements, when the constraint is dropped among them -/
theorem run_dropped (base : BaseRun td temps body) {l : List Statement} (hl : l.Sublist base.ordered) {o : CheckConstraint}
    (ho : o ∈ td.checkConstraintDiff.deletes) {x : Statement}
    (hd : l.filter (fun s : Statement => s.ddl.dropsCheck n o.name) = [x]) :
    runCheck cols n o.name (some (checkState o)) l = runCheck cols n o.name none (l.filter fun s : Statement => s.ddl.makesCheck n o.name) := by
  have hin : ∀ s ∈ l, _ := fun s hs => sc.inside base (hl.subset hs) o.name
  refine runCheck_drop (D := droppedColumns td) (fun s hs => (hin s hs).1) (fun s hs => (hin s hs).2.1)
    (fun s hs => (hin s hs).2.2.1) (fun s hs => (hin s hs).2.2.2) hd ((sc.drops_before_makes base o.name).sublist hl) ?_
  intro c hc
  exact (sc.drops_before_column base ho (sc.old.mentions o (sc.deletesMem ho) c hc)).sublist hl

omit sc in
theorem _root_.Verif.unaffected_none {D : List String} : Unaffected cols D none := fun _ h => by cases h

theorem unaffected_altered (base : BaseRun td temps body) {cd : OldNew CheckConstraint} (h : cd ∈ td.checkConstraintDiff.alters) :
    Unaffected cols (droppedColumns td) (some (checkState cd.old)) := by
  intro x hx c hc
  cases hx
  obtain ⟨_, hn, _, he, _⟩ := sc.altersMem h
  have hc : c ∈ cols cd.old.expression := hc
  rw [he] at hc
  exact sc.not_dropped (sc.alterKeys base h c (sc.new.mentions _ hn c hc))

/-- the state that a constraint has in the end, before the temporary ones are dropped -/
theorem run_all (base : BaseRun td temps body) (k : String) :
    runCheck cols n k (checkAmong td.old.checkConstraints k) base.ordered =
      some (checkAmong (td.new.checkConstraints ++ temps) k) := by
  obtain ⟨dec, n1, n2, n3, k1, k2, k3⟩ := sc.decision k
  obtain ⟨d0, d1⟩ := sc.drops base k
  obtain ⟨m0, m1, m2⟩ := sc.makes base k
  have hsub := List.Sublist.refl base.ordered
  have hold : (td.old.checkConstraints.map (·.name)).Nodup := sc.old.unique
  have among : ∀ c ∈ td.new.checkConstraints ++ temps, c.name = k →
      checkAmong (td.new.checkConstraints ++ temps) k = some (checkState c) := by
    rintro c hc rfl; exact checkAmong_of_mem sc.allUnique hc
  have noTemp : (∃ c, (c ∈ td.old.checkConstraints ∨ c ∈ td.new.checkConstraints) ∧ c.name = k) → k ∉ temps.map (·.name) := by
    rintro ⟨c, hc, rfl⟩ h
    obtain ⟨x, hx, e⟩ := List.mem_map.mp h
    exact sc.tempNew hx hc e.symm
  have partsNames : k ∈ (checkParts td temps).adds.map Obj.getName →
      k ∈ td.checkConstraintDiff.adds.map Obj.getName ∨ k ∈ temps.map (·.name) := by
    intro h
    have h : k ∈ (td.checkConstraintDiff.adds ++ temps).map Obj.getName := h
    rw [List.map_append, List.mem_append] at h
    exact h
  cases dec with
  | absent ho hn =>
    have hnd : k ∉ td.checkConstraintDiff.deletes.map Obj.getName := by
      intro h
      obtain ⟨o, hd, rfl⟩ := List.mem_map.mp h
      exact ho (List.mem_map_of_mem (sc.deletesMem hd))
    rw [checkAmong_none ho, sc.run_kept base hsub k (d0 hnd) unaffected_none]
    by_cases ht : k ∈ temps.map (·.name)
    · obtain ⟨c, hc, e⟩ := List.mem_map.mp ht
      obtain ⟨l, hl, _, hr⟩ := m1 c (List.mem_append.mpr (Or.inr hc)) e
      rw [hl, hr, among c (List.mem_append.mpr (Or.inr hc)) e]
    · rw [m0 ?_ fun h => hn (k3 h).2]
      · rw [checkAmong_none]
        · rfl
        · rw [List.map_append, List.mem_append]
          rintro (h | h)
          · exact hn h
          · exact ht h
      · intro h
        rcases partsNames h with h | h
        · obtain ⟨o, hd, rfl⟩ := List.mem_map.mp h
          exact hn (List.mem_map_of_mem (sc.addsMem hd))
        · exact ht h
  | dropped o ho e hn hm =>
    obtain ⟨x, hx⟩ := d1 o hm e
    have ht := noTemp ⟨o, Or.inl ho, e⟩
    have e : o.name = k := e
    subst e
    rw [checkAmong_of_mem hold ho, sc.run_dropped base hsub hm hx, m0 ?_ fun h => hn (k3 h).2, checkAmong_none]
    · rfl
    · rw [List.map_append, List.mem_append]
      rintro (h | h)
      · exact hn h
      · exact ht h
    · intro h
      rcases partsNames h with h | h
      · obtain ⟨y, h, e⟩ := List.mem_map.mp h
        exact hn (e ▸ List.mem_map_of_mem (sc.addsMem h))
      · exact ht h
  | added x hx e ho hm =>
    have hnd : k ∉ td.checkConstraintDiff.deletes.map Obj.getName := by
      intro h
      obtain ⟨o, hd, rfl⟩ := List.mem_map.mp h
      exact ho (List.mem_map_of_mem (sc.deletesMem hd))
    obtain ⟨l, hl, _, hr⟩ := m1 x (List.mem_append.mpr (Or.inl hm)) e
    rw [checkAmong_none ho, sc.run_kept base hsub k (d0 hnd) unaffected_none, hl, hr,
      among x (List.mem_append.mpr (Or.inl hx)) e]
  | recreated o x ho hx eo ex hb hm hm' =>
    obtain ⟨y, hy⟩ := d1 o hm eo
    obtain ⟨l, hl, _, hr⟩ := m1 x (List.mem_append.mpr (Or.inl hm')) ex
    rw [among x (List.mem_append.mpr (Or.inl hx)) ex]
    have eo : o.name = k := eo
    subst eo
    rw [checkAmong_of_mem hold ho, sc.run_dropped base hsub hm hy, hl, hr]
  | altered o x cd ho hx eo ex hb hm =>
    obtain ⟨i, j, hb⟩ := hb
    obtain ⟨rfl, _⟩ := buildCheckConstraintDiff_ok hb
    obtain ⟨l, hl, hr, _⟩ := m2 _ hm ex
    have hnd : k ∉ td.checkConstraintDiff.deletes.map Obj.getName := fun h => k2 h (List.mem_map.mpr ⟨_, hm, ex⟩)
    have eo' : o.name = k := eo
    rw [among x (List.mem_append.mpr (Or.inl hx)) ex, show checkAmong td.old.checkConstraints k = some (checkState o) from
      eo' ▸ checkAmong_of_mem hold ho, sc.run_kept base hsub k (d0 hnd) (sc.unaffected_altered base hm), hl, hr]

omit sc in
theorem _root_.Verif.BaseRun.dropTemps_eq (base : BaseRun td temps body) : base.dropTemps.flatMap (·.statements) =
    temps.map fun c => stmt (.alterTable td.new.name (.dropConstraint (escapeIdentifier c.name))) := by
  have h := base.hdropTemps
  generalize base.dropTemps = l at h
  clear base
  induction h with
  | nil => rfl
  | @cons c p cs ps h _ ih =>
    obtain ⟨l, deps, h1, _, rfl⟩ := toNew_delete (m := Except Err) h
    obtain ⟨_, rfl⟩ := CheckGen.delete_ok h1
    rw [List.flatMap_cons, List.map_cons, ih]
    rfl

/-- dropping the temporary constraints -/
theorem run_dropTemps (base : BaseRun td temps body) (k : String) :
    runCheck cols n k (checkAmong (td.new.checkConstraints ++ temps) k) (base.dropTemps.flatMap (·.statements)) =
      some (checkAmong td.new.checkConstraints k) := by
  rw [base.dropTemps_eq]
  have other : ∀ (l : List CheckConstraint) (st : Option CheckState), (∀ c ∈ l, c ∈ temps) → k ∉ l.map (·.name) →
      runCheck cols n k st (l.map fun c => stmt (.alterTable td.new.name (.dropConstraint (escapeIdentifier c.name)))) = some st := by
    intro l st hl hk
    refine runWith_keeps fun x hx => ?_
    obtain ⟨c, hc, rfl⟩ := List.mem_map.mp hx
    refine checkStep_other (K := fun q => readsAs q k) (fun _ h => h) ?_ rfl st
    have hne : ¬ c.name = k := fun e => hk (e ▸ List.mem_map_of_mem hc)
    simp [stmt, Ddl.aroundCheck, readsAs_escape (sc.tempOk c (hl c hc)), hne]
  by_cases hk : k ∈ temps.map (·.name)
  · obtain ⟨c, hc, rfl⟩ := List.mem_map.mp hk
    obtain ⟨a, b, e⟩ := List.append_of_mem hc
    have hu := sc.tempUnique
    rw [e, List.map_append, List.map_cons, List.nodup_append, List.nodup_cons] at hu
    obtain ⟨_, ⟨hb, _⟩, hab⟩ := hu
    have ha : c.name ∉ a.map (·.name) := fun h => hab _ h _ List.mem_cons_self rfl
    have hno : c.name ∉ td.new.checkConstraints.map (·.name) := by
      intro h
      obtain ⟨x, hx, e⟩ := List.mem_map.mp h
      exact sc.tempNew hc (Or.inr hx) e
    rw [checkAmong_of_mem sc.allUnique (List.mem_append.mpr (Or.inr hc)), checkAmong_none hno, e, List.map_append, List.map_cons]
    have h1 := other a (some (checkState c)) (fun x hx => by rw [e]; simp [hx]) ha
    have h2 := other b none (fun x hx => by rw [e]; simp [hx]) hb
    unfold runCheck at h1 h2 ⊢
    rw [runWith_append, h1, Option.bind_some, runWith_cons (s' := none), h2]
    refine (if_pos sc.name).trans ?_
    refine if_pos ?_
    rw [readsAs_escape (sc.tempOk c hc)]
    exact decide_eq_true rfl
  · rw [other temps _ (fun _ h => h) hk]
    unfold checkAmong
    rw [List.find?_append]
    have : temps.find? (fun c => decide (c.name = k)) = none := by
      refine List.find?_eq_none.mpr fun c hc e => hk ?_
      exact of_decide_eq_true e ▸ List.mem_map_of_mem hc
    rw [this, Option.or_none]

/-! ### at the statement that makes a column NOT NULL -/

theorem run_notNull (base : BaseRun td temps body) {c : String}
    (htemps : ∀ cd ∈ getDangerousNotNullAlters td.columnsDiff.alters td.new.checkConstraints td.old.checkConstraints,
      cd.new.name = c → ∃ x ∈ temps, isValidNotNullCC x = true ∧ x.keyColumns = [c])
    {a b : List Statement} {y : Statement} (e : base.ordered = a ++ y :: b) (hy : y.ddl.setsNotNull n c = true) :
    ∃ x, (x ∈ td.old.checkConstraints ∨ x ∈ td.new.checkConstraints ∨ x ∈ temps) ∧ isValidNotNullCC x = true ∧ x.keyColumns = [c] ∧
      runCheck cols n x.name (checkAmong td.old.checkConstraints x.name) a = some (some (checkState x)) := by
  obtain ⟨id, hsh⟩ := base.mem_shape (s := y) (by rw [e]; simp)
  obtain ⟨_, cd, hcd, rfl, hnull⟩ := hsh.notNull hy
  obtain ⟨hnadd, hnew⟩ := sc.altered cd hcd
  have hsub : a.Sublist base.ordered := by rw [e]; exact List.sublist_append_left _ _
  have hold : (td.old.checkConstraints.map (·.name)).Nodup := sc.old.unique
  -- what is made is made before
  have made : ∀ x, (x ∈ (checkParts td temps).adds ∨ ∃ cd ∈ td.checkConstraintDiff.alters, x = cd.new) → isValidNotNullCC x = true →
      x.keyColumns = [cd.new.name] →
      a.filter (fun s : Statement => s.ddl.makesCheck n x.name) = base.ordered.filter fun s : Statement => s.ddl.makesCheck n x.name := by
    intro x hx hr hk
    have hbef := sc.makes_before_notNull base hx hr hk hnadd
    rw [e] at hbef ⊢
    have h1 : (y :: b).filter (fun s : Statement => s.ddl.makesCheck n x.name) = [] := by
      rw [List.filter_eq_nil_iff]
      intro z hz
      rcases List.mem_cons.mp hz with rfl | hz
      · intro hm
        have hyy := hy
        generalize z.ddl = w at hm hyy
        cases w with
        | alterTable t a => cases a <;> first | cases hm | cases hyy
        | _ => cases hm
      · exact hbef.not_after hy z hz
    rw [List.filter_append, h1, List.append_nil]
  have fromAdds : ∀ x ∈ (checkParts td temps).adds, isValidNotNullCC x = true → x.keyColumns = [cd.new.name] →
      runCheck cols n x.name (checkAmong td.old.checkConstraints x.name) a = some (some (checkState x)) := by
    intro x hx hr hk
    obtain ⟨l, hl, hne, hrun⟩ := (sc.makes base x.name).2.1 x hx rfl
    have hmade := (made x (Or.inl hx) hr hk).trans hl
    by_cases hdel : x.name ∈ td.checkConstraintDiff.deletes.map Obj.getName
    · obtain ⟨o, ho, eo⟩ := List.mem_map.mp hdel
      have eo : o.name = x.name := eo
      obtain ⟨z, hz⟩ := (sc.drops base x.name).2 o ho eo
      have hza : a.filter (fun s : Statement => s.ddl.dropsCheck n x.name) = [z] := by
        rw [← hz, e, List.filter_append]
        have : (y :: b).filter (fun s : Statement => s.ddl.dropsCheck n x.name) = [] := by
          rw [List.filter_eq_nil_iff]
          intro w hw hd
          obtain ⟨m, hm⟩ := List.exists_mem_of_ne_nil _ hne
          rw [← hmade, List.mem_filter] at hm
          have hbef := sc.drops_before_makes base x.name
          rw [e] at hbef
          exact (allBefore_append.mp hbef).2.2 m hm.1 w hw ⟨hm.2, hd⟩
        rw [this, List.append_nil]
      rw [← eo, checkAmong_of_mem hold (sc.deletesMem ho)]
      rw [← eo] at hza hmade
      rw [sc.run_dropped base hsub ho hza, hmade, eo, hrun]
    · have hza : a.filter (fun s : Statement => s.ddl.dropsCheck n x.name) = [] :=
        List.sublist_nil.mp ((sc.drops base x.name).1 hdel ▸ hsub.filter _)
      have hno : x.name ∉ td.old.checkConstraints.map (·.name) := by
        intro hin
        cases (sc.decision x.name).1 with
        | absent ho _ => exact ho hin
        | dropped o _ eo _ hm => exact hdel (eo ▸ List.mem_map_of_mem hm)
        | added _ _ _ ho _ => exact ho hin
        | recreated o _ _ _ eo _ _ hm => exact hdel (eo ▸ List.mem_map_of_mem hm)
        | altered o z cd' _ hz eo ez hb hm =>
          obtain ⟨i, j, hb⟩ := hb
          obtain ⟨rfl, _⟩ := buildCheckConstraintDiff_ok hb
          rcases List.mem_append.mp hx with hx | hx
          · exact (sc.decision x.name).2.2.2.2.1 (List.mem_map_of_mem hx) (List.mem_map.mpr ⟨_, hm, ez⟩)
          · exact sc.tempNew hx (Or.inr hz) ez
      rw [checkAmong_none hno, sc.run_kept base hsub _ hza unaffected_none, hmade, hrun]
  -- which constraint it is
  by_cases hsafe : cd.new.name ∈ ((td.new.checkConstraints ++ td.old.checkConstraints).filter isValidNotNullCC).flatMap
      (fun cc => cc.keyColumns.take 1)
  · obtain ⟨x, hx, hc⟩ := List.mem_flatMap.mp hsafe
    obtain ⟨hx, hr⟩ := List.mem_filter.mp hx
    obtain ⟨c', hk, hv⟩ := isValidNotNullCC_keys hr
    rw [hk] at hc
    have hc : cd.new.name = c' := by simpa using hc
    subst hc
    rcases List.mem_append.mp hx with hx | hx
    · refine ⟨x, Or.inr (Or.inl hx), hr, hk, ?_⟩
      rcases diffLists_new_cases sc.diff sc.new.unique hx with ha | ⟨o, ho, d, hd, j, i, hi, eo, hb⟩
      · exact fromAdds x (List.mem_append.mpr (Or.inl ha)) hr hk
      · obtain ⟨rfl, _⟩ := buildCheckConstraintDiff_ok hb
        have eo : o.name = x.name := eo
        obtain ⟨l, hl, hrun, _⟩ := (sc.makes base x.name).2.2 _ hd rfl
        have hnd : x.name ∉ td.checkConstraintDiff.deletes.map Obj.getName := fun h =>
          (sc.decision x.name).2.2.2.2.2.1 h (List.mem_map.mpr ⟨_, hd, rfl⟩)
        have hza : a.filter (fun s : Statement => s.ddl.dropsCheck n x.name) = [] :=
          List.sublist_nil.mp ((sc.drops base x.name).1 hnd ▸ hsub.filter _)
        have hmade := (made x (Or.inr ⟨_, hd, rfl⟩) hr hk).trans hl
        rw [show checkAmong td.old.checkConstraints x.name = some (checkState o) from eo ▸ checkAmong_of_mem hold ho,
          sc.run_kept base hsub _ hza (sc.unaffected_altered base hd), hmade, hrun]
    · refine ⟨x, Or.inl hx, hr, hk, ?_⟩
      rw [checkAmong_of_mem hold hx]
      by_cases hdel : x ∈ td.checkConstraintDiff.deletes
      · have hbef := sc.notNull_before_drops base hdel hr hk (sc.not_dropped hnew)
        have hza : a.filter (fun s : Statement => s.ddl.dropsCheck n x.name) = [] := by
          rw [List.filter_eq_nil_iff]
          intro w hw
          rw [e] at hbef
          exact hbef.not_before hy w hw
        have hma : a.filter (fun s : Statement => s.ddl.makesCheck n x.name) = [] := by
          rw [List.filter_eq_nil_iff]
          intro w hw hm
          obtain ⟨z, hz⟩ := (sc.drops base x.name).2 x hdel rfl
          have hzm : z ∈ base.ordered.filter fun s : Statement => s.ddl.dropsCheck n x.name := by rw [hz]; simp
          rw [e, List.filter_append, hza, List.nil_append, List.mem_filter] at hzm
          have hbef := sc.drops_before_makes base x.name
          rw [e] at hbef
          exact (allBefore_append.mp hbef).2.2 w hw z hzm.1 ⟨hm, hzm.2⟩
        rw [sc.run_kept base hsub _ hza, hma]
        · rfl
        · intro s hs c hc
          cases hs
          have := sc.old.mentions x hx c hc
          rw [hk, List.mem_singleton] at this
          rw [this]
          exact sc.not_dropped hnew
      · cases (sc.decision x.name).1 with
        | absent ho _ => exact absurd (List.mem_map_of_mem hx) ho
        | dropped o ho eo _ hm => exact absurd (List.inj_on_of_nodup_map hold ho hx eo ▸ hm) hdel
        | added _ _ _ ho _ => exact absurd (List.mem_map_of_mem hx) ho
        | recreated o _ ho _ eo _ _ hm => exact absurd (List.inj_on_of_nodup_map hold ho hx eo ▸ hm) hdel
        | altered o z cd' ho hz eo ez hb hm =>
          obtain ⟨i, j, hb⟩ := hb
          obtain ⟨rfl, _⟩ := buildCheckConstraintDiff_ok hb
          obtain rfl := List.inj_on_of_nodup_map hold ho hx eo
          obtain ⟨l, hl, _, hnil⟩ := (sc.makes base o.name).2.2 _ hm ez
          have hnd : o.name ∉ td.checkConstraintDiff.deletes.map Obj.getName := fun h =>
            (sc.decision o.name).2.2.2.2.2.1 h (List.mem_map.mpr ⟨_, hm, ez⟩)
          have hza : a.filter (fun s : Statement => s.ddl.dropsCheck n o.name) = [] :=
            List.sublist_nil.mp ((sc.drops base o.name).1 hnd ▸ hsub.filter _)
          have hma : a.filter (fun s : Statement => s.ddl.makesCheck n o.name) = [] :=
            List.sublist_nil.mp ((hl.trans (hnil hv)) ▸ hsub.filter _)
          rw [sc.run_kept base hsub _ hza (sc.unaffected_altered base hm), hma]
          rfl
  · have hdang : cd ∈ getDangerousNotNullAlters td.columnsDiff.alters td.new.checkConstraints td.old.checkConstraints := by
      unfold getDangerousNotNullAlters
      refine List.mem_filter.mpr ⟨hcd, ?_⟩
      simp only [hnull.1, hnull.2, Bool.not_false, Bool.and_true, Bool.true_and, Bool.not_eq_true', decide_eq_false_iff_not]
      exact hsafe
    obtain ⟨x, hx, hr, hk⟩ := htemps cd hdang rfl
    exact ⟨x, Or.inr (Or.inr hx), hr, hk, fromAdds x (List.mem_append.mpr (Or.inr hx)) hr hk⟩

end CheckScene
end
end Verif
