import Verif.Lemmas.Fate
import Verif.Lemmas.IndexDiff

/-!
# The plan between schemas that differ in the order of columns only
-/

namespace Verif

section
variable {S D : Type} [Obj S] {old new : List S} {buildDiff : S → S → Nat → Nat → Except Err (D × Bool)}
  {r : ListDiff S D} {R : S → S → Prop}

/-- when every object has a namesake and no pair of namesakes is recreated, everything is an alteration -/
theorem diffLists_matched (h : diffLists old new buildDiff = .ok r) (hn : (old.map Obj.getName).Perm (new.map Obj.getName))
    (hR : ∀ o ∈ old, ∀ n ∈ new, Obj.getName o = Obj.getName n → R o n)
    (hf : ∀ o ∈ old, ∀ n ∈ new, R o n → ∀ i j d, buildDiff o n i j ≠ .ok (d, true)) :
    r.adds = [] ∧ r.deletes = [] ∧ ∀ d ∈ r.alters, ∃ i n j o, new[i]? = some n ∧ old[j]? = some o ∧
      Obj.getName o = Obj.getName n ∧ R o n ∧ buildDiff o n j i = .ok (d, false) := by
  have hold := diffLists_old_nodup h
  have hnew : (new.map Obj.getName).Nodup := hn.nodup_iff.mp hold
  obtain ⟨c1, c2, _⟩ := C08_every_object_once h hnew
  refine ⟨?_, ?_, ?_⟩
  · refine List.eq_nil_iff_forall_not_mem.mpr fun x hx => ?_
    obtain ⟨i, hi⟩ := List.mem_iff_getElem?.mp (diffLists_adds_mem h hx)
    rcases (c1 i x hi).mp hx with h1 | ⟨j, o, d, h1, h2, h3⟩
    · exact h1 (hn.mem_iff.mpr (List.mem_map_of_mem (List.mem_of_getElem? hi)))
    · have ho := List.mem_of_getElem? h1
      have hx := List.mem_of_getElem? hi
      exact hf o ho x hx (hR o ho x hx h2) _ _ _ h3
  · refine List.eq_nil_iff_forall_not_mem.mpr fun x hx => ?_
    obtain ⟨j, hj⟩ := List.mem_iff_getElem?.mp (diffLists_deletes_mem h hx)
    rcases (c2 j x hj).mp hx with h1 | ⟨i, n, d, h1, h2, h3⟩
    · exact h1 (hn.mem_iff.mp (List.mem_map_of_mem (List.mem_of_getElem? hj)))
    · have ho := List.mem_of_getElem? hj
      have hx := List.mem_of_getElem? h1
      exact hf x ho n hx (hR x ho n hx h2) _ _ _ h3
  · intro d hd
    obtain ⟨i, n, j, o, h1, h2, h3, h4⟩ := diffLists_alters_mem h hd
    exact ⟨i, n, j, o, h1, h2, h3, hR o (List.mem_of_getElem? h2) n (List.mem_of_getElem? h1) h3, h4⟩

/-- the case of equal lists -/
theorem diffLists_self {l : List S} (h : diffLists l l buildDiff = .ok r)
    (hf : ∀ o ∈ l, ∀ i j d, buildDiff o o i j ≠ .ok (d, true)) :
    r.adds = [] ∧ r.deletes = [] ∧ ∀ d ∈ r.alters, ∃ i o, l[i]? = some o ∧ buildDiff o o i i = .ok (d, false) := by
  have hl := diffLists_old_nodup h
  obtain ⟨h1, h2, h3⟩ := diffLists_matched (R := fun a b => a = b) h (List.Perm.refl _)
    (fun o ho n hn e => List.inj_on_of_nodup_map hl ho hn e) (by rintro o ho n _ rfl; exact hf o ho)
  refine ⟨h1, h2, fun d hd => ?_⟩
  obtain ⟨i, n, j, o, e1, e2, _, rfl, e5⟩ := h3 d hd
  obtain rfl := index_unique hl e1 e2 rfl
  exact ⟨i, o, e1, e5⟩

end

/-- tables that differ in the order of columns only, as far as the options ignore it -/
structure Reordered (opts : PlanOptions) (t t' : Table) : Prop where
  rest : t' = { t with columns := t'.columns }
  columns : t.columns.Perm t'.columns
  respected : opts.ignoreChangesToColOrder = false → t'.columns = t.columns

/-- normalized schemas that differ in the order of columns only -/
structure Matched (opts : PlanOptions) (old new : Schema) : Prop where
  namedSchemas : new.namedSchemas = old.namedSchemas
  extensions : new.extensions = old.extensions
  enums : new.enums = old.enums
  tables : List.Forall₂ (Reordered opts) old.tables new.tables
  indexes : new.indexes = old.indexes
  foreignKeys : new.foreignKeyConstraints = old.foreignKeyConstraints
  sequences : new.sequences = old.sequences
  functions : new.functions = old.functions
  procedures : new.procedures = old.procedures
  triggers : new.triggers = old.triggers
  views : new.views = old.views
  materializedViews : new.materializedViews = old.materializedViews
  viewOptions : ∀ v ∈ old.views, (GoMap.keys v.options).Nodup
  materializedViewOptions : ∀ v ∈ old.materializedViews, (GoMap.keys v.options).Nodup

theorem Reordered.name {opts : PlanOptions} {t t' : Table} (h : Reordered opts t t') : t'.name = t.name := by
  rw [h.rest]

theorem forall₂_names {opts : PlanOptions} {l l' : List Table} (h : List.Forall₂ (Reordered opts) l l') :
    l'.map Obj.getName = l.map Obj.getName := by
  induction h with
  | nil => rfl
  | cons h _ ih =>
    rw [List.map_cons, List.map_cons, ih]
    congr 1
    show SQName.getName _ = SQName.getName _
    rw [h.name]

theorem forall₂_namesakes {S : Type} [Obj S] {R : S → S → Prop} {l l' : List S} (h : List.Forall₂ R l l')
    (hR : ∀ a b, R a b → Obj.getName a = Obj.getName b) (hn : (l.map Obj.getName).Nodup) :
    ∀ o ∈ l, ∀ n ∈ l', Obj.getName o = Obj.getName n → R o n := by
  induction h with
  | nil => intro o ho; cases ho
  | @cons a b l l' hab hl ih =>
    rw [List.map_cons, List.nodup_cons] at hn
    have names : l'.map Obj.getName = l.map Obj.getName := by
      clear ih hn
      induction hl with
      | nil => rfl
      | cons h _ ih => rw [List.map_cons, List.map_cons, ih, hR _ _ h]
    intro o ho n hn' e
    rcases List.mem_cons.mp ho with rfl | ho <;> rcases List.mem_cons.mp hn' with rfl | hn'
    · exact hab
    · exact absurd (names ▸ e ▸ List.mem_map_of_mem hn') hn.1
    · exact absurd ((hR _ _ hab).trans e.symm ▸ List.mem_map_of_mem ho) hn.1
    · exact ih hn.2 o ho n hn' e

/-! ### the pieces of a table -/

theorem CheckGen.alter_self {g : CheckGen} {c : CheckConstraint} {l : List Statement} (h : g.alter ⟨c, c⟩ = .ok l) :
    l = [] := by
  have hb : (!c.isValid && c.isValid) = false := by cases c.isValid <;> rfl
  unfold CheckGen.alter at h
  dsimp only at h
  rw [hb, ite_error_ok, ite_error_ok] at h
  simpa using h.2.2.symm

theorem PolicyGen.alter_self (g : PolicyGen) (p : Policy) : g.alter ⟨p, p⟩ = .ok [] := by
  unfold PolicyGen.alter
  simp

theorem getTargetColumns_error {l : List String} {m : GoMap String Column} : ∀ {e : Err}, getTargetColumns l m = .error e →
    e.isNotImplemented = false := by
  induction l with
  | nil => intro e h; cases h
  | cons n l ih =>
    intro e h
    unfold getTargetColumns at h
    split at h
    · cases h; rfl
    · cases hr : getTargetColumns l m with
      | error e' => rw [hr] at h; cases h; exact ih hr
      | ok cs => rw [hr] at h; cases h

theorem PolicyGen.gen_alter_self {g : PolicyGen} {p : Policy} {e : Err} (h : g.gen.alter ⟨p, p⟩ = .error e) :
    e.isNotImplemented = false := by
  have h' : (do
      let statements ← g.alter ⟨p, p⟩
      let deps ← g.addAlterDeps p p
      return (⟨[⟨g.vertexId p .addAlter, .sooner, statements⟩], deps⟩ : PartialGraph Statement)) = .error e := h
  rw [PolicyGen.alter_self] at h'
  cases hd : g.addAlterDeps p p with
  | ok ds => rw [hd] at h'; cases h'
  | error e' =>
    rw [hd] at h'
    cases h'
    unfold PolicyGen.addAlterDeps at hd
    cases h1 : getTargetColumns p.columns g.newSchemaColumnsByName with
    | error e1 => rw [h1] at hd; cases hd; exact getTargetColumns_error h1
    | ok l =>
      rw [h1] at hd
      dsimp only [bind, Except.bind] at hd
      split at hd
      · cases hd
      · cases h2 : getTargetColumns p.columns g.oldSchemaColumnsByName with
        | error e1 => rw [h2] at hd; cases hd; exact getTargetColumns_error h2
        | ok l => rw [h2] at hd; cases hd

theorem equalFold_refl (s : String) : equalFold s s = true := by
  unfold equalFold; simp

theorem ColumnGen.alter_self {t : SQName} {c : Column} {i : Nat} : ColumnGen.alter t ⟨c, c, i, i⟩ = .ok [] := by
  unfold ColumnGen.alter ColumnGen.buildUpdateIdentityStatements
  simp only [ne_eq, not_true_eq_false, if_false, if_true]
  show Except.ok _ = _
  unfold ColumnGen.alterStatements
  simp [equalFold_refl]

/-- the diff of a table with itself, up to the order of its columns -/
structure UnchangedDiff (opts : PlanOptions) (td : TableDiff) : Prop where
  tables : Reordered opts td.old td.new
  columnAdds : td.columnsDiff.adds = []
  columnDeletes : td.columnsDiff.deletes = []
  columnAlters : ∀ c ∈ td.columnsDiff.alters, c.new = c.old ∧ (opts.ignoreChangesToColOrder = false → c.oldOrdering = c.newOrdering)
  checkAdds : td.checkConstraintDiff.adds = []
  checkDeletes : td.checkConstraintDiff.deletes = []
  checkAlters : ∀ c ∈ td.checkConstraintDiff.alters, c.new = c.old
  policyAdds : td.policiesDiff.adds = []
  policyDeletes : td.policiesDiff.deletes = []
  policyAlters : ∀ c ∈ td.policiesDiff.alters, c.new = c.old
  privilegeAdds : td.privilegesDiff.adds = []
  privilegeDeletes : td.privilegesDiff.deletes = []
  checkMem : ∀ c ∈ td.checkConstraintDiff.alters, c.old ∈ td.old.checkConstraints
  policyMem : ∀ c ∈ td.policiesDiff.alters, c.old ∈ td.old.policies
  privilegeMem : td.old.privileges = [] → td.privilegesDiff.alters = []

theorem buildTableDiff_reordered {opts : PlanOptions} {o n : Table} (hr : Reordered opts o n) {i j : Nat} {td : TableDiff}
    (h : buildTableDiff o n i j = .ok (td, false)) : UnchangedDiff opts td := by
  obtain ⟨eo, en, _, _, _, hc, hcc, ⟨psg, hpsg, hp⟩, hpr⟩ := buildTableDiff_ok h
  have hcols := diffLists_matched (R := fun a b => b = a) hc (hr.columns.map _)
    (fun c hc' c' hc'' e => (List.inj_on_of_nodup_map (diffLists_old_nodup hc) hc' (hr.columns.mem_iff.mpr hc'') e).symm)
    (by intro o _ n _ _ i j d e; simp [buildColumnDiff] at e)
  have e1 : n.checkConstraints = o.checkConstraints := by rw [hr.rest]
  have e2 : n.policies = o.policies := by rw [hr.rest]
  have e3 : n.privileges = o.privileges := by rw [hr.rest]
  rw [e1] at hcc
  unfold buildPolicyDiffs at hp
  rw [e2] at hp
  rw [e3] at hpr
  have hcc' := diffLists_self hcc (by intro c _ i j d e; simp [buildCheckConstraintDiff] at e)
  have hp' := diffLists_self hp (by
    intro c _ i j d e
    split at e
    · cases e
    · rename_i e' he
      rw [PolicyGen.gen_alter_self he] at e
      cases e)
  have hpr' := diffLists_self hpr (by intro c _ i j d e; simp [buildPrivilegeDiff] at e)
  refine ⟨by rw [eo, en]; exact hr, hcols.1, hcols.2.1, ?_, hcc'.1, hcc'.2.1, ?_, hp'.1, hp'.2.1, ?_, hpr'.1, hpr'.2.1,
    ?_, ?_, ?_⟩
  · intro c hm
    obtain ⟨i, n', j, o', h1, h2, h3, rfl, h5⟩ := hcols.2.2 c hm
    simp only [buildColumnDiff, Except.ok.injEq, Prod.mk.injEq, and_true] at h5
    subst h5
    refine ⟨rfl, fun hi => ?_⟩
    rw [hr.respected hi] at h1
    exact index_unique (diffLists_old_nodup hc) h2 h1 rfl
  · intro c hm
    obtain ⟨i, o', h1, h2⟩ := hcc'.2.2 c hm
    simp only [buildCheckConstraintDiff, Except.ok.injEq, Prod.mk.injEq] at h2
    rw [← h2.1]
  · intro c hm
    obtain ⟨i, o', h1, h2⟩ := hp'.2.2 c hm
    split at h2
    · cases h2; rfl
    · split at h2 <;> cases h2
  · intro c hm
    obtain ⟨i, o', h1, h2⟩ := hcc'.2.2 c hm
    simp only [buildCheckConstraintDiff, Except.ok.injEq, Prod.mk.injEq] at h2
    rw [← h2.1, eo]
    exact List.mem_of_getElem? h1
  · intro c hm
    obtain ⟨i, o', h1, h2⟩ := hp'.2.2 c hm
    rw [eo]
    split at h2
    · cases h2; exact List.mem_of_getElem? h1
    · split at h2 <;> cases h2
  · intro he
    refine List.eq_nil_iff_forall_not_mem.mpr fun c hm => ?_
    obtain ⟨i, o', h1, h2⟩ := hpr'.2.2 c hm
    rw [eo] at he
    rw [he] at h1
    simp at h1

theorem buildTableDiff_not_recreated {opts : PlanOptions} {o n : Table} (hr : Reordered opts o n) {i j : Nat} {td : TableDiff} :
    buildTableDiff o n i j ≠ .ok (td, true) := by
  intro h
  have e1 : n.partitionKeyDef = o.partitionKeyDef := by rw [hr.rest]
  have e2 : n.parentTable = o.parentTable := by rw [hr.rest]
  unfold buildTableDiff at h
  rw [if_neg (by simp [Table.isPartitioned, e1]), if_neg (by simp [e1]), if_neg (by simp [e2])] at h
  simp only [except_bind_ok, except_pure_ok] at h
  obtain ⟨_, _, _, _, _, _, _, _, _, _, e⟩ := h
  cases e

theorem UnchangedDiff.orderIf {opts : PlanOptions} {td : TableDiff} (h : UnchangedDiff opts td) :
    UnchangedDiff opts (orderIf opts td) ∧ ∀ c ∈ (Verif.orderIf opts td).columnsDiff.alters, c.oldOrdering = c.newOrdering := by
  unfold Verif.orderIf
  split
  · rename_i hi
    refine ⟨⟨h.tables, h.columnAdds, h.columnDeletes, ?_, h.checkAdds, h.checkDeletes, h.checkAlters, h.policyAdds,
      h.policyDeletes, h.policyAlters, h.privilegeAdds, h.privilegeDeletes, h.checkMem, h.policyMem, h.privilegeMem⟩, ?_⟩
    · intro c hc
      obtain ⟨c0, h0, rfl⟩ := List.mem_map.mp hc
      exact ⟨(h.columnAlters c0 h0).1, fun _ => rfl⟩
    · intro c hc
      obtain ⟨c0, h0, rfl⟩ := List.mem_map.mp hc
      rfl
  · rename_i hi
    exact ⟨h, fun c hc => (h.columnAlters c hc).2 (by simpa using hi)⟩

theorem legacyOrigin_nil {S D : Type} {m : Type → Type} [Monad m] [Yields m] [GoZero S] [IsDiff D S] {g : LegacyGen m S D}
    {ld : ListDiff S D} {s : Statement} (h : LegacyOrigin g ld s) (ha : ld.adds = []) (hd : ld.deletes = [])
    (hc : ∀ d ∈ ld.alters, ∀ l, yields (g.alter d) l → l = []) : False := by
  cases h with
  | add o mem => rw [ha] at mem; cases mem
  | delete o mem => rw [hd] at mem; cases mem
  | alter d mem l h hs => rw [hc d mem l h] at hs; cases hs

theorem legacyPlaced_nil {S D : Type} {m : Type → Type} [Monad m] [Yields m] [GoZero S] [IsDiff D S] {g : LegacyGen m S D}
    {ld : ListDiff S D} {id : VertexId} {s : Statement} (h : LegacyPlaced g ld id s) (ha : ld.adds = []) (hd : ld.deletes = [])
    (hc : ∀ d ∈ ld.alters, ∀ l, yields (g.alter d) l → l = []) : False := by
  cases h with
  | add o mem => rw [ha] at mem; cases mem
  | delete o mem => rw [hd] at mem; cases mem
  | alter d mem l h hs => rw [hc d mem l h] at hs; cases hs

theorem tableAlter_nil {opts : PlanOptions} {g : TableGen} {td : TableDiff} (h : UnchangedDiff opts td)
    (ho : ∀ c ∈ td.columnsDiff.alters, c.oldOrdering = c.newOrdering) {l : List Statement} (hl : yields (g.alter td) l) :
    l = [] := by
  have er : td.new.rlsEnabled = td.old.rlsEnabled := by rw [h.tables.rest]
  have ef : td.new.rlsForced = td.old.rlsForced := by rw [h.tables.rest]
  have ei : td.new.replicaIdentity = td.old.replicaIdentity := by rw [h.tables.rest]
  have hno : ∀ b : Bool, (!b && b) = false := by decide
  have hno' : ∀ b : Bool, (b && !b) = false := by decide
  have hdang : getDangerousNotNullAlters td.columnsDiff.alters td.new.checkConstraints td.old.checkConstraints = [] := by
    unfold getDangerousNotNullAlters
    refine List.filter_eq_nil_iff.mpr fun c hc => ?_
    rw [(h.columnAlters c hc).1]
    cases c.old.isNullable <;> simp
  have htemps : ∀ temps, yields (TableGen.tempConstraints td) temps → temps = [] := by
    intro temps ht
    unfold TableGen.tempConstraints at ht
    rw [hdang] at ht
    exact (yields_pure ht).symm
  obtain ⟨run⟩ := table_run hl
  have hrep : run.replica = [] := by
    rcases run.hreplica with ⟨_, e⟩ | ⟨hne, _⟩
    · exact e
    · exact absurd ei.symm hne
  have hbody : run.body = [] := by
    cases hp : td.new.isPartition with
    | true =>
      have hb := run.hpartition hp
      unfold TableGen.alterPartition at hb
      rw [ite_error_ok, ite_error_ok, ite_error_ok, ite_error_ok] at hb
      rw [← (Except.ok.injEq _ _ ▸ hb.2.2.2.2 : _ = run.body)]
      refine List.flatMap_eq_nil_iff.mpr fun c hc => ?_
      unfold TableGen.alterPartitionColumn
      rw [if_pos (by rw [(h.columnAlters c hc).1])]
    | false =>
      obtain ⟨b⟩ := base_run (run.hbase hp)
      have ht := htemps _ (run.htemps hp)
      have hd : b.dropTemps = [] := by
        have hl := b.hdropTemps.length_eq
        have h0 : run.temps.length = 0 := by rw [ht]; rfl
        exact List.length_eq_zero_iff.mp (hl.symm.trans h0)
      rw [b.hbody, hd, List.flatMap_nil, List.append_nil]
      refine List.eq_nil_iff_forall_not_mem.mpr fun s hs => ?_
      rcases b.mem_ordered.mp hs with hs | hs | hs | hs
      · refine legacyOrigin_nil (mem_of_legacy (m := Except Err) b.hcolumns hs) h.columnAdds h.columnDeletes ?_
        intro c hc l hl
        have e := (h.columnAlters c hc).1
        have e' := ho c hc
        obtain ⟨co, cn, i, j⟩ := c
        dsimp only at e e'
        subst e e'
        have hl : ColumnGen.alter td.new.name ⟨cn, cn, i, i⟩ = .ok l := hl
        rw [ColumnGen.alter_self] at hl
        exact (Except.ok.inj hl).symm
      · refine legacyOrigin_nil (mem_of_legacy (m := Except Err) b.hchecks hs) ?_ h.checkDeletes ?_
        · show td.checkConstraintDiff.adds ++ run.temps = []
          rw [h.checkAdds, ht]; rfl
        · intro c hc l hl
          have e := h.checkAlters c hc
          obtain ⟨co, cn⟩ := c
          dsimp only at e
          subst e
          exact CheckGen.alter_self hl
      · refine legacyOrigin_nil (mem_of_legacy (m := Except Err) b.hpolicies hs) h.policyAdds h.policyDeletes ?_
        intro c hc l hl
        have e := h.policyAlters c hc
        obtain ⟨co, cn⟩ := c
        dsimp only at e
        subst e
        have hl : b.psg.alter ⟨cn, cn⟩ = .ok l := hl
        rw [PolicyGen.alter_self] at hl
        exact (Except.ok.inj hl).symm
      · refine legacyOrigin_nil (mem_of_legacy (m := Except Err) b.hprivileges hs) h.privilegeAdds h.privilegeDeletes ?_
        intro c hc l hl
        exact (Except.ok.inj (hl : Except.ok [] = Except.ok l)).symm
  rw [run.hstmts, hbody, hrep, er, ef, hno, hno, hno', hno']
  rfl

/-! ### indexes -/

theorem Index.losesLocal_self (i : Index) : i.losesLocal i = false := by
  unfold Index.losesLocal
  split
  · rename_i o n h1 h2
    rw [h1] at h2; cases h2
    cases o.isLocal <;> rfl
  · rfl

theorem Index.recreates_self (part : Bool) (i : Index) : i.recreates part i = false := by
  have h1 : (if i.parentIdx = none then { i with parentIdx := i.parentIdx } else i : Index) = i := by split <;> rfl
  have h2 : (!part && decide (i.constraint = none) && i.constraint.isSome) = false := by
    cases i.constraint <;> simp
  have h3 : (part && i.isInvalid && !i.isInvalid) = false := by cases part <;> cases i.isInvalid <;> rfl
  unfold Index.recreates
  rw [Index.losesLocal_self]
  dsimp only
  rw [h1, h2, h3]
  simp

theorem buildIndexDiffAux_self {cfg : IndexDiffConfig} (ha : cfg.addedTablesByName = [])
    (he : cfg.newSchemaIndexesByName = cfg.oldSchemaIndexesByName) :
    ∀ {fuel : Nat} {seen : List String} {i : Index} {x : Option (Index × Bool)},
      buildIndexDiffAux cfg fuel seen i i = .ok x → x = some (i, false) := by
  intro fuel
  induction fuel with
  | zero => intro _ _ _ h; cases h
  | succ fuel ih =>
    intro seen i x h
    unfold buildIndexDiffAux at h
    rw [ite_error_ok] at h
    obtain ⟨_, h⟩ := h
    rw [ha, if_neg (by simp [GoMap.has, GoMap.get?])] at h
    obtain ⟨p, hp, h⟩ := except_bind_ok.mp h
    have hpf : p = false := by
      unfold parentRecreated at hp
      split at hp
      · rename_i op np h1 h2
        rw [h1] at h2; cases h2
        rw [if_pos rfl, he] at hp
        cases hg : cfg.oldSchemaIndexesByName.get? op.getName with
        | none => rw [hg] at hp; cases hp
        | some q =>
          rw [hg] at hp
          dsimp only at hp
          cases hr : buildIndexDiffAux cfg fuel (Obj.getName i :: seen) q q with
          | error e => rw [hr] at hp; cases hp
          | ok y =>
            rw [hr, ih hr] at hp
            exact (Except.ok.inj hp).symm
      · exact (Except.ok.inj hp).symm
    subst hpf
    rw [if_neg (by simp)] at h
    obtain ⟨part, _, h⟩ := except_bind_ok.mp h
    have := except_pure_ok.mp h
    rw [← this, Index.recreates_self]
    unfold Index.afterDiff
    rw [Index.losesLocal_self]
    simp

theorem effectiveOldIndex_self {cfg : IndexDiffConfig} {l : List Index} (hn : (l.map Obj.getName).Nodup) {i : Index} (hi : i ∈ l) :
    effectiveOldIndex cfg l i = i := by
  unfold effectiveOldIndex
  split
  · rfl
  · rename_i j hj
    have hm := List.mem_of_find?_eq_some hj
    have hn' : Obj.getName j = Obj.getName i := by simpa using List.find?_some hj
    obtain rfl := List.inj_on_of_nodup_map hn hm hi hn'
    split
    · rename_i o r hb
      obtain ⟨part, _, _, e, _⟩ := buildIndexDiffAux_some hb
      rw [e]
      unfold Index.afterDiff
      rw [Index.losesLocal_self]
      simp
    · rfl

theorem IndexGen.alter_self {g : IndexGen} {i : Index} {l : List Statement} (h : g.alter ⟨i, i⟩ = .ok l) : l = [] := by
  unfold IndexGen.alter at h
  obtain ⟨part, _, h⟩ := except_bind_ok.mp h
  dsimp only at h
  obtain ⟨con, h1, h⟩ := except_bind_ok.mp h
  rw [ite_error_ok] at h
  rw [← Except.ok.inj h.2]
  have : con = [] := by
    unfold IndexGen.constraintStatements at h1
    split at h1
    · rename_i e1 e2; rw [e1] at e2; cases e2
    · exact (Except.ok.inj h1).symm
  rw [this]
  split
  · rename_i e1 e2; rw [e1] at e2; cases e2
  · rfl

/-! ### views -/

theorem sameMap_self {m : GoMap String String} (h : (GoMap.keys m).Nodup) : sameMap m m = true := by
  unfold sameMap
  rw [Bool.and_self, List.all_eq_true]
  intro p hp
  simpa using GoMap.get?_of_mem h (k := p.1) (v := p.2) hp

theorem View.same_self {v : View} (h : (GoMap.keys v.options).Nodup) : v.same v = true := by
  unfold View.same; simp [sameMap_self h]

theorem MaterializedView.same_self {v : MaterializedView} (h : (GoMap.keys v.options).Nodup) : v.same v = true := by
  unfold MaterializedView.same; simp [sameMap_self h]

theorem viewDepsRecreated_false {m : GoMap String TableDiff} (hm : ∀ n td, m.get? n = some td → td.columnsDiff.deletes = []) :
    ∀ {l : List TableDependency} {b : Bool}, viewDepsRecreated [] m l = .ok b → b = false := by
  intro l
  induction l with
  | nil => intro b h; exact (Except.ok.inj h).symm
  | cons t l ih =>
    intro b h
    unfold viewDepsRecreated at h
    rw [if_neg (by simp [GoMap.has, GoMap.get?])] at h
    split at h
    · cases h
    · rename_i td htd
      rw [hm _ _ htd, if_neg (by simp [byName, buildMap, GoMap.has, GoMap.get?])] at h
      exact ih h

/-! ### the whole diff -/

/-- a list diff with alterations only, all of them of `P` -/
structure OnlyAlters {S D : Type} (ld : ListDiff S D) (P : D → Prop) : Prop where
  adds : ld.adds = []
  deletes : ld.deletes = []
  alters : ∀ d ∈ ld.alters, P d

/-- the diff of schemas that differ in the order of columns only -/
structure UnchangedSchema (opts : PlanOptions) (d : SchemaDiff) : Prop where
  namedSchemas : OnlyAlters d.namedSchemaDiffs fun x => x.new = x.old
  extensions : OnlyAlters d.extensionDiffs fun x => x.new = x.old
  enums : OnlyAlters d.enumDiffs fun x => x.new = x.old
  tables : OnlyAlters d.tableDiffs fun td => UnchangedDiff opts td ∧ ∀ c ∈ td.columnsDiff.alters, c.oldOrdering = c.newOrdering
  indexes : OnlyAlters d.indexDiffs fun x => x.new = x.old
  fks : OnlyAlters d.foreignKeyConstraintDiffs fun x => x.new = x.old
  sequences : OnlyAlters d.sequenceDiffs fun x => x.new = x.old
  functions : OnlyAlters d.functionDiffs fun x => x.new = x.old
  procedures : OnlyAlters d.procedureDiffs fun x => x.new = x.old
  triggers : OnlyAlters d.triggerDiffs fun x => x.new = x.old
  views : OnlyAlters d.viewDiffs fun x => x.new = x.old
  matViews : OnlyAlters d.materializedViewDiffs fun x => x.new = x.old

theorem onlyAlters_pair {S : Type} [Obj S] {l l' : List S} {r : ListDiff S (OldNew S)} (e : l' = l)
    (h : diffLists l l' pairDiff = .ok r) : OnlyAlters r fun x => x.new = x.old := by
  subst e
  obtain ⟨h1, h2, h3⟩ := diffLists_self h (by intro o _ i j d e; simp [pairDiff] at e)
  refine ⟨h1, h2, fun d hd => ?_⟩
  obtain ⟨i, o, _, e⟩ := h3 d hd
  simp only [pairDiff, Except.ok.injEq, Prod.mk.injEq, and_true] at e
  rw [← e]

theorem FkGen.alter_self (c : ForeignKeyConstraint) : FkGen.alter ⟨c, c⟩ = .ok [] := by
  unfold FkGen.alter
  have : (!c.isValid && c.isValid) = false := by cases c.isValid <;> rfl
  dsimp only
  rw [this]
  simp

theorem FkGen.gen_alter_self (g : FkGen) (c : ForeignKeyConstraint) : ∃ p, g.gen.alter ⟨c, c⟩ = .ok p := by
  have : g.gen.alter ⟨c, c⟩ = (do
      let statements ← FkGen.alter ⟨c, c⟩
      let deps ← g.addAlterDeps c c
      return (⟨[⟨FkGen.vertexId c .addAlter, .sooner, statements⟩], deps⟩ : PartialGraph Statement)) := rfl
  rw [this, FkGen.alter_self]
  exact ⟨_, rfl⟩

theorem Matched.unchanged {opts : PlanOptions} {old new : Schema} {d : SchemaDiff} (m : Matched opts old new)
    (run : DiffRun opts old new d) : UnchangedSchema opts d := by
  have hnames := forall₂_names m.tables
  have hnodup := diffLists_old_nodup run.htd0
  obtain ⟨t1, t2, t3⟩ := diffLists_matched (R := Reordered opts) run.htd0 (by rw [hnames])
    (forall₂_namesakes m.tables (fun a b h => by show a.name.getName = b.name.getName; rw [h.name]) hnodup)
    (fun o _ n _ h i j d => buildTableDiff_not_recreated h)
  have t3' : ∀ td ∈ run.td0.alters, UnchangedDiff opts td := by
    intro td htd
    obtain ⟨i, n, j, o, _, _, _, hr, hb⟩ := t3 td htd
    exact buildTableDiff_reordered hr hb
  have hby : byName run.td0.adds = [] := by rw [t1]; rfl
  have hbyd : byName run.td0.deletes = [] := by rw [t2]; rfl
  have hdeps : ∀ n td, (diffByName run.td0.alters).get? n = some td → td.columnsDiff.deletes = [] := fun n td h =>
    (t3' td (diffByName_get?_some h).1).columnDeletes
  refine ⟨onlyAlters_pair m.namedSchemas run.hschemas, onlyAlters_pair m.extensions run.hextensions,
    onlyAlters_pair m.enums run.henums, ⟨by rw [run.hadds, t1]; rfl, by rw [run.hdeletes, t2], ?_⟩, ?_, ?_, ?_,
    onlyAlters_pair m.functions run.hfunctions, onlyAlters_pair m.procedures run.hprocedures, ?_, ?_, ?_⟩
  · intro td htd
    rw [run.halters] at htd
    obtain ⟨td0, h0, rfl⟩ := List.mem_map.mp htd
    exact (t3' td0 h0).orderIf
  · have h := run.hindexes
    rw [m.indexes] at h
    unfold indexListDiff at h
    have hn : (old.indexes.map Obj.getName).Nodup := by
      have := diffLists_old_nodup h
      rw [List.map_map] at this
      exact (List.map_congr_left (f := Obj.getName ∘ effectiveOldIndex _ old.indexes) (g := Obj.getName)
        fun i _ => effectiveOldIndex_name _ _ _) ▸ this
    rw [List.map_congr_left (f := effectiveOldIndex (indexDiffConfig old new run.td0.adds) old.indexes) (g := id)
      (fun i hi => effectiveOldIndex_self hn hi), List.map_id] at h
    have ha : (indexDiffConfig old new run.td0.adds).addedTablesByName = [] := hby
    have he : (indexDiffConfig old new run.td0.adds).newSchemaIndexesByName =
        (indexDiffConfig old new run.td0.adds).oldSchemaIndexesByName := by
      show byName new.indexes = byName old.indexes
      rw [m.indexes]
    obtain ⟨h1, h2, h3⟩ := diffLists_self h (by
      intro i _ _ _ dd e
      cases hb : buildIndexDiff (indexDiffConfig old new run.td0.adds) i i with
      | error e' => rw [hb] at e; cases e
      | ok x =>
        have := buildIndexDiffAux_self ha he hb
        subst this
        rw [hb] at e; cases e)
    refine ⟨h1, h2, fun dd hd => ?_⟩
    obtain ⟨_, i, _, e⟩ := h3 dd hd
    cases hb : buildIndexDiff (indexDiffConfig old new run.td0.adds) i i with
    | error e' => rw [hb] at e; cases e
    | ok x =>
      have := buildIndexDiffAux_self ha he hb
      subst this
      rw [hb] at e; cases e; rfl
  · have h := run.hfks
    rw [m.foreignKeys, hby] at h
    have key : ∀ (g : FkGen) o i j, buildForeignKeyConstraintDiff g [] o o i j = .ok (⟨o, o⟩, false) := by
      intro g o i j
      obtain ⟨p, hp⟩ := g.gen_alter_self o
      unfold buildForeignKeyConstraintDiff
      simp only [GoMap.has, GoMap.get?_nil, Option.isSome_none, Bool.false_eq_true, if_false, hp]
    obtain ⟨h1, h2, h3⟩ := diffLists_self h (by intro o _ i j dd e; rw [key] at e; cases e)
    refine ⟨h1, h2, fun dd hd => ?_⟩
    obtain ⟨_, i, _, e⟩ := h3 dd hd
    rw [key] at e; cases e; rfl
  · have h := run.hsequences
    rw [m.sequences, hby] at h
    have key : ∀ o i j, buildSequenceDiff [] o o i j = .ok (⟨o, o⟩, false) := by
      intro o i j
      unfold buildSequenceDiff
      split
      · simp [GoMap.has]
      · rfl
    obtain ⟨h1, h2, h3⟩ := diffLists_self h (by intro o _ i j dd e; rw [key] at e; cases e)
    refine ⟨h1, h2, fun dd hd => ?_⟩
    obtain ⟨_, i, _, e⟩ := h3 dd hd
    rw [key] at e; cases e; rfl
  · have h := run.htriggers
    rw [m.triggers, hby] at h
    have key : ∀ o i j, buildTriggerDiff ([] : GoMap String Table) o o i j = .ok (⟨o, o⟩, false) := by
      intro o i j
      unfold buildTriggerDiff
      simp [GoMap.has]
    obtain ⟨h1, h2, h3⟩ := diffLists_self h (by intro o _ i j dd e; rw [key] at e; cases e)
    refine ⟨h1, h2, fun dd hd => ?_⟩
    obtain ⟨_, i, _, e⟩ := h3 dd hd
    rw [key] at e; cases e; rfl
  · have h := run.hviews
    rw [m.views, hbyd] at h
    have key : ∀ o ∈ old.views, ∀ i j x, buildViewDiff [] (diffByName run.td0.alters) o o i j = .ok x → x = (⟨o, o⟩, false) := by
      intro o ho i j x e
      unfold buildViewDiff at e
      obtain ⟨b, hb, e⟩ := except_bind_ok.mp e
      rw [viewDepsRecreated_false hdeps hb, if_neg (by simp)] at e
      simp only [ViewGen.gen, ViewGen.alter, View.same_self (m.viewOptions o ho), if_true] at e
      exact (Except.ok.inj e).symm
    obtain ⟨h1, h2, h3⟩ := diffLists_self h (by intro o ho i j dd e; cases key o ho _ _ _ e)
    refine ⟨h1, h2, fun dd hd => ?_⟩
    obtain ⟨_, i, hi, e⟩ := h3 dd hd
    cases key i (List.mem_of_getElem? hi) _ _ _ e; rfl
  · have h := run.hmatViews
    rw [m.materializedViews, hbyd] at h
    have key : ∀ o ∈ old.materializedViews, ∀ i j x,
        buildMaterializedViewDiff [] (diffByName run.td0.alters) o o i j = .ok x → x = (⟨o, o⟩, false) := by
      intro o ho i j x e
      unfold buildMaterializedViewDiff at e
      obtain ⟨b, hb, e⟩ := except_bind_ok.mp e
      rw [viewDepsRecreated_false hdeps hb, if_neg (by simp)] at e
      simp only [MatViewGen.gen, MatViewGen.alter, MaterializedView.same_self (m.materializedViewOptions o ho), if_true] at e
      exact (Except.ok.inj e).symm
    obtain ⟨h1, h2, h3⟩ := diffLists_self h (by intro o ho i j dd e; cases key o ho _ _ _ e)
    refine ⟨h1, h2, fun dd hd => ?_⟩
    obtain ⟨_, i, hi, e⟩ := h3 dd hd
    cases key i (List.mem_of_getElem? hi) _ _ _ e; rfl

theorem OnlyAlters.pair {S : Type} {ld : ListDiff S (OldNew S)} (h : OnlyAlters ld fun x => x.new = x.old) {x : OldNew S}
    (hx : x ∈ ld.alters) : ∃ o, x = ⟨o, o⟩ := by
  obtain ⟨o, n⟩ := x
  have e : n = o := h.alters _ hx
  exact ⟨o, by rw [e]⟩

/-- nothing to do -/
theorem UnchangedSchema.no_statements {opts : PlanOptions} {d : SchemaDiff} {r r' : Rand} {stmts : List Statement}
    (h : UnchangedSchema opts d) (run : PlanRun opts d r r' stmts) : stmts = [] := by
  refine List.eq_nil_iff_forall_not_mem.mpr fun s hs => ?_
  cases run.origin hs with
  | schemaAdd o mem => rw [h.namedSchemas.adds] at mem; cases mem
  | schemaDelete o mem => rw [h.namedSchemas.deletes] at mem; cases mem
  | extensionAdd o mem => rw [h.extensions.adds] at mem; cases mem
  | extensionDelete o mem => rw [h.extensions.deletes] at mem; cases mem
  | extensionAlter o mem l hl hs =>
    obtain ⟨e, rfl⟩ := h.extensions.pair mem
    simp only [ExtensionGen.alter, ne_eq, not_true_eq_false, if_false, Except.ok.injEq] at hl
    rw [← hl] at hs; cases hs
  | enumAdd o mem => rw [h.enums.adds] at mem; cases mem
  | enumDelete o mem => rw [h.enums.deletes] at mem; cases mem
  | enumAlter o mem l hl hs =>
    obtain ⟨e, rfl⟩ := h.enums.pair mem
    unfold EnumGen.alter at hl
    rw [if_neg (by simp), ite_error_ok] at hl
    have hv : ∀ ls : List String, (∀ x ∈ ls, x ∈ e.labels) → EnumGen.addValues e.name e.labels ls = [] := by
      intro ls
      induction ls with
      | nil => intro _; rfl
      | cons x ls ih =>
        intro hx
        rw [EnumGen.addValues, ih fun y hy => hx y (List.mem_cons_of_mem _ hy), if_pos (hx x List.mem_cons_self)]
        rfl
    rw [← Except.ok.inj hl.2, hv _ fun _ h => h] at hs
    cases hs
  | graph hg =>
    cases hg with
    | tableAdd t mem => rw [h.tables.adds] at mem; cases mem
    | tableDelete t mem => rw [h.tables.deletes] at mem; cases mem
    | tableAlter td mem _ _ hl =>
      obtain ⟨l, hl, hs⟩ := hl
      obtain ⟨hu, ho⟩ := h.tables.alters td mem
      rw [tableAlter_nil hu ho hl] at hs
      cases hs
    | attach t mem => rw [h.tables.adds] at mem; cases mem
    | rename i mem => rw [h.indexes.adds] at mem; cases mem
    | index hp =>
      refine legacyPlaced_nil hp h.indexes.adds h.indexes.deletes fun x hx l hl => ?_
      obtain ⟨e, rfl⟩ := h.indexes.pair hx
      exact IndexGen.alter_self hl
    | fk hp =>
      refine legacyPlaced_nil hp h.fks.adds h.fks.deletes fun x hx l hl => ?_
      obtain ⟨e, rfl⟩ := h.fks.pair hx
      exact (Except.ok.inj ((FkGen.alter_self e).symm.trans hl)).symm
    | sequence hp =>
      refine legacyPlaced_nil hp h.sequences.adds h.sequences.deletes fun x hx l hl => ?_
      obtain ⟨e, rfl⟩ := h.sequences.pair hx
      have : SequenceGen.alter ⟨e, e⟩ = .ok [] := by
        unfold SequenceGen.alter
        have : SequenceGen.differs e e = false := by simp [SequenceGen.differs]
        simp [this]
      exact (Except.ok.inj (this.symm.trans hl)).symm
    | ownership hp =>
      refine legacyPlaced_nil hp h.sequences.adds h.sequences.deletes fun x hx l hl => ?_
      obtain ⟨e, rfl⟩ := h.sequences.pair hx
      have : OwnershipGen.alter ⟨e, e⟩ = .ok [] := by simp [OwnershipGen.alter]
      exact (Except.ok.inj (this.symm.trans hl)).symm
    | function hp =>
      refine legacyPlaced_nil hp h.functions.adds h.functions.deletes fun x hx l hl => ?_
      obtain ⟨e, rfl⟩ := h.functions.pair hx
      have : FunctionGen.alter ⟨e, e⟩ = .ok [] := by simp [FunctionGen.alter]
      exact (Except.ok.inj (this.symm.trans hl)).symm
    | trigger hp =>
      refine legacyPlaced_nil hp h.triggers.adds h.triggers.deletes fun x hx l hl => ?_
      obtain ⟨e, rfl⟩ := h.triggers.pair hx
      have : TriggerGen.alter ⟨e, e⟩ = .ok [] := by simp [TriggerGen.alter]
      exact (Except.ok.inj (this.symm.trans hl)).symm
    | procedureAdd p _ mem =>
      rcases mem with mem | ⟨o, mem, e, hne⟩
      · rw [h.procedures.adds] at mem; cases mem
      · obtain ⟨q, rfl⟩ := h.procedures.pair mem
        exact hne e
    | procedureDelete p mem => rw [h.procedures.deletes] at mem; cases mem
    | viewAdd v mem => rw [h.views.adds] at mem; cases mem
    | viewDelete v mem => rw [h.views.deletes] at mem; cases mem
    | matViewAdd v mem => rw [h.matViews.adds] at mem; cases mem
    | matViewDelete v mem => rw [h.matViews.deletes] at mem; cases mem

end Verif
