import Verif.Lemmas.SelfDiff
import Verif.Spec.Plannable
import Verif.Props.Escape
import Verif.Props.SqlGraph
import Mathlib.Data.Prod.Lex

/-!
# Comparing a schema with itself succeeds
-/

namespace Verif

open Spec

/-! ### graphs -/

/-- a graph whose edges all lead upwards can be ordered -/
theorem orderPartial_ok {σ P : Type} [Preorder P] (rk : VertexId → P) {parts : PartialGraph σ}
    (h : ∀ d ∈ parts.dependencies, d.source.objType ∈ vertexKinds ∧ d.target.objType ∈ vertexKinds ∧ rk d.source < rk d.target) :
    ∃ l, orderPartial parts = .ok l := by
  cases ho : orderPartial parts with
  | ok l => exact ⟨l, rfl⟩
  | error e =>
    exfalso
    obtain ⟨v, hv⟩ := (C03_order_fails_iff_cyclic parts).1.mp ⟨e, ho⟩
    have key : ∀ s t, Relation.TransGen parts.Declared s t → ∃ a b : VertexId, a.text = s ∧ b.text = t ∧
        a.objType ∈ vertexKinds ∧ b.objType ∈ vertexKinds ∧ rk a < rk b := by
      intro s t hst
      induction hst with
      | single hd =>
        obtain ⟨d, hd, e1, e2⟩ := hd
        obtain ⟨h1, h2, h3⟩ := h d hd
        exact ⟨_, _, e1, e2, h1, h2, h3⟩
      | tail _ hd ih =>
        obtain ⟨a, b, ea, eb, ha, hb, hab⟩ := ih
        obtain ⟨d, hd, e1, e2⟩ := hd
        obtain ⟨h1, h2, h3⟩ := h d hd
        obtain rfl := C07_vertex_id_injective hb h1 (eb.trans e1.symm)
        exact ⟨a, _, ea, e2, ha, h2, hab.trans h3⟩
    obtain ⟨a, b, ea, eb, ha, hb, hab⟩ := key v v hv
    obtain rfl := C07_vertex_id_injective ha hb (ea.trans eb.symm)
    exact lt_irrefl _ hab

theorem orderStatements_ok_of_rank {P : Type} [Preorder P] (rk : VertexId → P) {parts : PartialGraph Statement}
    (h : ∀ d ∈ parts.dependencies, d.source.objType ∈ vertexKinds ∧ d.target.objType ∈ vertexKinds ∧ rk d.source < rk d.target) :
    ∃ l, orderStatements parts = .ok l := by
  obtain ⟨l, hl⟩ := orderPartial_ok rk h
  exact ⟨l, by unfold orderStatements; rw [hl]⟩

/-! ### lists -/

theorem diffLists_isOk {S D : Type} [Obj S] {old new : List S} {buildDiff : S → S → Nat → Nat → Except Err (D × Bool)}
    (hn : (old.map Obj.getName).Nodup)
    (h : ∀ o ∈ old, ∀ x ∈ new, Obj.getName o = Obj.getName x → ∀ i j, ∃ r, buildDiff o x j i = .ok r) :
    ∃ r, diffLists old new buildDiff = .ok r := by
  refine (C08_succeeds_iff old new buildDiff).mpr ⟨hn, fun i x o j e hx hm he => ?_⟩
  unfold matchOf at hm
  split at hm
  · cases hm
  · obtain ⟨hj, hnm⟩ := namesake_some hm
    obtain ⟨r, hr⟩ := h o (List.mem_of_getElem? hj) x (List.mem_of_getElem? hx) hnm i j
    rw [hr] at he
    cases he

/-- a computation of the generators that returns `a` and leaves the state alone -/
def Quiet {α : Type} (x : GenM α) (a : α) : Prop := ∀ s, x s = .ok (a, s)

theorem mapMs_isOk {α β : Type} {f : α → Except Err β} {l : List α} (h : ∀ a ∈ l, ∃ b, f a = .ok b) :
    ∃ bs, mapMs f l = .ok bs ∧ List.Forall₂ (fun a b => f a = .ok b) l bs := by
  induction l with
  | nil => exact ⟨[], rfl, .nil⟩
  | cons a l ih =>
    obtain ⟨b, hb⟩ := h a List.mem_cons_self
    obtain ⟨bs, hbs, hf⟩ := ih fun x hx => h x (List.mem_cons_of_mem _ hx)
    refine ⟨b :: bs, ?_, .cons hb hf⟩
    unfold mapMs
    rw [hb, hbs]
    rfl

theorem mapMs_quiet {α β : Type} {f : α → GenM β} {l : List α} (h : ∀ a ∈ l, ∃ b, Quiet (f a) b) :
    ∃ bs, Quiet (mapMs f l) bs ∧ List.Forall₂ (fun a b => Quiet (f a) b) l bs := by
  induction l with
  | nil => exact ⟨[], fun _ => rfl, .nil⟩
  | cons a l ih =>
    obtain ⟨b, hb⟩ := h a List.mem_cons_self
    obtain ⟨bs, hbs, hf⟩ := ih fun x hx => h x (List.mem_cons_of_mem _ hx)
    refine ⟨b :: bs, fun s => ?_, .cons hb hf⟩
    unfold mapMs
    refine genM_bind_ok.mpr ⟨b, s, hb s, genM_bind_ok.mpr ⟨bs, s, hbs s, rfl⟩⟩

/-- the graph of a list diff with alterations only -/
theorem generatePartialGraph_isOk {S D : Type} {g : VertexGen (Except Err) S D} {ld : ListDiff S D} (ha : ld.adds = [])
    (hd : ld.deletes = []) (h : ∀ d ∈ ld.alters, ∃ p, g.alter d = .ok p) :
    ∃ pg, generatePartialGraph g ld = .ok pg ∧
      ∀ dep ∈ pg.dependencies, ∃ d ∈ ld.alters, ∃ p, g.alter d = .ok p ∧ dep ∈ p.dependencies := by
  obtain ⟨bs, hbs, hf⟩ := mapMs_isOk h
  refine ⟨PartialGraph.concat bs, ?_, ?_⟩
  · unfold generatePartialGraph
    rw [ha, hd, hbs]
    rfl
  · intro dep hdep
    obtain ⟨p, hp, hdep⟩ := List.mem_flatMap.mp hdep
    obtain ⟨d, hd, e⟩ := forall₂_mem_right hf p hp
    exact ⟨d, hd, p, e, hdep⟩

theorem generatePartialGraph_quiet {S D : Type} {g : VertexGen GenM S D} {ld : ListDiff S D} (ha : ld.adds = [])
    (hd : ld.deletes = []) (h : ∀ d ∈ ld.alters, ∃ p, Quiet (g.alter d) p) :
    ∃ pg, Quiet (generatePartialGraph g ld) pg ∧
      ∀ dep ∈ pg.dependencies, ∃ d ∈ ld.alters, ∃ p, Quiet (g.alter d) p ∧ dep ∈ p.dependencies := by
  obtain ⟨bs, hbs, hf⟩ := mapMs_quiet h
  refine ⟨PartialGraph.concat bs, ?_, ?_⟩
  · intro s
    unfold generatePartialGraph
    rw [ha, hd]
    refine genM_bind_ok.mpr ⟨[], s, rfl, genM_bind_ok.mpr ⟨[], s, rfl, genM_bind_ok.mpr ⟨bs, s, hbs s, rfl⟩⟩⟩
  · intro dep hdep
    obtain ⟨p, hp, hdep⟩ := List.mem_flatMap.mp hdep
    obtain ⟨d, hd, e⟩ := forall₂_mem_right hf p hp
    exact ⟨d, hd, p, e, hdep⟩

theorem legacy_alter_isOk {S D : Type} [GoZero S] [IsDiff D S] {g : LegacyGen (Except Err) S D} {d : D} {l : List Statement}
    {deps : List Dependency} (h : g.alter d = .ok l) (hd : g.addAlterDeps (IsDiff.getNew d) (IsDiff.getOld d) = .ok deps) :
    g.toNew.alter d = .ok ⟨[⟨g.vertexId (IsDiff.getNew d) .addAlter, .sooner, l⟩], deps⟩ := by
  show (do
    let statements ← g.alter d
    let deps ← g.addAlterDeps (IsDiff.getNew d) (IsDiff.getOld d)
    return (⟨[⟨g.vertexId (IsDiff.getNew d) .addAlter, .sooner, statements⟩], deps⟩ : PartialGraph Statement)) = _
  rw [h, hd]
  rfl

theorem legacy_alter_quiet {S D : Type} [GoZero S] [IsDiff D S] {g : LegacyGen GenM S D} {d : D} {l : List Statement}
    {deps : List Dependency} (h : Quiet (g.alter d) l) (hd : Quiet (g.addAlterDeps (IsDiff.getNew d) (IsDiff.getOld d)) deps) :
    Quiet (g.toNew.alter d) ⟨[⟨g.vertexId (IsDiff.getNew d) .addAlter, .sooner, l⟩], deps⟩ := fun s =>
  genM_bind_ok.mpr ⟨l, s, h s, genM_bind_ok.mpr ⟨deps, s, hd s, rfl⟩⟩

/-! ### a table -/

theorem getTargetColumns_isOk {m : GoMap String Column} : ∀ {l : List String}, (∀ n ∈ l, ∃ c, m.get? n = some c) →
    ∃ cs, getTargetColumns l m = .ok cs ∧ cs.length = l.length ∧ ∀ c ∈ cs, ∃ n ∈ l, m.get? n = some c := by
  intro l
  induction l with
  | nil => intro _; exact ⟨[], rfl, rfl, by simp⟩
  | cons n l ih =>
    intro h
    obtain ⟨c, hc⟩ := h n List.mem_cons_self
    obtain ⟨cs, e, e1, e2⟩ := ih fun x hx => h x (List.mem_cons_of_mem _ hx)
    refine ⟨c :: cs, ?_, by simp [e1], ?_⟩
    · unfold getTargetColumns
      rw [hc, e]
      rfl
    · intro x hx
      rcases List.mem_cons.mp hx with rfl | hx
      · exact ⟨n, List.mem_cons_self, hc⟩
      · obtain ⟨k, hk, e⟩ := e2 x hx
        exact ⟨k, List.mem_cons_of_mem _ hk, e⟩

theorem byName_columns {cols : List Column} {n : String} (h : ∃ c ∈ cols, c.name = n) : ∃ c, (byName cols).get? n = some c := by
  cases hg : (byName cols).get? n with
  | some c => exact ⟨c, rfl⟩
  | none =>
    obtain ⟨c, hc, e⟩ := h
    exact absurd (List.mem_map.mpr ⟨c, hc, e⟩) (byName_get?_none.mp hg)

/-- the policies of a table that stays as it is -/
theorem policy_alter_isOk {g : PolicyGen} {p : Policy} (h : ∀ k ∈ p.columns, ∃ c, g.newSchemaColumnsByName.get? k = some c)
    (h' : ∀ k ∈ p.columns, ∃ c, g.oldSchemaColumnsByName.get? k = some c)
    (hs : ∀ k, g.oldSchemaColumnsByName.has k = g.newSchemaColumnsByName.has k)
    (hn : ∀ k c, g.oldSchemaColumnsByName.get? k = some c → c.name = k) :
    ∃ pg, g.gen.alter ⟨p, p⟩ = .ok pg ∧ ∀ d ∈ pg.dependencies, d.target = g.vertexId p .addAlter ∧
      (d.source = g.vertexId p .delete ∨ ∃ c, d.source = columnVertexId c .addAlter) := by
  obtain ⟨cs, e, _, _⟩ := getTargetColumns_isOk h
  obtain ⟨cs', e', _, hm'⟩ := getTargetColumns_isOk h'
  have hfil : (cs'.filter fun tc => !g.newSchemaColumnsByName.has tc.name) = [] := by
    refine List.filter_eq_nil_iff.mpr fun c hc => ?_
    obtain ⟨k, _, hk⟩ := hm' c hc
    rw [← hs, hn _ _ hk]
    simp [GoMap.has, hk]
  have hdeps : ∃ deps, g.addAlterDeps p p = .ok deps ∧ ∀ d ∈ deps, d.target = g.vertexId p .addAlter ∧
      (d.source = g.vertexId p .delete ∨ ∃ c, d.source = columnVertexId c .addAlter) := by
    unfold PolicyGen.addAlterDeps
    rw [e]
    have hfirst : ∀ d ∈ mustRunBefore (g.vertexId p .delete) (g.vertexId p .addAlter) ::
        cs.map (fun tc => mustRunAfter (g.vertexId p .addAlter) (columnVertexId tc.name .addAlter)),
        d.target = g.vertexId p .addAlter ∧ (d.source = g.vertexId p .delete ∨ ∃ c, d.source = columnVertexId c .addAlter) := by
      intro d hd
      rcases List.mem_cons.mp hd with rfl | hd
      · exact ⟨rfl, .inl rfl⟩
      · obtain ⟨c, _, rfl⟩ := List.mem_map.mp hd
        exact ⟨rfl, .inr ⟨_, rfl⟩⟩
    by_cases hz : p = GoZero.zero
    · exact ⟨_, if_pos hz, hfirst⟩
    · refine ⟨_, (if_neg hz).trans ?_, hfirst⟩
      rw [e']
      show Except.ok (_ ++ List.map _ (cs'.filter fun tc => !g.newSchemaColumnsByName.has tc.name)) = _
      rw [hfil]
      simp
  obtain ⟨deps, hd, hdeps⟩ := hdeps
  exact ⟨_, legacy_alter_isOk (g := g.legacy) (d := ⟨p, p⟩) (PolicyGen.alter_self g p) hd, hdeps⟩

/-- the check constraints of a table that stays as it is -/
theorem check_alter_isOk {g : CheckGen} {c : CheckConstraint} (h : ∀ k ∈ c.keyColumns, ∃ x, g.newSchemaColumnsByName.get? k = some x)
    (ha : g.addedColumnsByName = []) (hf : c.dependsOnFunctions = []) :
    ∃ pg, g.gen.alter ⟨c, c⟩ = .ok pg ∧ ∀ d ∈ pg.dependencies,
      d = mustRunBefore (CheckGen.vertexId c .delete) (CheckGen.vertexId c .addAlter) ∨
      (isValidNotNullCC c = true ∧ ∃ n, d = mustRunBefore (CheckGen.vertexId c .addAlter) (columnVertexId n .addAlter)) ∨
      (isValidNotNullCC c = false ∧ ∃ n, d = mustRunAfter (CheckGen.vertexId c .addAlter) (columnVertexId n .addAlter)) := by
  obtain ⟨cs, e, hl, _⟩ := getTargetColumns_isOk h
  have halter : g.alter ⟨c, c⟩ = .ok [] := by
    have hb : (!c.isValid && c.isValid) = false := by cases c.isValid <;> rfl
    unfold CheckGen.alter
    dsimp only
    rw [hb]
    simp [hf]
  have hnn : g.isOnValidNotNullPreExistingColumn c cs = isValidNotNullCC c := by
    unfold CheckGen.isOnValidNotNullPreExistingColumn
    split
    · rw [ha]; simp [GoMap.has]
    · rename_i hne
      cases hv : isValidNotNullCC c with
      | false => rfl
      | true =>
        exfalso
        unfold isValidNotNullCC at hv
        simp only [Bool.and_eq_true, decide_eq_true_eq] at hv
        rw [hv.1.1] at hl
        obtain ⟨x, hx⟩ := List.length_eq_one_iff.mp hl
        exact hne x hx
  have hdeps : ∃ deps, g.addAlterDeps c c = .ok deps ∧ ∀ d ∈ deps,
      d = mustRunBefore (CheckGen.vertexId c .delete) (CheckGen.vertexId c .addAlter) ∨
      (isValidNotNullCC c = true ∧ ∃ n, d = mustRunBefore (CheckGen.vertexId c .addAlter) (columnVertexId n .addAlter)) ∨
      (isValidNotNullCC c = false ∧ ∃ n, d = mustRunAfter (CheckGen.vertexId c .addAlter) (columnVertexId n .addAlter)) := by
    unfold CheckGen.addAlterDeps
    rw [e]
    dsimp only [bind, Except.bind]
    rw [hnn]
    cases hv : isValidNotNullCC c with
    | true =>
      refine ⟨_, if_pos rfl, fun d hd => ?_⟩
      rcases List.mem_cons.mp hd with rfl | hd
      · exact .inl rfl
      · obtain ⟨x, _, rfl⟩ := List.mem_map.mp hd
        exact .inr (.inl ⟨rfl, _, rfl⟩)
    | false =>
      refine ⟨_, if_neg (by simp), fun d hd => ?_⟩
      rcases List.mem_cons.mp hd with rfl | hd
      · exact .inl rfl
      · obtain ⟨x, _, rfl⟩ := List.mem_map.mp hd
        exact .inr (.inr ⟨rfl, _, rfl⟩)
  obtain ⟨deps, hd, hdeps⟩ := hdeps
  exact ⟨_, legacy_alter_isOk (g := g.legacy) (d := ⟨c, c⟩) halter hd, hdeps⟩

theorem newPolicyGen_isOk {opts : PlanOptions} {o n : Table} (hr : Reordered opts o n) :
    ∃ psg, newPolicyGen (nilableTable o) n = .ok psg ∧ psg.table = n ∧ psg.newSchemaColumnsByName = byName n.columns ∧
      (psg.oldSchemaColumnsByName = byName o.columns) := by
  unfold nilableTable
  by_cases hz : o = GoZero.zero
  · rw [if_pos hz]
    refine ⟨_, rfl, rfl, rfl, ?_⟩
    rw [hz]
    rfl
  · rw [if_neg hz]
    unfold newPolicyGen
    dsimp only
    rw [if_neg (by simp [hr.name])]
    exact ⟨_, rfl, rfl, rfl, rfl⟩

section
variable {opts : PlanOptions} {o n : Table} (hr : Reordered opts o n) (hp : TablePlannable o)
include hr hp

theorem reordered_policy_isOk {psg : PolicyGen} (h1 : psg.newSchemaColumnsByName = byName n.columns)
    (h2 : psg.oldSchemaColumnsByName = byName o.columns) {p : Policy} (hm : p ∈ o.policies) :
    ∃ pg, psg.gen.alter ⟨p, p⟩ = .ok pg ∧ ∀ d ∈ pg.dependencies, d.target = psg.vertexId p .addAlter ∧
      (d.source = psg.vertexId p .delete ∨ ∃ c, d.source = columnVertexId c .addAlter) := by
  refine policy_alter_isOk ?_ ?_ ?_ ?_
  · intro k hk
    rw [h1]
    obtain ⟨c, hc, e⟩ := hp.policyColumns p hm k hk
    exact byName_columns ⟨c, hr.columns.mem_iff.mp hc, e⟩
  · intro k hk
    rw [h2]
    exact byName_columns (hp.policyColumns p hm k hk)
  · intro k
    rw [h1, h2, Bool.eq_iff_iff, byName_has, byName_has]
    exact (hr.columns.map _).mem_iff
  · intro k c hc
    rw [h2] at hc
    exact (byName_get?_some hc).2

theorem buildTableDiff_isOk (i j : Nat) : ∃ r, buildTableDiff o n i j = .ok r := by
  have e1 : n.checkConstraints = o.checkConstraints := by rw [hr.rest]
  have e2 : n.policies = o.policies := by rw [hr.rest]
  have e3 : n.privileges = o.privileges := by rw [hr.rest]
  have e4 : n.partitionKeyDef = o.partitionKeyDef := by rw [hr.rest]
  have e5 : n.parentTable = o.parentTable := by rw [hr.rest]
  obtain ⟨psg, hpsg, _, h1, h2⟩ := newPolicyGen_isOk hr
  obtain ⟨r1, hr1⟩ := diffLists_isOk (new := n.columns) (buildDiff := buildColumnDiff) hp.columns fun _ _ _ _ _ _ _ => ⟨_, rfl⟩
  obtain ⟨r2, hr2⟩ := diffLists_isOk (new := n.checkConstraints) (buildDiff := buildCheckConstraintDiff) hp.checks
    fun _ _ _ _ _ _ _ => ⟨_, rfl⟩
  obtain ⟨r3, hr3⟩ : ∃ r, buildPolicyDiffs psg o.policies n.policies = .ok r := by
    refine diffLists_isOk hp.policies fun p hpm q hqm e i j => ?_
    rw [e2] at hqm
    obtain rfl := List.inj_on_of_nodup_map hp.policies hpm hqm e
    obtain ⟨pg, hpg, _⟩ := reordered_policy_isOk hr hp h1 h2 hpm
    rw [hpg]
    exact ⟨_, rfl⟩
  obtain ⟨r4, hr4⟩ := diffLists_isOk (new := n.privileges) (buildDiff := buildPrivilegeDiff) hp.privileges
    fun _ _ _ _ _ _ _ => ⟨_, rfl⟩
  unfold buildTableDiff
  rw [if_neg (by simp [Table.isPartitioned, e4]), if_neg (by simp [e4]), if_neg (by simp [e5]), hr1, hr2, hpsg]
  dsimp only [bind, Except.bind]
  rw [hr3, hr4]
  exact ⟨_, rfl⟩

end

open Classical in
/-- ranks of the vertices inside a table whose check constraints are `checks` -/
noncomputable def innerRank (checks : List CheckConstraint) (v : VertexId) : Nat :=
  if v.diffType = .delete then 0
  else if v.objType = "column" then 2
  else if v.objType = "checkconstraint" ∧ ∃ c ∈ checks, c.name = v.objId ∧ isValidNotNullCC c = true then 1
  else 3

theorem innerRank_delete {checks : List CheckConstraint} (k n : String) : innerRank checks ⟨k, n, .delete⟩ = 0 := if_pos rfl

theorem innerRank_column {checks : List CheckConstraint} (n : String) : innerRank checks (columnVertexId n .addAlter) = 2 := by
  simp [innerRank, columnVertexId]

theorem innerRank_early {checks : List CheckConstraint} {c : CheckConstraint} (hc : c ∈ checks) (hv : isValidNotNullCC c = true) :
    innerRank checks (CheckGen.vertexId c .addAlter) = 1 := by
  unfold innerRank
  rw [if_neg (by simp [CheckGen.vertexId]), if_neg (by simp [CheckGen.vertexId]), if_pos ⟨rfl, c, hc, rfl, hv⟩]

theorem innerRank_late {checks : List CheckConstraint} {c : CheckConstraint} (hn : NamesUnique checks) (hc : c ∈ checks)
    (hv : isValidNotNullCC c = false) : innerRank checks (CheckGen.vertexId c .addAlter) = 3 := by
  unfold innerRank
  rw [if_neg (by simp [CheckGen.vertexId]), if_neg (by simp [CheckGen.vertexId]), if_neg]
  rintro ⟨_, c', hc', e, hv'⟩
  obtain rfl := List.inj_on_of_nodup_map hn hc' hc e
  rw [hv] at hv'
  cases hv'

/-- an unchanged table is altered successfully -/
theorem tableAlter_quiet {opts : PlanOptions} {g : TableGen} {td : TableDiff} (h : UnchangedDiff opts td)
    (ho : ∀ c ∈ td.columnsDiff.alters, c.oldOrdering = c.newOrdering) (hp : TablePlannable td.old) : Quiet (g.alter td) [] := by
  have e4 : td.new.partitionKeyDef = td.old.partitionKeyDef := by rw [h.tables.rest]
  have e5 : td.new.parentTable = td.old.parentTable := by rw [h.tables.rest]
  have e6 : td.new.forValues = td.old.forValues := by rw [h.tables.rest]
  have e7 : td.new.isPartition = td.old.isPartition := by unfold Table.isPartition; rw [e5]
  have ei : td.new.replicaIdentity = td.old.replicaIdentity := by rw [h.tables.rest]
  have hdang : getDangerousNotNullAlters td.columnsDiff.alters td.new.checkConstraints td.old.checkConstraints = [] := by
    unfold getDangerousNotNullAlters
    refine List.filter_eq_nil_iff.mpr fun c hc => ?_
    rw [(h.columnAlters c hc).1]
    cases c.old.isNullable <;> simp
  have hwrap : ∀ b, ∃ l, TableGen.wrapAlter td b = .ok l := by
    intro b
    unfold TableGen.wrapAlter replicaStatements
    rw [ei, if_neg (by simp)]
    exact ⟨_, rfl⟩
  have hbase : ∃ l, TableGen.alterBaseTableWith td [] = .ok l := by
    obtain ⟨psg, hpsg, ht, h1, h2⟩ := newPolicyGen_isOk h.tables
    have hcol : ∀ d ∈ td.columnsDiff.alters, ∃ c i, d = ⟨c, c, i, i⟩ := by
      intro d hd
      have e := (h.columnAlters d hd).1
      have e' := ho d hd
      obtain ⟨co, cn, i, j⟩ := d
      dsimp only at e e'
      subst e e'
      exact ⟨_, _, rfl⟩
    have hchk : ∀ d ∈ td.checkConstraintDiff.alters, ∃ c ∈ td.old.checkConstraints, d = ⟨c, c⟩ := by
      intro d hd
      have e := h.checkAlters d hd
      have hm := h.checkMem d hd
      obtain ⟨co, cn⟩ := d
      dsimp only at e hm
      subst e
      exact ⟨_, hm, rfl⟩
    have hpol : ∀ d ∈ td.policiesDiff.alters, ∃ c ∈ td.old.policies, d = ⟨c, c⟩ := by
      intro d hd
      have e := h.policyAlters d hd
      have hm := h.policyMem d hd
      obtain ⟨co, cn⟩ := d
      dsimp only at e hm
      subst e
      exact ⟨_, hm, rfl⟩
    have kcol : ∀ c i, (columnGen td.new.name).alter ⟨c, c, i, i⟩ =
        .ok ⟨[⟨columnVertexId c.name .addAlter, .sooner, []⟩], [mustRunBefore (columnVertexId c.name .delete) (columnVertexId c.name .addAlter)]⟩ :=
      fun c i => legacy_alter_isOk (g := columnLegacy td.new.name) (d := ⟨c, c, i, i⟩) ColumnGen.alter_self rfl
    have kchk : ∀ c ∈ td.old.checkConstraints, _ := fun c hc =>
      check_alter_isOk (g := TableGen.checkGen td) (c := c)
        (fun k hk => by
          obtain ⟨x, hx, e⟩ := hp.checkColumns c hc k hk
          exact byName_columns ⟨x, h.tables.columns.mem_iff.mp hx, e⟩)
        (by show byName td.columnsDiff.adds = []; rw [h.columnAdds]; rfl) (hp.checkFunctions c hc)
    obtain ⟨p1, hp1, q1⟩ := generatePartialGraph_isOk (g := columnGen td.new.name) h.columnAdds h.columnDeletes (by
      intro d hd
      obtain ⟨c, i, rfl⟩ := hcol d hd
      exact ⟨_, kcol c i⟩)
    obtain ⟨p2, hp2, q2⟩ := generatePartialGraph_isOk (g := (TableGen.checkGen td).gen)
      (ld := { td.checkConstraintDiff with adds := td.checkConstraintDiff.adds ++ [] })
      (by show td.checkConstraintDiff.adds ++ [] = []; rw [h.checkAdds]; rfl) h.checkDeletes (by
      intro d hd
      obtain ⟨c, hc, rfl⟩ := hchk d hd
      obtain ⟨pg, e, _⟩ := kchk c hc
      exact ⟨pg, e⟩)
    obtain ⟨p3, hp3, q3⟩ := generatePartialGraph_isOk (g := psg.gen) h.policyAdds h.policyDeletes (by
      intro d hd
      obtain ⟨c, hc, rfl⟩ := hpol d hd
      obtain ⟨pg, e, _⟩ := reordered_policy_isOk h.tables hp h1 h2 hc
      exact ⟨pg, e⟩)
    obtain ⟨p4, hp4, q4⟩ := generatePartialGraph_isOk (g := PrivilegeGen.gen td.new.name) h.privilegeAdds h.privilegeDeletes (by
      intro d hd
      exact ⟨_, rfl⟩)
    have hrank : ∀ d ∈ (PartialGraph.concat [p1, p2, p3, p4]).dependencies, d.source.objType ∈ vertexKinds ∧
        d.target.objType ∈ vertexKinds ∧ innerRank td.old.checkConstraints d.source < innerRank td.old.checkConstraints d.target := by
      intro d hd
      obtain ⟨pg, hpg, hdep⟩ := List.mem_flatMap.mp hd
      clear hd
      have hd : d ∈ pg.dependencies := hdep
      clear hdep
      simp only [List.mem_cons, List.not_mem_nil, or_false] at hpg
      rcases hpg with rfl | rfl | rfl | rfl
      · obtain ⟨x, hx, p, e, hd⟩ := q1 d hd
        obtain ⟨c, i, rfl⟩ := hcol x hx
        rw [kcol] at e
        cases e
        obtain rfl := List.mem_singleton.mp hd
        exact ⟨by simp [vertexKinds, mustRunBefore, columnVertexId], by simp [vertexKinds, mustRunBefore, columnVertexId], by simp [innerRank, mustRunBefore, columnVertexId]⟩
      · obtain ⟨x, hx, p, e, hd⟩ := q2 d hd
        obtain ⟨c, hc, rfl⟩ := hchk x hx
        obtain ⟨pg, e', hdeps⟩ := kchk c hc
        rw [e'] at e
        cases e
        rcases hdeps d hd with rfl | ⟨hv, n, rfl⟩ | ⟨hv, n, rfl⟩
        · refine ⟨by simp [vertexKinds, mustRunBefore, mustRunAfter, columnVertexId, CheckGen.vertexId],
            by simp [vertexKinds, mustRunBefore, mustRunAfter, columnVertexId, CheckGen.vertexId], ?_⟩
          show innerRank _ (CheckGen.vertexId c .delete) < innerRank _ (CheckGen.vertexId c .addAlter)
          cases hv : isValidNotNullCC c with
          | true => rw [innerRank_early hc hv]; exact lt_of_eq_of_lt (innerRank_delete _ _) (by decide)
          | false => rw [innerRank_late hp.checks hc hv]; exact lt_of_eq_of_lt (innerRank_delete _ _) (by decide)
        · refine ⟨by simp [vertexKinds, mustRunBefore, mustRunAfter, columnVertexId, CheckGen.vertexId],
            by simp [vertexKinds, mustRunBefore, mustRunAfter, columnVertexId, CheckGen.vertexId], ?_⟩
          show innerRank _ (CheckGen.vertexId c .addAlter) < innerRank _ (columnVertexId n .addAlter)
          rw [innerRank_early hc hv, innerRank_column]
          decide
        · refine ⟨by simp [vertexKinds, mustRunBefore, mustRunAfter, columnVertexId, CheckGen.vertexId],
            by simp [vertexKinds, mustRunBefore, mustRunAfter, columnVertexId, CheckGen.vertexId], ?_⟩
          show innerRank _ (columnVertexId n .addAlter) < innerRank _ (CheckGen.vertexId c .addAlter)
          rw [innerRank_late hp.checks hc hv, innerRank_column]
          decide
      · obtain ⟨x, hx, p, e, hd⟩ := q3 d hd
        obtain ⟨c, hc, rfl⟩ := hpol x hx
        obtain ⟨pg, e', hdeps⟩ := reordered_policy_isOk h.tables hp h1 h2 hc
        rw [e'] at e
        cases e
        obtain ⟨et, es⟩ := hdeps d hd
        rw [et]
        rcases es with es | ⟨n, es⟩ <;> rw [es]
        · exact ⟨by simp [PolicyGen.vertexId, policyVertexId, vertexKinds], by simp [PolicyGen.vertexId, policyVertexId, vertexKinds],
            by simp [innerRank, PolicyGen.vertexId, policyVertexId]⟩
        · exact ⟨by simp [columnVertexId, vertexKinds], by simp [PolicyGen.vertexId, policyVertexId, vertexKinds],
            by simp [innerRank, PolicyGen.vertexId, policyVertexId, columnVertexId]⟩
      · obtain ⟨x, hx, p, e, hd⟩ := q4 d hd
        cases e
        obtain rfl := List.mem_singleton.mp hd
        exact ⟨by simp [mustRunBefore, PrivilegeGen.vertexId, vertexKinds], by simp [mustRunBefore, PrivilegeGen.vertexId, vertexKinds],
          by simp [innerRank, mustRunBefore, PrivilegeGen.vertexId]⟩
    obtain ⟨l, hl⟩ := orderStatements_ok_of_rank _ hrank
    unfold TableGen.alterBaseTableWith
    simp only [e4, ne_eq, not_true_eq_false, if_false]
    refine ⟨l ++ [], ?_⟩
    refine except_bind_ok.mpr ⟨_, hp1, except_bind_ok.mpr ⟨_, hp2, except_bind_ok.mpr ⟨[], rfl, except_bind_ok.mpr ⟨_, hpsg,
      except_bind_ok.mpr ⟨_, hp3, except_bind_ok.mpr ⟨_, hp4, except_bind_ok.mpr ⟨_, hl, rfl⟩⟩⟩⟩⟩⟩⟩
  have hpart : td.new.isPartition = true → ∃ l, g.alterPartition td = .ok l := by
    intro hpt
    have hne : td.old.parentTable ≠ none := by
      rw [e7] at hpt
      unfold Table.isPartition at hpt
      intro e
      rw [e] at hpt
      cases hpt
    obtain ⟨n1, n2, n3⟩ := hp.partition hne
    have m1 : td.checkConstraintDiff.alters = [] := List.eq_nil_iff_forall_not_mem.mpr fun c hc => by
      have := h.checkMem c hc
      rw [n1] at this
      cases this
    have m2 : td.policiesDiff.alters = [] := List.eq_nil_iff_forall_not_mem.mpr fun c hc => by
      have := h.policyMem c hc
      rw [n2] at this
      cases this
    have m3 := h.privilegeMem n3
    unfold TableGen.alterPartition
    rw [if_neg (by simp [e6]), if_neg (by simp [ListDiff.isEmpty, h.checkAdds, h.checkDeletes, m1]),
      if_neg (by simp [ListDiff.isEmpty, h.policyAdds, h.policyDeletes, m2]),
      if_neg (by simp [ListDiff.isEmpty, h.privilegeAdds, h.privilegeDeletes, m3])]
    exact ⟨_, rfl⟩
  have key : ∃ l, Quiet (g.alter td) l := by
    have hbody : ∃ b, Quiet (g.alterBody td) b := by
      unfold TableGen.alterBody
      by_cases hpt : td.new.isPartition = true
      · obtain ⟨l, hl⟩ := hpart hpt
        refine ⟨l, fun s => ?_⟩
        rw [if_pos hpt, hl]
        rfl
      · obtain ⟨l, hl⟩ := hbase
        refine ⟨l, fun s => ?_⟩
        rw [if_neg hpt]
        unfold TableGen.alterBaseTable
        simp only [e4, ne_eq, not_true_eq_false, if_false]
        refine genM_bind_ok.mpr ⟨[], s, ?_, ?_⟩
        · unfold TableGen.tempConstraints
          rw [hdang]
          rfl
        · rw [hl]
          rfl
    obtain ⟨b, hb⟩ := hbody
    obtain ⟨l, hl⟩ := hwrap b
    refine ⟨l, fun s => ?_⟩
    unfold TableGen.alter
    simp only [e7, ne_eq, not_true_eq_false, if_false]
    refine genM_bind_ok.mpr ⟨b, s, hb s, ?_⟩
    rw [hl]
    rfl
  obtain ⟨l, hl⟩ := key
  have : l = [] := tableAlter_nil (g := g) h ho ⟨_, _, hl ⟨⟨fun _ => none, 0⟩, [], []⟩⟩
  rw [this] at hl
  exact hl

/-! ### indexes -/

theorem fq_getName (n : SQName) : n.getName = n.fq := rfl

theorem isIndexOnPartitionedTable_isOk {tables : List Table} {i : Index}
    (h : i.owningRelKind = "m" ∨ ∃ t ∈ tables, t.name = i.owningRelName) :
    ∃ b, isIndexOnPartitionedTable (byName tables) i = .ok b := by
  unfold isIndexOnPartitionedTable
  by_cases hm : i.owningRelKind = "m"
  · exact ⟨_, if_pos hm⟩
  · rw [if_neg hm]
    cases hg : (byName tables).get? i.owningRelName.getName with
    | some t => exact ⟨_, rfl⟩
    | none =>
      rcases h with h | ⟨t, ht, e⟩
      · exact absurd h hm
      · exact absurd (List.mem_map.mpr ⟨t, ht, by rw [← e]; rfl⟩) (byName_get?_none.mp hg)

theorem buildIndexDiffAux_isOk {cfg : IndexDiffConfig} {l : List Index} {tables : List Table} {rank : String → Nat}
    (ha : cfg.addedTablesByName = []) (hnew : cfg.newSchemaIndexesByName = byName l)
    (hold : cfg.oldSchemaIndexesByName = byName l) (ht : cfg.newSchemaTablesByName = byName tables)
    (howner : ∀ i ∈ l, i.owningRelKind = "m" ∨ ∃ t ∈ tables, t.name = i.owningRelName)
    (hparent : ∀ i ∈ l, ∀ p, i.parentIdx = some p → ∃ j ∈ l, j.sqName = p)
    (hrank : ∀ i ∈ l, ∀ p, i.parentIdx = some p → rank p.fq < rank i.sqName.fq) :
    ∀ {fuel : Nat} {seen : List String} {i : Index}, i ∈ l → (∀ n ∈ seen, n ∈ l.map Obj.getName) → seen.Nodup →
      (∀ n ∈ seen, rank i.sqName.fq < rank n) → (byName l).length < fuel + seen.length →
      ∃ x, buildIndexDiffAux cfg fuel seen i i = .ok x := by
  intro fuel
  induction fuel with
  | zero =>
    intro seen i _ hsub hnd _ hlen
    exfalso
    have hk : ∀ n ∈ seen, n ∈ GoMap.keys (byName l) := fun n hn => GoMap.has_iff.mp (byName_has.mpr (hsub n hn))
    have := (List.subperm_of_subset hnd hk).length_le
    unfold GoMap.keys at this
    rw [List.length_map] at this
    omega
  | succ fuel ih =>
    intro seen i hi hsub hnd hrk hlen
    have hni : Obj.getName i ∉ seen := fun hm => lt_irrefl _ (hrk _ hm)
    obtain ⟨b, hb⟩ := isIndexOnPartitionedTable_isOk (howner i hi)
    have hpr : ∃ p, parentRecreated cfg (buildIndexDiffAux cfg fuel (Obj.getName i :: seen)) i i = .ok p := by
      unfold parentRecreated
      cases hpi : i.parentIdx with
      | none => exact ⟨_, rfl⟩
      | some p =>
        dsimp only
        rw [if_pos rfl, hold, hnew]
        obtain ⟨j, hj, ej⟩ := hparent i hi p hpi
        cases hg : (byName l).get? p.getName with
        | none => exact absurd (List.mem_map.mpr ⟨j, hj, by rw [← ej]; rfl⟩) (byName_get?_none.mp hg)
        | some q =>
          obtain ⟨hq, eq⟩ := byName_get?_some hg
          have er : rank q.sqName.fq < rank i.sqName.fq := by
            have : q.sqName.fq = p.fq := eq
            rw [this]
            exact hrank i hi p hpi
          obtain ⟨x, hx⟩ := ih (seen := Obj.getName i :: seen) hq
            (by
              intro n hn
              rcases List.mem_cons.mp hn with rfl | hn
              · exact List.mem_map_of_mem hi
              · exact hsub n hn)
            (List.nodup_cons.mpr ⟨hni, hnd⟩)
            (by
              intro n hn
              rcases List.mem_cons.mp hn with rfl | hn
              · exact er
              · exact er.trans (hrk n hn))
            (by rw [List.length_cons]; omega)
          dsimp only
          rw [hx]
          cases x with
          | none => exact ⟨_, rfl⟩
          | some y => exact ⟨_, rfl⟩
    obtain ⟨p, hp⟩ := hpr
    unfold buildIndexDiffAux
    rw [if_neg hni, ha, if_neg (by simp [GoMap.has]), hp]
    dsimp only [bind, Except.bind]
    cases p with
    | true => exact ⟨_, rfl⟩
    | false =>
      rw [ht, hb]
      exact ⟨_, rfl⟩

/-! ### views -/

theorem viewDepsRecreated_isOk {m : GoMap String TableDiff} : ∀ {l : List TableDependency},
    (∀ t ∈ l, m.has (Obj.getName t) = true) → ∃ b, viewDepsRecreated [] m l = .ok b := by
  intro l
  induction l with
  | nil => intro _; exact ⟨_, rfl⟩
  | cons t l ih =>
    intro h
    unfold viewDepsRecreated
    rw [if_neg (by simp [GoMap.has])]
    have := h t List.mem_cons_self
    unfold GoMap.has at this
    obtain ⟨td, htd⟩ := Option.isSome_iff_exists.mp this
    rw [htd]
    dsimp only
    split
    · exact ⟨_, rfl⟩
    · exact ih fun x hx => h x (List.mem_cons_of_mem _ hx)

/-! ### the diff -/

theorem pairDiff_isOk {S : Type} [Obj S] {l l' : List S} (h : NamesUnique l) : ∃ r, diffLists l l' pairDiff = .ok r :=
  diffLists_isOk h fun _ _ _ _ _ _ _ => ⟨_, rfl⟩

section
variable {opts : PlanOptions} {old new : Schema} (m : Matched opts old new) (hp : Plannable old)
include m hp

theorem Matched.table_diff_isOk : ∃ td, diffLists old.tables new.tables buildTableDiff = .ok td ∧ td.adds = [] ∧
    td.deletes = [] ∧ ∀ t ∈ old.tables, (diffByName td.alters).has t.name.fq = true := by
  have hnames := forall₂_names m.tables
  have hsakes := forall₂_namesakes m.tables (fun a b h => by show a.name.getName = b.name.getName; rw [h.name]) hp.tables
  obtain ⟨td, htd⟩ := diffLists_isOk (new := new.tables) (buildDiff := buildTableDiff) hp.tables fun o ho x hx e i j =>
    buildTableDiff_isOk (hsakes o ho x hx e) (hp.table o ho) j i
  obtain ⟨t1, t2, _⟩ := diffLists_matched (R := Reordered opts) htd (by rw [hnames]) hsakes
    (fun o _ n _ h i j d => buildTableDiff_not_recreated h)
  refine ⟨td, htd, t1, t2, fun t ht => ?_⟩
  have hnew : (new.tables.map Obj.getName).Nodup := by rw [hnames]; exact hp.tables
  have hmem : Obj.getName t ∈ new.tables.map Obj.getName := by rw [hnames]; exact List.mem_map_of_mem ht
  obtain ⟨x, hx, ex⟩ := List.mem_map.mp hmem
  obtain ⟨i, hi⟩ := List.mem_iff_getElem?.mp hx
  obtain ⟨j, hj⟩ := List.mem_iff_getElem?.mp ht
  obtain ⟨⟨d, b⟩, hd⟩ := buildTableDiff_isOk (hsakes t ht x hx ex.symm) (hp.table t ht) j i
  have hb : b = false := by
    cases b with
    | false => rfl
    | true => exact absurd hd (buildTableDiff_not_recreated (hsakes t ht x hx ex.symm))
  subst hb
  have hda := ((C08_every_object_once htd hnew).2.2.1 d).mpr ⟨i, x, j, t, hi, hj, ex.symm, hd⟩
  refine buildMap_has.mpr (List.mem_map.mpr ⟨d, hda, ?_⟩)
  have := (buildTableDiff_ok hd).2.1
  show d.new.name.getName = _
  rw [this]
  exact ex

theorem Matched.diff_isOk : ∃ d, buildNormalizedSchemaDiff old new = .ok d := by
  obtain ⟨td, htd, t1, t2, t3⟩ := m.table_diff_isOk hp
  obtain ⟨x1, h1⟩ := pairDiff_isOk (l' := new.namedSchemas) hp.namedSchemas
  obtain ⟨x2, h2⟩ := pairDiff_isOk (l' := new.extensions) hp.extensions
  obtain ⟨x3, h3⟩ := pairDiff_isOk (l' := new.enums) hp.enums
  obtain ⟨x8, h8⟩ := pairDiff_isOk (l' := new.functions) hp.functions
  obtain ⟨x9, h9⟩ := pairDiff_isOk (l' := new.procedures) hp.procedures
  have hby : byName td.adds = [] := by rw [t1]; rfl
  have hbyd : byName td.deletes = [] := by rw [t2]; rfl
  obtain ⟨rank, hrank⟩ := hp.indexTree
  have hrank' : ∀ i ∈ old.indexes, ∀ p, i.parentIdx = some p → rank p.fq < rank i.sqName.fq := by
    intro i hi p e
    exact hrank i hi p.fq (by simp [e])
  have howner : ∀ i ∈ old.indexes, i.owningRelKind = "m" ∨ ∃ t ∈ new.tables, t.name = i.owningRelName := by
    intro i hi
    rcases hp.indexOwner i hi with h | ⟨t, ht, e⟩
    · exact .inl h
    · obtain ⟨t', ht', hr⟩ := forall₂_mem_left m.tables t ht
      exact .inr ⟨t', ht', hr.name.trans e⟩
  obtain ⟨x4, h4⟩ : ∃ r, indexListDiff (indexDiffConfig old new td.adds) old.indexes new.indexes = .ok r := by
    rw [m.indexes]
    unfold indexListDiff
    rw [List.map_congr_left (f := effectiveOldIndex (indexDiffConfig old new td.adds) old.indexes) (g := id)
      (fun i hi => effectiveOldIndex_self hp.indexes hi), List.map_id]
    refine diffLists_isOk hp.indexes fun o ho x hx e i j => ?_
    obtain rfl := List.inj_on_of_nodup_map hp.indexes ho hx e
    have enew : (indexDiffConfig old new td.adds).newSchemaIndexesByName = byName old.indexes := by
      show byName new.indexes = _
      rw [m.indexes]
    obtain ⟨y, hy⟩ := buildIndexDiffAux_isOk (cfg := indexDiffConfig old new td.adds) (l := old.indexes)
      (tables := new.tables) (rank := rank) hby enew rfl rfl howner hp.indexParent hrank'
      (fuel := (indexDiffConfig old new td.adds).newSchemaIndexesByName.length + 2) (seen := []) ho (by simp) List.nodup_nil
      (by simp) (by rw [enew, List.length_nil]; omega)
    have hy : buildIndexDiff (indexDiffConfig old new td.adds) o o = .ok y := hy
    rw [hy]
    rcases y with _ | ⟨y, b⟩
    · exact ⟨_, rfl⟩
    · exact ⟨_, rfl⟩
  obtain ⟨x5, h5⟩ : ∃ r, diffLists old.foreignKeyConstraints new.foreignKeyConstraints
      (buildForeignKeyConstraintDiff (newFkGen old new td.adds) (byName td.adds)) = .ok r := by
    refine diffLists_isOk hp.foreignKeys fun o ho x hx e i j => ?_
    rw [m.foreignKeys] at hx
    obtain rfl := List.inj_on_of_nodup_map hp.foreignKeys ho hx e
    obtain ⟨p, hpp⟩ := (newFkGen old new td.adds).gen_alter_self o
    unfold buildForeignKeyConstraintDiff
    simp only [hby, GoMap.has, GoMap.get?_nil, Option.isSome_none, Bool.false_eq_true, if_false, hpp]
    exact ⟨_, rfl⟩
  obtain ⟨x6, h6⟩ : ∃ r, diffLists old.sequences new.sequences (buildSequenceDiff (byName td.adds)) = .ok r := by
    refine diffLists_isOk hp.sequences fun o ho x hx e i j => ?_
    unfold buildSequenceDiff
    split
    · split <;> exact ⟨_, rfl⟩
    · exact ⟨_, rfl⟩
  obtain ⟨x7, h7⟩ : ∃ r, diffLists old.triggers new.triggers (buildTriggerDiff (byName td.adds)) = .ok r := by
    refine diffLists_isOk hp.triggers fun o ho x hx e i j => ?_
    unfold buildTriggerDiff
    split <;> exact ⟨_, rfl⟩
  obtain ⟨x10, h10⟩ : ∃ r, diffLists old.views new.views (buildViewDiff (byName td.deletes) (diffByName td.alters)) = .ok r := by
    refine diffLists_isOk hp.views fun o ho x hx e i j => ?_
    rw [m.views] at hx
    obtain rfl := List.inj_on_of_nodup_map hp.views ho hx e
    obtain ⟨b, hb⟩ := viewDepsRecreated_isOk (m := diffByName td.alters) (l := o.tableDependencies) fun t ht => by
      obtain ⟨t', ht', et⟩ := hp.viewTables o ho t ht
      have := t3 t' ht'
      rw [et] at this
      exact this
    unfold buildViewDiff
    rw [hbyd, hb]
    dsimp only [bind, Except.bind]
    cases b with
    | true => exact ⟨_, rfl⟩
    | false =>
      simp only [ViewGen.gen, ViewGen.alter, View.same_self (m.viewOptions o ho), if_true]
      exact ⟨_, rfl⟩
  obtain ⟨x11, h11⟩ : ∃ r, diffLists old.materializedViews new.materializedViews
      (buildMaterializedViewDiff (byName td.deletes) (diffByName td.alters)) = .ok r := by
    refine diffLists_isOk hp.materializedViews fun o ho x hx e i j => ?_
    rw [m.materializedViews] at hx
    obtain rfl := List.inj_on_of_nodup_map hp.materializedViews ho hx e
    obtain ⟨b, hb⟩ := viewDepsRecreated_isOk (m := diffByName td.alters) (l := o.tableDependencies) fun t ht => by
      obtain ⟨t', ht', et⟩ := hp.materializedViewTables o ho t ht
      have := t3 t' ht'
      rw [et] at this
      exact this
    unfold buildMaterializedViewDiff
    rw [hbyd, hb]
    dsimp only [bind, Except.bind]
    cases b with
    | true => exact ⟨_, rfl⟩
    | false =>
      simp only [MatViewGen.gen, MatViewGen.alter, MaterializedView.same_self (m.materializedViewOptions o ho), if_true]
      exact ⟨_, rfl⟩
  unfold buildNormalizedSchemaDiff
  refine ⟨_, except_bind_ok.mpr ⟨_, h1, except_bind_ok.mpr ⟨_, h2, except_bind_ok.mpr ⟨_, h3, except_bind_ok.mpr ⟨_, htd,
    except_bind_ok.mpr ⟨_, h4, except_bind_ok.mpr ⟨_, h5, except_bind_ok.mpr ⟨_, h6, except_bind_ok.mpr ⟨_, h8,
    except_bind_ok.mpr ⟨_, h9, except_bind_ok.mpr ⟨_, h7, except_bind_ok.mpr ⟨_, h10, except_bind_ok.mpr ⟨_, h11, rfl⟩⟩⟩⟩⟩⟩⟩⟩⟩⟩⟩⟩⟩

theorem Matched.alters_mem {d : SchemaDiff} (run : DiffRun opts old new d) :
    (∀ td ∈ d.tableDiffs.alters, td.old ∈ old.tables) ∧ (∀ x ∈ d.indexDiffs.alters, x.new ∈ old.indexes) ∧
    (∀ x ∈ d.functionDiffs.alters, x.new ∈ old.functions) := by
  refine ⟨?_, ?_, ?_⟩
  · intro td htd
    rw [run.halters] at htd
    obtain ⟨td0, h0, rfl⟩ := List.mem_map.mp htd
    obtain ⟨i, x, j, o, _, ho, _, hb⟩ := diffLists_alters_mem run.htd0 h0
    rw [orderIf_old, (buildTableDiff_ok hb).1]
    exact List.mem_of_getElem? ho
  · intro x hx
    obtain ⟨i, n, j, o, hn, _, _, hb⟩ := diffLists_alters_mem run.hindexes hx
    rw [m.indexes] at hn
    split at hb
    · cases hb
    · cases hb
    · cases hb
      exact List.mem_of_getElem? hn
  · intro x hx
    obtain ⟨i, n, j, o, hn, _, _, hb⟩ := diffLists_alters_mem run.hfunctions hx
    rw [m.functions] at hn
    cases hb
    exact List.mem_of_getElem? hn

end

/-! ### the plan -/

/-- ranks of the vertices of a plan between schemas without differences; tables, indexes and functions are ranked among
themselves -/
def outerRank (rt ri rf : String → Nat) (v : VertexId) : ℕ ×ₗ ℕ :=
  if v.diffType = .delete then toLex (if v.objType = "function" then 9 else 0, 0)
  else if v.objType = "table" then toLex (2, rt v.objId)
  else if v.objType = "index" then toLex (3, ri v.objId)
  else if v.objType = "function" then toLex (4, rf v.objId)
  else toLex (if v.objType = "sequence" then 1 else if v.objType = "trigger" ∨ v.objType = "fkconstraint" then 5 else 0, 0)

section
variable (rt ri rf : String → Nat) (n : String)

theorem outerRank_delete {k : String} (h : k ≠ "function") : outerRank rt ri rf ⟨k, n, .delete⟩ = toLex (0, 0) := by
  simp [outerRank, h]

theorem outerRank_functionDelete : outerRank rt ri rf ⟨"function", n, .delete⟩ = toLex (9, 0) := by
  simp [outerRank]

theorem outerRank_table : outerRank rt ri rf ⟨"table", n, .addAlter⟩ = toLex (2, rt n) := by
  simp [outerRank]

theorem outerRank_index : outerRank rt ri rf ⟨"index", n, .addAlter⟩ = toLex (3, ri n) := by
  simp [outerRank]

theorem outerRank_function : outerRank rt ri rf ⟨"function", n, .addAlter⟩ = toLex (4, rf n) := by
  simp [outerRank]

theorem outerRank_sequence : outerRank rt ri rf ⟨"sequence", n, .addAlter⟩ = toLex (1, 0) := by
  simp [outerRank]

theorem outerRank_trigger : outerRank rt ri rf ⟨"trigger", n, .addAlter⟩ = toLex (5, 0) := by
  simp [outerRank]

theorem outerRank_fk : outerRank rt ri rf ⟨"fkconstraint", n, .addAlter⟩ = toLex (5, 0) := by
  simp [outerRank]

theorem outerRank_rename : outerRank rt ri rf ⟨"indexrename", n, .addAlter⟩ = toLex (0, 0) := by
  simp [outerRank]

theorem outerRank_matView : outerRank rt ri rf ⟨"materialized_view", n, .addAlter⟩ = toLex (0, 0) := by
  simp [outerRank]

end

theorem lex_lt_of_lt {a b c d : ℕ} (h : a < c) : toLex (a, b) < toLex (c, d) := Prod.Lex.toLex_lt_toLex.mpr (.inl h)

theorem lex_lt_of_eq {a b d : ℕ} (h : b < d) : toLex (a, b) < toLex (a, d) := Prod.Lex.toLex_lt_toLex.mpr (.inr ⟨rfl, h⟩)

/-- an edge that leads upwards -/
def Upward (rt ri rf : String → Nat) (d : Dependency) : Prop :=
  d.source.objType ∈ vertexKinds ∧ d.target.objType ∈ vertexKinds ∧ outerRank rt ri rf d.source < outerRank rt ri rf d.target

theorem upward_mk {rt ri rf : String → Nat} {k k' n n' : String} {t t' : DiffType} (h : k ∈ vertexKinds) (h' : k' ∈ vertexKinds)
    {a b : ℕ ×ₗ ℕ} (ha : outerRank rt ri rf ⟨k, n, t⟩ = a) (hb : outerRank rt ri rf ⟨k', n', t'⟩ = b) (hab : a < b) :
    Upward rt ri rf ⟨⟨k, n, t⟩, ⟨k', n', t'⟩⟩ := ⟨h, h', by rw [ha, hb]; exact hab⟩

theorem concatMapM_isOk {α β : Type} {f : α → Except Err (List β)} {l : List α} (h : ∀ a ∈ l, ∃ b, f a = .ok b) :
    ∃ out, concatMapM f l = .ok out := by
  induction l with
  | nil => exact ⟨_, rfl⟩
  | cons a l ih =>
    obtain ⟨b, hb⟩ := h a List.mem_cons_self
    obtain ⟨o, ho⟩ := ih fun x hx => h x (List.mem_cons_of_mem _ hx)
    refine ⟨b ++ o, ?_⟩
    unfold concatMapM
    rw [hb, ho]
    rfl

theorem resolveToSQL_isOk {S D σ : Type} {ld : ListDiff S D} {add delete : S → Except Err (List σ)}
    {alter : D → Except Err (List σ)} (ha : ld.adds = []) (hd : ld.deletes = []) (h : ∀ d ∈ ld.alters, ∃ l, alter d = .ok l) :
    ∃ r, resolveToSQL ld add delete alter = .ok r := by
  obtain ⟨out, ho⟩ := concatMapM_isOk h
  exact ⟨⟨[], [], out⟩, resolveToSQL_spec.mpr ⟨by rw [ha]; rfl, by rw [hd]; rfl, ho⟩⟩

theorem IndexGen.alter_isOk {g : IndexGen} {tables : List Table} (ht : g.tablesInNewSchemaByName = byName tables) {i : Index}
    (h : i.owningRelKind = "m" ∨ ∃ t ∈ tables, t.name = i.owningRelName) : ∃ l, g.alter ⟨i, i⟩ = .ok l := by
  obtain ⟨b, hb⟩ := isIndexOnPartitionedTable_isOk h
  unfold IndexGen.alter IndexGen.onPartitionedTable
  rw [ht, hb]
  dsimp only [bind, Except.bind]
  have hc : IndexGen.constraintStatements i i.constraint i.constraint = .ok [] := by
    cases i.constraint <;> rfl
  have h1 : (if b && i.isInvalid && !i.isInvalid then { i with isInvalid := i.isInvalid } else i : Index) = i := by split <;> rfl
  have h2 : (decide (i.constraint = none) && i.constraint.isSome) = false := by
    cases i.constraint <;> simp
  have h3 : (if i.parentIdx = none then { i with parentIdx := i.parentIdx } else i : Index) = i := by split <;> rfl
  rw [hc]
  dsimp only
  rw [h1, h2, if_neg (by simp)]
  exact ⟨_, rfl⟩

theorem SequenceGen.alter_self (s : Sequence) : SequenceGen.alter ⟨s, s⟩ = .ok [] := by
  unfold SequenceGen.alter
  have : SequenceGen.differs s s = false := by simp [SequenceGen.differs]
  simp [this]

theorem FunctionGen.alter_self (f : Function) : FunctionGen.alter ⟨f, f⟩ = .ok [] := by simp [FunctionGen.alter]

theorem OwnershipGen.alter_self (s : Sequence) : OwnershipGen.alter ⟨s, s⟩ = .ok [] := by simp [OwnershipGen.alter]

theorem TriggerGen.alter_self (t : Trigger) : TriggerGen.alter ⟨t, t⟩ = .ok [] := by simp [TriggerGen.alter]

theorem EnumGen.alter_isOk (e : Enum) : ∃ l, EnumGen.alter ⟨e, e⟩ = .ok l := by
  unfold EnumGen.alter
  rw [if_neg (by simp), if_neg (by simp)]
  exact ⟨_, rfl⟩

/-- planning between schemas without differences succeeds, and draws no random names -/
theorem Matched.plan_isOk {opts : PlanOptions} {old new : Schema} {d : SchemaDiff} (m : Matched opts old new) (hp : Plannable old)
    (run : DiffRun opts old new d) (r : Rand) : ∃ stmts, SchemaGen.alter opts d (GenState.init r) = .ok (stmts, GenState.init r) := by
  have u := m.unchanged run
  obtain ⟨mt, mi, mf⟩ := m.alters_mem hp run
  obtain ⟨rt, hrt⟩ := hp.tableTree
  obtain ⟨ri, hri⟩ := hp.indexTree
  obtain ⟨rf, hrf⟩ := hp.functionCalls
  have eold : d.old = old := run.hold
  have enew : d.new = new := run.hnew
  obtain ⟨g1, k1⟩ := resolveToSQL_isOk (add := NamedSchemaGen.add) (delete := NamedSchemaGen.delete) (alter := NamedSchemaGen.alter)
    u.namedSchemas.adds u.namedSchemas.deletes fun _ _ => ⟨_, rfl⟩
  obtain ⟨g2, k2⟩ := resolveToSQL_isOk (add := ExtensionGen.add) (delete := ExtensionGen.delete) (alter := ExtensionGen.alter)
    u.extensions.adds u.extensions.deletes fun _ _ => ⟨_, rfl⟩
  obtain ⟨g3, k3⟩ := resolveToSQL_isOk (add := EnumGen.add) (delete := EnumGen.delete) (alter := EnumGen.alter)
    u.enums.adds u.enums.deletes fun x hx => by
      obtain ⟨e, rfl⟩ := u.enums.pair hx
      exact EnumGen.alter_isOk e
  -- tables
  have at1 : ∀ td ∈ d.tableDiffs.alters, Quiet ((SchemaGen.tableGen d).gen.alter td)
      ⟨[⟨tableVertexId td.new.name .addAlter, .sooner, []⟩],
        mustRunAfter (tableVertexId td.new.name .addAlter) (tableVertexId td.new.name .delete) ::
        match td.new.parentTable with
        | some p => [mustRunAfter (tableVertexId td.new.name .addAlter) (tableVertexId p .addAlter)]
        | none => []⟩ := fun td htd =>
    legacy_alter_quiet (g := (SchemaGen.tableGen d).legacy) (d := td)
      (tableAlter_quiet (u.tables.alters td htd).1 (u.tables.alters td htd).2 (hp.table _ (mt td htd))) fun _ => rfl
  obtain ⟨g4, k4, q4⟩ := generatePartialGraph_quiet (g := (SchemaGen.tableGen d).gen) u.tables.adds u.tables.deletes
    fun td htd => ⟨_, at1 td htd⟩
  -- partitions to attach
  have at2 : ∀ td ∈ d.tableDiffs.alters, Quiet ((AttachGen.gen d.new.indexes (byName d.tableDiffs.adds)).alter td)
      ⟨[⟨AttachGen.vertexId td.new .addAlter, .sooner, []⟩], []⟩ := by
    intro td htd
    refine legacy_alter_quiet (g := AttachGen.legacy d.new.indexes (byName d.tableDiffs.adds)) (d := td) (fun _ => rfl) fun s => ?_
    show AttachGen.addAlterDeps _ _ td.new td.old s = _
    unfold AttachGen.addAlterDeps
    cases hpt : td.new.parentTable with
    | none => rfl
    | some p =>
      have hne : td.old ≠ GoZero.zero := by
        intro e
        have : td.new.parentTable = td.old.parentTable := by rw [(u.tables.alters td htd).1.tables.rest]
        rw [e, hpt] at this
        cases this
      dsimp only
      rw [if_pos hne]
      rfl
  obtain ⟨g5, k5, q5⟩ := generatePartialGraph_quiet (g := AttachGen.gen d.new.indexes (byName d.tableDiffs.adds)) u.tables.adds
    u.tables.deletes fun td htd => ⟨_, at2 td htd⟩
  -- renames
  have at3 : ∀ x ∈ d.indexDiffs.alters, Quiet ((RenameGen.gen (byName d.old.indexes)).alter x)
      ⟨[⟨renameIndexVertexId x.new.sqName .addAlter, .sooner, []⟩], []⟩ := fun x _ =>
    legacy_alter_quiet (g := RenameGen.legacy (byName d.old.indexes)) (d := x) (fun _ => rfl) fun _ => rfl
  obtain ⟨g6, k6, q6⟩ := generatePartialGraph_quiet (g := RenameGen.gen (byName d.old.indexes)) u.indexes.adds
    u.indexes.deletes fun x hx => ⟨_, at3 x hx⟩
  -- indexes
  have at4 : ∀ x ∈ d.indexDiffs.alters, ∃ l, (SchemaGen.indexGen opts d (GenState.init r)).gen.alter x = .ok ⟨[⟨indexVertexId x.new.sqName .addAlter, .sooner, l⟩],
      [mustRunAfter (indexVertexId x.new.sqName .addAlter) (renameIndexVertexId x.new.sqName .addAlter),
        mustRunAfter (indexVertexId x.new.sqName .addAlter) (IndexGen.owningRelVertexId x.new .addAlter)] ++
      match x.new.parentIdx with
      | some p => [mustRunAfter (indexVertexId x.new.sqName .addAlter) (indexVertexId p .addAlter)]
      | none => []⟩ := by
    intro x hx
    have hmem := mi x hx
    obtain ⟨i, rfl⟩ := u.indexes.pair hx
    obtain ⟨l, hl⟩ := IndexGen.alter_isOk (g := SchemaGen.indexGen opts d (GenState.init r)) (tables := d.new.tables) rfl (i := i) (by
      rcases hp.indexOwner i hmem with h | ⟨t, ht, e⟩
      · exact .inl h
      · obtain ⟨t', ht', hr⟩ := forall₂_mem_left m.tables t ht
        exact .inr ⟨t', by rw [enew]; exact ht', hr.name.trans e⟩)
    exact ⟨l, legacy_alter_isOk (g := (SchemaGen.indexGen opts d (GenState.init r)).legacy) (d := ⟨i, i⟩) hl rfl⟩
  obtain ⟨g7, k7, q7⟩ := generatePartialGraph_isOk (g := (SchemaGen.indexGen opts d (GenState.init r)).gen) u.indexes.adds
    u.indexes.deletes fun x hx => let ⟨_, h⟩ := at4 x hx; ⟨_, h⟩
  -- foreign keys
  have at5 : ∀ x ∈ d.foreignKeyConstraintDiffs.alters, ∃ deps, (newFkGen d.old d.new d.tableDiffs.adds).addAlterDeps x.new x.old = .ok deps ∧
      (newFkGen d.old d.new d.tableDiffs.adds).gen.alter x = .ok ⟨[⟨FkGen.vertexId x.new .addAlter, .sooner, []⟩], deps⟩ := by
    intro x hx
    obtain ⟨c, rfl⟩ := u.fks.pair hx
    exact ⟨_, rfl, legacy_alter_isOk (g := (newFkGen d.old d.new d.tableDiffs.adds).legacy) (d := ⟨c, c⟩) (FkGen.alter_self c) rfl⟩
  obtain ⟨g8, k8, q8⟩ := generatePartialGraph_isOk (g := (newFkGen d.old d.new d.tableDiffs.adds).gen) u.fks.adds
    u.fks.deletes fun x hx => let ⟨_, _, h⟩ := at5 x hx; ⟨_, h⟩
  -- sequences
  have at6 : ∀ x ∈ d.sequenceDiffs.alters, ∃ deps, SequenceGen.addAlterDeps x.new x.old = .ok deps ∧
      (SchemaGen.sequenceGen d).gen.alter x = .ok ⟨[⟨sequenceVertexId x.new.name .addAlter, .sooner, []⟩], deps⟩ := by
    intro x hx
    obtain ⟨c, rfl⟩ := u.sequences.pair hx
    exact ⟨_, rfl, legacy_alter_isOk (g := (SchemaGen.sequenceGen d).legacy) (d := ⟨c, c⟩) (SequenceGen.alter_self c) rfl⟩
  obtain ⟨g9, k9, q9⟩ := generatePartialGraph_isOk (g := (SchemaGen.sequenceGen d).gen) u.sequences.adds
    u.sequences.deletes fun x hx => let ⟨_, _, h⟩ := at6 x hx; ⟨_, h⟩
  have at7 : ∀ x ∈ d.sequenceDiffs.alters,
      OwnershipGen.gen.alter x = .ok ⟨[⟨OwnershipGen.vertexId x.new .addAlter, .sooner, []⟩], []⟩ := by
    intro x hx
    obtain ⟨c, rfl⟩ := u.sequences.pair hx
    exact legacy_alter_isOk (g := OwnershipGen.legacy) (d := ⟨c, c⟩) (OwnershipGen.alter_self c)
      (by show OwnershipGen.addAlterDeps c c = _; simp [OwnershipGen.addAlterDeps])
  obtain ⟨g10, k10, q10⟩ := generatePartialGraph_isOk (g := OwnershipGen.gen) u.sequences.adds u.sequences.deletes
    fun x hx => ⟨_, at7 x hx⟩
  -- functions
  have at8 : ∀ x ∈ d.functionDiffs.alters, ∃ deps, FunctionGen.addAlterDeps x.new x.old = .ok deps ∧
      FunctionGen.gen.alter x = .ok ⟨[⟨functionVertexId x.new.name .addAlter, .sooner, []⟩], deps⟩ := by
    intro x hx
    obtain ⟨c, rfl⟩ := u.functions.pair hx
    exact ⟨_, rfl, legacy_alter_isOk (g := FunctionGen.legacy) (d := ⟨c, c⟩) (FunctionGen.alter_self c) rfl⟩
  obtain ⟨g11, k11, q11⟩ := generatePartialGraph_isOk (g := FunctionGen.gen) u.functions.adds
    u.functions.deletes fun x hx => let ⟨_, _, h⟩ := at8 x hx; ⟨_, h⟩
  -- procedures
  have at9 : ∀ x ∈ d.procedureDiffs.alters, (ProcedureGen.gen d.new).alter x = .ok .empty := by
    intro x hx
    obtain ⟨c, rfl⟩ := u.procedures.pair hx
    exact if_pos rfl
  obtain ⟨g12, k12, q12⟩ := generatePartialGraph_isOk (g := ProcedureGen.gen d.new) u.procedures.adds u.procedures.deletes
    fun x hx => ⟨_, at9 x hx⟩
  -- triggers
  have at10 : ∀ x ∈ d.triggerDiffs.alters, ∃ deps, TriggerGen.addAlterDeps x.new x.old = .ok deps ∧
      TriggerGen.gen.alter x = .ok ⟨[⟨TriggerGen.vertexId x.new .addAlter, .sooner, []⟩], deps⟩ := by
    intro x hx
    obtain ⟨c, rfl⟩ := u.triggers.pair hx
    exact ⟨_, rfl, legacy_alter_isOk (g := TriggerGen.legacy) (d := ⟨c, c⟩) (TriggerGen.alter_self c) rfl⟩
  obtain ⟨g13, k13, q13⟩ := generatePartialGraph_isOk (g := TriggerGen.gen) u.triggers.adds
    u.triggers.deletes fun x hx => let ⟨_, _, h⟩ := at10 x hx; ⟨_, h⟩
  -- views
  have at11 : ∀ x ∈ d.viewDiffs.alters, ViewGen.gen.alter x = .ok .empty := by
    intro x hx
    obtain ⟨i, n, j, o, _, ho, _, hb⟩ := diffLists_alters_mem run.hviews hx
    have hx' : x = ⟨o, n⟩ := by
      unfold buildViewDiff at hb
      obtain ⟨b, _, hb⟩ := except_bind_ok.mp hb
      split at hb
      · cases hb
      · split at hb
        · cases hb; rfl
        · split at hb <;> cases hb
    obtain ⟨c, rfl⟩ := u.views.pair hx
    cases hx'
    exact if_pos (View.same_self (m.viewOptions _ (List.mem_of_getElem? ho)))
  obtain ⟨g14, k14, q14⟩ := generatePartialGraph_isOk (g := ViewGen.gen) u.views.adds u.views.deletes fun x hx => ⟨_, at11 x hx⟩
  have at12 : ∀ x ∈ d.materializedViewDiffs.alters, MatViewGen.gen.alter x = .ok .empty := by
    intro x hx
    obtain ⟨i, n, j, o, _, ho, _, hb⟩ := diffLists_alters_mem run.hmatViews hx
    have hx' : x = ⟨o, n⟩ := by
      unfold buildMaterializedViewDiff at hb
      obtain ⟨b, _, hb⟩ := except_bind_ok.mp hb
      split at hb
      · cases hb
      · split at hb
        · cases hb; rfl
        · split at hb <;> cases hb
    obtain ⟨c, rfl⟩ := u.matViews.pair hx
    cases hx'
    exact if_pos (MaterializedView.same_self (m.materializedViewOptions _ (List.mem_of_getElem? ho)))
  obtain ⟨g15, k15, q15⟩ := generatePartialGraph_isOk (g := MatViewGen.gen) u.matViews.adds u.matViews.deletes
    fun x hx => ⟨_, at12 x hx⟩
  -- the order
  have hup : ∀ dep ∈ (PartialGraph.concat ([g4, g5, g6] ++ [g7, g8, g9, g10, g11, g12, g13, g14, g15])).dependencies, Upward rt ri rf dep := by
    have quiet_inj : ∀ {x : GenM (PartialGraph Statement)} {a b : PartialGraph Statement}, Quiet x a → Quiet x b → b = a := by
      intro x a b h1 h2
      have := (h2 (GenState.init r)).symm.trans (h1 (GenState.init r))
      cases this
      rfl
    intro dep hdep
    obtain ⟨pg, hpg, hd⟩ := List.mem_flatMap.mp hdep
    clear hdep
    simp only [List.cons_append, List.nil_append, List.mem_cons, List.not_mem_nil, or_false] at hpg
    rcases hpg with hpg | hpg | hpg | hpg | hpg | hpg | hpg | hpg | hpg | hpg | hpg | hpg <;> rw [hpg] at hd <;> clear hpg
    · obtain ⟨td, htd, p, e, hd⟩ := q4 dep hd
      rw [quiet_inj (at1 td htd) e] at hd
      have etd := (u.tables.alters td htd).1.tables
      rcases List.mem_cons.mp hd with rfl | hd
      · exact upward_mk (by decide) (by decide) (outerRank_delete _ _ _ _ (by decide)) (outerRank_table _ _ _ _) (lex_lt_of_lt (by decide))
      · have hpt : td.new.parentTable = td.old.parentTable := by rw [etd.rest]
        cases hq : td.new.parentTable with
        | none => rw [hq] at hd; cases hd
        | some q =>
          rw [hq] at hd
          obtain rfl := List.mem_singleton.mp hd
          refine upward_mk (by decide) (by decide) (outerRank_table _ _ _ _) (outerRank_table _ _ _ _) (lex_lt_of_eq ?_)
          rw [etd.name]
          exact hrt td.old (mt td htd) _ (by simp [← hpt, hq])
    · obtain ⟨td, htd, p, e, hd⟩ := q5 dep hd
      rw [quiet_inj (at2 td htd) e] at hd
      cases hd
    · obtain ⟨td, htd, p, e, hd⟩ := q6 dep hd
      rw [quiet_inj (at3 td htd) e] at hd
      cases hd
    · obtain ⟨x, hx, p, e, hd⟩ := q7 dep hd
      obtain ⟨l, hl⟩ := at4 x hx
      rw [hl] at e
      cases e
      rcases List.mem_append.mp hd with hd | hd
      · rcases List.mem_cons.mp hd with rfl | hd
        · exact upward_mk (by decide) (by decide) (outerRank_rename _ _ _ _) (outerRank_index _ _ _ _) (lex_lt_of_lt (by decide))
        · obtain rfl := List.mem_singleton.mp hd
          unfold IndexGen.owningRelVertexId
          split
          · exact upward_mk (by decide) (by decide) (outerRank_matView _ _ _ _) (outerRank_index _ _ _ _) (lex_lt_of_lt (by decide))
          · exact upward_mk (by decide) (by decide) (outerRank_table _ _ _ _) (outerRank_index _ _ _ _) (lex_lt_of_lt (by decide))
      · cases hq : x.new.parentIdx with
        | none => rw [hq] at hd; cases hd
        | some q =>
          rw [hq] at hd
          obtain rfl := List.mem_singleton.mp hd
          refine upward_mk (by decide) (by decide) (outerRank_index _ _ _ _) (outerRank_index _ _ _ _) (lex_lt_of_eq ?_)
          exact hri x.new (mi x hx) _ (by simp [hq])
    · obtain ⟨x, hx, p, e, hd⟩ := q8 dep hd
      obtain ⟨deps, h1, h2⟩ := at5 x hx
      rw [h2] at e
      cases e
      cases h1
      rcases List.mem_append.mp hd with hd | hd
      · simp only [List.mem_cons, List.not_mem_nil, or_false] at hd
        rcases hd with rfl | rfl | rfl
        · exact upward_mk (by decide) (by decide) (outerRank_delete _ _ _ _ (by decide)) (outerRank_fk _ _ _ _) (lex_lt_of_lt (by decide))
        · exact upward_mk (by decide) (by decide) (outerRank_table _ _ _ _) (outerRank_fk _ _ _ _) (lex_lt_of_lt (by decide))
        · exact upward_mk (by decide) (by decide) (outerRank_table _ _ _ _) (outerRank_fk _ _ _ _) (lex_lt_of_lt (by decide))
      · obtain ⟨i, _, rfl⟩ := List.mem_map.mp hd
        exact upward_mk (by decide) (by decide) (outerRank_index _ _ _ _) (outerRank_fk _ _ _ _) (lex_lt_of_lt (by decide))
    · obtain ⟨x, hx, p, e, hd⟩ := q9 dep hd
      obtain ⟨deps, h1, h2⟩ := at6 x hx
      rw [h2] at e
      cases e
      cases h1
      rcases List.mem_cons.mp hd with rfl | hd
      · exact upward_mk (by decide) (by decide) (outerRank_delete _ _ _ _ (by decide)) (outerRank_sequence _ _ _ _) (lex_lt_of_lt (by decide))
      · split at hd
        · obtain rfl := List.mem_singleton.mp hd
          exact upward_mk (by decide) (by decide) (outerRank_sequence _ _ _ _) (outerRank_table _ _ _ _) (lex_lt_of_lt (by decide))
        · cases hd
    · obtain ⟨x, hx, p, e, hd⟩ := q10 dep hd
      rw [at7 x hx] at e
      cases e
      cases hd
    · obtain ⟨x, hx, p, e, hd⟩ := q11 dep hd
      obtain ⟨deps, h1, h2⟩ := at8 x hx
      rw [h2] at e
      cases e
      have hmem := mf x hx
      obtain ⟨f, rfl⟩ := u.functions.pair hx
      cases h1
      rcases List.mem_append.mp hd with hd | hd
      · obtain ⟨q, hq, rfl⟩ := List.mem_map.mp hd
        refine upward_mk (by decide) (by decide) (outerRank_function _ _ _ _) (outerRank_function _ _ _ _) (lex_lt_of_eq ?_)
        exact hrf f hmem _ (List.mem_map_of_mem hq)
      · split at hd
        · obtain ⟨q, hq, rfl⟩ := List.mem_map.mp hd
          exact upward_mk (by decide) (by decide) (outerRank_function _ _ _ _) (outerRank_functionDelete _ _ _ _) (lex_lt_of_lt (by decide))
        · cases hd
    · obtain ⟨x, hx, p, e, hd⟩ := q12 dep hd
      rw [at9 x hx] at e
      cases e
      cases hd
    · obtain ⟨x, hx, p, e, hd⟩ := q13 dep hd
      obtain ⟨deps, h1, h2⟩ := at10 x hx
      rw [h2] at e
      cases e
      cases h1
      rcases List.mem_append.mp hd with hd | hd
      · simp only [List.mem_cons, List.not_mem_nil, or_false] at hd
        rcases hd with rfl | rfl
        · exact upward_mk (by decide) (by decide) (outerRank_function _ _ _ _) (outerRank_trigger _ _ _ _) (lex_lt_of_lt (by decide))
        · exact upward_mk (by decide) (by decide) (outerRank_table _ _ _ _) (outerRank_trigger _ _ _ _) (lex_lt_of_lt (by decide))
      · split at hd
        · obtain rfl := List.mem_singleton.mp hd
          exact upward_mk (by decide) (by decide) (outerRank_trigger _ _ _ _) (outerRank_functionDelete _ _ _ _) (lex_lt_of_lt (by decide))
        · cases hd
    · obtain ⟨x, hx, p, e, hd⟩ := q14 dep hd
      rw [at11 x hx] at e
      cases e
      cases hd
    · obtain ⟨x, hx, p, e, hd⟩ := q15 dep hd
      rw [at12 x hx] at e
      cases e
      cases hd
  obtain ⟨l, hl⟩ := orderStatements_ok_of_rank _ hup
  refine ⟨SchemaGen.assemble ⟨g1, g2, g3⟩ l, ?_⟩
  unfold SchemaGen.alter
  refine genM_bind_ok.mpr ⟨(⟨g1, g2, g3⟩,
    PartialGraph.concat ([g4, g5, g6] ++ [g7, g8, g9, g10, g11, g12, g13, g14, g15])), GenState.init r, ?_, genM_bind_ok.mpr ⟨l, GenState.init r, ?_, rfl⟩⟩
  · unfold SchemaGen.graphs
    refine genM_bind_ok.mpr ⟨g1, _, by rw [k1]; rfl, genM_bind_ok.mpr ⟨g4, _, k4 _, genM_bind_ok.mpr ⟨g2, _, by rw [k2]; rfl,
      genM_bind_ok.mpr ⟨g3, _, by rw [k3]; rfl, genM_bind_ok.mpr ⟨g5, _, k5 _, genM_bind_ok.mpr ⟨g6, _, k6 _,
      genM_bind_ok.mpr ⟨_, _, rfl, genM_bind_ok.mpr ⟨[g7, g8, g9, g10, g11, g12, g13, g14, g15], _, ?_, rfl⟩⟩⟩⟩⟩⟩⟩⟩
    unfold SchemaGen.statelessGraphs
    rw [k7, k8, k9, k10, k11, k12, k13, k14, k15]
    rfl
  · rw [hl]
    rfl

end Verif
