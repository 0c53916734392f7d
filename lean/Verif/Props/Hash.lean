import Verif.Spec.Schema
import Verif.Spec.Trace
import Verif.Lemmas.GoSort
import Verif.Lemmas.IndexDiff
import Verif.Lemmas.Effect
import Verif.Model.Generate
import Verif.Samples.Basic
import Mathlib.Data.List.Perm.Basic

/-!
# C42, C43, C44: the hash of a schema
-/

namespace Verif

open Spec Eff

variable {α : Type}

/-! ### sorting -/

theorem sortStrings_eq_iff {l l' : List String} : sortStrings l = sortStrings l' ↔ l.Perm l' := by
  constructor
  · intro h
    have := sortBy_perm id l
    unfold sortStrings at h
    rw [h] at this
    exact this.symm.trans (sortBy_perm id l')
  · intro h
    refine (((sortBy_perm id l).trans h).trans (sortBy_perm id l').symm).eq_of_pairwise ?_ (sortBy_sorted id l) (sortBy_sorted id l')
    intro a b _ _ h1 h2
    exact le_antisymm h1 h2

theorem sortObjs_map_eq [Obj α] {norm : α → α} (hname : ∀ a, Obj.getName (norm a) = Obj.getName a) {l l' : List α}
    (hp : (l.map norm).Perm (l'.map norm)) (hd : ∀ a ∈ l, ∀ b ∈ l, Obj.getName a = Obj.getName b → norm a = norm b) :
    (sortObjs l).map norm = (sortObjs l').map norm := by
  have key : ∀ l : List α, ((sortObjs l).map norm).Pairwise fun a b => Obj.getName a ≤ Obj.getName b := by
    intro l
    rw [List.pairwise_map]
    simp only [hname]
    exact sortBy_sorted _ _
  have p : ((sortObjs l).map norm).Perm ((sortObjs l').map norm) :=
    (((sortBy_perm _ l).map norm).trans hp).trans ((sortBy_perm _ l').map norm).symm
  refine p.eq_of_pairwise ?_ (key l) (key l')
  intro a b ha hb h1 h2
  obtain ⟨a', ha', rfl⟩ := List.mem_map.mp ha
  obtain ⟨b', hb', rfl⟩ := List.mem_map.mp (p.mem_iff.mpr hb)
  have hn := le_antisymm h1 h2
  simp only [hname] at hn
  exact hd a' ((sortBy_perm _ l).mem_iff.mp ha') b' ((sortBy_perm _ l).mem_iff.mp hb') hn

/-- sorting and normalizing forgets the order and nothing else -/
theorem sorted_eq_iff [Obj α] {norm : α → α} {R : α → α → Prop} (hname : ∀ a, Obj.getName (norm a) = Obj.getName a)
    {l l' : List α} (hd : Distinct l) (hR : ∀ a ∈ l, ∀ b, norm a = norm b ↔ R a b) :
    (sortObjs l).map norm = (sortObjs l').map norm ↔ PermUpTo R l l' := by
  constructor
  · intro h
    have hf : List.Forall₂ R (sortObjs l) (sortObjs l') := by
      have : List.Forall₂ (fun a b => norm a = norm b) (sortObjs l) (sortObjs l') := by
        rw [← List.forall₂_map_left_iff (R := fun a b => a = norm b), ← List.forall₂_map_right_iff (R := Eq),
          List.forall₂_eq_eq_eq]
        exact h
      rw [List.forall₂_iff_zip] at this ⊢
      refine ⟨this.1, fun {a b} hz => ?_⟩
      exact (hR a ((sortBy_perm _ l).mem_iff.mp (List.of_mem_zip hz).1) b).mp (this.2 hz)
    have hc : Relation.Comp (List.Forall₂ R) List.Perm (sortObjs l) l' := ⟨_, hf, sortBy_perm _ _⟩
    rw [List.forall₂_comp_perm_eq_perm_comp_forall₂] at hc
    obtain ⟨m, hm, hf⟩ := hc
    exact ⟨m, (sortBy_perm _ l).symm.trans hm, hf⟩
  · rintro ⟨m, hm, hf⟩
    refine sortObjs_map_eq hname ((hm.map norm).trans ?_) fun a ha b hb hn => by rw [hd a ha b hb hn]
    have : m.map norm = l'.map norm := by
      rw [← List.forall₂_eq_eq_eq, List.forall₂_map_left_iff, List.forall₂_map_right_iff]
      rw [List.forall₂_iff_zip] at hf ⊢
      refine ⟨hf.1, fun {a b} hz => (hR a (hm.mem_iff.mpr (List.of_mem_zip hz).1) b).mpr (hf.2 hz)⟩
    rw [this]

theorem sorted_eq_iff_perm [Obj α] {l l' : List α} (hd : Distinct l) : sortObjs l = sortObjs l' ↔ l.Perm l' := by
  have := sorted_eq_iff (norm := id) (R := Eq) (fun _ => rfl) (l' := l') hd (fun _ _ _ => Iff.rfl)
  simp only [List.map_id] at this
  rw [this]
  constructor
  · rintro ⟨m, hm, hf⟩
    rw [List.forall₂_eq_eq_eq] at hf
    subst hf; exact hm
  · intro h; exact ⟨l', h, by rw [List.forall₂_eq_eq_eq]⟩

/-! ### normal forms -/

theorem check_iff {c c' : CheckConstraint} (hd : Distinct c.dependsOnFunctions) :
    normalizeCheckConstraint c = normalizeCheckConstraint c' ↔ SameCheck c c' := by
  constructor
  · intro h
    cases c; cases c'
    simp only [normalizeCheckConstraint, CheckConstraint.mk.injEq, sortStrings_eq_iff, sorted_eq_iff_perm hd] at h
    obtain ⟨rfl, h1, rfl, rfl, rfl, h2⟩ := h
    exact ⟨rfl, h1, h2⟩
  · rintro ⟨h, h1, h2⟩
    rw [h]
    simp only [normalizeCheckConstraint, sortStrings_eq_iff.mpr h1, (sorted_eq_iff_perm hd).mpr h2]

theorem policy_iff {p p' : Policy} : normalizePolicy p = normalizePolicy p' ↔ SamePolicy p p' := by
  constructor
  · intro h
    cases p; cases p'
    simp only [normalizePolicy, Policy.mk.injEq, sortStrings_eq_iff] at h
    obtain ⟨rfl, rfl, h1, rfl, rfl, rfl, h2⟩ := h
    exact ⟨rfl, h1, h2⟩
  · rintro ⟨h, h1, h2⟩
    rw [h]
    simp only [normalizePolicy, sortStrings_eq_iff.mpr h1, sortStrings_eq_iff.mpr h2]

theorem dependency_iff {d d' : TableDependency} : normalizeTableDependency d = normalizeTableDependency d' ↔ SameDependency d d' := by
  constructor
  · intro h
    cases d; cases d'
    simp only [normalizeTableDependency, TableDependency.mk.injEq, sortStrings_eq_iff] at h
    obtain ⟨rfl, h1⟩ := h
    exact ⟨rfl, h1⟩
  · rintro ⟨h, h1⟩
    rw [h]
    simp only [normalizeTableDependency, sortStrings_eq_iff.mpr h1]

theorem function_iff {f f' : Function} (hd : Distinct f.dependsOnFunctions) :
    normalizeFunction f = normalizeFunction f' ↔ SameFunction f f' := by
  constructor
  · intro h
    cases f; cases f'
    simp only [normalizeFunction, Function.mk.injEq, sorted_eq_iff_perm hd] at h
    obtain ⟨rfl, rfl, rfl, h1⟩ := h
    exact ⟨rfl, h1⟩
  · rintro ⟨h, h1⟩
    rw [h]
    simp only [normalizeFunction, (sorted_eq_iff_perm hd).mpr h1]

theorem dependencies_iff {l l' : List TableDependency} (hd : Distinct l) :
    (sortObjs l).map normalizeTableDependency = (sortObjs l').map normalizeTableDependency ↔ PermUpTo SameDependency l l' :=
  sorted_eq_iff (norm := normalizeTableDependency) (R := SameDependency) (fun _ => rfl) hd fun _ _ _ => dependency_iff

theorem view_iff {v v' : View} (hd : Distinct v.tableDependencies) : normalizeView v = normalizeView v' ↔ SameView v v' := by
  constructor
  · intro h
    cases v; cases v'
    simp only [normalizeView, View.mk.injEq, dependencies_iff hd] at h
    obtain ⟨rfl, rfl, rfl, h1⟩ := h
    exact ⟨rfl, h1⟩
  · rintro ⟨h, h1⟩
    rw [h]
    simp only [normalizeView, (dependencies_iff hd).mpr h1]

theorem materializedView_iff {v v' : MaterializedView} (hd : Distinct v.tableDependencies) :
    normalizeMaterializedView v = normalizeMaterializedView v' ↔ SameMaterializedView v v' := by
  constructor
  · intro h
    cases v; cases v'
    simp only [normalizeMaterializedView, MaterializedView.mk.injEq, dependencies_iff hd] at h
    obtain ⟨rfl, rfl, rfl, rfl, h1⟩ := h
    exact ⟨rfl, h1⟩
  · rintro ⟨h, h1⟩
    rw [h]
    simp only [normalizeMaterializedView, (dependencies_iff hd).mpr h1]

theorem table_iff {t t' : Table} (hc : Distinct t.checkConstraints) (hf : ∀ c ∈ t.checkConstraints, Distinct c.dependsOnFunctions)
    (hp : Distinct t.policies) (hv : Distinct t.privileges) : normalizeTable t = normalizeTable t' ↔ SameTable t t' := by
  have h1 := fun l' => sorted_eq_iff (norm := normalizeCheckConstraint) (R := SameCheck) (fun _ => rfl) (l' := l') hc
    fun c h _ => check_iff (hf c h)
  have h2 := fun l' => sorted_eq_iff (norm := normalizePolicy) (R := SamePolicy) (fun _ => rfl) (l' := l') hp
    fun _ _ _ => policy_iff
  constructor
  · intro h
    cases t; cases t'
    simp only [normalizeTable, Table.mk.injEq, h1, h2, sorted_eq_iff_perm hv] at h
    obtain ⟨rfl, rfl, g1, g2, g3, rfl, rfl, rfl, rfl, rfl, rfl⟩ := h
    exact ⟨rfl, g1, g2, g3⟩
  · rintro ⟨h, g1, g2, g3⟩
    rw [h]
    simp only [normalizeTable, (h1 _).mpr g1, (h2 _).mpr g2, (sorted_eq_iff_perm hv).mpr g3]

theorem normalize_iff {s s' : Schema} (hd : NamesDistinct s) : s.normalize = s'.normalize ↔ SameSchema s s' := by
  have ht := fun l' => sorted_eq_iff (norm := normalizeTable) (R := SameTable) (fun _ => rfl) (l' := l') hd.tables
    fun t h _ => table_iff (hd.checks t h) (hd.checkFunctions t h) (hd.policies t h) (hd.privileges t h)
  have hf := fun l' => sorted_eq_iff (norm := normalizeFunction) (R := SameFunction) (fun _ => rfl) (l' := l') hd.functions
    fun f h _ => function_iff (hd.functionFunctions f h)
  have hv := fun l' => sorted_eq_iff (norm := normalizeView) (R := SameView) (fun _ => rfl) (l' := l') hd.views
    fun f h _ => view_iff (hd.viewTables f h)
  have hm := fun l' => sorted_eq_iff (norm := normalizeMaterializedView) (R := SameMaterializedView) (fun _ => rfl) (l' := l')
    hd.materializedViews fun f h _ => materializedView_iff (hd.materializedViewTables f h)
  simp only [Schema.normalize, Schema.mk.injEq, sorted_eq_iff_perm hd.namedSchemas, sorted_eq_iff_perm hd.extensions,
    sorted_eq_iff_perm hd.enums, ht, sorted_eq_iff_perm hd.indexes, sorted_eq_iff_perm hd.foreignKeys,
    sorted_eq_iff_perm hd.sequences, hf, sorted_eq_iff_perm hd.procedures, sorted_eq_iff_perm hd.triggers, hv, hm]
  constructor
  · rintro ⟨a, b, c, d, e, f, g, h, i, j, k, l⟩
    exact ⟨a, b, c, d, e, f, g, h, i, j, k, l⟩
  · rintro ⟨a, b, c, d, e, f, g, h, i, j, k, l⟩
    exact ⟨a, b, c, d, e, f, g, h, i, j, k, l⟩

/-! ### C43 -/

/-- **C43**: two fetches that return the same objects in any order give the same hash (or the same error). -/
theorem C43_hash_ignores_order (structHash : Schema → Except Err String) {s s' : Schema} (hd : NamesDistinct s)
    (h : SameSchema s s') : s.hash structHash = s'.hash structHash := by
  unfold Schema.hash
  rw [(normalize_iff hd).mpr h]

theorem permUpTo_sorted [Obj α] {norm : α → α} {R : α → α → Prop} (hR : ∀ a, R a (norm a)) (l : List α) :
    PermUpTo R l ((sortObjs l).map norm) :=
  ⟨_, (sortBy_perm _ l).symm, by
    rw [List.forall₂_map_right_iff]
    exact List.forall₂_same.mpr fun a _ => hR a⟩

theorem same_check (c : CheckConstraint) : SameCheck c (normalizeCheckConstraint c) :=
  ⟨rfl, (sortBy_perm _ _).symm, (sortBy_perm _ _).symm⟩

theorem same_policy (p : Policy) : SamePolicy p (normalizePolicy p) := ⟨rfl, (sortBy_perm _ _).symm, (sortBy_perm _ _).symm⟩

theorem same_dependency (d : TableDependency) : SameDependency d (normalizeTableDependency d) := ⟨rfl, (sortBy_perm _ _).symm⟩

/-- **C43**: normalizing keeps all objects, and changes nothing in them but the order of lists that stand for sets. -/
theorem C43_normalize_keeps (s : Schema) : SameSchema s s.normalize where
  namedSchemas := (sortBy_perm _ _).symm
  extensions := (sortBy_perm _ _).symm
  enums := (sortBy_perm _ _).symm
  tables := permUpTo_sorted (fun _ => ⟨rfl, permUpTo_sorted same_check _, permUpTo_sorted same_policy _,
    (sortBy_perm _ _).symm⟩) _
  indexes := (sortBy_perm _ _).symm
  foreignKeys := (sortBy_perm _ _).symm
  sequences := (sortBy_perm _ _).symm
  functions := permUpTo_sorted (fun _ => ⟨rfl, (sortBy_perm _ _).symm⟩) _
  procedures := (sortBy_perm _ _).symm
  triggers := (sortBy_perm _ _).symm
  views := permUpTo_sorted (fun _ => ⟨rfl, permUpTo_sorted same_dependency _⟩) _
  materializedViews := permUpTo_sorted (fun _ => ⟨rfl, permUpTo_sorted same_dependency _⟩) _

/-- **C43**: normalizing a second time changes nothing. -/
theorem C43_normalize_idempotent {s : Schema} (hd : NamesDistinct s) : s.normalize.normalize = s.normalize :=
  ((normalize_iff hd).mpr (C43_normalize_keeps s)).symm

/-- two grants of the same privilege to the same role, by different grantors -/
def Samples.tied (a b : Bool) : Schema := { Schema.empty with
  tables := [{ Samples.table "t" [] with privileges := [⟨"joe", "SELECT", a⟩, ⟨"joe", "SELECT", b⟩] }] }

/-- **C43** needs the names to be distinct, and for privileges a database does not guarantee it: `aclexplode` gives one row
for every grantor (queries.sql, `GetTablePrivileges`), the grantor is not part of the row, and the order of such rows is
left open.  Every hash function without collisions then tells the two orders apart. -/
theorem C43_distinct_names_needed {structHash : Schema → Except Err String}
    (hok : ∀ s, ∃ x, structHash s = .ok x) (hinj : ∀ a b x, structHash a = .ok x → structHash b = .ok x → a = b) :
    ∃ s s', SameSchema s s' ∧ s.hash structHash ≠ s'.hash structHash := by
  refine ⟨Samples.tied true false, Samples.tied false true, ?_, ?_⟩
  · refine ⟨.refl _, .refl _, .refl _, ?_, .refl _, .refl _, .refl _, ⟨_, .refl _, .nil⟩, .refl _, .refl _, ⟨_, .refl _, .nil⟩,
      ⟨_, .refl _, .nil⟩⟩
    exact ⟨_, .refl _, .cons ⟨rfl, ⟨_, .refl _, .nil⟩, ⟨_, .refl _, .nil⟩, .swap ..⟩ .nil⟩
  · intro h
    obtain ⟨x, hx⟩ := hok (Samples.tied true false).normalize
    unfold Schema.hash at h
    exact absurd (hinj _ _ x hx (h ▸ hx)) (by decide +kernel)

/-! ### C44 -/

/-- **C44**: unless the structural hash function collides, equal hashes mean the same schema up to order. -/
theorem C44_hash_detects_changes {structHash : Schema → Except Err String} {s s' : Schema} (hd : NamesDistinct s)
    (hinj : ∀ a b x, structHash a = .ok x → structHash b = .ok x → a = b) {x : String} (h : s.hash structHash = .ok x)
    (h' : s'.hash structHash = .ok x) : SameSchema s s' :=
  (normalize_iff hd).mp (hinj _ _ x h h')

/-! ### C42 -/

/-- what a successful plan generation returns -/
theorem generate_ok {structHash : Schema → Except Err String} {o : GenerateOptions} {a b : SchemaSource} {env : Env}
    {h h' : History} {plan : Plan} (he : generate structHash o a b env h = (.ok plan, h')) :
    ∃ current h1 new h2 rand, a.getSchema o.tempDbFactory env h = (.ok current, h1) ∧
      b.getSchema o.tempDbFactory env h1 = (.ok new, h2) ∧
      generateMigrationStatements o.rand current new o.plan = .ok (plan.statements, rand) ∧
      (afterGeneration current new).hash structHash = .ok plan.currentSchemaHash := by
  unfold generate at he
  obtain ⟨current, h1, e1, he1⟩ := eff_bind_ok.mp he
  obtain ⟨new, h2, e2, he2⟩ := eff_bind_ok.mp he1
  obtain ⟨⟨stmts, rand⟩, h3, e3, he3⟩ := eff_bind_ok.mp he2
  obtain ⟨f3, rfl⟩ := lift_ok.mp e3
  obtain ⟨hs, h4, e4, he4⟩ := eff_bind_ok.mp he3
  obtain ⟨f4, rfl⟩ := lift_ok.mp e4
  obtain ⟨_, h5, e5, he5⟩ := eff_bind_ok.mp he4
  simp only [eff_pure, Prod.mk.injEq, Outcome.ok.injEq] at he5
  obtain ⟨rfl, rfl⟩ := he5
  exact ⟨current, h1, new, h4, rand, e1, e2, f3, f4⟩

/-- no constraint backed by an index goes from being defined on the partition itself to being inherited -/
def Spec.NoConstraintBecomesInherited (old new : Schema) : Prop :=
  ∀ i ∈ old.indexes, ∀ j ∈ new.indexes, Obj.getName i = Obj.getName j → ∀ c ∈ i.constraint, ∀ d ∈ j.constraint,
    c.isLocal = true → d.isLocal = true

theorem losesLocal_false {i j : Index} (h : ∀ c ∈ i.constraint, ∀ d ∈ j.constraint, c.isLocal = true → d.isLocal = true) :
    i.losesLocal j = false := by
  unfold Index.losesLocal
  split
  · rename_i c d e1 e2
    have := h c e1 d e2
    cases hc : c.isLocal with
    | false => rfl
    | true => rw [this hc]; rfl
  · rfl

theorem effectiveOldIndex_id {cfg : IndexDiffConfig} {ns : List Index} {i : Index}
    (h : ∀ j ∈ ns, Obj.getName i = Obj.getName j → i.losesLocal j = false) : effectiveOldIndex cfg ns i = i := by
  unfold effectiveOldIndex
  split
  · rfl
  · rename_i j hj
    have hm := List.mem_of_find?_eq_some hj
    have hn : Obj.getName j = Obj.getName i := by simpa using List.find?_some hj
    split
    · rename_i o r hb
      obtain ⟨part, _, _, e, _⟩ := buildIndexDiffAux_some hb
      rw [e]
      unfold Index.afterDiff
      rw [h j hm hn.symm]
      simp
    · rfl

/-- **C42**, as far as it holds: the plan carries the hash of the schema that was fetched from the source, provided no
constraint backed by an index changes from local to inherited (then `buildIndexDiff` writes to the fetched schema, before
it is hashed). -/
theorem C42_hash_of_current_partial {structHash : Schema → Except Err String} {o : GenerateOptions} {a b : SchemaSource}
    {env : Env} {h h' : History} {plan : Plan} (he : generate structHash o a b env h = (.ok plan, h')) :
    ∃ current h1 new h2, a.getSchema o.tempDbFactory env h = (.ok current, h1) ∧
      b.getSchema o.tempDbFactory env h1 = (.ok new, h2) ∧
      (NoConstraintBecomesInherited current new → current.hash structHash = .ok plan.currentSchemaHash) := by
  obtain ⟨current, h1, new, h2, rand, e1, e2, e3, e4⟩ := generate_ok he
  refine ⟨current, h1, new, h2, e1, e2, fun hn => ?_⟩
  have : afterGeneration current new = current := by
    unfold afterGeneration
    split
    · rfl
    · rename_i td _
      dsimp only
      have hid : current.indexes.map (effectiveOldIndex (indexDiffConfig current.normalize new.normalize td.adds)
          new.normalize.indexes) = current.indexes := by
        rw [List.map_congr_left (g := id) fun i hi => ?_, List.map_id]
        exact effectiveOldIndex_id fun j hj hij => losesLocal_false
          (hn i hi j ((sortBy_perm _ _).mem_iff.mp hj) hij)
      rw [hid]
  rw [← this]
  exact e4

namespace Samples

/-- a partition with a primary key of its own -/
def old5 : Schema := { Schema.empty with
  tables := [{ table "p" [{ col "x" "integer" with isNullable := false }] with partitionKeyDef := "LIST (x)" },
    { table "c" [{ col "x" "integer" with isNullable := false }] with parentTable := some (pub "p"), forValues := "FOR VALUES IN (1)" }]
  indexes := [{ index "c_pk" "c" ["x"] "CREATE UNIQUE INDEX c_pk ON public.c USING btree (x)" with
    isUnique := true, constraint := some ⟨"p", "\"c_pk\"", "PRIMARY KEY (x)", true⟩ }] }

/-- the same, the key being part of the primary key of the partitioned table -/
def new5 : Schema := { old5 with
  indexes := [{ index "c_pk" "c" ["x"] "CREATE UNIQUE INDEX c_pk ON public.c USING btree (x)" with
      isUnique := true, constraint := some ⟨"p", "\"c_pk\"", "PRIMARY KEY (x)", false⟩, parentIdx := some (pub "p_pk") },
    { index "p_pk" "p" ["x"] "CREATE UNIQUE INDEX p_pk ON ONLY public.p USING btree (x)" with
      owningRelKind := "p", isUnique := true, constraint := some ⟨"p", "\"p_pk\"", "PRIMARY KEY (x)", true⟩ }] }

/-- a world in which everything succeeds and pool 0 has the schema `a`, other pools the schema `b` -/
def twoSchemas (a b : Schema) : Env :=
  let schema : History → Schema := fun h =>
    match h.getLast? with
    | some (.getSchema 0) => a
    | _ => b
  { outcome := fun _ => .ok ()
    uuid := fun _ => List.replicate 16 171
    currentDatabase := fun _ => ""
    schema := schema }

def fetchOptions : GenerateOptions := ⟨opts, false, none, rand⟩

/-- plan generation between two databases without validation -/
theorem generate_twoSchemas {structHash : Schema → Except Err String} {a b : Schema} {stmts : List Statement} {r : Rand}
    {x : String} (hg : generateMigrationStatements rand a b opts = .ok (stmts, r))
    (hx : (afterGeneration a b).hash structHash = .ok x) :
    generate structHash fetchOptions (.db 0) (.db 1) (twoSchemas a b) [] = (.ok ⟨stmts, x⟩, [.getSchema 0, .getSchema 1]) := by
  unfold generate
  refine eff_bind_ok.mpr ⟨a, [.getSchema 0], rfl, eff_bind_ok.mpr ⟨b, [.getSchema 0, .getSchema 1], rfl,
    eff_bind_ok.mpr ⟨(stmts, r), [.getSchema 0, .getSchema 1], lift_ok.mpr ⟨hg, rfl⟩,
      eff_bind_ok.mpr ⟨x, [.getSchema 0, .getSchema 1], lift_ok.mpr ⟨hx, rfl⟩, eff_bind_ok.mpr ⟨(), _, rfl, rfl⟩⟩⟩⟩⟩

end Samples

/-- **C42** is violated: for every hash function without collisions there is a plan whose hash differs from that of the
schema it was generated from. -/
theorem C42_hash_of_current_violated (structHash : Schema → Except Err String)
    (hinj : ∀ a b x, structHash a = .ok x → structHash b = .ok x → a = b) (htot : ∀ s, ∃ x, structHash s = .ok x) :
    ∃ o env plan h' current h1, generate structHash o (.db 0) (.db 1) env [] = (.ok plan, h') ∧
      SchemaSource.getSchema o.tempDbFactory (.db 0) env [] = (.ok current, h1) ∧
      current.hash structHash ≠ .ok plan.currentSchemaHash := by
  obtain ⟨stmts, r, hg, -⟩ := Samples.exists_plan (r := Samples.rand) (old := Samples.old5) (new := Samples.new5)
    (opts := Samples.opts) (P := fun l => l.length > 0) (by decide +kernel)
  obtain ⟨x, hx⟩ := htot (afterGeneration Samples.old5 Samples.new5).normalize
  refine ⟨Samples.fetchOptions, Samples.twoSchemas Samples.old5 Samples.new5, ⟨stmts, x⟩, _, Samples.old5, _,
    Samples.generate_twoSchemas hg hx, rfl, fun he => ?_⟩
  have := hinj _ _ x he hx
  revert this
  decide +kernel

/-- the hypotheses of C43 are met by a schema with objects of several kinds, and the two orders differ -/
example : NamesDistinct Samples.new2 ∧ ∃ s', SameSchema Samples.new2 s' ∧ s' ≠ Samples.new2 :=
  ⟨by
    constructor
    all_goals simp [Distinct, Samples.new2, Schema.empty, Samples.table]
    decide, Samples.new2.normalize, C43_normalize_keeps _, by decide +kernel⟩

/-- the condition of `C42_hash_of_current_partial` is met by a plan that has statements -/
example : NoConstraintBecomesInherited Samples.old3 Samples.new3 := by
  intro i hi j hj hn c hc
  simp only [Samples.old3, Schema.empty, List.mem_singleton] at hi
  subst hi
  cases hc

end Verif
