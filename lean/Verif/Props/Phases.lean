import Verif.Lemmas.Shape
import Verif.Spec.Hazards
import Verif.Samples.Basic

/-!
# C27: the phases of a plan
-/

namespace Verif

/-- the phases of a plan, in their order -/
structure Phases where
  newSchemas : List Statement
  newExtensions : List Statement
  extensionUpdates : List Statement
  newEnums : List Statement
  enumChanges : List Statement
  body : List Statement
  oldEnums : List Statement
  oldExtensions : List Statement
  oldSchemas : List Statement

/-- the plan made of the phases -/
def Phases.plan (p : Phases) : List Statement :=
  p.newSchemas ++ p.newExtensions ++ p.extensionUpdates ++ p.newEnums ++ p.enumChanges ++ p.body ++
  p.oldEnums ++ p.oldExtensions ++ p.oldSchemas

/-- the names of a list of objects -/
def names {S : Type} [Obj S] (l : List S) : List String := l.map Obj.getName

theorem GraphShape.not_outer {opts : PlanOptions} {d : SchemaDiff} {st : GenState} {vid : VertexId} {s : Statement}
    (h : GraphShape opts d st vid s) : ¬ s.ddl.IsOuter := by
  cases h with
  | newTable t h ccs hc s hs => cases hs <;> exact id
  | alterTable td h s hs =>
    cases hs with
    | column cd h s hs => cases hs <;> exact id
    | _ => exact id
  | _ => exact id

theorem names_sort {S : Type} [Obj S] (l : List S) (n : String) : n ∈ (sortObjs l).map Obj.getName ↔ n ∈ names l :=
  ((sortObjs_perm l).map _).mem_iff

/-- C27.  A plan is made of nine phases in this order: one CREATE SCHEMA for every new schema; one CREATE EXTENSION for
every new extension; updates of extensions; one CREATE TYPE for every new enum; changes of enums that exist before and
after; everything that is not about schemas, extensions and enums; one DROP TYPE for every removed enum, one
DROP EXTENSION for every removed extension, one DROP SCHEMA for every removed schema. -/
theorem C27_plan_phases {r r' : Rand} {old new : Schema} {opts : PlanOptions} {stmts : List Statement}
    (h : generateMigrationStatements r old new opts = .ok (stmts, r'))
    (h1 : (names new.namedSchemas).Nodup) (h2 : (names new.extensions).Nodup) (h3 : (names new.enums).Nodup) :
    ∃ p : Phases, stmts = p.plan ∧
      (∀ s, s ∈ p.newSchemas ↔ ∃ x ∈ new.namedSchemas, Obj.getName x ∉ names old.namedSchemas ∧
        s = stmt (.createSchema x.name)) ∧
      (∀ s, s ∈ p.newExtensions ↔ ∃ x ∈ new.extensions, Obj.getName x ∉ names old.extensions ∧
        s = stmt (.createExtension x.name.escapedName x.name.schemaName
          (if x.version = "" then none else some x.version))) ∧
      (∀ s ∈ p.extensionUpdates, ∃ o ∈ old.extensions, ∃ x ∈ new.extensions, Obj.getName o = Obj.getName x ∧
        ∃ v, s.ddl = .updateExtension x.name.escapedName v) ∧
      (∀ s, s ∈ p.newEnums ↔ ∃ x ∈ new.enums, Obj.getName x ∉ names old.enums ∧ s = stmt (.createEnum x.name x.labels)) ∧
      (∀ s ∈ p.enumChanges, ∃ o ∈ old.enums, ∃ x ∈ new.enums, Obj.getName o = Obj.getName x ∧
        (s.ddl = .dropType o.name ∨ s.ddl = .createEnum x.name x.labels ∨ ∃ l b, s.ddl = .addEnumValue x.name l b)) ∧
      (∀ s ∈ p.body, ¬ s.ddl.IsOuter) ∧
      (∀ s, s ∈ p.oldEnums ↔ ∃ x ∈ old.enums, Obj.getName x ∉ names new.enums ∧ s = stmt (.dropType x.name)) ∧
      (∀ s, s ∈ p.oldExtensions ↔ ∃ x ∈ old.extensions, Obj.getName x ∉ names new.extensions ∧
        s = stmt (.dropExtension x.name.escapedName) [.hasUntrackableDependencies]) ∧
      (∀ s, s ∈ p.oldSchemas ↔ ∃ x ∈ old.namedSchemas, Obj.getName x ∉ names new.namedSchemas ∧
        s = stmt (.dropSchema x.name)) := by
  obtain ⟨d, ⟨dr⟩, ⟨run⟩⟩ := plan_runs h
  obtain ⟨s1, s2, s3⟩ := resolveToSQL_spec.mp run.hschemas
  obtain ⟨e1, e2, e3⟩ := resolveToSQL_spec.mp run.hextensions
  obtain ⟨n1, n2, n3⟩ := resolveToSQL_spec.mp run.henums
  have nodup : ∀ {S : Type} [Obj S] {l : List S}, (names l).Nodup → ((sortObjs l).map Obj.getName).Nodup :=
    fun h => ((sortObjs_perm _).map _).nodup_iff.mpr h
  have empty : run.schemas.alters = [] := by
    refine List.eq_nil_iff_forall_not_mem.mpr fun s hs => ?_
    obtain ⟨a, _, b, hb, hs⟩ := mem_concatMapM s3 hs
    cases hb; cases hs
  refine ⟨⟨run.schemas.adds, run.extensions.adds, run.extensions.alters, run.enums.adds, run.enums.alters, run.ordered,
    run.enums.deletes, run.extensions.deletes, run.schemas.deletes⟩, ?_, ?_, ?_, ?_, ?_, ?_, ?_, ?_, ?_, ?_⟩
  · refine run.hstmts.trans ?_; simp only [SchemaGen.assemble, Phases.plan, empty, List.append_nil]
  · intro s
    rw [mem_concatMapM_single (fun _ => rfl) s1]
    simp only [pairDiff_adds dr.hschemas (nodup h1), Schema.normalize, names_sort, (sortObjs_perm _).mem_iff, and_assoc]
  · intro s
    rw [mem_concatMapM_single (fun _ => rfl) e1]
    simp only [pairDiff_adds dr.hextensions (nodup h2), Schema.normalize, names_sort, (sortObjs_perm _).mem_iff, and_assoc]
  · intro s hs
    obtain ⟨a, ha, b, hb, hs⟩ := mem_concatMapM e3 hs
    simp only [pairDiff_alters dr.hextensions (nodup h2), Schema.normalize, (sortObjs_perm _).mem_iff] at ha
    refine ⟨a.old, ha.1, a.new, ha.2.1, ha.2.2, ?_⟩
    cases hb
    split at hs
    · rw [List.mem_singleton.mp hs]; exact ⟨_, rfl⟩
    · cases hs
  · intro s
    rw [mem_concatMapM_single (fun _ => rfl) n1]
    simp only [pairDiff_adds dr.henums (nodup h3), Schema.normalize, names_sort, (sortObjs_perm _).mem_iff, and_assoc]
  · intro s hs
    obtain ⟨a, ha, b, hb, hs⟩ := mem_concatMapM n3 hs
    simp only [pairDiff_alters dr.henums (nodup h3), Schema.normalize, (sortObjs_perm _).mem_iff] at ha
    refine ⟨a.old, ha.1, a.new, ha.2.1, ha.2.2, ?_⟩
    unfold EnumGen.alter at hb
    split at hb
    · cases hb
      simp only [List.mem_cons, List.mem_append, List.not_mem_nil, or_false] at hs
      rcases hs with rfl | rfl
      · exact Or.inl rfl
      · exact Or.inr (Or.inl rfl)
    · split at hb
      · cases hb
      · cases hb
        obtain ⟨l, b, _, _, rfl⟩ := EnumGen.mem_addValues hs
        exact Or.inr (Or.inr ⟨l, b, rfl⟩)
  · exact fun s hs => let ⟨_, h⟩ := run.graph_shape hs; h.not_outer
  · intro s
    rw [mem_concatMapM_single (fun _ => rfl) n2]
    simp only [pairDiff_deletes dr.henums, Schema.normalize, names_sort, (sortObjs_perm _).mem_iff, and_assoc]
  · intro s
    rw [mem_concatMapM_single (fun _ => rfl) e2]
    simp only [pairDiff_deletes dr.hextensions, Schema.normalize, names_sort, (sortObjs_perm _).mem_iff, and_assoc]
  · intro s
    rw [mem_concatMapM_single (fun _ => rfl) s2]
    simp only [pairDiff_deletes dr.hschemas, Schema.normalize, names_sort, (sortObjs_perm _).mem_iff, and_assoc]

-- a plan with all nine phases
example : (names Samples.new4.namedSchemas).Nodup ∧ (names Samples.new4.extensions).Nodup ∧
    (names Samples.new4.enums).Nodup ∧
    ∃ stmts r', generateMigrationStatements Samples.rand Samples.old4 Samples.new4 Samples.opts = .ok (stmts, r') ∧
      stmts.map (·.toSQL) = ["CREATE SCHEMA \"s2\";",
        "CREATE EXTENSION \"e2\" WITH SCHEMA \"public\" VERSION \"1\";",
        "ALTER EXTENSION \"e3\" UPDATE TO \"2\";",
        "CREATE TYPE \"public\".\"n2\" AS ENUM ('a');",
        "ALTER TYPE \"public\".\"n3\" ADD VALUE 'b' BEFORE 'c';",
        "CREATE TABLE \"public\".\"t\" (\n\t\"x\" integer\n);",
        "DROP TYPE \"public\".\"n1\";", "DROP EXTENSION \"e1\";", "DROP SCHEMA \"s1\";"] :=
  ⟨by decide +kernel, by decide +kernel, by decide +kernel, Samples.exists_plan (by decide +kernel)⟩

end Verif
