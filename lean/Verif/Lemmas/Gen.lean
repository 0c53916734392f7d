import Verif.Model.Gen.Schema
import Verif.Lemmas.SqlGraph

/-!
# Taking successful runs of the generators apart
-/

namespace Verif

/-! ### the two monads -/

theorem except_bind_ok {α β : Type} {x : Except Err α} {f : α → Except Err β} {b : β} :
    (x >>= f) = .ok b ↔ ∃ a, x = .ok a ∧ f a = .ok b := by
  cases x <;> simp [bind, Except.bind]

theorem except_pure_ok {α : Type} {a b : α} : (pure a : Except Err α) = .ok b ↔ a = b := by simp [pure, Except.pure]

theorem except_map_ok {α β : Type} {x : Except Err α} {f : α → β} {b : β} :
    (f <$> x) = .ok b ↔ ∃ a, x = .ok a ∧ f a = b := by
  cases x <;> simp [Functor.map, Except.map]

theorem except_throw_ok {α : Type} {e : Err} {b : α} : (throw e : Except Err α) = .ok b ↔ False := by
  simp [throw, throwThe, MonadExceptOf.throw]

theorem genM_bind_ok {α β : Type} {x : GenM α} {f : α → GenM β} {s s' : GenState} {b : β} :
    (x >>= f) s = .ok (b, s') ↔ ∃ a s1, x s = .ok (a, s1) ∧ f a s1 = .ok (b, s') := by
  show (StateT.bind x f s) = _ ↔ _
  unfold StateT.bind
  rw [except_bind_ok]
  constructor
  · rintro ⟨⟨a, s1⟩, h1, h2⟩; exact ⟨a, s1, h1, h2⟩
  · rintro ⟨a, s1, h1, h2⟩; exact ⟨⟨a, s1⟩, h1, h2⟩

theorem genM_pure_ok {α : Type} {a b : α} {s s' : GenState} :
    (pure a : GenM α) s = .ok (b, s') ↔ a = b ∧ s = s' := by
  show (StateT.pure a s) = _ ↔ _
  simp [StateT.pure, pure, Except.pure]

theorem genM_lift_ok {α : Type} {x : Except Err α} {a : α} {s s' : GenState} :
    (liftM x : GenM α) s = .ok (a, s') ↔ x = .ok a ∧ s = s' := by
  show (StateT.lift x s) = _ ↔ _
  unfold StateT.lift
  rw [except_bind_ok]
  constructor
  · rintro ⟨b, h1, h2⟩
    simp only [pure, Except.pure, Except.ok.injEq, Prod.mk.injEq] at h2
    obtain ⟨rfl, rfl⟩ := h2; exact ⟨h1, rfl⟩
  · rintro ⟨h1, rfl⟩; exact ⟨a, h1, rfl⟩

theorem genM_throw_ok {α : Type} {e : Err} {b : α} {s s' : GenState} :
    (throw e : GenM α) s = .ok (b, s') ↔ False := by
  constructor
  · intro h; cases h
  · exact False.elim

theorem genM_get_ok {a s s' : GenState} : (get : GenM GenState) s = .ok (a, s') ↔ a = s ∧ s' = s := by
  show (Except.ok (s, s) : Except Err _) = _ ↔ _
  simp only [Except.ok.injEq, Prod.mk.injEq]
  exact ⟨fun h => ⟨h.1.symm, h.2.symm⟩, fun h => ⟨h.1.symm, h.2.symm⟩⟩

theorem genM_modify_ok {f : GenState → GenState} {s s' : GenState} {u : PUnit} :
    (modify f : GenM PUnit) s = .ok (u, s') ↔ s' = f s := by
  show (Except.ok ((), f s) : Except Err _) = _ ↔ _
  constructor
  · intro h; cases h; rfl
  · rintro rfl; rfl

/-- a monad with a notion of possible result -/
class Yields (m : Type → Type) [Monad m] where
  /-- the computation can succeed with this value -/
  yields : {α : Type} → m α → α → Prop
  yields_bind : ∀ {α β : Type} {x : m α} {f : α → m β} {b : β}, yields (x >>= f) b → ∃ a, yields x a ∧ yields (f a) b
  yields_pure : ∀ {α : Type} {a b : α}, yields (pure a) b → a = b

export Yields (yields yields_bind yields_pure)

instance : Yields (Except Err) where
  yields x a := x = .ok a
  yields_bind h := except_bind_ok.mp h
  yields_pure h := except_pure_ok.mp h

instance : Yields GenM where
  yields x a := ∃ s s', x s = .ok (a, s')
  yields_bind := by
    rintro α β x f b ⟨s, s', h⟩
    obtain ⟨a, s1, h1, h2⟩ := genM_bind_ok.mp h
    exact ⟨a, ⟨s, s1, h1⟩, ⟨s1, s', h2⟩⟩
  yields_pure := by
    rintro α a b ⟨s, s', h⟩
    exact (genM_pure_ok.mp h).1

theorem yields_except {α : Type} {x : Except Err α} {a : α} : yields x a ↔ x = .ok a := Iff.rfl

theorem yields_lift {α : Type} {x : Except Err α} {a : α} (h : yields (liftM x : GenM α) a) : x = .ok a := by
  obtain ⟨s, s', h⟩ := h
  exact (genM_lift_ok.mp h).1

theorem yields_of_run {α : Type} {x : GenM α} {a : α} {s s' : GenState} (h : x s = .ok (a, s')) : yields x a := ⟨s, s', h⟩

section
variable {m : Type → Type} [Monad m] [Yields m]

theorem yields_mapMs {α β : Type} {f : α → m β} {l : List α} : ∀ {bs : List β}, yields (mapMs f l) bs →
    List.Forall₂ (fun a b => yields (f a) b) l bs := by
  induction l with
  | nil => intro bs h; rw [← yields_pure h]; exact .nil
  | cons a l ih =>
    intro bs h
    obtain ⟨b, h1, h2⟩ := yields_bind h
    obtain ⟨bs', h3, h4⟩ := yields_bind h2
    rw [← yields_pure h4]
    exact .cons h1 (ih h3)

/-- the parts a generator returned -/
theorem yields_generatePartialGraph {S D : Type} {g : VertexGen m S D} {ld : ListDiff S D} {pg : PartialGraph Statement}
    (h : yields (generatePartialGraph g ld) pg) :
    ∃ adds deletes alters, List.Forall₂ (fun a b => yields (g.add a) b) ld.adds adds ∧
      List.Forall₂ (fun a b => yields (g.delete a) b) ld.deletes deletes ∧
      List.Forall₂ (fun a b => yields (g.alter a) b) ld.alters alters ∧
      pg = PartialGraph.concat (adds ++ deletes ++ alters) := by
  obtain ⟨adds, h1, h⟩ := yields_bind h
  obtain ⟨deletes, h2, h⟩ := yields_bind h
  obtain ⟨alters, h3, h⟩ := yields_bind h
  exact ⟨adds, deletes, alters, yields_mapMs h1, yields_mapMs h2, yields_mapMs h3, (yields_pure h).symm⟩

theorem forall₂_mem_right {α β : Type} {R : α → β → Prop} {l : List α} {bs : List β} (h : List.Forall₂ R l bs) :
    ∀ b ∈ bs, ∃ a ∈ l, R a b := by
  induction h with
  | nil => intro b hb; cases hb
  | cons h _ ih =>
    intro b hb
    rcases List.mem_cons.mp hb with rfl | hb
    · exact ⟨_, List.mem_cons_self, h⟩
    · obtain ⟨a, h1, h2⟩ := ih b hb
      exact ⟨a, List.mem_cons_of_mem _ h1, h2⟩

theorem forall₂_mem_left {α β : Type} {R : α → β → Prop} {l : List α} {bs : List β} (h : List.Forall₂ R l bs) :
    ∀ a ∈ l, ∃ b ∈ bs, R a b := by
  induction h with
  | nil => intro b hb; cases hb
  | cons h _ ih =>
    intro b hb
    rcases List.mem_cons.mp hb with rfl | hb
    · exact ⟨_, List.mem_cons_self, h⟩
    · obtain ⟨a, h1, h2⟩ := ih b hb
      exact ⟨a, List.mem_cons_of_mem _ h1, h2⟩

/-- `p` is one of the parts `generatePartialGraph` concatenates: the result of the generator for one object -/
inductive PartOf {S D : Type} (g : VertexGen m S D) (ld : ListDiff S D) (p : PartialGraph Statement) : Prop where
  | add (o : S) (mem : o ∈ ld.adds) (h : yields (g.add o) p)
  | delete (o : S) (mem : o ∈ ld.deletes) (h : yields (g.delete o) p)
  | alter (o : D) (mem : o ∈ ld.alters) (h : yields (g.alter o) p)

/-- every vertex and every dependency of a generated graph comes from one object, and all objects contribute -/
theorem generatePartialGraph_parts {S D : Type} {g : VertexGen m S D} {ld : ListDiff S D} {pg : PartialGraph Statement}
    (h : yields (generatePartialGraph g ld) pg) :
    ∃ parts : List (PartialGraph Statement), pg = PartialGraph.concat parts ∧ (∀ p ∈ parts, PartOf g ld p) ∧
      (∀ o ∈ ld.adds, ∃ p ∈ parts, yields (g.add o) p) ∧ (∀ o ∈ ld.deletes, ∃ p ∈ parts, yields (g.delete o) p) ∧
      (∀ o ∈ ld.alters, ∃ p ∈ parts, yields (g.alter o) p) := by
  obtain ⟨adds, deletes, alters, h1, h2, h3, rfl⟩ := yields_generatePartialGraph h
  refine ⟨_, rfl, ?_, ?_, ?_, ?_⟩
  · intro p hp
    simp only [List.mem_append] at hp
    rcases hp with (hp | hp) | hp
    · obtain ⟨a, ha, hy⟩ := forall₂_mem_right h1 p hp; exact .add a ha hy
    · obtain ⟨a, ha, hy⟩ := forall₂_mem_right h2 p hp; exact .delete a ha hy
    · obtain ⟨a, ha, hy⟩ := forall₂_mem_right h3 p hp; exact .alter a ha hy
  · intro o ho; obtain ⟨p, hp, hy⟩ := forall₂_mem_left h1 o ho; exact ⟨p, by simp [hp], hy⟩
  · intro o ho; obtain ⟨p, hp, hy⟩ := forall₂_mem_left h2 o ho; exact ⟨p, by simp [hp], hy⟩
  · intro o ho; obtain ⟨p, hp, hy⟩ := forall₂_mem_left h3 o ho; exact ⟨p, by simp [hp], hy⟩

theorem PartialGraph.mem_statements {σ : Type} {p : PartialGraph σ} {s : σ} :
    s ∈ p.statements ↔ ∃ v ∈ p.vertices, s ∈ v.statements := by
  simp [PartialGraph.statements]

theorem PartialGraph.statements_concat {σ : Type} (l : List (PartialGraph σ)) :
    (PartialGraph.concat l).statements = l.flatMap (·.statements) := by
  simp [PartialGraph.concat, PartialGraph.statements, List.flatMap_assoc]

theorem PartialGraph.mem_statements_concat {σ : Type} {l : List (PartialGraph σ)} {s : σ} :
    s ∈ (PartialGraph.concat l).statements ↔ ∃ p ∈ l, s ∈ p.statements := by
  rw [PartialGraph.statements_concat]; simp

theorem PartialGraph.mem_dependencies_concat {σ : Type} {l : List (PartialGraph σ)} {d : Dependency} :
    d ∈ (PartialGraph.concat l).dependencies ↔ ∃ p ∈ l, d ∈ p.dependencies := by
  simp [PartialGraph.concat]

theorem PartialGraph.mem_vertices_concat {σ : Type} {l : List (PartialGraph σ)} {v : SqlVertex σ} :
    v ∈ (PartialGraph.concat l).vertices ↔ ∃ p ∈ l, v ∈ p.vertices := by
  simp [PartialGraph.concat]

theorem mem_of_generated {S D : Type} {g : VertexGen m S D} {ld : ListDiff S D} {pg : PartialGraph Statement}
    (h : yields (generatePartialGraph g ld) pg) {s : Statement} (hs : s ∈ pg.statements) :
    ∃ p, PartOf g ld p ∧ s ∈ p.statements := by
  obtain ⟨parts, rfl, hp, _⟩ := generatePartialGraph_parts h
  obtain ⟨p, hm, hs⟩ := PartialGraph.mem_statements_concat.mp hs
  exact ⟨p, hp p hm, hs⟩

/-! ### wrapped generators -/

section
variable {S D : Type} [GoZero S] [IsDiff D S] {g : LegacyGen m S D} {p : PartialGraph Statement}

theorem toNew_add {o : S} (h : yields (g.toNew.add o) p) :
    ∃ l deps, yields (g.add o) l ∧ yields (g.addAlterDeps o GoZero.zero) deps ∧
      p = ⟨[⟨g.vertexId o .addAlter, .sooner, l⟩], deps⟩ := by
  obtain ⟨l, h1, h⟩ := yields_bind h
  obtain ⟨deps, h2, h⟩ := yields_bind h
  exact ⟨l, deps, h1, h2, (yields_pure h).symm⟩

theorem toNew_delete {o : S} (h : yields (g.toNew.delete o) p) :
    ∃ l deps, yields (g.delete o) l ∧ yields (g.deleteDeps o) deps ∧
      p = ⟨[⟨g.vertexId o .delete, .later, l⟩], deps⟩ := by
  obtain ⟨l, h1, h⟩ := yields_bind h
  obtain ⟨deps, h2, h⟩ := yields_bind h
  exact ⟨l, deps, h1, h2, (yields_pure h).symm⟩

theorem toNew_alter {d : D} (h : yields (g.toNew.alter d) p) :
    ∃ l deps, yields (g.alter d) l ∧ yields (g.addAlterDeps (IsDiff.getNew d) (IsDiff.getOld d)) deps ∧
      p = ⟨[⟨g.vertexId (IsDiff.getNew d) .addAlter, .sooner, l⟩], deps⟩ := by
  obtain ⟨l, h1, h⟩ := yields_bind h
  obtain ⟨deps, h2, h⟩ := yields_bind h
  exact ⟨l, deps, h1, h2, (yields_pure h).symm⟩

/-- where a statement of a wrapped generator comes from -/
inductive LegacyOrigin (g : LegacyGen m S D) (ld : ListDiff S D) (s : Statement) : Prop where
  | add (o : S) (mem : o ∈ ld.adds) (l : List Statement) (h : yields (g.add o) l) (hs : s ∈ l)
  | delete (o : S) (mem : o ∈ ld.deletes) (l : List Statement) (h : yields (g.delete o) l) (hs : s ∈ l)
  | alter (d : D) (mem : d ∈ ld.alters) (l : List Statement) (h : yields (g.alter d) l) (hs : s ∈ l)

theorem mem_of_legacy {ld : ListDiff S D} {pg : PartialGraph Statement}
    (h : yields (generatePartialGraph g.toNew ld) pg) {s : Statement} (hs : s ∈ pg.statements) :
    LegacyOrigin g ld s := by
  obtain ⟨p, hp, hs⟩ := mem_of_generated h hs
  have key : ∀ {id : VertexId} {pr : SqlPriority} {l : List Statement} {deps : List Dependency},
      s ∈ (PartialGraph.mk [⟨id, pr, l⟩] deps).statements → s ∈ l := by
    intro id pr l deps h; simpa [PartialGraph.statements] using h
  cases hp with
  | add o mem h => obtain ⟨l, deps, h1, _, rfl⟩ := toNew_add h; exact .add o mem l h1 (key hs)
  | delete o mem h => obtain ⟨l, deps, h1, _, rfl⟩ := toNew_delete h; exact .delete o mem l h1 (key hs)
  | alter o mem h => obtain ⟨l, deps, h1, _, rfl⟩ := toNew_alter h; exact .alter o mem l h1 (key hs)

/-- where a statement of a wrapped generator comes from, and the vertex it belongs to -/
inductive LegacyPlaced (g : LegacyGen m S D) (ld : ListDiff S D) (id : VertexId) (s : Statement) : Prop where
  | add (o : S) (mem : o ∈ ld.adds) (l : List Statement) (h : yields (g.add o) l) (hs : s ∈ l)
      (hid : id = g.vertexId o .addAlter)
  | delete (o : S) (mem : o ∈ ld.deletes) (l : List Statement) (h : yields (g.delete o) l) (hs : s ∈ l)
      (hid : id = g.vertexId o .delete)
  | alter (d : D) (mem : d ∈ ld.alters) (l : List Statement) (h : yields (g.alter d) l) (hs : s ∈ l)
      (hid : id = g.vertexId (IsDiff.getNew d) .addAlter)

theorem placed_of_legacy {ld : ListDiff S D} {pg : PartialGraph Statement}
    (h : yields (generatePartialGraph g.toNew ld) pg) {v : SqlVertex Statement} (hv : v ∈ pg.vertices) {s : Statement}
    (hs : s ∈ v.statements) : LegacyPlaced g ld v.id s := by
  obtain ⟨parts, rfl, hp, _⟩ := generatePartialGraph_parts h
  obtain ⟨p, hm, hv⟩ := PartialGraph.mem_vertices_concat.mp hv
  cases hp p hm with
  | add o mem h =>
    obtain ⟨l, deps, h1, _, rfl⟩ := toNew_add h
    rw [List.mem_singleton.mp hv] at hs ⊢; exact .add o mem l h1 hs rfl
  | delete o mem h =>
    obtain ⟨l, deps, h1, _, rfl⟩ := toNew_delete h
    rw [List.mem_singleton.mp hv] at hs ⊢; exact .delete o mem l h1 hs rfl
  | alter o mem h =>
    obtain ⟨l, deps, h1, _, rfl⟩ := toNew_alter h
    rw [List.mem_singleton.mp hv] at hs ⊢; exact .alter o mem l h1 hs rfl

end
end

/-! ### generators outside the graph -/

theorem concatMapM_spec {α β : Type} {f : α → Except Err (List β)} {l : List α} : ∀ {out : List β},
    concatMapM f l = .ok out → ∃ parts, List.Forall₂ (fun a b => f a = .ok b) l parts ∧ out = parts.flatten := by
  induction l with
  | nil => intro out h; cases h; exact ⟨[], .nil, rfl⟩
  | cons a l ih =>
    intro out h
    simp only [concatMapM, except_bind_ok, except_pure_ok] at h
    obtain ⟨x, h1, y, h2, rfl⟩ := h
    obtain ⟨parts, h3, rfl⟩ := ih h2
    exact ⟨x :: parts, .cons h1 h3, rfl⟩

theorem mem_concatMapM {α β : Type} {f : α → Except Err (List β)} {l : List α} {out : List β}
    (h : concatMapM f l = .ok out) {s : β} (hs : s ∈ out) : ∃ a ∈ l, ∃ b, f a = .ok b ∧ s ∈ b := by
  obtain ⟨parts, h1, rfl⟩ := concatMapM_spec h
  obtain ⟨b, hb, hs⟩ := List.mem_flatten.mp hs
  obtain ⟨a, ha, hf⟩ := forall₂_mem_right h1 b hb
  exact ⟨a, ha, b, hf, hs⟩

theorem mem_concatMapM_of {α β : Type} {f : α → Except Err (List β)} {l : List α} {out : List β}
    (h : concatMapM f l = .ok out) {a : α} (ha : a ∈ l) : ∃ b, f a = .ok b ∧ ∀ s ∈ b, s ∈ out := by
  induction l generalizing out with
  | nil => cases ha
  | cons x l ih =>
    simp only [concatMapM, except_bind_ok, except_pure_ok] at h
    obtain ⟨b, hb, y, hy, rfl⟩ := h
    rcases List.mem_cons.mp ha with rfl | ha
    · exact ⟨b, hb, fun s hs => List.mem_append_left _ hs⟩
    · obtain ⟨b', h1, h2⟩ := ih hy ha
      exact ⟨b', h1, fun s hs => List.mem_append_right _ (h2 s hs)⟩

/-- with one statement per object -/
theorem mem_concatMapM_single {α β : Type} {f : α → Except Err (List β)} {g : α → β} (hf : ∀ a, f a = .ok [g a])
    {l : List α} {out : List β} (h : concatMapM f l = .ok out) {s : β} : s ∈ out ↔ ∃ a ∈ l, s = g a := by
  constructor
  · intro hs
    obtain ⟨a, ha, b, hb, hs⟩ := mem_concatMapM h hs
    rw [hf] at hb; cases hb
    exact ⟨a, ha, List.mem_singleton.mp hs⟩
  · rintro ⟨a, ha, rfl⟩
    obtain ⟨b, hb, h2⟩ := mem_concatMapM_of h ha
    rw [hf] at hb; cases hb
    exact h2 _ List.mem_cons_self

theorem resolveToSQL_spec {S D σ : Type} {ld : ListDiff S D} {add delete : S → Except Err (List σ)}
    {alter : D → Except Err (List σ)} {r : Grouped σ} :
    resolveToSQL ld add delete alter = .ok r ↔
      concatMapM add ld.adds = .ok r.adds ∧ concatMapM delete ld.deletes = .ok r.deletes ∧
      concatMapM alter ld.alters = .ok r.alters := by
  simp only [resolveToSQL, except_bind_ok, except_pure_ok]
  constructor
  · rintro ⟨a, h1, b, h2, c, h3, rfl⟩; exact ⟨h1, h2, h3⟩
  · rintro ⟨h1, h2, h3⟩; exact ⟨_, h1, _, h2, _, h3, rfl⟩

/-! ### the whole run -/

/-- everything that happens before the statements are ordered -/
structure GraphRun (opts : PlanOptions) (d : SchemaDiff) (r : Rand) where
  schemas : Grouped Statement
  extensions : Grouped Statement
  enums : Grouped Statement
  tables : PartialGraph Statement
  attaches : PartialGraph Statement
  renames : PartialGraph Statement
  indexes : PartialGraph Statement
  fks : PartialGraph Statement
  sequences : PartialGraph Statement
  ownerships : PartialGraph Statement
  functions : PartialGraph Statement
  procedures : PartialGraph Statement
  triggers : PartialGraph Statement
  views : PartialGraph Statement
  matViews : PartialGraph Statement
  s1 : GenState
  s2 : GenState
  s3 : GenState
  hschemas : resolveToSQL d.namedSchemaDiffs NamedSchemaGen.add NamedSchemaGen.delete NamedSchemaGen.alter = .ok schemas
  hextensions : resolveToSQL d.extensionDiffs ExtensionGen.add ExtensionGen.delete ExtensionGen.alter = .ok extensions
  henums : resolveToSQL d.enumDiffs EnumGen.add EnumGen.delete EnumGen.alter = .ok enums
  htables : generatePartialGraph (SchemaGen.tableGen d).gen d.tableDiffs (GenState.init r) = .ok (tables, s1)
  hattaches : generatePartialGraph (AttachGen.gen d.new.indexes (byName d.tableDiffs.adds)) d.tableDiffs s1 =
    .ok (attaches, s2)
  hrenames : generatePartialGraph (RenameGen.gen (byName d.old.indexes)) d.indexDiffs s2 = .ok (renames, s3)
  hindexes : generatePartialGraph (SchemaGen.indexGen opts d s3).gen d.indexDiffs = .ok indexes
  hfks : generatePartialGraph (newFkGen d.old d.new d.tableDiffs.adds).gen d.foreignKeyConstraintDiffs = .ok fks
  hsequences : generatePartialGraph (SchemaGen.sequenceGen d).gen d.sequenceDiffs = .ok sequences
  hownerships : generatePartialGraph OwnershipGen.gen d.sequenceDiffs = .ok ownerships
  hfunctions : generatePartialGraph FunctionGen.gen d.functionDiffs = .ok functions
  hprocedures : generatePartialGraph (ProcedureGen.gen d.new) d.procedureDiffs = .ok procedures
  htriggers : generatePartialGraph TriggerGen.gen d.triggerDiffs = .ok triggers
  hviews : generatePartialGraph ViewGen.gen d.viewDiffs = .ok views
  hmatViews : generatePartialGraph MatViewGen.gen d.materializedViewDiffs = .ok matViews

/-- the graph of all generators -/
def GraphRun.graph {opts : PlanOptions} {d : SchemaDiff} {r : Rand} (run : GraphRun opts d r) : PartialGraph Statement :=
  PartialGraph.concat [run.tables, run.attaches, run.renames, run.indexes, run.fks, run.sequences, run.ownerships,
    run.functions, run.procedures, run.triggers, run.views, run.matViews]

/-- everything a successful `SchemaGen.alter` went through -/
structure PlanRun (opts : PlanOptions) (d : SchemaDiff) (r r' : Rand) (stmts : List Statement) extends GraphRun opts d r where
  ordered : List Statement
  hordered : orderPartial (PartialGraph.concat [tables, attaches, renames, indexes, fks, sequences, ownerships, functions,
    procedures, triggers, views, matViews]) = .ok ordered
  hstmts : stmts = SchemaGen.assemble ⟨schemas, extensions, enums⟩ ordered
  hrand : r' = s3.rand

/-- the graph of the run -/
def PlanRun.graph {opts : PlanOptions} {d : SchemaDiff} {r r' : Rand} {stmts : List Statement}
    (run : PlanRun opts d r r' stmts) : PartialGraph Statement :=
  PartialGraph.concat [run.tables, run.attaches, run.renames, run.indexes, run.fks, run.sequences, run.ownerships,
    run.functions, run.procedures, run.triggers, run.views, run.matViews]

theorem orderStatements_ok {p : PartialGraph Statement} {l : List Statement} :
    orderStatements p = .ok l ↔ orderPartial p = .ok l := by
  unfold orderStatements
  cases orderPartial p <;> simp

theorem alter_run {opts : PlanOptions} {d : SchemaDiff} {r : Rand} {stmts : List Statement} {st : GenState}
    (h : SchemaGen.alter opts d (GenState.init r) = .ok (stmts, st)) : Nonempty (PlanRun opts d r st.rand stmts) := by
  unfold SchemaGen.alter SchemaGen.graphs at h
  simp only [genM_bind_ok, genM_pure_ok, genM_lift_ok, genM_get_ok, SchemaGen.statelessGraphs, except_bind_ok,
    except_pure_ok] at h
  obtain ⟨res, st1, ⟨schemas, _, ⟨h1, rfl⟩, tables, s1, h2, extensions, _, ⟨h3, rfl⟩, enums, _, ⟨h4, rfl⟩, attaches, s2, h5,
    renames, s3, h6, _, _, ⟨rfl, rfl⟩, rest, _, ⟨⟨indexes, h7, fks, h8, sequences, h9, ownerships, h10, functions, h11,
    procedures, h12, triggers, h13, views, h14, matViews, h15, rfl⟩, rfl⟩, rfl, rfl⟩, ordered, _, ⟨h16, rfl⟩, rfl, rfl⟩ := h
  exact ⟨⟨⟨_, _, _, _, _, _, _, _, _, _, _, _, _, _, _, _, _, _, h1, h3, h4, h2, h5, h6, h7, h8, h9, h10, h11, h12, h13,
    h14, h15⟩, _, orderStatements_ok.mp h16, rfl, rfl⟩⟩

theorem plan_run {r r' : Rand} {old new : Schema} {opts : PlanOptions} {stmts : List Statement}
    (h : generateMigrationStatements r old new opts = .ok (stmts, r')) :
    ∃ d0 d, buildSchemaDiff old new = .ok d0 ∧ transformDiff opts d0 = .ok d ∧ Nonempty (PlanRun opts d r r' stmts) := by
  unfold generateMigrationStatements at h
  simp only [except_bind_ok, except_pure_ok] at h
  obtain ⟨d0, h1, d, h2, ⟨l, st⟩, h3, h4⟩ := h
  simp only [Prod.mk.injEq] at h4
  obtain ⟨rfl, rfl⟩ := h4
  exact ⟨d0, d, h1, h2, alter_run h3⟩

end Verif
