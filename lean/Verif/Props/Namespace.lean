import Verif.Spec.Namespace
import Verif.Props.FunctionUse
import Verif.Props.Escape
import Verif.Props.Phases

/-!
# C79: schemas and extensions converge
-/

namespace Verif

open Spec

/-! ### lists of statements of one kind -/

theorem concatMapM_eq_map {α β : Type} {f : α → Except Err (List β)} {g : α → β} (hf : ∀ a, f a = .ok [g a]) :
    ∀ {l : List α} {out : List β}, concatMapM f l = .ok out → out = l.map g := by
  intro l
  induction l with
  | nil => intro out h; cases h; rfl
  | cons x l ih =>
    intro out h
    simp only [concatMapM, except_bind_ok, except_pure_ok, hf] at h
    obtain ⟨b, hb, y, hy, rfl⟩ := h
    cases hb
    rw [ih hy]; rfl

theorem diffLists_deleted {S D : Type} [Obj S] {old new : List S} {bd : S → S → Nat → Nat → Except Err (D × Bool)}
    {r : ListDiff S D} (h : diffLists old new bd = .ok r) {x : S} (hx : x ∈ old) (hn : Obj.getName x ∉ new.map Obj.getName) :
    x ∈ r.deletes :=
  ((C08_classification h).2.2.2.2 x).mpr ⟨hx, Or.inl hn⟩

/-! ### the statements and the schema -/

/-- the statement makes or drops the schema `n` -/
def Ddl.onSchema (n : String) : Ddl → Bool
  | .createSchema m => m = n
  | .dropSchema m => m = n
  | _ => false

/-- the statement makes something in the schema `n` -/
def Ddl.makesIn (n : String) (x : Ddl) : Bool := (makes x).any fun p => p.1 = n

theorem nsStep_present {n : String} {s : NsState} (hs : s.present = true) {x : Ddl} (hx : x.onSchema n = false) :
    ∃ s', nsStep n s x = some s' ∧ s'.present = true := by
  cases x <;> simp only [nsStep, makes, drops, Ddl.onSchema, decide_eq_false_iff_not] at hx ⊢ <;> (try rw [if_neg hx]) <;>
    (try split) <;> simp_all [NsState.put]

theorem nsStep_elsewhere {n : String} {s : NsState} {x : Ddl} (hx : x.onSchema n = false) (hm : x.makesIn n = false) :
    ∃ s', nsStep n s x = some s' ∧ s'.present = s.present ∧ (∀ t, s'.holds t = true → s.holds t = true) ∧
      ∀ t, drops x = some t → s'.holds t = false := by
  cases x <;> simp only [nsStep, makes, drops, Ddl.onSchema, Ddl.makesIn, decide_eq_false_iff_not, Option.any_some,
    Option.any_none, reduceCtorEq, Option.some.injEq, false_implies, implies_true, and_true] at hx hm ⊢ <;>
    (try rw [if_neg hx]) <;> (try rw [if_neg hm]) <;>
    first
    | exact ⟨s, rfl, rfl, fun _ h => h⟩
    | refine ⟨_, rfl, rfl, fun t ht => ?_, fun t ht => ?_⟩
      · simp only [NsState.put] at ht
        split at ht
        · cases ht
        · exact ht
      · simp [NsState.put, ← ht]

theorem runNamespace_present {n : String} {l : List Statement} (h : ∀ x ∈ l, x.ddl.onSchema n = false) :
    ∀ {s : NsState}, s.present = true → ∃ s', runNamespace n s l = some s' ∧ s'.present = true := by
  induction l with
  | nil => exact fun hs => ⟨_, rfl, hs⟩
  | cons x l ih =>
    intro s hs
    obtain ⟨s1, h1, h2⟩ := nsStep_present hs (h x List.mem_cons_self)
    obtain ⟨s2, h3, h4⟩ := ih (fun y hy => h y (List.mem_cons_of_mem _ hy)) h2
    exact ⟨s2, (runWith_cons h1).trans h3, h4⟩

theorem runNamespace_elsewhere {n : String} {l : List Statement} (h : ∀ x ∈ l, x.ddl.onSchema n = false)
    (hm : ∀ x ∈ l, x.ddl.makesIn n = false) :
    ∀ s : NsState, ∃ s', runNamespace n s l = some s' ∧ s'.present = s.present ∧ (∀ t, s'.holds t = true → s.holds t = true) ∧
      ∀ x ∈ l, ∀ t, drops x.ddl = some t → s'.holds t = false := by
  induction l with
  | nil => exact fun s => ⟨s, rfl, rfl, fun _ h => h, fun x hx => by cases hx⟩
  | cons x l ih =>
    intro s
    obtain ⟨s1, h1, h2, h3, h4⟩ := nsStep_elsewhere (s := s) (h x List.mem_cons_self) (hm x List.mem_cons_self)
    obtain ⟨s2, h5, h6, h7, h8⟩ := ih (fun y hy => h y (List.mem_cons_of_mem _ hy))
      (fun y hy => hm y (List.mem_cons_of_mem _ hy)) s1
    refine ⟨s2, (runWith_cons h1).trans h5, h6.trans h2, fun t ht => h3 t (h7 t ht), fun y hy t ht => ?_⟩
    rcases List.mem_cons.mp hy with rfl | hy
    · cases hh : s2.holds t with
      | false => rfl
      | true => exact absurd (h7 t hh) (by rw [h4 t ht]; simp)
    · exact h8 y hy t ht

/-! ### what is made lies in the new schema, and what is gone has been dropped -/

section
variable {opts : PlanOptions} {d : SchemaDiff} {r r' : Rand} {stmts : List Statement} {old new : Schema} {n : String}

theorem mem_places {s : Schema} : n ∈ places s ↔ (∃ x ∈ s.extensions, x.name.schemaName = n) ∨
    (∃ x ∈ s.enums, x.name.schemaName = n) ∨ (∃ x ∈ s.tables, x.name.schemaName = n) ∨
    (∃ x ∈ s.sequences, x.name.schemaName = n) ∨ (∃ x ∈ s.functions, x.name.schemaName = n) ∨
    (∃ x ∈ s.procedures, x.name.schemaName = n) ∨ (∃ x ∈ s.views, x.name.schemaName = n) ∨
    (∃ x ∈ s.materializedViews, x.name.schemaName = n) := by
  simp only [places, List.mem_append, List.mem_map, or_assoc]

theorem GraphShape.makesIn {st : GenState} {vid : VertexId} {s : Statement} (dr : DiffRun opts old new d)
    (h : GraphShape opts d st vid s) (hm : s.ddl.makesIn n = true) : n ∈ places new := by
  have pair : ∀ {S : Type} [Obj S] {a b : List S} {ld : ListDiff S (OldNew S)} (_ : diffLists a b pairDiff = .ok ld)
      {p : OldNew S} (_ : p ∈ ld.alters), p.new ∈ b := by
    intro S _ a b ld h p hp
    obtain ⟨i, x, j, o, hx, _, _, hb⟩ := diffLists_alters_mem h hp
    cases hb
    exact List.mem_of_getElem? hx
  rw [mem_places]
  cases h with
  | newTable t h ccs hc s hs =>
    cases hs with
    | create cols hcols =>
      rw [dr.hadds] at h
      obtain ⟨t0, h0, rfl⟩ := List.mem_map.mp h
      have : (packIf opts t0).name.schemaName = n := by simpa [Ddl.makesIn, makes, stmt] using hm
      rw [packIf_name] at this
      exact Or.inr (Or.inr (Or.inl ⟨t0, diffLists_adds_mem dr.htd0 h0, this⟩))
    | _ => cases hm
  | alterTable td h s hs =>
    cases hs with
    | column cd h s hs => cases hs <;> cases hm
    | _ => cases hm
  | createSequence q h =>
    exact Or.inr (Or.inr (Or.inr (Or.inl ⟨q, diffLists_adds_mem dr.hsequences h,
      by simpa [Ddl.makesIn, makes, stmt] using hm⟩)))
  | createFunction f h =>
    refine Or.inr (Or.inr (Or.inr (Or.inr (Or.inl ⟨f, ?_, by simpa [Ddl.makesIn, makes, stmt] using hm⟩))))
    rcases h with h | ⟨fd, h, rfl, _⟩
    · exact diffLists_adds_mem dr.hfunctions h
    · exact pair dr.hfunctions h
  | createProcedure p h =>
    refine Or.inr (Or.inr (Or.inr (Or.inr (Or.inr (Or.inl ⟨p, ?_, by simpa [Ddl.makesIn, makes, stmt] using hm⟩)))))
    rcases h with h | ⟨fd, h, rfl, _⟩
    · exact diffLists_adds_mem dr.hprocedures h
    · exact pair dr.hprocedures h
  | createView v h =>
    exact Or.inr (Or.inr (Or.inr (Or.inr (Or.inr (Or.inr (Or.inl ⟨v, diffLists_adds_mem dr.hviews h,
      by simpa [Ddl.makesIn, makes, stmt] using hm⟩))))))
  | createMatView v h =>
    exact Or.inr (Or.inr (Or.inr (Or.inr (Or.inr (Or.inr (Or.inr ⟨v, diffLists_adds_mem dr.hmatViews h,
      by simpa [Ddl.makesIn, makes, stmt] using hm⟩))))))
  | _ => cases hm

/-- what the statements outside the graph make -/
theorem PlanRun.outer_makesIn (dr : DiffRun opts old new d) (run : PlanRun opts d r r' stmts) {s : Statement}
    (hs : s ∈ run.schemas.adds ++ run.schemas.alters ++ run.extensions.adds ++ run.extensions.alters ++ run.enums.adds ++
      run.enums.alters ++ run.enums.deletes ++ run.extensions.deletes ++ run.schemas.deletes)
    (hm : s.ddl.makesIn n = true) : n ∈ places new := by
  obtain ⟨s1, s2, s3⟩ := resolveToSQL_spec.mp run.hschemas
  obtain ⟨e1, e2, e3⟩ := resolveToSQL_spec.mp run.hextensions
  obtain ⟨n1, n2, n3⟩ := resolveToSQL_spec.mp run.henums
  rw [mem_places]
  simp only [List.mem_append] at hs
  rcases hs with ((((((((hs | hs) | hs) | hs) | hs) | hs) | hs) | hs) | hs)
  · obtain ⟨a, ha, b, hb, hs⟩ := mem_concatMapM s1 hs
    cases hb; rw [List.mem_singleton.mp hs] at hm; cases hm
  · obtain ⟨a, ha, b, hb, hs⟩ := mem_concatMapM s3 hs
    cases hb; cases hs
  · obtain ⟨a, ha, b, hb, hs⟩ := mem_concatMapM e1 hs
    cases hb; rw [List.mem_singleton.mp hs] at hm
    exact Or.inl ⟨a, diffLists_adds_mem dr.hextensions ha, by simpa [Ddl.makesIn, makes, stmt] using hm⟩
  · obtain ⟨a, ha, b, hb, hs⟩ := mem_concatMapM e3 hs
    cases hb
    split at hs
    · rw [List.mem_singleton.mp hs] at hm; cases hm
    · cases hs
  · obtain ⟨a, ha, b, hb, hs⟩ := mem_concatMapM n1 hs
    cases hb; rw [List.mem_singleton.mp hs] at hm
    exact Or.inr (Or.inl ⟨a, diffLists_adds_mem dr.henums ha, by simpa [Ddl.makesIn, makes, stmt] using hm⟩)
  · obtain ⟨a, ha, b, hb, hs⟩ := mem_concatMapM n3 hs
    obtain ⟨i, x, j, o, hx, _, _, hb'⟩ := diffLists_alters_mem dr.henums ha
    cases hb'
    unfold EnumGen.alter at hb
    split at hb
    · cases hb
      simp only [List.mem_cons, List.mem_append, List.not_mem_nil, or_false] at hs
      rcases hs with rfl | rfl
      · cases hm
      · exact Or.inr (Or.inl ⟨x, List.mem_of_getElem? hx, by simpa [Ddl.makesIn, makes, stmt] using hm⟩)
    · split at hb
      · cases hb
      · cases hb
        obtain ⟨l, b, _, _, rfl⟩ := EnumGen.mem_addValues hs
        cases hm
  · obtain ⟨a, ha, b, hb, hs⟩ := mem_concatMapM n2 hs
    cases hb; rw [List.mem_singleton.mp hs] at hm; cases hm
  · obtain ⟨a, ha, b, hb, hs⟩ := mem_concatMapM e2 hs
    cases hb; rw [List.mem_singleton.mp hs] at hm; cases hm
  · obtain ⟨a, ha, b, hb, hs⟩ := mem_concatMapM s2 hs
    cases hb; rw [List.mem_singleton.mp hs] at hm; cases hm

/-- an object that is gone has been dropped -/
theorem PlanRun.held_dropped (dr : DiffRun opts old new d) (run : PlanRun opts d r r' stmts)
    (ho : ∀ m ∈ places old, NoNul m) (hnew : ∀ m ∈ places new, NoNul m) (hn : n ∉ places new) {t : Thing}
    (ht : Holds old n t) : ∃ s ∈ stmts, drops s.ddl = some t := by
  have hno : n ∈ places old := by
    rw [mem_places]
    cases ht with
    | extension x h hn => exact Or.inl ⟨x, h, hn⟩
    | enum x h hn => exact Or.inr (Or.inl ⟨x, h, hn⟩)
    | table x h hn hp => exact Or.inr (Or.inr (Or.inl ⟨x, h, hn⟩))
    | sequence x h hn ho => exact Or.inr (Or.inr (Or.inr (Or.inl ⟨x, h, hn⟩)))
    | function x h hn => exact Or.inr (Or.inr (Or.inr (Or.inr (Or.inl ⟨x, h, hn⟩))))
    | procedure x h hn => exact Or.inr (Or.inr (Or.inr (Or.inr (Or.inr (Or.inl ⟨x, h, hn⟩)))))
    | view x h hn => exact Or.inr (Or.inr (Or.inr (Or.inr (Or.inr (Or.inr (Or.inl ⟨x, h, hn⟩))))))
    | materializedView x h hn => exact Or.inr (Or.inr (Or.inr (Or.inr (Or.inr (Or.inr (Or.inr ⟨x, h, hn⟩))))))
  have key : ∀ {a : SQName} {l : List SQName}, a.schemaName = n → (∀ b ∈ l, b.schemaName ∈ places new) →
      a.fq ∉ l.map SQName.fq := by
    intro a l ha hl hm
    obtain ⟨b, hb, e⟩ := List.mem_map.mp hm
    have := C07_qualified_name_injective (hnew _ (hl b hb)) (ha ▸ ho n hno) e
    exact hn (ha ▸ this ▸ hl b hb)
  obtain ⟨e1, e2, e3⟩ := resolveToSQL_spec.mp run.hextensions
  obtain ⟨n1, n2, n3⟩ := resolveToSQL_spec.mp run.henums
  cases ht with
  | extension x h hx =>
    have hd := diffLists_deleted dr.hextensions h (by
      have := key (l := new.extensions.map (·.name)) hx fun b hb => by
        obtain ⟨y, hy, rfl⟩ := List.mem_map.mp hb; exact mem_places.mpr (Or.inl ⟨y, hy, rfl⟩)
      rwa [List.map_map] at this)
    refine ⟨stmt (.dropExtension x.name.escapedName) [.hasUntrackableDependencies], ?_, rfl⟩
    rw [run.hstmts]
    have := (mem_concatMapM_single (fun _ => rfl) e2).mpr ⟨x, hd, rfl⟩
    simp only [SchemaGen.assemble, List.mem_append]
    exact Or.inl (Or.inr this)
  | enum x h hx =>
    have hd := diffLists_deleted dr.henums h (by
      have := key (l := new.enums.map (·.name)) hx fun b hb => by
        obtain ⟨y, hy, rfl⟩ := List.mem_map.mp hb; exact mem_places.mpr (Or.inr (Or.inl ⟨y, hy, rfl⟩))
      rwa [List.map_map] at this)
    refine ⟨stmt (.dropType x.name), ?_, rfl⟩
    rw [run.hstmts]
    have := (mem_concatMapM_single (fun _ => rfl) n2).mpr ⟨x, hd, rfl⟩
    simp only [SchemaGen.assemble, List.mem_append]
    exact Or.inl (Or.inl (Or.inr this))
  | table x h hx hp =>
    have hd := diffLists_deleted dr.htd0 h (by
      have := key (l := new.tables.map (·.name)) hx fun b hb => by
        obtain ⟨y, hy, rfl⟩ := List.mem_map.mp hb; exact mem_places.mpr (Or.inr (Or.inr (Or.inl ⟨y, hy, rfl⟩)))
      rwa [List.map_map] at this)
    rw [← dr.hdeletes] at hd
    obtain ⟨v, hv, _, hy⟩ := vertex_of_delete (m := GenM) (g := (SchemaGen.tableGen d).legacy) (yields_of_run run.htables) hd
    have hy := yields_lift hy
    simp only [TableGen.delete, hp, Except.ok.injEq] at hy
    exact ⟨stmt (.dropTable x.name) [.deletesData] statementTimeoutTableDrop, run.mem_of_graph (p := run.tables) (by simp) (List.mem_flatMap.mpr ⟨v, hv, by rw [← hy]; simp⟩), rfl⟩
  | sequence x h hx hown =>
    have hd := diffLists_deleted dr.hsequences h (by
      have := key (l := new.sequences.map (·.name)) hx fun b hb => by
        obtain ⟨y, hy, rfl⟩ := List.mem_map.mp hb; exact mem_places.mpr (Or.inr (Or.inr (Or.inr (Or.inl ⟨y, hy, rfl⟩))))
      rwa [List.map_map] at this)
    obtain ⟨v, hv, _, hy⟩ := vertex_of_delete (m := Except Err) (g := (SchemaGen.sequenceGen d).legacy) run.hsequences hd
    have hy := yields_except.mp hy
    simp only [SequenceGen.legacy, SequenceGen.delete, hown, Except.ok.injEq] at hy
    exact ⟨stmt (.dropSequence x.name) [.deletesData, .hasUntrackableDependencies], run.mem_of_graph (p := run.sequences) (by simp) (List.mem_flatMap.mpr ⟨v, hv, by rw [← hy]; simp⟩), rfl⟩
  | function x h hx =>
    have hd := diffLists_deleted dr.hfunctions h (by
      have := key (l := new.functions.map (·.name)) hx fun b hb => by
        obtain ⟨y, hy, rfl⟩ := List.mem_map.mp hb; exact mem_places.mpr (Or.inr (Or.inr (Or.inr (Or.inr (Or.inl ⟨y, hy, rfl⟩)))))
      rwa [List.map_map] at this)
    obtain ⟨v, hv, _, hy⟩ := vertex_of_delete (m := Except Err) (g := FunctionGen.legacy) run.hfunctions hd
    have hy := yields_except.mp hy
    simp only [FunctionGen.legacy, FunctionGen.delete, Except.ok.injEq] at hy
    exact ⟨stmt (.dropFunction x.name) (FunctionGen.hazards x), run.mem_of_graph (p := run.functions) (by simp) (List.mem_flatMap.mpr ⟨v, hv, by rw [← hy]; simp⟩), rfl⟩
  | procedure x h hx =>
    have hd := diffLists_deleted dr.hprocedures h (by
      have := key (l := new.procedures.map (·.name)) hx fun b hb => by
        obtain ⟨y, hy, rfl⟩ := List.mem_map.mp hb; exact mem_places.mpr (Or.inr (Or.inr (Or.inr (Or.inr (Or.inr (Or.inl ⟨y, hy, rfl⟩))))))
      rwa [List.map_map] at this)
    obtain ⟨parts, e, _, _, hp, _⟩ := generatePartialGraph_parts (m := Except Err) run.hprocedures
    obtain ⟨p, hp, hy⟩ := hp x hd
    cases hy
    exact ⟨stmt (.dropProcedure x.name) [.hasUntrackableDependencies], run.mem_of_graph (p := run.procedures) (by simp)
      (by rw [e]; exact PartialGraph.mem_statements_concat.mpr ⟨_, hp, by simp [PartialGraph.statements]⟩), rfl⟩
  | view x h hx =>
    have hd := diffLists_deleted dr.hviews h (by
      have := key (l := new.views.map (·.name)) hx fun b hb => by
        obtain ⟨y, hy, rfl⟩ := List.mem_map.mp hb; exact mem_places.mpr (Or.inr (Or.inr (Or.inr (Or.inr (Or.inr (Or.inr (Or.inl ⟨y, hy, rfl⟩)))))))
      rwa [List.map_map] at this)
    obtain ⟨parts, e, _, _, hp, _⟩ := generatePartialGraph_parts (m := Except Err) run.hviews
    obtain ⟨p, hp, hy⟩ := hp x hd
    cases hy
    exact ⟨stmt (.dropView x.name), run.mem_of_graph (p := run.views) (by simp)
      (by rw [e]; exact PartialGraph.mem_statements_concat.mpr ⟨_, hp, by simp [PartialGraph.statements]⟩), rfl⟩
  | materializedView x h hx =>
    have hd := diffLists_deleted dr.hmatViews h (by
      have := key (l := new.materializedViews.map (·.name)) hx fun b hb => by
        obtain ⟨y, hy, rfl⟩ := List.mem_map.mp hb; exact mem_places.mpr (Or.inr (Or.inr (Or.inr (Or.inr (Or.inr (Or.inr (Or.inr ⟨y, hy, rfl⟩)))))))
      rwa [List.map_map] at this)
    obtain ⟨parts, e, _, _, hp, _⟩ := generatePartialGraph_parts (m := Except Err) run.hmatViews
    obtain ⟨p, hp, hy⟩ := hp x hd
    cases hy
    exact ⟨stmt (.dropMaterializedView x.name), run.mem_of_graph (p := run.matViews) (by simp)
      (by rw [e]; exact PartialGraph.mem_statements_concat.mpr ⟨_, hp, by simp [PartialGraph.statements]⟩), rfl⟩

/-! ### the order of the names does not matter -/

theorem places_normalize {s : Schema} : n ∈ places s.normalize ↔ n ∈ places s := by
  simp only [mem_places, Schema.normalize, List.mem_map, (sortObjs_perm _).mem_iff, exists_exists_and_eq_and, normalizeTable,
    normalizeFunction, normalizeView, normalizeMaterializedView]

theorem hasSchema_normalize (s : Schema) (n : String) : hasSchema s.normalize n = hasSchema s n := by
  rw [Bool.eq_iff_iff]
  simp only [hasSchema, List.any_eq_true, Schema.normalize, (sortObjs_perm _).mem_iff]

theorem holds_normalize {s : Schema} {t : Thing} (h : Holds s n t) : Holds s.normalize n t := by
  cases h with
  | extension x h hx => exact .extension x ((sortObjs_perm _).mem_iff.mpr h) hx
  | enum x h hx => exact .enum x ((sortObjs_perm _).mem_iff.mpr h) hx
  | table x h hx hp => exact .table (normalizeTable x) (mem_normalize_tables_of h) hx hp
  | sequence x h hx ho => exact .sequence x ((sortObjs_perm _).mem_iff.mpr h) hx ho
  | function x h hx => exact .function (normalizeFunction x) (List.mem_map_of_mem ((sortObjs_perm _).mem_iff.mpr h)) hx
  | procedure x h hx => exact .procedure x ((sortObjs_perm _).mem_iff.mpr h) hx
  | view x h hx => exact .view (normalizeView x) (List.mem_map_of_mem ((sortObjs_perm _).mem_iff.mpr h)) hx
  | materializedView x h hx =>
    exact .materializedView (normalizeMaterializedView x) (List.mem_map_of_mem ((sortObjs_perm _).mem_iff.mpr h)) hx

theorem hasSchema_iff {s : Schema} : hasSchema s n = true ↔ n ∈ names s.namedSchemas := by
  simp only [hasSchema, List.any_eq_true, decide_eq_true_eq, names, List.mem_map]
  rfl

end

/-! ### the whole plan -/

section
variable {opts : PlanOptions} {r r' : Rand} {stmts : List Statement} {old new : Schema}

/-- the statements about schemas: first those that make them, last those that drop them -/
theorem schema_phases (h : generateMigrationStatements r old new opts = .ok (stmts, r')) (hu : (names new.namedSchemas).Nodup) :
    ∃ (adds mid dels : List Statement) (as ds : List String), stmts = adds ++ (mid ++ dels) ∧
      adds = as.map (fun m => stmt (.createSchema m)) ∧ dels = ds.map (fun m => stmt (.dropSchema m)) ∧ as.Nodup ∧ ds.Nodup ∧
      (∀ m, m ∈ as ↔ hasSchema new m = true ∧ hasSchema old m = false) ∧
      (∀ m, m ∈ ds ↔ hasSchema old m = true ∧ hasSchema new m = false) ∧ ∀ s ∈ mid, ∀ n, s.ddl.onSchema n = false := by
  obtain ⟨d, ⟨dr⟩, ⟨run⟩⟩ := plan_runs h
  obtain ⟨s1, s2, s3⟩ := resolveToSQL_spec.mp run.hschemas
  have hu' : (new.normalize.namedSchemas.map Obj.getName).Nodup := ((sortObjs_perm _).map _).nodup_iff.mpr hu
  have empty : run.schemas.alters = [] := by
    refine List.eq_nil_iff_forall_not_mem.mpr fun s hs => ?_
    obtain ⟨a, _, b, hb, hs⟩ := mem_concatMapM s3 hs
    cases hb; cases hs
  have hmem : ∀ (s : Schema) m, m ∈ s.normalize.namedSchemas.map Obj.getName ↔ hasSchema s m = true := by
    intro s m
    rw [hasSchema_iff]
    exact ((sortObjs_perm _).map _).mem_iff
  refine ⟨run.schemas.adds, run.extensions.adds ++ run.extensions.alters ++ run.enums.adds ++ run.enums.alters ++ run.ordered ++
      run.enums.deletes ++ run.extensions.deletes, run.schemas.deletes, d.namedSchemaDiffs.adds.map (·.name),
      d.namedSchemaDiffs.deletes.map (·.name), ?_, ?_, ?_, ?_, ?_, ?_, ?_, ?_⟩
  · refine run.hstmts.trans ?_
    simp only [SchemaGen.assemble, empty, List.append_nil, List.append_assoc]
  · rw [concatMapM_eq_map (fun _ => rfl) s1, List.map_map]; rfl
  · rw [concatMapM_eq_map (fun _ => rfl) s2, List.map_map]; rfl
  · exact (C08_every_object_once dr.hschemas hu').2.2.2.1.map Obj.getName |>.nodup hu'
  · exact diffLists_deletes_nodup dr.hschemas
  · intro m
    rw [List.mem_map]
    constructor
    · rintro ⟨x, hx, rfl⟩
      obtain ⟨h1, h2⟩ := (pairDiff_adds dr.hschemas hu').mp hx
      exact ⟨(hmem new _).mp (List.mem_map_of_mem h1), by rw [hmem] at h2; exact Bool.eq_false_iff.mpr h2⟩
    · rintro ⟨h1, h2⟩
      obtain ⟨x, hx, rfl⟩ := List.mem_map.mp ((hmem new m).mpr h1)
      exact ⟨x, (pairDiff_adds dr.hschemas hu').mpr ⟨hx, by rw [hmem]; simpa using h2⟩, rfl⟩
  · intro m
    rw [List.mem_map]
    constructor
    · rintro ⟨x, hx, rfl⟩
      obtain ⟨h1, h2⟩ := (pairDiff_deletes dr.hschemas).mp hx
      exact ⟨(hmem old _).mp (List.mem_map_of_mem h1), by rw [hmem] at h2; exact Bool.eq_false_iff.mpr h2⟩
    · rintro ⟨h1, h2⟩
      obtain ⟨x, hx, rfl⟩ := List.mem_map.mp ((hmem old m).mpr h1)
      exact ⟨x, (pairDiff_deletes dr.hschemas).mpr ⟨hx, by rw [hmem]; simpa using h2⟩, rfl⟩
  · intro s hs n
    have he := extension_family run
    have hn := enum_family run
    have fam : s.ddl.family ≠ .schema → s.ddl.onSchema n = false := by
      intro hf
      cases hd : s.ddl <;> first | rfl | (rw [hd] at hf; exact absurd rfl hf)
    have hext : s ∈ run.extensions.adds ++ run.extensions.alters ++ run.extensions.deletes → s.ddl.onSchema n = false :=
      fun hs => fam (by rw [he s hs]; simp)
    have hen : s ∈ run.enums.adds ++ run.enums.alters ++ run.enums.deletes → s.ddl.onSchema n = false :=
      fun hs => fam (by rw [hn s hs]; simp)
    simp only [List.mem_append] at hs hext hen
    rcases hs with (((((hs | hs) | hs) | hs) | hs) | hs) | hs
    · exact hext (by simp [hs])
    · exact hext (by simp [hs])
    · exact hen (by simp [hs])
    · exact hen (by simp [hs])
    · obtain ⟨id, hg⟩ := run.graph_shape hs
      have := hg.not_outer
      cases hd : s.ddl <;> first | rfl | (rw [hd] at this; exact absurd trivial this)
    · exact hen (by simp [hs])
    · exact hext (by simp [hs])

/-- C79.  Every schema of the database is there at the end exactly if the new schema has it: no `CREATE SCHEMA` meets one that
exists, no object is made in a schema that is missing, and a schema is dropped only after all that it held has been dropped. -/
theorem C79_schemas_converge (h : generateMigrationStatements r old new opts = .ok (stmts, r'))
    (hu : (names new.namedSchemas).Nodup) (hh : Housed new) (ho : ∀ m ∈ places old, NoNul m) (hnn : ∀ m ∈ places new, NoNul m)
    (n : String) : ∃ s', runNamespace n (nsOf old n) stmts = some s' ∧ s'.present = hasSchema new n ∧
      (hasSchema new n = false → ∀ t, s'.holds t = false) := by
  obtain ⟨adds, mid, dels, as, ds, e, ea, ed, na, nd, ma, md, hmid⟩ := schema_phases h hu
  have hadds : n ∉ as → ∀ x ∈ adds, x.ddl.onSchema n = false := by
    intro hna x hx
    rw [ea] at hx
    obtain ⟨m, hm, rfl⟩ := List.mem_map.mp hx
    exact decide_eq_false fun (e : m = n) => hna (e ▸ hm)
  have hdels : n ∉ ds → ∀ x ∈ dels, x.ddl.onSchema n = false := by
    intro hna x hx
    rw [ed] at hx
    obtain ⟨m, hm, rfl⟩ := List.mem_map.mp hx
    exact decide_eq_false fun (e : m = n) => hna (e ▸ hm)
  cases hn : hasSchema new n with
  | true =>
    have hd := hdels (by rw [md, hn]; simp)
    cases hold : hasSchema old n with
    | true =>
      obtain ⟨s', h1, h2⟩ := runNamespace_present (n := n) (l := stmts) (s := nsOf old n) (by
        intro x hx
        rw [e, List.mem_append, List.mem_append] at hx
        rcases hx with hx | hx | hx
        · exact hadds (by rw [ma, hold]; simp) x hx
        · exact hmid x hx n
        · exact hd x hx) hold
      exact ⟨s', h1, h2, by simp⟩
    | false =>
      obtain ⟨pre, post, eas⟩ := List.append_of_mem ((ma n).mpr ⟨hn, hold⟩)
      have hnp : n ∉ pre ∧ n ∉ post := by
        rw [eas, List.nodup_append] at na
        exact ⟨fun hm => na.2.2 n hm n List.mem_cons_self rfl, (List.nodup_cons.mp na.2.1).1⟩
      have e' : stmts = pre.map (fun m => stmt (.createSchema m)) ++ stmt (.createSchema n) ::
          (post.map (fun m => stmt (.createSchema m)) ++ (mid ++ dels)) := by
        rw [e, ea, eas]; simp
      have step : nsStep n (nsOf old n) (stmt (.createSchema n)).ddl = some { nsOf old n with present := true } := by
        simp [nsStep, stmt, nsOf, hold]
      obtain ⟨s', h1, h2⟩ := runNamespace_present (n := n) (l := post.map (fun m => stmt (.createSchema m)) ++ (mid ++ dels))
        (s := { nsOf old n with present := true }) (by
        intro x hx
        rw [List.mem_append, List.mem_append] at hx
        rcases hx with hx | hx | hx
        · obtain ⟨m, hm, rfl⟩ := List.mem_map.mp hx
          exact decide_eq_false fun (e : m = n) => hnp.2 (e ▸ hm)
        · exact hmid x hx n
        · exact hd x hx) rfl
      refine ⟨s', ?_, h2, by simp⟩
      rw [e', runNamespace, runWith_at (s' := { nsOf old n with present := true }) ?_ step]
      · exact h1
      · intro x hx
        obtain ⟨m, hm, rfl⟩ := List.mem_map.mp hx
        simp only [nsStep, stmt]
        rw [if_neg fun (e : m = n) => hnp.1 (e ▸ hm)]
  | false =>
    have hpl : n ∉ places new := fun hm => by rw [hh n hm] at hn; cases hn
    obtain ⟨d, ⟨dr⟩, ⟨run⟩⟩ := plan_runs h
    have hmake : ∀ x ∈ stmts, x.ddl.makesIn n = false := by
      intro x hx
      cases hm : x.ddl.makesIn n with
      | false => rfl
      | true =>
        refine absurd (places_normalize.mp ?_) hpl
        have hx := run.hstmts ▸ hx
        simp only [SchemaGen.assemble, List.mem_append] at hx
        by_cases hg : x ∈ run.ordered
        · obtain ⟨id, hg⟩ := run.graph_shape hg
          exact hg.makesIn dr hm
        · refine run.outer_makesIn dr (s := x) ?_ hm
          simp only [List.mem_append]
          tauto
    have hdrop : ∀ t, (nsOf old n).holds t = true → ∃ s ∈ stmts, drops s.ddl = some t := by
      intro t ht
      have ht : Holds old n t := by simpa [nsOf] using ht
      exact run.held_dropped dr (fun m hm => ho m (places_normalize.mp hm)) (fun m hm => hnn m (places_normalize.mp hm))
        (fun hm => hpl (places_normalize.mp hm)) (holds_normalize ht)
    have ha := hadds (by rw [ma, hn]; simp)
    cases hold : hasSchema old n with
    | false =>
      obtain ⟨s', h1, h2, h3, h4⟩ := runNamespace_elsewhere (n := n) (l := stmts) (by
        intro x hx
        rw [e, List.mem_append, List.mem_append] at hx
        rcases hx with hx | hx | hx
        · exact ha x hx
        · exact hmid x hx n
        · exact hdels (by rw [md, hold]; simp) x hx) hmake (nsOf old n)
      refine ⟨s', h1, h2.trans hold, fun _ t => ?_⟩
      cases ht : s'.holds t with
      | false => rfl
      | true =>
        obtain ⟨s, hs, hd⟩ := hdrop t (h3 t ht)
        rw [h4 s hs t hd] at ht; cases ht
    | true =>
      obtain ⟨pre, post, eds⟩ := List.append_of_mem ((md n).mpr ⟨hold, hn⟩)
      have hnp : n ∉ pre ∧ n ∉ post := by
        rw [eds, List.nodup_append] at nd
        exact ⟨fun hm => nd.2.2 n hm n List.mem_cons_self rfl, (List.nodup_cons.mp nd.2.1).1⟩
      have e' : stmts = (adds ++ (mid ++ pre.map (fun m => stmt (.dropSchema m)))) ++ stmt (.dropSchema n) ::
          post.map (fun m => stmt (.dropSchema m)) := by
        rw [e, ed, eds]; simp
      obtain ⟨s', h1, h2, h3, h4⟩ := runNamespace_elsewhere (n := n)
        (l := adds ++ (mid ++ pre.map (fun m => stmt (.dropSchema m)))) (by
        intro x hx
        rw [List.mem_append, List.mem_append] at hx
        rcases hx with hx | hx | hx
        · exact ha x hx
        · exact hmid x hx n
        · obtain ⟨m, hm, rfl⟩ := List.mem_map.mp hx
          exact decide_eq_false fun (e : m = n) => hnp.1 (e ▸ hm))
        (fun x hx => hmake x (by rw [e']; exact List.mem_append_left _ hx)) (nsOf old n)
      have hempty : ∀ t, s'.holds t = false := by
        intro t
        cases ht : s'.holds t with
        | false => rfl
        | true =>
          obtain ⟨s, hs, hd⟩ := hdrop t (h3 t ht)
          rw [e', List.mem_append, List.mem_cons, List.mem_map] at hs
          rcases hs with hs | rfl | ⟨m, _, rfl⟩
          · rw [h4 s hs t hd] at ht; cases ht
          · cases hd
          · cases hd
      refine ⟨{ s' with present := false }, ?_, rfl, fun _ => hempty⟩
      rw [e', runNamespace, runWith_append]
      unfold runNamespace at h1
      rw [h1, Option.bind_some, runWith_cons (s' := { s' with present := false })]
      · refine runWith_keeps fun x hx => ?_
        obtain ⟨m, hm, rfl⟩ := List.mem_map.mp hx
        simp only [nsStep, stmt]
        rw [if_neg fun (e : m = n) => hnp.2 (e ▸ hm)]
      · simp only [nsStep, stmt]
        rw [if_pos trivial, if_pos ⟨h2.trans hold, hempty⟩]

/-! ### extensions -/

/-- statements of a list of objects with distinct keys: only those of the object with the key `k` matter -/
theorem runWith_concat {σ S : Type} {step : σ → Ddl → Option σ} {key : S → String} {f : S → Except Err (List Statement)}
    {k : String} : ∀ {l : List S} {out : List Statement},
    (∀ a ∈ l, ∀ b, f a = .ok b → key a ≠ k → ∀ s ∈ b, ∀ st, step st s.ddl = some st) →
    (l.map key).Nodup → concatMapM f l = .ok out →
    ∀ st, (k ∉ l.map key → runWith step st out = some st) ∧
      (∀ a ∈ l, key a = k → ∃ b, f a = .ok b ∧ runWith step st out = runWith step st b) := by
  intro l
  induction l with
  | nil =>
    intro out _ _ h st
    cases h
    exact ⟨fun _ => rfl, fun a ha => by cases ha⟩
  | cons x l ih =>
    intro out hf hn h st
    simp only [concatMapM, except_bind_ok, except_pure_ok] at h
    obtain ⟨b, hb, y, hy, rfl⟩ := h
    obtain ⟨hx, hn'⟩ := List.nodup_cons.mp hn
    clear hn
    constructor
    · intro hk
      simp only [List.map_cons, List.mem_cons, not_or] at hk
      rw [runWith_append, runWith_keeps fun s hs => hf x List.mem_cons_self b hb (fun e => hk.1 e.symm) s hs st]
      exact (ih (fun a ha => hf a (List.mem_cons_of_mem _ ha)) hn' hy st).1 hk.2
    · intro a ha hka
      rcases List.mem_cons.mp ha with rfl | ha
      · refine ⟨b, hb, ?_⟩
        rw [runWith_append]
        cases hr : runWith step st b with
        | none => rfl
        | some st' => exact (ih (fun a ha => hf a (List.mem_cons_of_mem _ ha)) hn' hy st').1 (by rw [← hka]; exact hx)
      · have hkx : key x ≠ k := fun e => hx (List.mem_map.mpr ⟨a, ha, hka.trans e.symm⟩)
        rw [runWith_append, runWith_keeps fun s hs => hf x List.mem_cons_self b hb hkx s hs st]
        exact (ih (fun a ha => hf a (List.mem_cons_of_mem _ ha)) hn' hy st).2 a ha hka

/-- the names of the extensions are unique in the database, and the names of their schemas can be read back -/
structure ExtensionsNamed (s : Schema) : Prop where
  unique : (s.extensions.map fun e => e.name.escapedName).Nodup
  noNul : ∀ e ∈ s.extensions, NoNul e.name.schemaName

theorem ExtensionsNamed.eq {s : Schema} (h : ExtensionsNamed s) {a b : Extension} (ha : a ∈ s.extensions)
    (hb : b ∈ s.extensions) (e : a.name.escapedName = b.name.escapedName) : a = b :=
  List.inj_on_of_nodup_map h.unique ha hb e

theorem extension_name_eq {s s' : Schema} (h : ExtensionsNamed s) (h' : ExtensionsNamed s') {a b : Extension}
    (ha : a ∈ s.extensions) (hb : b ∈ s'.extensions) (e : Obj.getName a = Obj.getName b) : a.name = b.name :=
  C07_qualified_name_injective (h.noNul a ha) (h'.noNul b hb) e

theorem ExtensionsNamed.names {s : Schema} (h : ExtensionsNamed s) : (s.extensions.map Obj.getName).Nodup := by
  refine List.Nodup.map_on (fun a ha b hb e => ?_) h.unique.of_map
  exact h.eq ha hb (congrArg _ (extension_name_eq h h ha hb e))

theorem ExtensionsNamed.normalize {s : Schema} (h : ExtensionsNamed s) : ExtensionsNamed s.normalize where
  unique := ((sortObjs_perm _).map _).nodup_iff.mpr h.unique
  noNul := fun e he => h.noNul e ((sortObjs_perm _).mem_iff.mp he)

theorem extensionOf_some {s : Schema} (h : ExtensionsNamed s) {e : Extension} (he : e ∈ s.extensions) :
    extensionOf s e.name.escapedName = some (e.name.schemaName, e.version) := by
  unfold extensionOf
  cases hf : s.extensions.find? fun x => x.name.escapedName = e.name.escapedName with
  | none => exact absurd (List.find?_eq_none.mp hf e he) (by simp)
  | some y =>
    have h1 := List.mem_of_find?_eq_some hf
    have h2 : y.name.escapedName = e.name.escapedName := by simpa using List.find?_some hf
    rw [h.eq h1 he h2]; rfl

theorem extensionOf_none {s : Schema} {k : String} (h : ∀ e ∈ s.extensions, e.name.escapedName ≠ k) : extensionOf s k = none := by
  unfold extensionOf
  rw [List.find?_eq_none.mpr fun e he => by simpa using h e he]; rfl

theorem extensionStep_other {dflt k : String} {x : Ddl} (h : x.family ≠ .extension) (s : Option (String × String)) :
    extensionStep dflt k s x = some s := by
  cases x <;> first | rfl | exact absurd rfl h

/-- the run of a plan, as seen from one extension: creations, updates, removals -/
theorem PlanRun.extension_run {d : SchemaDiff} (run : PlanRun opts d r r' stmts) (dflt k : String) (s : Option (String × String)) :
    runExtension dflt k s stmts = (runExtension dflt k s run.extensions.adds).bind fun s =>
      (runExtension dflt k s run.extensions.alters).bind fun s => runExtension dflt k s run.extensions.deletes := by
  have skip : ∀ (l : List Statement), (∀ x ∈ l, x.ddl.family ≠ .extension) → ∀ s,
      runWith (extensionStep dflt k) s l = some s :=
    fun l h s => runWith_keeps fun x hx => extensionStep_other (h x hx) s
  have hs := schema_family run
  have hn := enum_family run
  have hg : ∀ x ∈ run.ordered, x.ddl.family ≠ .extension := by
    intro x hx
    obtain ⟨id, hg⟩ := run.graph_shape hx
    have := hg.not_outer
    intro hf
    cases hd : x.ddl with
    | alterTable t a => rw [hd] at hf; cases a <;> cases hf
    | _ => rw [hd] at hf this; first | exact this trivial | cases hf
  simp only [List.mem_append] at hs hn
  unfold runExtension
  refine (congrArg (runWith (extensionStep dflt k) s) run.hstmts).trans ?_
  simp only [SchemaGen.assemble, runWith_append]
  rw [skip run.schemas.adds fun x hx => by rw [hs x (by simp [hx])]; simp]
  simp only [Option.bind_some]
  rw [skip run.schemas.alters fun x hx => by rw [hs x (by simp [hx])]; simp]
  simp only [Option.bind_some, Option.bind_assoc]
  congr 1; funext s
  congr 1; funext s
  rw [skip run.enums.adds fun x hx => by rw [hn x (by simp [hx])]; simp]
  simp only [Option.bind_some]
  rw [skip run.enums.alters fun x hx => by rw [hn x (by simp [hx])]; simp]
  simp only [Option.bind_some]
  rw [skip run.ordered hg]
  simp only [Option.bind_some]
  rw [skip run.enums.deletes fun x hx => by rw [hn x (by simp [hx])]; simp]
  simp only [Option.bind_some]
  cases runWith (extensionStep dflt k) s run.extensions.deletes with
  | none => rfl
  | some s => exact skip run.schemas.deletes (fun x hx => by rw [hs x (by simp [hx])]; simp) s

/-- what the three phases do to the extension `k` -/
theorem PlanRun.extension_parts {d : SchemaDiff} {old new : Schema} (dr : DiffRun opts old new d)
    (run : PlanRun opts d r r' stmts) (ho : ExtensionsNamed old) (hn : ExtensionsNamed new) (dflt k : String)
    (s : Option (String × String)) :
    ((∀ x ∈ d.extensionDiffs.adds, x.name.escapedName ≠ k) → runExtension dflt k s run.extensions.adds = some s) ∧
    (∀ x ∈ d.extensionDiffs.adds, x.name.escapedName = k → runExtension dflt k s run.extensions.adds =
      extensionStep dflt k s (.createExtension k x.name.schemaName (if x.version = "" then none else some x.version))) ∧
    ((∀ p ∈ d.extensionDiffs.alters, p.new.name.escapedName ≠ k) → runExtension dflt k s run.extensions.alters = some s) ∧
    (∀ p ∈ d.extensionDiffs.alters, p.new.name.escapedName = k → runExtension dflt k s run.extensions.alters =
      if p.new.version ≠ p.old.version then
        extensionStep dflt k s (.updateExtension k (if p.new.version = "" then none else some p.new.version)) else some s) ∧
    ((∀ x ∈ d.extensionDiffs.deletes, x.name.escapedName ≠ k) → runExtension dflt k s run.extensions.deletes = some s) ∧
    (∀ x ∈ d.extensionDiffs.deletes, x.name.escapedName = k → runExtension dflt k s run.extensions.deletes =
      extensionStep dflt k s (.dropExtension k)) := by
  obtain ⟨e1, e2, e3⟩ := resolveToSQL_spec.mp run.hextensions
  have one : ∀ (s : Option (String × String)) (x : Statement), runWith (extensionStep dflt k) s [x] =
      extensionStep dflt k s x.ddl := by
    intro s x
    simp only [runWith]
    cases extensionStep dflt k s x.ddl <;> rfl
  have c1 := runWith_concat (step := extensionStep dflt k) (key := fun x : Extension => x.name.escapedName) (k := k)
    (l := d.extensionDiffs.adds) (by
      intro a _ b hb hk s hs st
      cases hb; rw [List.mem_singleton.mp hs]
      simp only [stmt, extensionStep]; rw [if_neg hk])
    (((C08_every_object_once dr.hextensions hn.names).2.2.2.1.map _).nodup hn.unique) e1 s
  have hdel : (d.extensionDiffs.deletes.map fun x => x.name.escapedName).Nodup := by
    refine List.Nodup.map_on (fun a ha b hb e => ?_) (diffLists_deletes_nodup dr.hextensions).of_map
    exact ho.eq (diffLists_deletes_mem dr.hextensions ha) (diffLists_deletes_mem dr.hextensions hb) e
  have c2 := runWith_concat (step := extensionStep dflt k) (key := fun x : Extension => x.name.escapedName) (k := k)
    (l := d.extensionDiffs.deletes) (by
      intro a _ b hb hk s hs st
      cases hb; rw [List.mem_singleton.mp hs]
      simp only [stmt, extensionStep]; rw [if_neg hk]) hdel e2 s
  have halt : (d.extensionDiffs.alters.map fun p => p.new.name.escapedName).Nodup := by
    have h0 := pairDiff_alters_nodup dr.hextensions hn.names
    refine List.Nodup.map_on (fun a ha b hb e => ?_) h0.of_map
    have := hn.eq ((pairDiff_alters dr.hextensions hn.names).mp ha).2.1 ((pairDiff_alters dr.hextensions hn.names).mp hb).2.1 e
    exact List.inj_on_of_nodup_map h0 ha hb (congrArg Obj.getName this)
  have c3 := runWith_concat (step := extensionStep dflt k) (key := fun p : OldNew Extension => p.new.name.escapedName) (k := k)
    (l := d.extensionDiffs.alters) (by
      intro a _ b hb hk s hs st
      cases hb
      split at hs
      · rw [List.mem_singleton.mp hs]
        simp only [stmt, extensionStep]; rw [if_neg hk]
      · cases hs) halt e3 s
  refine ⟨fun h => c1.1 (by simpa using h), ?_, fun h => c3.1 (by simpa using h), ?_, fun h => c2.1 (by simpa using h), ?_⟩
  · intro x hx hk
    obtain ⟨b, hb, h⟩ := c1.2 x hx hk
    cases hb
    exact h.trans ((one _ _).trans (by rw [← hk]; rfl))
  · intro p hp hk
    obtain ⟨b, hb, h⟩ := c3.2 p hp hk
    cases hb
    refine h.trans ?_
    split
    · exact (one _ _).trans (by rw [← hk]; rfl)
    · rfl
  · intro x hx hk
    obtain ⟨b, hb, h⟩ := c2.2 x hx hk
    cases hb
    exact h.trans ((one _ _).trans (by rw [← hk]; rfl))

/-- C79.  Where no extension moves to another schema, every extension is at the end as the new schema has it, with its schema
and its version, and Postgres rejects no statement about it.

The full claim has no assumption about extensions that move; it is refuted below. -/
theorem C79_extensions_converge_partial (h : generateMigrationStatements r old new opts = .ok (stmts, r'))
    (ho : ExtensionsNamed old) (hn : ExtensionsNamed new) (hv : ∀ x ∈ new.extensions, x.version ≠ "")
    (hmove : ∀ o ∈ old.extensions, ∀ x ∈ new.extensions, o.name.escapedName = x.name.escapedName →
      o.name.schemaName = x.name.schemaName)
    (dflt k : String) : runExtension dflt k (extensionOf old k) stmts = some (extensionOf new k) := by
  obtain ⟨d, ⟨dr⟩, ⟨run⟩⟩ := plan_runs h
  have mo : ∀ {e : Extension}, e ∈ old.normalize.extensions ↔ e ∈ old.extensions := (sortObjs_perm _).mem_iff
  have mn : ∀ {e : Extension}, e ∈ new.normalize.extensions ↔ e ∈ new.extensions := (sortObjs_perm _).mem_iff
  have key : ∀ {o x : Extension}, o ∈ old.extensions → x ∈ new.extensions →
      (Obj.getName o = Obj.getName x ↔ o.name.escapedName = x.name.escapedName) := by
    intro o x h1 h2
    constructor
    · exact fun e => congrArg _ (extension_name_eq ho hn h1 h2 e)
    · intro e
      have : o.name = x.name := by
        have := hmove o h1 x h2 e
        cases hon : o.name; cases hxn : x.name
        rw [hon, hxn] at this e
        simp only at this e
        rw [this, e]
      exact congrArg SQName.fq this
  have adds : ∀ {x : Extension}, x ∈ d.extensionDiffs.adds ↔ x ∈ new.extensions ∧
      ∀ o ∈ old.extensions, o.name.escapedName ≠ x.name.escapedName := by
    intro x
    rw [pairDiff_adds dr.hextensions hn.normalize.names, mn]
    refine and_congr_right fun hx => ?_
    simp only [List.mem_map, not_exists, not_and, mo]
    exact forall_congr' fun o => forall_congr' fun ho => not_congr (key ho hx)
  have dels : ∀ {o : Extension}, o ∈ d.extensionDiffs.deletes ↔ o ∈ old.extensions ∧
      ∀ x ∈ new.extensions, x.name.escapedName ≠ o.name.escapedName := by
    intro o
    rw [pairDiff_deletes dr.hextensions, mo]
    refine and_congr_right fun ho => ?_
    simp only [List.mem_map, not_exists, not_and, mn]
    exact forall_congr' fun x => forall_congr' fun hx => not_congr (eq_comm.trans ((key ho hx).trans eq_comm))
  have alts : ∀ {p : OldNew Extension}, p ∈ d.extensionDiffs.alters ↔ p.old ∈ old.extensions ∧ p.new ∈ new.extensions ∧
      p.old.name.escapedName = p.new.name.escapedName := by
    intro p
    rw [pairDiff_alters dr.hextensions hn.normalize.names, mo, mn]
    exact and_congr_right fun h1 => and_congr_right fun h2 => key h1 h2
  rw [run.extension_run]
  have P := run.extension_parts dr ho.normalize hn.normalize dflt k
  by_cases hkn : ∃ x ∈ new.extensions, x.name.escapedName = k
  · obtain ⟨x, hx, hxk⟩ := hkn
    have en : extensionOf new k = some (x.name.schemaName, x.version) := hxk ▸ extensionOf_some hn hx
    have hnd : ∀ o ∈ d.extensionDiffs.deletes, o.name.escapedName ≠ k := fun o ho e =>
      (dels.mp ho).2 x hx (hxk.trans e.symm)
    by_cases hko : ∃ o ∈ old.extensions, o.name.escapedName = k
    · obtain ⟨o, hoo, hok⟩ := hko
      have eo : extensionOf old k = some (o.name.schemaName, o.version) := hok ▸ extensionOf_some ho hoo
      rw [(P _).1 fun y hy e => (adds.mp hy).2 o hoo (hok.trans e.symm), Option.bind_some,
        (P _).2.2.2.1 ⟨o, x⟩ (alts.mpr ⟨hoo, hx, hok.trans hxk.symm⟩) hxk, eo, en]
      have hs := hmove o hoo x hx (hok.trans hxk.symm)
      split
      · simp only [extensionStep, if_true, if_neg (hv x hx), Option.getD_some, Option.bind_some]
        rw [(P _).2.2.2.2.1 hnd, hs]
      · rename_i hve
        rw [Option.bind_some, (P _).2.2.2.2.1 hnd, hs, not_not.mp hve]
    · have hko : ∀ o ∈ old.extensions, o.name.escapedName ≠ k := fun o ho e => hko ⟨o, ho, e⟩
      rw [(P _).2.1 x (adds.mpr ⟨hx, fun o ho e => hko o ho (e.trans hxk)⟩) hxk, extensionOf_none hko, en]
      simp only [extensionStep, if_true, if_neg (hv x hx), Option.getD_some, Option.bind_some]
      rw [(P _).2.2.1 fun p hp e => hko p.old (alts.mp hp).1 ((alts.mp hp).2.2.trans e), Option.bind_some, (P _).2.2.2.2.1 hnd]
  · have hkn : ∀ x ∈ new.extensions, x.name.escapedName ≠ k := fun x hx e => hkn ⟨x, hx, e⟩
    rw [(P _).1 fun y hy => hkn y (adds.mp hy).1, Option.bind_some, (P _).2.2.1 fun p hp => hkn p.new (alts.mp hp).2.1,
      Option.bind_some, extensionOf_none hkn]
    by_cases hko : ∃ o ∈ old.extensions, o.name.escapedName = k
    · obtain ⟨o, hoo, hok⟩ := hko
      have eo : extensionOf old k = some (o.name.schemaName, o.version) := hok ▸ extensionOf_some ho hoo
      rw [(P _).2.2.2.2.2 o (dels.mpr ⟨hoo, fun x hx => hok ▸ hkn x hx⟩) hok, eo]
      simp [extensionStep]
    · have hko : ∀ o ∈ old.extensions, o.name.escapedName ≠ k := fun o ho e => hko ⟨o, ho, e⟩
      rw [(P _).2.2.2.2.1 fun o ho => hko o (dels.mp ho).1, extensionOf_none hko]

/-- C79.  Whenever an extension moves to another schema, Postgres rejects the plan: `CREATE EXTENSION` comes while the extension
is still there, for `DROP EXTENSION` is one of the last statements. -/
theorem C79_moved_extension_rejected (h : generateMigrationStatements r old new opts = .ok (stmts, r'))
    (ho : ExtensionsNamed old) (hn : ExtensionsNamed new) {o x : Extension} (hoo : o ∈ old.extensions) (hx : x ∈ new.extensions)
    (e : o.name.escapedName = x.name.escapedName) (hm : o.name.schemaName ≠ x.name.schemaName) (dflt : String) :
    runExtension dflt x.name.escapedName (extensionOf old x.name.escapedName) stmts = none := by
  obtain ⟨d, ⟨dr⟩, ⟨run⟩⟩ := plan_runs h
  have mo : ∀ {e : Extension}, e ∈ old.normalize.extensions ↔ e ∈ old.extensions := (sortObjs_perm _).mem_iff
  have mn : ∀ {e : Extension}, e ∈ new.normalize.extensions ↔ e ∈ new.extensions := (sortObjs_perm _).mem_iff
  have ha : x ∈ d.extensionDiffs.adds := by
    rw [pairDiff_adds dr.hextensions hn.normalize.names, mn]
    refine ⟨hx, fun hm' => ?_⟩
    obtain ⟨o', ho', e'⟩ := List.mem_map.mp hm'
    have e2 := extension_name_eq ho hn (mo.mp ho') hx e'
    have := ho.eq (mo.mp ho') hoo (by rw [e2, e])
    exact hm (by rw [← this, e2])
  rw [run.extension_run, (run.extension_parts dr ho.normalize hn.normalize dflt _ _).2.1 x ha rfl, ← e, extensionOf_some ho hoo]
  simp [extensionStep]

end
end Verif

namespace Verif.Samples

open Spec

/-- a schema with something of everything -/
def housedIn (n : String) : Schema := { Schema.empty with
  namedSchemas := [⟨"public"⟩, ⟨n⟩]
  extensions := [⟨⟨n, "\"e" ++ n ++ "\""⟩, "1"⟩]
  enums := [⟨⟨n, "\"c\""⟩, ["red"]⟩]
  tables := [{ table "t" [col "x" "integer"] with name := ⟨n, "\"t\""⟩ }]
  sequences := [{ seq "q" with name := ⟨n, "\"q\""⟩, owner := none }]
  functions := [⟨⟨n, "\"f\"()"⟩, "def", "sql", []⟩]
  procedures := [⟨⟨n, "\"p\"()"⟩, "def"⟩]
  views := [⟨⟨n, "\"v\""⟩, "SELECT 1", [], []⟩]
  materializedViews := [⟨⟨n, "\"m\""⟩, "SELECT 1", [], "", []⟩] }

/-- all of it lies in a schema of the database -/
theorem housed_ok (n : String) : Housed (housedIn n) := by
  intro m hm
  have : m = n := by simpa [places, housedIn, Schema.empty] using hm
  rw [this]
  simp [hasSchema, housedIn]

theorem housed_nul {n : String} (h : NoNul n) : ∀ m ∈ places (housedIn n), NoNul m := by
  intro m hm
  have : m = n := by simpa [places, housedIn, Schema.empty] using hm
  exact this ▸ h

/-- an extension in the schema `n` -/
def extIn (n v : String) : Schema := { Schema.empty with
  namedSchemas := [⟨"a"⟩, ⟨"b"⟩]
  extensions := [⟨⟨n, "\"e\""⟩, v⟩] }

theorem extIn_named {n v : String} (h : NoNul n) : ExtensionsNamed (extIn n v) where
  unique := by simp [extIn]
  noNul := by simpa [extIn] using h

end Verif.Samples

namespace Verif

open Spec Samples

-- every kind of thing is made in a new schema, and dropped with an old one
example : (names (housedIn "s2").namedSchemas).Nodup ∧ Housed (housedIn "s2") ∧ (∀ m ∈ places (housedIn "s1"), NoNul m) ∧
    (∀ m ∈ places (housedIn "s2"), NoNul m) ∧
    ∃ stmts r', generateMigrationStatements rand (housedIn "s1") (housedIn "s2") opts = .ok (stmts, r') ∧
      (stmts.filterMap fun s => makes s.ddl).length = 8 ∧ (stmts.filterMap fun s => drops s.ddl).length = 8 ∧
      (stmts.filter fun s => s.ddl.onSchema "s1" || s.ddl.onSchema "s2").length = 2 :=
  ⟨by decide +kernel, housed_ok _, housed_nul (by unfold NoNul; decide), housed_nul (by unfold NoNul; decide),
    exists_plan (by decide +kernel)⟩

-- an extension gets a new version
example : ExtensionsNamed (extIn "a" "1") ∧ ExtensionsNamed (extIn "a" "2") ∧ (∀ x ∈ (extIn "a" "2").extensions, x.version ≠ "") ∧
    (∀ o ∈ (extIn "a" "1").extensions, ∀ x ∈ (extIn "a" "2").extensions, o.name.escapedName = x.name.escapedName →
      o.name.schemaName = x.name.schemaName) ∧
    extensionOf (extIn "a" "1") "\"e\"" = some ("a", "1") ∧ extensionOf (extIn "a" "2") "\"e\"" = some ("a", "2") ∧
    ∃ stmts r', generateMigrationStatements rand (extIn "a" "1") (extIn "a" "2") opts = .ok (stmts, r') ∧ stmts.length = 1 :=
  ⟨extIn_named (by unfold NoNul; decide), extIn_named (by unfold NoNul; decide), by decide, by decide, by decide, by decide,
    exists_plan (by decide +kernel)⟩

/-- C79.  The full claim fails: an extension moves from one schema to another, and the plan is rejected. -/
theorem C79_extensions_converge_violated : ∃ (r r' : Rand) (old new : Schema) (opts : PlanOptions) (stmts : List Statement)
    (k : String), generateMigrationStatements r old new opts = .ok (stmts, r') ∧ ExtensionsNamed old ∧ ExtensionsNamed new ∧
      (∀ x ∈ new.extensions, x.version ≠ "") ∧ Housed old ∧ Housed new ∧
      ∀ dflt, runExtension dflt k (extensionOf old k) stmts = none := by
  obtain ⟨stmts, r', h, _⟩ := exists_plan (r := rand) (old := extIn "a" "1") (new := extIn "b" "1") (opts := opts)
    (P := fun _ => True) (by decide +kernel)
  have ha : ExtensionsNamed (extIn "a" "1") := extIn_named (by unfold NoNul; decide)
  have hb : ExtensionsNamed (extIn "b" "1") := extIn_named (by unfold NoNul; decide)
  refine ⟨_, _, _, _, _, stmts, "\"e\"", h, ha, hb, by decide, by unfold Housed; decide, by unfold Housed; decide, fun dflt => ?_⟩
  exact C79_moved_extension_rejected h ha hb (o := ⟨⟨"a", "\"e\""⟩, "1"⟩) (x := ⟨⟨"b", "\"e\""⟩, "1"⟩) (by decide) (by decide)
    rfl (by decide) dflt

-- the statements: the extension is made while the old one is there
example : ∃ stmts r', generateMigrationStatements rand (extIn "a" "1") (extIn "b" "1") opts = .ok (stmts, r') ∧
    stmts.map (·.toSQL) = ["CREATE EXTENSION \"e\" WITH SCHEMA \"b\" VERSION \"1\";", "DROP EXTENSION \"e\";"] :=
  exists_plan (by decide +kernel)

end Verif
