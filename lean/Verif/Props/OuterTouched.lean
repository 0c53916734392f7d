import Verif.Spec.OuterTouched
import Verif.Props.Namespace

/-!
# C109: schemas, extensions and enums are touched exactly when they have to be
-/

namespace Verif

open Spec

section
variable {opts : PlanOptions} {old new : Schema} {d : SchemaDiff} {r r' : Rand} {stmts : List Statement}

/-- what comes from the dependency graph is not about schemas, extensions or enums -/
theorem GraphShape.inner {st : GenState} {id : VertexId} {s : Statement} (h : GraphShape opts d st id s) : ¬ s.ddl.IsOuter := by
  cases h with
  | newTable t hm ccs hcc _ hs' hid => cases hs' <;> exact fun h => h
  | alterTable td hm _ hs' hid =>
    cases hs' with
    | column cd h _ hs' => cases hs' <;> exact fun h => h
    | _ => exact fun h => h
  | _ => exact fun h => h

/-- the statements about enums of a plan -/
theorem PlanRun.mem_enums (run : PlanRun opts d r r' stmts) {s : Statement} (h : s ∈ run.enums.adds ∨ s ∈ run.enums.alters ∨
    s ∈ run.enums.deletes) : s ∈ stmts := by
  rw [run.hstmts]
  simp only [SchemaGen.assemble, List.mem_append]
  rcases h with h | h | h <;> simp [h]

/-- the statements about extensions of a plan -/
theorem PlanRun.mem_extensions (run : PlanRun opts d r r' stmts) {s : Statement} (h : s ∈ run.extensions.adds ∨
    s ∈ run.extensions.alters ∨ s ∈ run.extensions.deletes) : s ∈ stmts := by
  rw [run.hstmts]
  simp only [SchemaGen.assemble, List.mem_append]
  rcases h with h | h | h <;> simp [h]

/-- the statements about schemas of a plan -/
theorem PlanRun.mem_schemas (run : PlanRun opts d r r' stmts) {s : Statement} (h : s ∈ run.schemas.adds ∨
    s ∈ run.schemas.alters ∨ s ∈ run.schemas.deletes) : s ∈ stmts := by
  rw [run.hstmts]
  simp only [SchemaGen.assemble, List.mem_append]
  rcases h with h | h | h <;> simp [h]

/-- **C109.**  A schema is made exactly if it is new, and dropped exactly if it is not to be there. -/
theorem C109_schemas_touched (h : generateMigrationStatements r old new opts = .ok (stmts, r'))
    (hu : NamesUnique new.namedSchemas) (n : String) :
    ((∃ s ∈ stmts, s.ddl = .createSchema n) ↔ n ∈ new.namedSchemas.map (·.name) ∧ n ∉ old.namedSchemas.map (·.name)) ∧
    ((∃ s ∈ stmts, s.ddl = .dropSchema n) ↔ n ∈ old.namedSchemas.map (·.name) ∧ n ∉ new.namedSchemas.map (·.name)) := by
  obtain ⟨d, ⟨dr⟩, ⟨run⟩⟩ := plan_runs h
  have hU : (new.normalize.namedSchemas.map Obj.getName).Nodup := ((sortObjs_perm _).map _).nodup_iff.mpr hu
  have mem : ∀ {l : List NamedSchema} {a : NamedSchema}, a ∈ sortObjs l ↔ a ∈ l := (sortObjs_perm _).mem_iff
  have names : ∀ {l : List NamedSchema} {m : String}, m ∈ (sortObjs l).map Obj.getName ↔ m ∈ l.map (·.name) :=
    ((sortObjs_perm _).map _).mem_iff
  obtain ⟨s1, s2, _⟩ := resolveToSQL_spec.mp run.hschemas
  refine ⟨⟨?_, ?_⟩, ⟨?_, ?_⟩⟩
  · rintro ⟨s, hs, hc⟩
    cases (run.origin hs).shape with
    | createSchema o hm =>
      cases hc
      obtain ⟨h1, h2⟩ := (pairDiff_adds dr.hschemas hU).mp hm
      exact ⟨List.mem_map_of_mem (mem.mp h1), fun h3 => h2 (names.mpr h3)⟩
    | graph s hg => exact absurd (by rw [hc]; trivial) hg.inner
    | _ => cases hc
  · rintro ⟨h1, h2⟩
    obtain ⟨o, ho, rfl⟩ := List.mem_map.mp h1
    have hm := (pairDiff_adds dr.hschemas hU).mpr ⟨mem.mpr ho, fun h3 => h2 (names.mp h3)⟩
    exact ⟨stmt (.createSchema o.name), run.mem_schemas (Or.inl ((mem_concatMapM_single (fun _ => rfl) s1).mpr ⟨o, hm, rfl⟩)), rfl⟩
  · rintro ⟨s, hs, hc⟩
    cases (run.origin hs).shape with
    | dropSchema o hm =>
      cases hc
      obtain ⟨h1, h2⟩ := (pairDiff_deletes dr.hschemas).mp hm
      exact ⟨List.mem_map_of_mem (mem.mp h1), fun h3 => h2 (names.mpr h3)⟩
    | graph s hg => exact absurd (by rw [hc]; trivial) hg.inner
    | _ => cases hc
  · rintro ⟨h1, h2⟩
    obtain ⟨o, ho, rfl⟩ := List.mem_map.mp h1
    have hm := (pairDiff_deletes dr.hschemas).mpr ⟨mem.mpr ho, fun h3 => h2 (names.mp h3)⟩
    exact ⟨stmt (.dropSchema o.name), run.mem_schemas (Or.inr (Or.inr ((mem_concatMapM_single (fun _ => rfl) s2).mpr ⟨o, hm, rfl⟩))), rfl⟩

/-- **C109.**  An extension in both schemas is updated exactly if its version differs, to that of the target, and is never dropped or
made again. -/
theorem C109_extensions_touched (h : generateMigrationStatements r old new opts = .ok (stmts, r'))
    (hN : ExtensionsNamed new) (hO : ExtensionsNamed old) {o x : Extension} (ho : o ∈ old.extensions) (hx : x ∈ new.extensions)
    (e : o.name = x.name) :
    ((∃ s ∈ stmts, ∃ v, s.ddl = .updateExtension x.name.escapedName v) ↔ o.version ≠ x.version) ∧
    (∀ s ∈ stmts, ∀ v, s.ddl = .updateExtension x.name.escapedName v → v = if x.version = "" then none else some x.version) ∧
    (∀ s ∈ stmts, ∀ m v, s.ddl ≠ .createExtension x.name.escapedName m v) ∧
    ∀ s ∈ stmts, s.ddl ≠ .dropExtension x.name.escapedName := by
  obtain ⟨d, ⟨dr⟩, ⟨run⟩⟩ := plan_runs h
  have hU := hN.normalize.names
  have mem : ∀ {l : List Extension} {a : Extension}, a ∈ sortObjs l ↔ a ∈ l := (sortObjs_perm _).mem_iff
  obtain ⟨_, _, s3⟩ := resolveToSQL_spec.mp run.hextensions
  have alt : ∀ {s : Statement} {v : Option String}, s ∈ stmts → s.ddl = .updateExtension x.name.escapedName v →
      o.version ≠ x.version ∧ v = if x.version = "" then none else some x.version := by
    intro s v hs hc
    cases run.origin hs with
    | extensionAlter ed hm l hl hsl =>
      obtain ⟨m1, m2, m3⟩ := (pairDiff_alters dr.hextensions hU).mp hm
      cases hl
      split at hsl
      · rename_i hv
        rw [List.mem_singleton.mp hsl] at hc
        obtain ⟨c1, c2⟩ := Ddl.updateExtension.inj hc
        have ex : ed.new = x := hN.eq (mem.mp m2) hx c1
        have eo : ed.old = o := hO.eq (mem.mp m1) ho (by
          rw [extension_name_eq hO hN (mem.mp m1) (mem.mp m2) m3, ex, e])
        rw [ex, eo] at hv
        exact ⟨hv.symm, by rw [← c2, ex]⟩
      · cases hsl
    | schemaAdd o hm hq => rw [hq] at hc; cases hc
    | schemaDelete o hm hq => rw [hq] at hc; cases hc
    | extensionAdd o hm l hl hsl => cases hl; rw [List.mem_singleton.mp hsl] at hc; cases hc
    | extensionDelete o hm l hl hsl => cases hl; rw [List.mem_singleton.mp hsl] at hc; cases hc
    | enumAdd o hm hq => rw [hq] at hc; cases hc
    | enumDelete o hm hq => rw [hq] at hc; cases hc
    | enumAlter ed hm l hl hsl =>
      unfold EnumGen.alter at hl
      split at hl
      · cases hl
        simp only [List.mem_cons, List.mem_append, List.not_mem_nil, or_false] at hsl
        rcases hsl with rfl | rfl <;> cases hc
      · split at hl
        · cases hl
        · cases hl
          obtain ⟨_, _, _, _, rfl⟩ := EnumGen.mem_addValues hsl
          cases hc
    | graph hg => exact absurd (by rw [hc]; trivial) hg.shape.inner
  refine ⟨⟨?_, ?_⟩, fun s hs v hc => (alt hs hc).2, ?_, ?_⟩
  · rintro ⟨s, hs, v, hc⟩
    exact (alt hs hc).1
  · intro hne
    have hm := (pairDiff_alters dr.hextensions hU (d := ⟨o, x⟩)).mpr ⟨mem.mpr ho, mem.mpr hx, by show o.name.getName = x.name.getName; rw [e]⟩
    obtain ⟨b, hb, hin⟩ := mem_concatMapM_of s3 hm
    unfold ExtensionGen.alter at hb
    rw [if_pos (fun h => hne h.symm)] at hb
    cases hb
    exact ⟨_, run.mem_extensions (Or.inr (Or.inl (hin _ (List.mem_singleton.mpr rfl)))), _, rfl⟩
  · intro s hs m v hc
    cases (run.origin hs).shape with
    | createExtension y hm =>
      obtain ⟨h1, h2⟩ := (pairDiff_adds dr.hextensions hU).mp hm
      have ey : y = x := hN.eq (mem.mp h1) hx (Ddl.createExtension.inj hc).1
      subst ey
      exact h2 (List.mem_map.mpr ⟨o, mem.mpr ho, by show o.name.getName = y.name.getName; rw [e]⟩)
    | graph s hg => exact absurd (by rw [hc]; trivial) hg.inner
    | _ => cases hc
  · intro s hs hc
    cases (run.origin hs).shape with
    | dropExtension y hm =>
      obtain ⟨h1, h2⟩ := (pairDiff_deletes dr.hextensions).mp hm
      have ey : y = o := hO.eq (mem.mp h1) ho ((Ddl.dropExtension.inj hc).trans (by rw [e]))
      subst ey
      exact h2 (List.mem_map.mpr ⟨x, mem.mpr hx, by show x.name.getName = y.name.getName; rw [e]⟩)
    | graph s hg => exact absurd (by rw [hc]; trivial) hg.inner
    | _ => cases hc

/-- labels are added for what is new -/
theorem EnumGen.mem_addValues_of {n : SQName} {o : List String} {ls : List String} {l : String} (hl : l ∈ ls) (ho : l ∉ o) :
    ∃ b, stmt (.addEnumValue n l b) ∈ EnumGen.addValues n o ls := by
  induction ls with
  | nil => cases hl
  | cons k ls ih =>
    unfold EnumGen.addValues
    by_cases hk : l = k
    · subst hk
      exact ⟨_, List.mem_append_right _ (by rw [if_neg ho]; exact List.mem_singleton.mpr rfl)⟩
    · obtain ⟨b, hb⟩ := ih ((List.mem_cons.mp hl).resolve_left hk)
      exact ⟨b, List.mem_append_left _ hb⟩

/-- **C109.**  An enum in both schemas is dropped and made again exactly if a label is to be gone; otherwise exactly the labels that are new
are added. -/
theorem C109_enums_touched (h : generateMigrationStatements r old new opts = .ok (stmts, r')) (hu : NamesUnique new.enums)
    {o x : Enum} (ho : o ∈ old.enums) (hx : x ∈ new.enums) (e : o.name.fq = x.name.fq) :
    ((∃ s ∈ stmts, ∃ q, q.fq = x.name.fq ∧ s.ddl = .dropType q) ↔ LabelGone o x) ∧
    ((∃ s ∈ stmts, ∃ q ls, q.fq = x.name.fq ∧ s.ddl = .createEnum q ls) ↔ LabelGone o x) ∧
    ∀ l, (∃ s ∈ stmts, ∃ q b, q.fq = x.name.fq ∧ s.ddl = .addEnumValue q l b) ↔ ¬ LabelGone o x ∧ l ∈ x.labels ∧ l ∉ o.labels := by
  obtain ⟨d, ⟨dr⟩, ⟨run⟩⟩ := plan_runs h
  have hU : (new.normalize.enums.map Obj.getName).Nodup := ((sortObjs_perm _).map _).nodup_iff.mpr hu
  have hO := diffLists_old_nodup dr.henums
  have mem : ∀ {l : List Enum} {a : Enum}, a ∈ sortObjs l ↔ a ∈ l := (sortObjs_perm _).mem_iff
  have ho' : o ∈ old.normalize.enums := mem.mpr ho
  have hx' : x ∈ new.normalize.enums := mem.mpr hx
  obtain ⟨_, _, s3⟩ := resolveToSQL_spec.mp run.henums
  have gone : o.labels.any (fun l => !x.labels.contains l) = true ↔ LabelGone o x := by
    simp [LabelGone]
  have hm := (pairDiff_alters dr.henums hU (d := ⟨o, x⟩)).mpr ⟨ho', hx', e⟩
  obtain ⟨b, hb, hin⟩ := mem_concatMapM_of s3 hm
  have there : ∀ {s : Statement}, s ∈ b → s ∈ stmts := fun hs => run.mem_enums (Or.inr (Or.inl (hin _ hs)))
  /- what is about the enum comes from altering it -/
  have back : ∀ {s : Statement} {q : SQName}, s ∈ stmts → q.fq = x.name.fq →
      (s.ddl = .dropType q ∨ (∃ ls, s.ddl = .createEnum q ls) ∨ ∃ l c, s.ddl = .addEnumValue q l c) → s ∈ b := by
    intro s q hs hq hc
    have hout : s.ddl.IsOuter := by rcases hc with hc | ⟨_, hc⟩ | ⟨_, _, hc⟩ <;> rw [hc] <;> trivial
    cases run.origin hs with
    | enumAdd y hy he =>
      have e1 : y.name.fq = x.name.fq := by
        rw [he] at hc
        rcases hc with hc | ⟨_, hc⟩ | ⟨_, _, hc⟩ <;> cases hc
        exact hq
      exact absurd (List.mem_map.mpr ⟨o, ho', e.trans e1.symm⟩) ((pairDiff_adds dr.henums hU).mp hy).2
    | enumDelete y hy he =>
      have e1 : y.name.fq = x.name.fq := by
        rw [he] at hc
        rcases hc with hc | ⟨_, hc⟩ | ⟨_, _, hc⟩ <;> cases hc
        exact hq
      exact absurd (List.mem_map.mpr ⟨x, hx', e1.symm⟩) ((pairDiff_deletes dr.henums).mp hy).2
    | enumAlter ed hed l hl hsl =>
      obtain ⟨m1, m2, m3⟩ := (pairDiff_alters dr.henums hU).mp hed
      have m3 : ed.old.name.fq = ed.new.name.fq := m3
      have e1 : ed.new.name.fq = x.name.fq := by
        unfold EnumGen.alter at hl
        split at hl
        · cases hl
          simp only [List.mem_cons, List.mem_append, List.not_mem_nil, or_false] at hsl
          rcases hsl with rfl | rfl
          · rcases hc with hc | ⟨_, hc⟩ | ⟨_, _, hc⟩ <;> cases hc
            exact m3.symm.trans hq
          · rcases hc with hc | ⟨_, hc⟩ | ⟨_, _, hc⟩ <;> cases hc
            exact hq
        · split at hl
          · cases hl
          · cases hl
            obtain ⟨l, c, _, _, rfl⟩ := EnumGen.mem_addValues hsl
            rcases hc with hc | ⟨_, hc⟩ | ⟨_, _, hc⟩ <;> cases hc
            exact hq
      have ex : ed.new = x := List.inj_on_of_nodup_map hU m2 hx' e1
      have eo : ed.old = o := List.inj_on_of_nodup_map hO m1 ho' (m3.trans (e1.trans e.symm))
      have hed' : ed = ⟨o, x⟩ := by cases ed; cases ex; cases eo; rfl
      rw [hed', hb] at hl
      cases hl
      exact hsl
    | schemaAdd y hy he => rw [he] at hc; rcases hc with hc | ⟨_, hc⟩ | ⟨_, _, hc⟩ <;> cases hc
    | schemaDelete y hy he => rw [he] at hc; rcases hc with hc | ⟨_, hc⟩ | ⟨_, _, hc⟩ <;> cases hc
    | extensionAdd y hy l hl hsl =>
      cases hl; rw [List.mem_singleton.mp hsl] at hc; rcases hc with hc | ⟨_, hc⟩ | ⟨_, _, hc⟩ <;> cases hc
    | extensionDelete y hy l hl hsl =>
      cases hl; rw [List.mem_singleton.mp hsl] at hc; rcases hc with hc | ⟨_, hc⟩ | ⟨_, _, hc⟩ <;> cases hc
    | extensionAlter y hy l hl hsl =>
      cases hl
      split at hsl
      · rw [List.mem_singleton.mp hsl] at hc; rcases hc with hc | ⟨_, hc⟩ | ⟨_, _, hc⟩ <;> cases hc
      · cases hsl
    | graph hg => exact absurd hout hg.shape.inner
  unfold EnumGen.alter at hb
  by_cases hg : LabelGone o x
  · rw [if_pos (gone.mpr hg)] at hb
    cases hb
    refine ⟨iff_of_true ⟨_, there List.mem_cons_self, o.name, e, rfl⟩ hg,
      iff_of_true ⟨_, there (List.mem_cons_of_mem _ List.mem_cons_self), x.name, x.labels, rfl, rfl⟩ hg, fun l => iff_of_false ?_ fun h => h.1 hg⟩
    rintro ⟨s, hs, q, c, hq, hc⟩
    have := back hs hq (Or.inr (Or.inr ⟨l, c, hc⟩))
    simp only [List.mem_cons, List.mem_append, List.not_mem_nil, or_false] at this
    rcases this with rfl | rfl <;> cases hc
  · rw [if_neg (fun h => hg (gone.mp h))] at hb
    split at hb
    · cases hb
    · cases hb
      refine ⟨iff_of_false ?_ hg, iff_of_false ?_ hg, fun l => ⟨?_, ?_⟩⟩
      · rintro ⟨s, hs, q, hq, hc⟩
        obtain ⟨_, _, _, _, rfl⟩ := EnumGen.mem_addValues (back hs hq (Or.inl hc))
        cases hc
      · rintro ⟨s, hs, q, ls, hq, hc⟩
        obtain ⟨_, _, _, _, rfl⟩ := EnumGen.mem_addValues (back hs hq (Or.inr (Or.inl ⟨ls, hc⟩)))
        cases hc
      · rintro ⟨s, hs, q, c, hq, hc⟩
        obtain ⟨l', c', h1, h2, rfl⟩ := EnumGen.mem_addValues (back hs hq (Or.inr (Or.inr ⟨l, c, hc⟩)))
        cases hc
        exact ⟨hg, h1, h2⟩
      · rintro ⟨_, h1, h2⟩
        obtain ⟨c, hc⟩ := EnumGen.mem_addValues_of (n := x.name) h1 h2
        exact ⟨_, there hc, x.name, c, rfl, rfl⟩

end


/-! ### an instance -/

open Samples

/-- a schema that goes, an extension to be updated, one enum that gets a label and one that loses one -/
def outerOld : Schema := { Schema.empty with
  namedSchemas := [⟨"a"⟩, ⟨"b"⟩]
  extensions := [⟨⟨"public", "\"e\""⟩, "1"⟩, ⟨⟨"public", "\"f\""⟩, "1"⟩]
  enums := [⟨pub "m", ["x", "y"]⟩, ⟨pub "n", ["x", "y"]⟩] }

/-- the target -/
def outerNew : Schema := { Schema.empty with
  namedSchemas := [⟨"b"⟩, ⟨"c"⟩]
  extensions := [⟨⟨"public", "\"e\""⟩, "2"⟩, ⟨⟨"public", "\"f\""⟩, "1"⟩]
  enums := [⟨pub "m", ["x", "z", "y"]⟩, ⟨pub "n", ["x"]⟩] }

theorem outerOld_named : ExtensionsNamed outerOld := ⟨by decide +kernel, by unfold NoNul; decide +kernel⟩

theorem outerNew_named : ExtensionsNamed outerNew := ⟨by decide +kernel, by unfold NoNul; decide +kernel⟩

/-- the hypotheses of C109 can be met: six statements; each theorem tells what is in the plan and what is not -/
example : ∃ stmts r', generateMigrationStatements readerRand outerOld outerNew opts = .ok (stmts, r') ∧ stmts.length = 6 ∧
    (∃ s ∈ stmts, s.ddl = .dropSchema "a") ∧ (¬ ∃ s ∈ stmts, s.ddl = .createSchema "b") ∧
    (∃ s ∈ stmts, ∃ v, s.ddl = .updateExtension "\"e\"" v) ∧ (¬ ∃ s ∈ stmts, ∃ v, s.ddl = .updateExtension "\"f\"" v) ∧
    (∃ s ∈ stmts, ∃ q b, q.fq = (pub "m").fq ∧ s.ddl = .addEnumValue q "z" b) ∧
    (¬ ∃ s ∈ stmts, ∃ q, q.fq = (pub "m").fq ∧ s.ddl = .dropType q) ∧
    ∃ s ∈ stmts, ∃ q, q.fq = (pub "n").fq ∧ s.ddl = .dropType q := by
  obtain ⟨stmts, r', h, hl⟩ : ∃ stmts r', generateMigrationStatements readerRand outerOld outerNew opts = .ok (stmts, r') ∧
      stmts.length = 6 := exists_plan (by decide +kernel)
  have hs : NamesUnique outerNew.namedSchemas := by unfold NamesUnique; decide +kernel
  have he : NamesUnique outerNew.enums := by unfold NamesUnique; decide +kernel
  have e0 := C109_extensions_touched h outerNew_named outerOld_named (o := outerOld.extensions[0]) (x := outerNew.extensions[0])
    (List.getElem_mem _) (List.getElem_mem _) rfl
  have e1 := C109_extensions_touched h outerNew_named outerOld_named (o := outerOld.extensions[1]) (x := outerNew.extensions[1])
    (List.getElem_mem _) (List.getElem_mem _) rfl
  have m0 := C109_enums_touched h he (o := outerOld.enums[0]) (x := outerNew.enums[0]) (List.getElem_mem _) (List.getElem_mem _) rfl
  have m1 := C109_enums_touched h he (o := outerOld.enums[1]) (x := outerNew.enums[1]) (List.getElem_mem _) (List.getElem_mem _) rfl
  have g0 : ¬ LabelGone outerOld.enums[0] outerNew.enums[0] := by unfold LabelGone; decide +kernel
  have g1 : LabelGone outerOld.enums[1] outerNew.enums[1] := by unfold LabelGone; decide +kernel
  exact ⟨stmts, r', h, hl, (C109_schemas_touched h hs "a").2.mpr (by decide +kernel),
    fun h' => absurd ((C109_schemas_touched h hs "b").1.mp h') (by decide +kernel),
    e0.1.mpr (by decide +kernel), fun h' => e1.1.mp h' rfl, (m0.2.2 "z").mpr ⟨g0, by decide +kernel, by decide +kernel⟩,
    fun h' => g0 (m0.1.mp h'), m1.1.mpr g1⟩

end Verif
