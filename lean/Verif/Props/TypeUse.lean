import Verif.Spec.TypeUse
import Verif.Props.Columns
import Verif.Props.Enum

/-!
# Types are there while columns use them (C87)
-/

namespace Verif

open Spec

/-! ### the type of a column comes from the old schema or from a statement -/

/-- the statement gives the column `c` of the table `n` the type `ty` -/
def Ddl.givesType (n c ty : String) : Ddl → Prop
  | .createTable t defs _ => t.fq = n ∧ ∃ d ∈ defs, d.name = c ∧ d.type = ty
  | .alterTable t (.addColumn d) => t.fq = n ∧ d.name = c ∧ d.type = ty
  | .alterTable t (.alterColumn c' (.setType ty' _)) => t.fq = n ∧ c' = c ∧ ty' = ty
  | .alterTable t (.alterColumn c' (.setTypeFromMillis ty')) => t.fq = n ∧ c' = c ∧ ty' = ty
  | _ => False

theorem changeType_type {pg : Pg} {s s' : ColState} {t : String} {coll : SQName} (h : changeType pg s t coll = some s') :
    s'.type = t := by
  unfold changeType at h
  split at h
  · cases h
  · split at h
    · cases h
    · split at h
      · cases h; rfl
      · split at h
        · cases h; rfl
        · cases h

theorem alterColumn_type {pg : Pg} {s s' : ColState} {a : ColumnAction} (h : alterColumn pg s a = some s') :
    s'.type = s.type ∨ (∃ coll, a = .setType s'.type coll) ∨ a = .setTypeFromMillis s'.type := by
  cases a with
  | setTypeFromMillis t =>
    rw [changeType_type h]; exact Or.inr (Or.inr rfl)
  | setType t coll =>
    rw [changeType_type h]; exact Or.inr (Or.inl ⟨coll, rfl⟩)
  | setNotNull => cases h; exact Or.inl rfl
  | dropNotNull => simp only [alterColumn] at h; split at h <;> cases h; exact Or.inl rfl
  | dropDefault => simp only [alterColumn] at h; split at h <;> cases h; exact Or.inl rfl
  | setDefault e => simp only [alterColumn] at h; split at h <;> cases h; exact Or.inl rfl
  | dropIdentity => simp only [alterColumn] at h; split at h <;> cases h; exact Or.inl rfl
  | addIdentity d =>
    simp only [alterColumn] at h
    split at h
    · cases h
    · split at h <;> cases h; exact Or.inl rfl
  | alterIdentity mods =>
    simp only [alterColumn] at h
    split at h
    · cases h
    · split at h
      · cases h
      · split at h <;> cases h; exact Or.inl rfl

theorem slotStep_type {pg : Pg} {n c : String} {s s' : Slot} {x : Ddl} (h : slotStep pg n c s x = some s') {ty : String}
    (hty : slotType s' = some ty) : slotType s = some ty ∨ x.givesType n c ty := by
  cases x with
  | createTable t defs p =>
    simp only [slotStep] at h
    split at h
    · rename_i e
      split at h
      · split at h
        · cases h
          cases hf : defs.find? fun d => d.name = c with
          | none => rw [hf] at hty; cases hty
          | some d =>
            rw [hf] at hty
            cases hty
            exact Or.inr ⟨e, d, List.mem_of_find?_eq_some hf, by simpa using List.find?_some hf, rfl⟩
        · cases h
      · cases h
    · cases h; exact Or.inl hty
  | dropTable t =>
    simp only [slotStep] at h
    split at h
    · split at h
      · cases h
      · cases h; cases hty
    · cases h; exact Or.inl hty
  | alterTable t a =>
    simp only [slotStep] at h
    split at h
    · rename_i e
      simp only [Bool.and_eq_true, decide_eq_true_eq] at e
      split at h
      · cases h
      · rename_i y
        obtain ⟨z, hz, rfl⟩ := Option.map_eq_some_iff.mp h
        cases z with
        | none => cases hty
        | some st =>
          cases hty
          cases a with
          | addColumn d =>
            simp only [slotAction] at hz
            split at hz
            · rename_i e'
              split at hz
              · cases hz; exact Or.inr ⟨e.1, e', rfl⟩
              · cases hz
            · cases hz; exact Or.inl rfl
          | dropColumn c' =>
            simp only [slotAction] at hz
            split at hz
            · split at hz <;> cases hz
            · cases hz; exact Or.inl rfl
          | alterColumn c' a =>
            simp only [slotAction] at hz
            split at hz
            · rename_i e'
              obtain ⟨w, hw, e2⟩ := Option.map_eq_some_iff.mp hz
              cases e2
              cases y with
              | none => cases hw
              | some st0 =>
                rcases alterColumn_type hw with h1 | ⟨coll, rfl⟩ | rfl
                · exact Or.inl (congrArg some h1.symm)
                · exact Or.inr ⟨e.1, e', rfl⟩
                · exact Or.inr ⟨e.1, e', rfl⟩
            · cases hz; exact Or.inl rfl
          | _ => exact absurd e.2 (by simp [onColumns])
    · cases h; exact Or.inl hty
  | _ => cases h; exact Or.inl hty

theorem runSlot_type {pg : Pg} {n c : String} : ∀ {l : List Statement} {s s' : Slot}, runSlot pg n c s l = some s' →
    ∀ {ty : String}, slotType s' = some ty → slotType s = some ty ∨ ∃ x ∈ l, x.ddl.givesType n c ty := by
  intro l
  induction l with
  | nil => intro s s' h ty hty; cases h; exact Or.inl hty
  | cons x l ih =>
    intro s s' h ty hty
    obtain ⟨s1, h1, h2⟩ := Option.bind_eq_some_iff.mp h
    rcases ih h2 hty with h3 | ⟨y, hy, h3⟩
    · rcases slotStep_type h1 h3 with h4 | h4
      · exact Or.inl h4
      · exact Or.inr ⟨x, List.mem_cons_self, h4⟩
    · exact Or.inr ⟨y, List.mem_cons_of_mem _ hy, h3⟩

theorem buildColumnDefinition_type {c : Column} {d : ColumnDef} (h : buildColumnDefinition c = .ok d) : d.type = c.type := by
  obtain ⟨i, _, h⟩ := except_bind_ok.mp h
  cases h; rfl

section
variable {opts : PlanOptions} {old new : Schema} {d : SchemaDiff} {r r' : Rand} {stmts : List Statement}

/-- the plan gives columns only types that the target's columns have -/
theorem givesType_target (dr : DiffRun opts old new d) (run : PlanRun opts d r r' stmts) {s : Statement} (hs : s ∈ stmts)
    {n c ty : String} (h : s.ddl.givesType n c ty) :
    ∃ t ∈ new.tables, t.name.fq = n ∧ ∃ x ∈ t.columns, x.name = c ∧ x.type = ty := by
  cases run.shape hs with
  | graph s hg =>
    cases hg with
    | newTable t ht ccs hc s hs' hid =>
      obtain ⟨t0, _, rfl, ht0⟩ := dr.added_mem ht
      cases hs' with
      | create cols hcols =>
        obtain ⟨e, def_, hdef, e1, e2⟩ := h
        rw [packIf_name] at e
        obtain ⟨i, hi, hget⟩ := List.getElem_of_mem hdef
        have hlen := hcols.length_eq
        have hb := List.forall₂_iff_get.mp hcols
        have hb := hb.2 i (by omega) hi
        have hx : (packIf opts t0).columns[i]'(by omega) ∈ (packIf opts t0).columns := List.getElem_mem _
        simp only [List.get_eq_getElem, hget] at hb
        exact ⟨t0, ht0, e, _, (packIf_columns opts t0).mem_iff.mp hx, (buildColumnDefinition_name hb).symm.trans e1,
          (buildColumnDefinition_type hb).symm.trans e2⟩
      | _ => exact h.elim
    | alterTable td htd s hs' hid =>
      obtain ⟨td0, _, rfl, i, j, hi, hj, e, hb⟩ := dr.altered htd
      have hnew : (orderIf opts td0).new ∈ new.tables := List.mem_of_getElem? hi
      obtain ⟨_, e2, _, _, _, hcd, _⟩ := buildTableDiff_ok hb
      have halt : ∀ cd ∈ (orderIf opts td0).columnsDiff.alters, cd.new ∈ (orderIf opts td0).new.columns := by
        intro cd hcd'
        obtain ⟨cd0, h0, _, e3⟩ := orderIf_columns opts td0 hcd'
        obtain ⟨i, x, j, o, hx, ho, e4, hb'⟩ := diffLists_alters_mem hcd h0
        cases hb'
        rw [e3]
        exact List.mem_of_getElem? hx
      cases hs' with
      | addColumn x hx def_ hd =>
        obtain ⟨e3, e4, e5⟩ := h
        rw [orderIf_columnsAdds] at hx
        exact ⟨_, hnew, e3, x, diffLists_adds_mem hcd hx, (buildColumnDefinition_name hd).symm.trans e4,
          (buildColumnDefinition_type hd).symm.trans e5⟩
      | column cd hcd' s hs' =>
        cases hs' with
        | setType _ => obtain ⟨e3, e4, e5⟩ := h; exact ⟨_, hnew, e3, cd.new, halt cd hcd', e4, e5⟩
        | setTypeFromMillis _ => obtain ⟨e3, e4, e5⟩ := h; exact ⟨_, hnew, e3, cd.new, halt cd hcd', e4, e5⟩
        | _ => exact h.elim
      | _ => exact h.elim
    | _ => exact h.elim
  | _ => exact h.elim

/-! ### where the statements about types are -/

/-- The parts of a plan: before the graph types are dropped only if one of their labels goes, and from the graph on no type
is created. -/
theorem PlanRun.typeParts (run : PlanRun opts d r r' stmts) : ∃ a b, stmts = a ++ run.ordered ++ b ∧
    (∀ s ∈ a, s.ddl.IsOuter) ∧ (∀ s ∈ b, s.ddl.IsOuter) ∧ (∀ s ∈ run.ordered, ¬ s.ddl.IsOuter) ∧
    (∀ s ∈ a, ∀ k, s.ddl = .dropType k → ∃ ed ∈ d.enumDiffs.alters, ed.old.name = k ∧ ∃ x ∈ ed.old.labels, x ∉ ed.new.labels) ∧
    (∀ s ∈ b, ∀ k ls, s.ddl ≠ .createEnum k ls) ∧
    ∀ ed ∈ d.enumDiffs.alters, (∃ x ∈ ed.old.labels, x ∉ ed.new.labels) → ∃ s ∈ a, s.ddl = .dropType ed.old.name := by
  obtain ⟨s1, s2, s3⟩ := resolveToSQL_spec.mp run.hschemas
  obtain ⟨e1, e2, e3⟩ := resolveToSQL_spec.mp run.hextensions
  obtain ⟨n1, n2, n3⟩ := resolveToSQL_spec.mp run.henums
  have key : ∀ {P : Statement → Prop},
      (∀ o, P (stmt (.createSchema o))) → (∀ a b c, P (stmt (.createExtension a b c))) →
      (∀ a b, P (stmt (.updateExtension a b) [.extensionVersionUpgrade])) → (∀ n ls, P (stmt (.createEnum n ls))) →
      (∀ n l b, P (stmt (.addEnumValue n l b))) →
      (∀ ed ∈ d.enumDiffs.alters, (∃ x ∈ ed.old.labels, x ∉ ed.new.labels) → P (stmt (.dropType ed.old.name))) →
      ∀ s ∈ run.schemas.adds ++ run.schemas.alters ++ run.extensions.adds ++ run.extensions.alters ++ run.enums.adds ++
        run.enums.alters, P s := by
    intro P p1 p2 p3 p4 p5 p6 s hs
    simp only [List.mem_append] at hs
    rcases hs with ((((hs | hs) | hs) | hs) | hs) | hs
    · obtain ⟨a, ha, b, hb, hs⟩ := mem_concatMapM s1 hs
      cases hb; rw [List.mem_singleton.mp hs]; exact p1 _
    · obtain ⟨a, ha, b, hb, hs⟩ := mem_concatMapM s3 hs
      cases hb; cases hs
    · obtain ⟨a, ha, b, hb, hs⟩ := mem_concatMapM e1 hs
      cases hb; rw [List.mem_singleton.mp hs]; exact p2 _ _ _
    · obtain ⟨a, ha, b, hb, hs⟩ := mem_concatMapM e3 hs
      cases hb
      split at hs
      · rw [List.mem_singleton.mp hs]; exact p3 _ _
      · cases hs
    · obtain ⟨a, ha, b, hb, hs⟩ := mem_concatMapM n1 hs
      cases hb; rw [List.mem_singleton.mp hs]; exact p4 _ _
    · obtain ⟨a, ha, b, hb, hs⟩ := mem_concatMapM n3 hs
      rcases EnumGen.alter_ok hb with ⟨h1, rfl⟩ | ⟨_, _, rfl⟩
      · simp only [List.mem_cons, List.not_mem_nil, or_false] at hs
        rcases hs with rfl | rfl
        · exact p6 a ha h1
        · exact p4 _ _
      · obtain ⟨l, b, _, _, rfl⟩ := EnumGen.mem_addValues hs
        exact p5 _ _ _
  have key' : ∀ {P : Statement → Prop}, (∀ o, P (stmt (.dropSchema o))) →
      (∀ a, P (stmt (.dropExtension a) [.hasUntrackableDependencies])) → (∀ n, P (stmt (.dropType n))) →
      ∀ s ∈ run.enums.deletes ++ run.extensions.deletes ++ run.schemas.deletes, P s := by
    intro P p1 p2 p3 s hs
    simp only [List.mem_append] at hs
    rcases hs with (hs | hs) | hs
    · obtain ⟨a, ha, b, hb, hs⟩ := mem_concatMapM n2 hs
      cases hb; rw [List.mem_singleton.mp hs]; exact p3 _
    · obtain ⟨a, ha, b, hb, hs⟩ := mem_concatMapM e2 hs
      cases hb; rw [List.mem_singleton.mp hs]; exact p2 _
    · obtain ⟨a, ha, b, hb, hs⟩ := mem_concatMapM s2 hs
      cases hb; rw [List.mem_singleton.mp hs]; exact p1 _
  refine ⟨_, _, run.hstmts.trans (by simp [SchemaGen.assemble]), key (P := fun s => s.ddl.IsOuter) (fun _ => trivial)
    (fun _ _ _ => trivial) (fun _ _ => trivial) (fun _ _ => trivial) (fun _ _ _ => trivial) (fun _ _ _ => trivial),
    key' (P := fun s => s.ddl.IsOuter) (fun _ => trivial) (fun _ => trivial) (fun _ => trivial),
    fun s hs => let ⟨_, h⟩ := run.graph_shape hs; h.not_outer, ?_, ?_, ?_⟩
  · exact key (P := fun s => ∀ k, s.ddl = .dropType k → ∃ ed ∈ d.enumDiffs.alters, ed.old.name = k ∧
      ∃ x ∈ ed.old.labels, x ∉ ed.new.labels) (fun _ _ e => nomatch e) (fun _ _ _ _ e => nomatch e) (fun _ _ _ e => nomatch e)
      (fun _ _ _ e => nomatch e) (fun _ _ _ _ e => nomatch e)
      (fun ed hed hx k e => ⟨ed, hed, by cases e; rfl, hx⟩)
  · exact key' (P := fun s => ∀ k ls, s.ddl ≠ .createEnum k ls) (fun _ _ _ e => nomatch e) (fun _ _ _ e => nomatch e)
      (fun _ _ _ e => nomatch e)
  · intro ed hed hx
    obtain ⟨l, hl, hsub⟩ := mem_concatMapM_of n3 hed
    refine ⟨stmt (.dropType ed.old.name), List.mem_append_right _ (hsub _ ?_), rfl⟩
    rcases EnumGen.alter_ok hl with ⟨_, rfl⟩ | ⟨h1, _⟩
    · exact List.mem_cons_self
    · obtain ⟨x, h2, h3⟩ := hx
      exact absurd (h1 x h2) h3

end

/-! ### one type -/

theorem runEnums_stays {k : String} : ∀ {l : List Statement} {ls : List String} {e : Option (List String)},
    runEnums k (some ls) l = some e → (∀ s ∈ l, ∀ n, s.ddl = .dropType n → n.getName ≠ k) → e.isSome = true := by
  intro l
  induction l with
  | nil => intro ls e h _; cases h; rfl
  | cons x l ih =>
    intro ls e h hl
    obtain ⟨e1, h1, h2⟩ := Option.bind_eq_some_iff.mp h
    have : ∃ ls', e1 = some ls' := by
      cases hx : x.ddl with
      | createEnum n ls' =>
        rw [hx] at h1
        simp only [Ddl.runEnum] at h1
        split at h1
        · split at h1
          · cases h1; exact ⟨_, rfl⟩
          · cases h1
        · cases h1; exact ⟨_, rfl⟩
      | dropType n =>
        rw [hx] at h1
        simp only [Ddl.runEnum] at h1
        split at h1
        · rename_i e'; exact absurd e' (hl x List.mem_cons_self n hx)
        · cases h1; exact ⟨_, rfl⟩
      | addEnumValue n v b =>
        rw [hx] at h1
        simp only [Ddl.runEnum] at h1
        split at h1
        · obtain ⟨w, _, rfl⟩ := Option.map_eq_some_iff.mp h1; exact ⟨_, rfl⟩
        · cases h1; exact ⟨_, rfl⟩
      | _ => rw [hx] at h1; cases h1; exact ⟨_, rfl⟩
    obtain ⟨ls', rfl⟩ := this
    exact ih h2 fun s hs => hl s (List.mem_cons_of_mem _ hs)

theorem runEnums_was {k : String} : ∀ {l : List Statement} {e : Option (List String)} {ls : List String},
    runEnums k e l = some (some ls) → (∀ s ∈ l, ∀ n v, s.ddl ≠ .createEnum n v) → e.isSome = true := by
  intro l
  induction l with
  | nil => intro e ls h _; cases h; rfl
  | cons x l ih =>
    intro e ls h hl
    obtain ⟨e1, h1, h2⟩ := Option.bind_eq_some_iff.mp h
    have h3 := ih h2 fun s hs => hl s (List.mem_cons_of_mem _ hs)
    cases hx : x.ddl with
    | createEnum n v => exact absurd hx (hl x List.mem_cons_self n v)
    | dropType n =>
      rw [hx] at h1
      simp only [Ddl.runEnum] at h1
      split at h1
      · split at h1
        · cases h1
        · cases h1; cases h3
      · cases h1; exact h3
    | addEnumValue n v b =>
      rw [hx] at h1
      simp only [Ddl.runEnum] at h1
      split at h1
      · cases e with
        | none => cases h1
        | some _ => rfl
      · cases h1; exact h3
    | _ => rw [hx] at h1; cases h1; exact h3

/-- a part of a plan that is accepted -/
theorem runEnums_part {k : String} {e f : Option (List String)} {a b : List Statement} (h : runEnums k e (a ++ b) = some f) :
    ∃ g, runEnums k e a = some g ∧ runEnums k g b = some f := by
  rw [runEnums_append] at h
  exact Option.bind_eq_some_iff.mp h

theorem runSlot_part {pg : Pg} {n c : String} {s t : Slot} {a b : List Statement} (h : runSlot pg n c s (a ++ b) = some t) :
    ∃ u, runSlot pg n c s a = some u ∧ runSlot pg n c u b = some t := by
  unfold runSlot at h
  rw [runWith_append] at h
  exact Option.bind_eq_some_iff.mp h

theorem runSlot_outer {pg : Pg} {n c : String} {s : Slot} {l : List Statement} (h : ∀ x ∈ l, x.ddl.IsOuter) :
    runSlot pg n c s l = some s := by
  refine runWith_keeps fun x hx => ?_
  have := h x hx
  cases hd : x.ddl <;> rw [hd] at this <;> first | exact this.elim | rfl

/-! ### C87 -/

section
variable {opts : PlanOptions} {old new : Schema} {d : SchemaDiff} {r r' : Rand} {stmts : List Statement}

/-- what a plan does to a type, with its end -/
theorem runEnums_end (h : generateMigrationStatements r old new opts = .ok (stmts, r')) (hne : (names new.enums).Nodup)
    (ho : ∀ e ∈ old.enums, e.labels.Nodup) (hl : ∀ e ∈ new.enums, e.labels.Nodup) (k : String) :
    ∃ f, runEnums k (enumIn old k) stmts = some f ∧ (f.isSome = true ↔ k ∈ names new.enums) := by
  obtain ⟨c1, c2⟩ := C12_enum_migration h hne ho hl
  by_cases hk : k ∈ names new.enums
  · obtain ⟨e, he, hek⟩ := List.mem_map.mp hk
    obtain ⟨out, h1, _⟩ := c1 e he
    have hek : e.name.getName = k := hek
    rw [hek] at h1
    exact ⟨_, h1, iff_of_true rfl hk⟩
  · exact ⟨none, c2 k hk, iff_of_false (by simp) hk⟩

/-- **C87**: types are there while columns use them.  Take an enum type and a column of a table.  After every statement of
the plan, the type exists if the column is there and refers to it: types are created before the columns that need them, and
dropped after the last column is gone or has another type.  Missing: types that lose a label while a column uses them
(`C87_recreated_type_violated`), and what C71 asks of the table; types other than enums are not part of the model. -/
theorem C87_types_there_partial (h : generateMigrationStatements r old new opts = .ok (stmts, r'))
    (hnt : NamesUnique new.tables) (hne : (names new.enums).Nodup) (hol : ∀ e ∈ old.enums, e.labels.Nodup)
    (hnl : ∀ e ∈ new.enums, e.labels.Nodup) {pg : Pg} {n : String} (hp : ColumnsPlannable pg old new n) (c k : String)
    (refers : String → Bool)
    (hold : (slotType (slotOf old n c)).any refers = true → k ∈ names old.enums)
    (hnew : (slotType (slotOf new n c)).any refers = true → k ∈ names new.enums)
    (hkeep : (slotType (slotOf old n c)).any refers = true → ∀ o ∈ old.enums, ∀ e ∈ new.enums, o.name.getName = k →
      e.name.getName = k → ∀ x ∈ o.labels, x ∈ e.labels) :
    TypeThere pg refers k n c (enumIn old k) (slotOf old n c) stmts := by
  have hslot := C71_tables_and_columns_converge_partial h hnt hp c
  obtain ⟨f, hf, hfk⟩ := runEnums_end h hne hol hnl k
  obtain ⟨d, ⟨dr⟩, ⟨run⟩⟩ := plan_runs h
  have hod : (names old.enums).Nodup := (plan_runEnums h hne).1
  obtain ⟨P, Q, hparts, hP, hQ, hG, hdrop, hcreate, _⟩ := run.typeParts
  have holdNodup : NamesUnique old.tables := (normalize_tables_names old).nodup_iff.mp (diffLists_old_nodup dr.htd0)
  -- the types the plan gives to the column are those of the target
  have hgives : ∀ s ∈ stmts, ∀ ty, s.ddl.givesType n c ty → slotType (slotOf new n c) = some ty := by
    intro s hs ty hg
    obtain ⟨t, ht, e, x, hx, e1, e2⟩ := givesType_target dr run hs hg
    obtain ⟨t0, ht0, rfl⟩ := mem_normalize_tables ht
    rw [slotOf_some hnt ht0 e, columnOf_some (hp.names t0 ht0 e) hx e1, ← e2]
    rfl
  -- before the graph, a type that the column uses is not dropped
  have hdropP : ∀ s ∈ P, ∀ m, s.ddl = .dropType m → m.getName = k → (slotType (slotOf old n c)).any refers = true →
      False := by
    intro s hs m e ek hu
    obtain ⟨ed, hed, e1, x, hx, hx'⟩ := hdrop s hs m e
    have hnd : ((sortObjs new.enums).map Obj.getName).Nodup := ((sortObjs_perm _).map _).nodup_iff.mpr hne
    have := (pairDiff_alters dr.henums hnd (d := ed)).mp hed
    simp only [Schema.normalize, (sortObjs_perm _).mem_iff] at this
    obtain ⟨m1, m2, m3⟩ := this
    have e2 : ed.old.name.getName = k := by rw [e1]; exact ek
    exact hx' (hkeep hu ed.old m1 ed.new m2 e2 (m3.symm.trans e2) x hx)
  intro a b hab
  obtain ⟨e, he, heb⟩ := runEnums_part (hab ▸ hf)
  obtain ⟨s, hs, hsb⟩ := runSlot_part (hab ▸ hslot)
  refine ⟨e, s, he, hs, fun hu => ?_⟩
  -- the part up to here contains no statement that drops the type, and the column refers to it before the plan
  have stays : (slotType (slotOf old n c)).any refers = true → (∀ x ∈ a, ∀ m, x.ddl = .dropType m → m.getName ≠ k) →
      e.isSome = true := by
    intro hu hd
    obtain ⟨o, ho, hok⟩ := List.mem_map.mp (hold hu)
    have hok : o.name.getName = k := hok
    have : enumIn old k = some o.labels := hok ▸ enumIn_some hod ho
    rw [this] at he
    exact runEnums_stays he hd
  -- no statement from here on creates a type, and the target has it
  have was : k ∈ names new.enums → (∀ x ∈ b, ∀ m v, x.ddl ≠ .createEnum m v) → e.isSome = true := by
    intro hk hb
    obtain ⟨ls, hls⟩ := Option.isSome_iff_exists.mp (hfk.mpr hk)
    rw [hls] at heb
    exact runEnums_was heb hb
  have houter : ∀ x ∈ run.ordered, ∀ m v, x.ddl ≠ .createEnum m v := by
    intro x hx m v e
    exact hG x hx (by rw [e]; trivial)
  rw [hparts, List.append_assoc] at hab
  rcases List.append_eq_append_iff.mp hab with ⟨a', rfl, hrest⟩ | ⟨p', rfl, hrest⟩
  · -- in the graph or behind it
    by_cases hk : k ∈ names new.enums
    · refine was hk fun x hx => ?_
      have : x ∈ run.ordered ++ Q := by rw [hrest]; exact List.mem_append_right _ hx
      rcases List.mem_append.mp this with hx | hx
      · exact houter x hx
      · exact hcreate x hx
    · -- the column still has its old type
      have huo : (slotType (slotOf old n c)).any refers = true := by
        cases hty : slotType s with
        | none => rw [hty] at hu; cases hu
        | some ty =>
          rcases runSlot_type hs hty with h1 | ⟨x, hx, h1⟩
          · rw [h1, ← hty]; exact hu
          · have hx' : x ∈ stmts := by
              rw [hparts, List.append_assoc, hrest, ← List.append_assoc]; exact List.mem_append_left _ hx
            exact absurd (hnew (by rw [hgives x hx' ty h1, ← hty]; exact hu)) hk
      rcases List.append_eq_append_iff.mp hrest with ⟨q, rfl, hq⟩ | ⟨g, hg, hq⟩
      · -- behind the graph the column is that of the target
        have : s = slotOf new n c := by
          have hskip : runSlot pg n c s b = some s := runSlot_outer fun x hx => hQ x (by rw [hq]; exact List.mem_append_right _ hx)
          rw [hskip] at hsb
          exact Option.some.inj hsb
        rw [this] at hu
        exact absurd (hnew hu) hk
      · refine stays huo fun x hx m e ek => ?_
        rcases List.mem_append.mp hx with hx | hx
        · exact hdropP x hx m e ek huo
        · exact hG x (by rw [hg]; exact List.mem_append_left _ hx) (by rw [e]; trivial)
  · -- before the graph
    have hsold : s = slotOf old n c := by
      have hskip : runSlot pg n c (slotOf old n c) a = some (slotOf old n c) :=
        runSlot_outer fun x hx => hP x (List.mem_append_left _ hx)
      rw [hskip] at hs
      exact (Option.some.inj hs).symm
    rw [hsold] at hu
    exact stays hu fun x hx m e ek => hdropP x (List.mem_append_left _ hx) m e ek hu

/-- C87 is violated for every type that loses a label while a column uses it: the plan drops the type before it touches any
table, when the column is as it was.  Postgres rejects the statement, whatever becomes of the column later. -/
theorem C87_recreated_type_violated (h : generateMigrationStatements r old new opts = .ok (stmts, r'))
    (hne : (names new.enums).Nodup) (hol : ∀ e ∈ old.enums, e.labels.Nodup) (hnl : ∀ e ∈ new.enums, e.labels.Nodup)
    {o e : Enum} (ho : o ∈ old.enums) (he : e ∈ new.enums) (hname : o.name.getName = e.name.getName)
    {x : String} (hx : x ∈ o.labels) (hx' : x ∉ e.labels) (pg : Pg) {n c : String} {refers : String → Bool}
    (huse : (slotType (slotOf old n c)).any refers = true) :
    TypeMissing pg refers o.name.getName n c (some o.labels) (slotOf old n c) stmts := by
  have hod : (names old.enums).Nodup := (plan_runEnums h hne).1
  obtain ⟨f, hf, _⟩ := runEnums_end h hne hol hnl o.name.getName
  rw [enumIn_some hod ho] at hf
  obtain ⟨d, ⟨dr⟩, ⟨run⟩⟩ := plan_runs h
  obtain ⟨P, Q, hparts, hP, _, _, _, _, hlast⟩ := run.typeParts
  have hnd : ((sortObjs new.enums).map Obj.getName).Nodup := ((sortObjs_perm _).map _).nodup_iff.mpr hne
  have hed : (⟨o, e⟩ : OldNew Enum) ∈ d.enumDiffs.alters := by
    refine (pairDiff_alters dr.henums hnd).mpr ?_
    simp only [Schema.normalize, (sortObjs_perm _).mem_iff]
    exact ⟨ho, he, hname⟩
  obtain ⟨s, hs, hsd⟩ := hlast _ hed ⟨x, hx, hx'⟩
  obtain ⟨a, b, rfl⟩ := List.append_of_mem hs
  have e1 : stmts = (a ++ [s]) ++ (b ++ run.ordered ++ Q) := hparts.trans (by simp)
  rw [e1] at hf
  obtain ⟨g, hg, _⟩ := runEnums_part hf
  refine ⟨a ++ [s], _, slotOf old n c, e1, ?_, runSlot_outer fun y hy => hP y ?_, huse⟩
  · obtain ⟨g', hg', hstep⟩ := runEnums_part hg
    obtain ⟨g2, h2, h3⟩ := Option.bind_eq_some_iff.mp hstep
    cases h3
    rw [hg]
    rw [hsd] at h2
    simp only [Ddl.runEnum, if_true] at h2
    split at h2
    · cases h2
    · cases h2; rfl
  · rcases List.mem_append.mp hy with hy | hy
    · exact List.mem_append_left _ hy
    · rw [List.mem_singleton.mp hy]; exact hs

end

namespace Samples

/-- the old schema: `a.x` has the type `gone`, which goes, `a.y` has the type `grown`, which gets another label, and `b.z`
has the type `shrunk` -/
def oldTypes : Schema := { Schema.empty with
  enums := [enum "gone" ["p"], enum "grown" ["q"], enum "shrunk" ["r", "s"]]
  tables := [table "a" [col "x" "gone", col "y" "grown"], table "b" [col "z" "shrunk"]] }

/-- the new schema: `a.x` has the new type `born`, and `b.z` has it too -/
def newTypes : Schema := { Schema.empty with
  enums := [enum "born" ["t"], enum "grown" ["q", "u"], enum "shrunk" ["s"]]
  tables := [table "a" [col "x" "born", col "y" "grown"], table "b" [col "z" "born"], table "c" [col "w" "shrunk"]] }

end Samples

open Samples

/-- `C87_types_there_partial` is not vacuous: a column that changes from a type that goes to a type that comes.  The plan
changes the type of the column between the two statements about the types. -/
example : NamesUnique newTypes.tables ∧ (names newTypes.enums).Nodup ∧ (∀ e ∈ oldTypes.enums, e.labels.Nodup) ∧
    (∀ e ∈ newTypes.enums, e.labels.Nodup) ∧ ColumnsPlannable pg oldTypes newTypes (pub "a").fq ∧
    slotType (slotOf oldTypes (pub "a").fq "x") = some "gone" ∧ slotType (slotOf newTypes (pub "a").fq "x") = some "born" ∧
    (pub "gone").getName ∈ names oldTypes.enums ∧ (pub "gone").getName ∉ names newTypes.enums ∧
    (pub "born").getName ∈ names newTypes.enums ∧
    ∃ stmts r', generateMigrationStatements Samples.rand oldTypes newTypes opts = .ok (stmts, r') ∧
      (stmts.map fun s : Statement => s.ddl.render).length = 10 :=
  ⟨by unfold NamesUnique; decide +kernel, by decide +kernel, by decide +kernel, by decide +kernel,
    columnsPlannable_of (by decide +kernel) _, by decide +kernel, by decide +kernel, by decide +kernel, by decide +kernel,
    by decide +kernel, exists_plan (P := fun stmts => (stmts.map fun s : Statement => s.ddl.render).length = 10)
      (by decide +kernel)⟩

/-- `C87_recreated_type_violated` is not vacuous: `b.z` has the type `shrunk`, which loses the label `r`.  That the column
gets another type does not help. -/
example : enum "shrunk" ["r", "s"] ∈ oldTypes.enums ∧ enum "shrunk" ["s"] ∈ newTypes.enums ∧
    (slotType (slotOf oldTypes (pub "b").fq "z")).any (fun ty => ty = "shrunk") = true ∧
    slotType (slotOf newTypes (pub "b").fq "z") = some "born" ∧
    ∃ stmts r', generateMigrationStatements Samples.rand oldTypes newTypes opts = .ok (stmts, r') ∧
      TypeMissing pg (fun ty => ty = "shrunk") (pub "shrunk").getName (pub "b").fq "z" (some ["r", "s"])
        (slotOf oldTypes (pub "b").fq "z") stmts := by
  refine ⟨by decide +kernel, by decide +kernel, by decide +kernel, by decide +kernel, ?_⟩
  obtain ⟨stmts, r', h, _⟩ := exists_plan (r := Samples.rand) (old := oldTypes) (new := newTypes) (opts := opts)
    (P := fun stmts => stmts.length = 10) (by decide +kernel)
  exact ⟨stmts, r', h, C87_recreated_type_violated h (by decide +kernel) (by decide +kernel) (by decide +kernel)
    (o := enum "shrunk" ["r", "s"]) (e := enum "shrunk" ["s"]) (by decide +kernel) (by decide +kernel) rfl
    (x := "r") (by decide +kernel) (by decide +kernel) pg (by decide +kernel)⟩

end Verif
