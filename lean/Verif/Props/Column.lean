import Verif.Lemmas.Focus
import Verif.Spec.Column
import Verif.Spec.Hazards
import Verif.Samples.Basic

/-!
# C19, C20: altering columns
-/

namespace Verif

open Spec

theorem runColumn_append (pg : Pg) (t : SQName) (c : String) (s : ColState) (l m : List Statement) :
    runColumn pg t c s (l ++ m) = (runColumn pg t c s l).bind fun s' => runColumn pg t c s' m := by
  induction l generalizing s with
  | nil => rfl
  | cons x l ih =>
    rw [List.cons_append, runColumn, runColumn]
    cases columnStep pg t c s x.ddl with
    | none => rfl
    | some s' => exact ih s'

/-- statements that do not concern the column can be left out -/
theorem runColumn_filter (pg : Pg) (t : SQName) (c : String) {P : Statement → Bool} {l : List Statement}
    (h : ∀ x ∈ l, P x = false → ∀ s, columnStep pg t c s x.ddl = some s) (s : ColState) :
    runColumn pg t c s l = runColumn pg t c s (l.filter P) := by
  induction l generalizing s with
  | nil => rfl
  | cons x l ih =>
    have ih := ih fun y hy => h y (List.mem_cons_of_mem _ hy)
    rw [List.filter_cons]
    cases hp : P x with
    | false =>
      rw [if_neg (by simp), runColumn, h x List.mem_cons_self hp]
      exact ih s
    | true =>
      rw [if_pos rfl, runColumn, runColumn]
      cases columnStep pg t c s x.ddl with
      | none => rfl
      | some s' => exact ih s'

/-- the type or the collation changes -/
def TypeChange (o n : Column) : Prop := o.type ≠ n.type ∨ o.collation ≠ n.collation

/-- the alteration of a column in terms of single actions -/
theorem runColumn_single (pg : Pg) (t : SQName) (c : String) (s : ColState) (a : ColumnAction) (hz : List HazardType) :
    runColumn pg t c s [stmt (.alterTable t (.alterColumn c a)) hz] = alterColumn pg s a := by
  simp [runColumn, columnStep, stmt]

theorem identityKind_of {ty m : String} (h : columnIdentityTypeToModifier ty = .ok m) : identityKind m = ty := by
  unfold columnIdentityTypeToModifier at h
  split at h
  · rename_i e; cases h; rw [e]; rfl
  · split at h
    · rename_i e; cases h; rw [e]; decide
    · cases h

theorem identityOf_def {i : ColumnIdentity} {d : IdentityDef} (h : buildColumnIdentityDefinition i = .ok d) :
    identityOf d = i := by
  obtain ⟨m, h1, h2⟩ := except_bind_ok.mp h
  cases h2
  simp [identityOf, identityKind_of h1]

theorem foldl_mods {o n : ColumnIdentity} {mods : List IdentityMod} (h : ColumnGen.identityMods o n = .ok mods) :
    mods.foldl applyMod o = n ∧ (o ≠ n → mods ≠ []) := by
  unfold ColumnGen.identityMods at h
  obtain ⟨ty, h1, h2⟩ := except_bind_ok.mp h
  have h2 := except_pure_ok.mp h2
  obtain ⟨o1, o2, o3, o4, o5, o6, o7⟩ := o
  obtain ⟨n1, n2, n3, n4, n5, n6, n7⟩ := n
  simp only at h1 h2
  have hty : (o1 = n1 ∧ ty = []) ∨ (o1 ≠ n1 ∧ ∃ m, identityKind m = n1 ∧ ty = [.setGenerated m]) := by
    unfold ColumnGen.identityTypeMods at h1
    split at h1
    · rename_i hne
      obtain ⟨m, k1, k2⟩ := except_bind_ok.mp h1
      exact Or.inr ⟨hne, m, identityKind_of k1, (except_pure_ok.mp k2).symm⟩
    · rename_i hne
      exact Or.inl ⟨not_not.mp hne, (Except.ok.inj h1).symm⟩
  have hstep : ∀ (c : Prop) [Decidable c] (m : IdentityMod) (i : ColumnIdentity),
      (if c then [m] else []).foldl applyMod i = if c then applyMod i m else i := by
    intro c _ m i; split <;> rfl
  constructor
  · subst h2
    simp only [List.foldl_append, hstep]
    have e : ty.foldl applyMod ⟨o1, o2, o3, o4, o5, o6, o7⟩ = ⟨n1, o2, o3, o4, o5, o6, o7⟩ := by
      rcases hty with ⟨rfl, rfl⟩ | ⟨_, m, hm, rfl⟩
      · rfl
      · simp [applyMod, hm]
    rw [e]
    by_cases e2 : o2 = n2 <;> by_cases e3 : o3 = n3 <;> by_cases e4 : o4 = n4 <;> by_cases e5 : o5 = n5 <;>
      by_cases e6 : o6 = n6 <;> by_cases e7 : o7 = n7 <;> simp [applyMod, e2, e3, e4, e5, e6, e7]
  · intro hne hm
    subst h2
    apply hne
    simp only [List.append_eq_nil_iff] at hm
    obtain ⟨⟨⟨⟨⟨⟨a1, a2⟩, a3⟩, a4⟩, a5⟩, a6⟩, a7⟩ := hm
    have hif : ∀ {c : Prop} [Decidable c] {m : IdentityMod}, (if c then [m] else []) = [] → ¬ c := by
      intro c _ m h hc; rw [if_pos hc] at h; cases h
    rcases hty with ⟨rfl, _⟩ | ⟨_, m, _, rfl⟩
    · rw [not_not.mp (hif a2), not_not.mp (hif a3), not_not.mp (hif a4), not_not.mp (hif a5), not_not.mp (hif a6),
        not_not.mp (hif a7)]
    · cases a1

section
variable (pg : Pg) (t : SQName) (o n : Column)

theorem runColumn_ite (c : String) (s : ColState) {q : Prop} [Decidable q] {a : ColumnAction} {hz : List HazardType} :
    runColumn pg t c s (if q then [stmt (.alterTable t (.alterColumn c a)) hz] else []) =
      if q then alterColumn pg s a else some s := by
  split
  · exact runColumn_single ..
  · rfl

/-- the identity statements -/
theorem runColumn_identity {ids : List Statement} (hname : o.name = n.name)
    (h : ColumnGen.buildUpdateIdentityStatements t o n = .ok ids) {s : ColState} (hs : s.identity = o.identity)
    (hok : ∀ i, n.identity = some i → s.nullable = false ∧ s.default = "" ∧ s.generated = false ∧
      identityOk s.type i = true) :
    runColumn pg t n.name s ids = some { s with identity := n.identity } := by
  unfold ColumnGen.buildUpdateIdentityStatements at h
  split at h
  · rename_i e
    cases h
    rw [← e, ← hs]; rfl
  · rename_i hne
    split at h
    · rename_i hn
      cases h
      rw [hname, runColumn_single]
      have : s.identity.isSome = true := by
        rw [hs]
        cases ho : o.identity with
        | none => exact absurd (ho.trans hn.symm) hne
        | some i => rfl
      simp [alterColumn, this, hn]
    · rename_i i hn
      obtain ⟨k1, k2, k3, k4⟩ := hok i hn
      split at h
      · rename_i ho
        obtain ⟨d, h1, h⟩ := except_bind_ok.mp h
        cases h
        rw [runColumn_single]
        rw [ho] at hs
        simp [alterColumn, hs, k1, k2, k3, identityOf_def h1, k4, hn]
      · rename_i j ho
        obtain ⟨d, h1, h⟩ := except_bind_ok.mp h
        cases h
        rw [runColumn_single]
        rw [ho] at hs
        obtain ⟨m1, m2⟩ := foldl_mods h1
        have hji : j ≠ i := fun e => hne (by rw [ho, hn, e])
        simp [alterColumn, hs, m2 hji, m1, k4, hn]

/-- a change of type and collation -/
theorem runColumn_type {s : ColState} (hn : ColumnOk pg n) (htype : s.type = o.type)
    (hgen : s.generated = true → pg.usingOnGenerated = true) {e : String}
    (he : (if s.default = "" then some "" else pg.castDefault s.type n.type s.default) = some e)
    (hid : ∀ i, s.identity = some i → identityOk n.type i = true ∧ rebase o.type n.type i = i) :
    runColumn pg t n.name s [ColumnGen.typeTransformation t n o.type n.type n.collation,
       stmt (.analyze t n.name) [.impactsDatabasePerformance] statementTimeoutAnalyzeColumn] =
      some { s with
        type := n.type
        collation := n.collation
        default := e } := by
  have hct : ∀ coll, changeType pg s n.type coll = some { s with
      type := n.type
      collation := coll
      default := e } := by
    intro coll
    unfold changeType
    rw [if_neg (by
      cases hg : s.generated
      · simp
      · simp [hgen hg]), he]
    simp only
    cases hi : s.identity with
    | none => rfl
    | some i =>
      obtain ⟨h1, h2⟩ := hid i hi
      simp only [htype, h2, h1, if_true]
  unfold ColumnGen.typeTransformation
  split
  · rename_i hm
    have e2 : equalFold n.type "timestamp without time zone" = true := by simp at hm; exact hm.2
    show (columnStep pg t n.name s _).bind _ = _
    simp only [stmt, columnStep, and_self, if_true, alterColumn]
    rw [pg.timestamp _ e2, hct, hn.collatable (pg.timestamp _ e2)]
    rfl
  · show (columnStep pg t n.name s _).bind _ = _
    simp only [stmt, columnStep, and_self, if_true, alterColumn]
    have hcoll : (if n.collation.isEmpty = true then none else some n.collation).getD (pg.typeCollation n.type) = n.collation := by
      split
      · rename_i hc; exact (hn.collation hc).symm
      · rfl
    rw [hcoll, hct]
    rfl

/-- fold-equal type names and collations are equal -/
def CaseDistinct (o n : Column) : Prop :=
  (equalFold o.type n.type = true → o.type = n.type) ∧
  (equalFold o.collation.fq n.collation.fq = true → o.collation = n.collation)

theorem equalFold_refl (x : String) : equalFold x x = true := by simp [equalFold]

/-- the statements for one column do their work -/
theorem runColumn_alter (cd : ColumnDiff) {l : List Statement} (h : ColumnGen.alter t cd = .ok l)
    (hname : cd.old.name = cd.new.name) (ho : ColumnOk pg cd.old) (hn : ColumnOk pg cd.new)
    (hcase : CaseDistinct cd.old cd.new)
    (hgen : cd.old.isGenerated = true →
      cd.new.identity = none ∧ cd.new.default = "" ∧ (TypeChange cd.old cd.new → pg.usingOnGenerated = true))
    (hid : TypeChange cd.old cd.new → ∀ i, cd.new.identity = some i →
      identityOk cd.old.type i = true ∧ rebase cd.old.type cd.new.type i = i)
    (hdef : TypeChange cd.old cd.new → cd.old.default ≠ "" → cd.new.default ≠ "" →
      ∃ e, pg.castDefault cd.old.type cd.new.type cd.old.default = some e ∧
        (cd.old.default = cd.new.default → e = cd.new.default)) :
    runColumn pg t cd.new.name (.of cd.old) l = some { ColState.of cd.new with generated := cd.old.isGenerated } := by
  obtain ⟨_, ids, hids, rfl⟩ := ColumnGen.alter_ok h
  obtain ⟨o, n, oi, ni⟩ := cd
  simp only at hname ho hn hcase hgen hid hdef hids ⊢
  unfold ColumnGen.alterStatements
  simp only [runColumn_append]
  -- SET NOT NULL
  have a1 : runColumn pg t n.name (.of o) (if o.isNullable ≠ n.isNullable ∧ n.isNullable = false then
      [stmt (.alterTable t (.alterColumn n.name .setNotNull))] else []) =
      some { ColState.of o with nullable := o.isNullable && n.isNullable } := by
    rw [runColumn_ite]
    cases h1 : o.isNullable <;> cases h2 : n.isNullable <;> simp [alterColumn, ColState.of, h1]
  rw [a1, Option.bind_some]
  -- DROP DEFAULT
  have a2 : runColumn pg t n.name { ColState.of o with nullable := o.isNullable && n.isNullable }
      (if o.default ≠ "" ∧ n.default = "" then [stmt (.alterTable t (.alterColumn n.name .dropDefault))] else []) =
      some { ColState.of o with
        nullable := o.isNullable && n.isNullable
        default := if n.default = "" then "" else o.default } := by
    rw [runColumn_ite]
    split
    · rename_i hc
      have h1 : o.identity = none := by
        cases hi : o.identity with
        | none => rfl
        | some i => exact absurd (ho.identity i hi).2.1 hc.1
      have h2 : o.isGenerated = false := by
        cases hg : o.isGenerated with
        | false => rfl
        | true => exact absurd (ho.generated hg) hc.1
      simp [alterColumn, ColState.of, h1, h2, hc.2]
    · rename_i hc
      have : (if n.default = "" then "" else o.default) = o.default := by
        split
        · rename_i hd; exact (not_not.mp fun h => hc ⟨h, hd⟩).symm
        · rfl
      simp only [this, ColState.of]
  rw [a2, Option.bind_some]
  -- the identity
  have a3 := runColumn_identity pg t o n hname hids (s := { ColState.of o with
        nullable := o.isNullable && n.isNullable
        default := if n.default = "" then "" else o.default }) rfl (by
    intro i hi
    obtain ⟨k1, k2, k3, k4, _⟩ := hn.identity i hi
    refine ⟨by simp [k1], by simp [k2], ?_, ?_⟩
    · cases hg : o.isGenerated with
      | false => exact hg
      | true => rw [(hgen hg).1] at hi; cases hi
    · by_cases ht : o.type = n.type
      · show identityOk o.type i = true
        rw [ht]; exact k4
      · exact (hid (Or.inl ht) i hi).1)
  rw [a3, Option.bind_some]
  -- DROP NOT NULL
  have a4 : runColumn pg t n.name { ColState.of o with
        nullable := o.isNullable && n.isNullable
        default := if n.default = "" then "" else o.default
        identity := n.identity }
      (if o.isNullable ≠ n.isNullable ∧ n.isNullable = true then [stmt (.alterTable t (.alterColumn n.name .dropNotNull))]
        else []) =
      some { ColState.of o with
        nullable := n.isNullable
        default := if n.default = "" then "" else o.default
        identity := n.identity } := by
    rw [runColumn_ite]
    split
    · rename_i hc
      have h1 : n.identity = none := by
        cases hi : n.identity with
        | none => rfl
        | some i => rw [(hn.identity i hi).1] at hc; cases hc.2
      simp [alterColumn, h1, hc.2]
    · rename_i hc
      have : (o.isNullable && n.isNullable) = n.isNullable := by
        revert hc
        cases o.isNullable <;> cases n.isNullable <;> simp
      simp only [this, ColState.of]
  rw [a4, Option.bind_some]
  -- the type
  obtain ⟨e, he, a5⟩ : ∃ e, (n.default = "" → e = "") ∧ (o.default = n.default → e = n.default) ∧
      runColumn pg t n.name { ColState.of o with
        nullable := n.isNullable
        default := if n.default = "" then "" else o.default
        identity := n.identity }
      (if !equalFold o.type n.type || !equalFold o.collation.fq n.collation.fq then
        [ColumnGen.typeTransformation t n o.type n.type n.collation,
         stmt (.analyze t n.name) [.impactsDatabasePerformance] statementTimeoutAnalyzeColumn] else []) =
      some { ColState.of n with
        generated := o.isGenerated
        default := e } := by
    by_cases hc : TypeChange o n
    · have hcond : (!equalFold o.type n.type || !equalFold o.collation.fq n.collation.fq) = true := by
        rcases hc with h1 | h1
        · have : equalFold o.type n.type = false := by
            cases hf : equalFold o.type n.type with
            | false => rfl
            | true => exact absurd (hcase.1 hf) h1
          simp [this]
        · have : equalFold o.collation.fq n.collation.fq = false := by
            cases hf : equalFold o.collation.fq n.collation.fq with
            | false => rfl
            | true => exact absurd (hcase.2 hf) h1
          simp [this]
      rw [if_pos hcond]
      obtain ⟨e, h1, h2, h3⟩ : ∃ e, (if (if n.default = "" then "" else o.default) = "" then some "" else
          pg.castDefault o.type n.type (if n.default = "" then "" else o.default)) = some e ∧ (n.default = "" → e = "") ∧
          (o.default = n.default → e = n.default) := by
        by_cases hd : n.default = ""
        · exact ⟨"", by simp [hd], fun _ => rfl, fun h => hd.symm⟩
        · by_cases hd' : o.default = ""
          · exact ⟨"", by simp [hd'], fun _ => rfl, fun h => hd'.symm.trans h⟩
          · obtain ⟨e, k1, k2⟩ := hdef hc hd' hd
            exact ⟨e, by simp [hd, hd', k1], fun h => absurd h hd, k2⟩
      refine ⟨e, h2, h3, ?_⟩
      rw [runColumn_type pg t o n hn rfl (fun hg => (hgen hg).2.2 hc) h1 (fun i hi =>
        ⟨(hn.identity i hi).2.2.2.1, (hid hc i hi).2⟩)]
      rfl
    · unfold TypeChange at hc
      rw [not_or, not_not, not_not] at hc
      rw [if_neg (show ¬ (!equalFold o.type n.type || !equalFold o.collation.fq n.collation.fq) = true by
        rw [hc.1, hc.2, equalFold_refl, equalFold_refl]; simp)]
      refine ⟨if n.default = "" then "" else o.default, fun h => if_pos h, fun h => ?_, ?_⟩
      · split
        · rename_i h'; exact h'.symm
        · exact h
      · simp [runColumn, ColState.of, hc.1, hc.2]
  obtain ⟨he', a5⟩ := a5
  rw [a5, Option.bind_some]
  -- SET DEFAULT
  rw [runColumn_ite]
  split
  · rename_i hc
    have h1 : n.identity = none := by
      cases hi : n.identity with
      | none => rfl
      | some i => exact absurd (hn.identity i hi).2.1 hc.2
    have h2 : o.isGenerated = false := by
      cases hg : o.isGenerated with
      | false => rfl
      | true => exact absurd (hgen hg).2.1 hc.2
    simp [alterColumn, ColState.of, h1, h2]
  · rename_i hc
    have : e = n.default := by
      by_cases hd : n.default = ""
      · rw [he hd, hd]
      · exact he' (not_not.mp fun h => hc ⟨h, hd⟩)
    simp [ColState.of, this]

end

/-! ### plans -/

section
variable {rand r' : Rand} {old new : Schema} {opts : PlanOptions} {stmts : List Statement}

/-- the column of an altered table and the statements of the plan for it -/
theorem plan_column_raw (h : generateMigrationStatements rand old new opts = .ok (stmts, r'))
    (hn : (new.tables.map Obj.getName).Nodup) {o t : Table} (ho : o ∈ old.tables) (ht : t ∈ new.tables)
    (hname : o.name = t.name) (hpart : o.isPartitioned = t.isPartitioned) (hp : o.parentTable = none)
    (hp' : t.parentTable = none) (hcn : (t.columns.map Obj.getName).Nodup) {oc c : Column} (hoc : oc ∈ o.columns)
    (hc : c ∈ t.columns) (hcname : oc.name = c.name) :
    (∃ cd : ColumnDiff, cd.old = oc ∧ cd.new = c ∧ ∃ l, ColumnGen.alter t.name cd = .ok l ∧
      stmts.filter (fun s => s.ddl.columnBody t.name c.name) = l) ∧
    ∀ s ∈ stmts, s.ddl.columnBody t.name c.name = false → ∀ pg st, columnStep pg t.name c.name st s.ddl = some st := by
  obtain ⟨d, ⟨dr⟩, ⟨run⟩⟩ := plan_runs h
  have hn' := normalize_tables_nodup hn
  have ht' := mem_normalize_tables_of ht
  have ho' := mem_normalize_tables_of ho
  refine ⟨plan_column dr run hn' (t := normalizeTable t) (o := normalizeTable o) ht' ho' hname hpart hp hp' hcn hc hoc hcname,
    ?_⟩
  intro s hs hb pg st
  obtain ⟨k1, k2, k3⟩ := plan_column_stays dr run hn' (t := normalizeTable t) (o := normalizeTable o) ht' ho' hname hpart
    (hp.trans hp'.symm) s hs
  obtain ⟨k4, k5⟩ := k3 hcn c hc oc hoc hcname
  have k1 : ∀ cols p, s.ddl ≠ .createTable t.name cols p := k1
  have k2 : s.ddl ≠ .dropTable t.name := k2
  have k4 : ∀ def_ : ColumnDef, def_.name = c.name → s.ddl ≠ .alterTable t.name (.addColumn def_) := k4
  have k5 : s.ddl ≠ .alterTable t.name (.dropColumn c.name) := k5
  unfold columnStep
  split
  · rename_i t' c' a e
    rw [if_neg]
    rintro ⟨rfl, rfl⟩
    rw [e] at hb; simp [Ddl.columnBody] at hb
  · rename_i t' d' e
    rw [if_neg]
    rintro ⟨rfl, e2⟩
    exact k4 d' e2 e
  · rename_i t' c' e
    rw [if_neg]
    rintro ⟨rfl, rfl⟩
    exact k5 e
  · rename_i t' cols p e
    rw [if_neg]
    rintro rfl
    exact k1 _ _ e
  · rename_i t' e
    rw [if_neg]
    rintro rfl
    exact k2 e
  · rfl

/-- C19: in every plan, the statements for a column that an altered table keeps are all accepted and lead to the new
type, collation, nullability, default and identity.

The full property asks this of every pair of columns; it fails in the cases excluded here:
* types or collations that differ in case only (`hcase`; `C19_case_violated`),
* a generated column that becomes an ordinary one (`hgen`; `C19_generated_violated`),
* a change of type together with an identity whose bounds the old type does not allow or the change moves
  (`hid`; `C19_identity_violated`),
* a change of type where the old default cannot be cast to the new type (`hdef`; `C19_default_violated`).

Columns of partitions are not covered: their changes come from the parent. -/
theorem C19_column_alteration_partial (h : generateMigrationStatements rand old new opts = .ok (stmts, r'))
    (hn : (new.tables.map Obj.getName).Nodup) {o t : Table} (ho : o ∈ old.tables) (ht : t ∈ new.tables)
    (hname : o.name = t.name) (hpart : o.isPartitioned = t.isPartitioned) (hp : o.parentTable = none)
    (hp' : t.parentTable = none) (hcn : (t.columns.map Obj.getName).Nodup) {oc c : Column} (hoc : oc ∈ o.columns)
    (hc : c ∈ t.columns) (hcname : oc.name = c.name)
    (pg : Pg) (hok : ColumnOk pg oc) (hok' : ColumnOk pg c) (hcase : CaseDistinct oc c)
    (hgen : oc.isGenerated = true → c.identity = none ∧ c.default = "" ∧ (TypeChange oc c → pg.usingOnGenerated = true))
    (hid : TypeChange oc c → ∀ i, c.identity = some i →
      identityOk oc.type i = true ∧ rebase oc.type c.type i = i)
    (hdef : TypeChange oc c → oc.default ≠ "" → c.default ≠ "" →
      ∃ e, pg.castDefault oc.type c.type oc.default = some e ∧ (oc.default = c.default → e = c.default)) :
    runColumn pg t.name c.name (.of oc) stmts = some { ColState.of c with generated := oc.isGenerated } := by
  obtain ⟨⟨cd, rfl, rfl, l, hl, hf⟩, hskip⟩ := plan_column_raw h hn ho ht hname hpart hp hp' hcn hoc hc hcname
  rw [runColumn_filter pg t.name cd.new.name (P := fun s => s.ddl.columnBody t.name cd.new.name)
    (fun x hx hb s => hskip x hx hb pg s), hf]
  exact runColumn_alter pg t.name cd hl hcname hok hok' hcase hgen hid hdef

/-- C20: in every plan, a statement that changes the type or the collation of a column carries
ACQUIRES_ACCESS_EXCLUSIVE_LOCK, and every ANALYZE carries IMPACTS_DATABASE_PERFORMANCE. -/
theorem C20_type_statements_flagged (h : generateMigrationStatements rand old new opts = .ok (stmts, r')) :
    ∀ s ∈ stmts,
      (∀ t c ty coll, s.ddl = .alterTable t (.alterColumn c (.setType ty coll)) ∨
        s.ddl = .alterTable t (.alterColumn c (.setTypeFromMillis ty)) → HazardType.acquiresAccessExclusiveLock ∈ s.hazardTypes) ∧
      (∀ t c, s.ddl = .analyze t c → HazardType.impactsDatabasePerformance ∈ s.hazardTypes) := by
  obtain ⟨d, ⟨dr⟩, ⟨run⟩⟩ := plan_runs h
  intro s hs
  have hsh := run.shape hs
  constructor
  · intro t c ty coll he
    cases hsh with
    | graph s h =>
      cases h with
      | newTable x h ccs hc s hs => cases hs <;> simp [stmt] at he
      | alterTable td h s hs =>
        cases hs with
        | column cd h s hs =>
          cases hs <;> first
            | exact List.mem_cons_self
            | simp [stmt] at he
        | _ => simp [stmt, validateConstraintStatement] at he
      | _ => simp [stmt, validateConstraintStatement] at he
    | _ => simp [stmt] at he
  · intro t c he
    cases hsh with
    | graph s h =>
      cases h with
      | newTable x h ccs hc s hs => cases hs <;> simp [stmt] at he
      | alterTable td h s hs =>
        cases hs with
        | column cd h s hs =>
          cases hs <;> first
            | exact List.mem_cons_self
            | simp [stmt] at he
        | _ => simp [stmt, validateConstraintStatement] at he
      | _ => simp [stmt, validateConstraintStatement] at he
    | _ => simp [stmt] at he

/-- C20: a plan that changes the type or the collation of a column of an altered table contains a statement that
does it and carries ACQUIRES_ACCESS_EXCLUSIVE_LOCK, followed by an ANALYZE of the column that carries
IMPACTS_DATABASE_PERFORMANCE.

The full property asks this of every change; changes that only affect the case of a name are excluded by `hcase`
(`C20_case_violated`), and columns of partitions (altered through the parent) by `hp`. -/
theorem C20_type_change_flagged_partial (h : generateMigrationStatements rand old new opts = .ok (stmts, r'))
    (hn : (new.tables.map Obj.getName).Nodup) {o t : Table} (ho : o ∈ old.tables) (ht : t ∈ new.tables)
    (hname : o.name = t.name) (hpart : o.isPartitioned = t.isPartitioned) (hp : o.parentTable = none)
    (hp' : t.parentTable = none) (hcn : (t.columns.map Obj.getName).Nodup) {oc c : Column} (hoc : oc ∈ o.columns)
    (hc : c ∈ t.columns) (hcname : oc.name = c.name) (hcase : CaseDistinct oc c) (hchange : TypeChange oc c) :
    ∃ change analyze : Statement, [change, analyze].Sublist stmts ∧
      (change.ddl = .alterTable t.name (.alterColumn c.name (.setTypeFromMillis c.type)) ∨
       change.ddl = .alterTable t.name (.alterColumn c.name
        (.setType c.type (if c.collation.isEmpty then none else some c.collation)))) ∧
      HazardType.acquiresAccessExclusiveLock ∈ change.hazardTypes ∧
      analyze.ddl = .analyze t.name c.name ∧ HazardType.impactsDatabasePerformance ∈ analyze.hazardTypes := by
  obtain ⟨⟨cd, rfl, rfl, l, hl, hf⟩, _⟩ := plan_column_raw h hn ho ht hname hpart hp hp' hcn hoc hc hcname
  obtain ⟨_, ids, _, rfl⟩ := ColumnGen.alter_ok hl
  have hcond : (!equalFold cd.old.type cd.new.type || !equalFold cd.old.collation.fq cd.new.collation.fq) = true := by
    rcases hchange with h1 | h1
    · have : equalFold cd.old.type cd.new.type = false := by
        cases hf : equalFold cd.old.type cd.new.type with
        | false => rfl
        | true => exact absurd (hcase.1 hf) h1
      simp [this]
    · have : equalFold cd.old.collation.fq cd.new.collation.fq = false := by
        cases hf : equalFold cd.old.collation.fq cd.new.collation.fq with
        | false => rfl
        | true => exact absurd (hcase.2 hf) h1
      simp [this]
  have hsub := List.filter_sublist (p := fun s : Statement => s.ddl.columnBody t.name cd.new.name) (l := stmts)
  rw [hf] at hsub
  refine ⟨ColumnGen.typeTransformation t.name cd.new cd.old.type cd.new.type cd.new.collation,
    stmt (.analyze t.name cd.new.name) [.impactsDatabasePerformance] statementTimeoutAnalyzeColumn, ?_, ?_, ?_, rfl,
    List.mem_cons_self⟩
  · refine List.Sublist.trans ?_ hsub
    unfold ColumnGen.alterStatements
    rw [if_pos hcond]
    exact (List.sublist_append_right _ _).trans (List.sublist_append_left _ _)
  · unfold ColumnGen.typeTransformation
    split
    · exact Or.inl rfl
    · exact Or.inr rfl
  · unfold ColumnGen.typeTransformation
    split <;> exact List.mem_cons_self

end

/-! ### samples -/

namespace Samples

/-- a Postgres in which text is collatable and every default can be cast without change -/
def pg : Pg where
  typeCollation t := if t = "text" then ⟨"pg_catalog", "\"default\""⟩ else ⟨"", ""⟩
  castDefault _ _ e := some e
  usingOnGenerated := true
  timestamp := by
    intro t ht
    by_cases e : t = "text"
    · subst e; revert ht; decide
    · rw [if_neg e]

/-- a Postgres in which no default can be cast -/
def pgNoCast : Pg := { pg with castDefault := fun _ _ _ => none }

/-- an identity with bounds in the range of every type -/
def smallIdentity : ColumnIdentity := ⟨"a", 1, 100, 1, 1, 1, false⟩

/-- an identity as Postgres makes it for a bigint column -/
def bigIdentity : ColumnIdentity := ⟨"a", 1, 9223372036854775807, 1, 1, 1, false⟩

/-- an identity as Postgres makes it for an integer column -/
def intIdentity : ColumnIdentity := ⟨"a", 1, 2147483647, 1, 1, 1, false⟩

/-- one table with one column -/
def one (c : Column) : Schema := { Schema.empty with tables := [table "t" [c]] }

end Samples

open Samples

instance (pg : Pg) (c : Column) : Decidable (ColumnOk pg c) :=
  decidable_of_iff
    ((c.collation.isEmpty = true → c.collation = pg.typeCollation c.type) ∧
     (pg.typeCollation c.type = ⟨"", ""⟩ → c.collation = ⟨"", ""⟩) ∧
     c.identity.all (fun i => decide (c.isNullable = false ∧ c.default = "" ∧ c.isGenerated = false ∧
        identityOk c.type i = true ∧ (i.type = "a" ∨ i.type = "d"))) = true ∧
     (c.isGenerated = true → c.default = "")) (by
    constructor
    · rintro ⟨h1, h2, h3, h4⟩
      refine ⟨h1, h2, ?_, h4⟩
      intro i hi
      rw [hi] at h3; exact of_decide_eq_true h3
    · rintro ⟨h1, h2, h3, h4⟩
      refine ⟨h1, h2, ?_, h4⟩
      cases hi : c.identity with
      | none => rfl
      | some i => exact decide_eq_true (h3 i hi))

/-- the plan from a table with the column `oc` to one with `c` does not do what it should -/
def ColumnPlanFails (pg : Pg) (oc c : Column) : Prop :=
  ColumnOk pg oc ∧ ColumnOk pg c ∧ oc.name = c.name ∧ ∃ stmts r',
    generateMigrationStatements rand (one oc) (one c) opts = .ok (stmts, r') ∧
    runColumn pg (pub "t") c.name (.of oc) stmts ≠ some { ColState.of c with generated := oc.isGenerated }

/-- the full C19 fails: types that differ in case only are taken to be equal -/
theorem C19_case_violated : ColumnPlanFails pg (col "c" "\"Foo\"") (col "c" "\"foo\"") :=
  ⟨by decide +kernel, by decide +kernel, rfl, exists_plan (by decide +kernel)⟩

/-- the full C19 fails: a generated column cannot be given a default -/
theorem C19_generated_violated : ColumnPlanFails pg
    { col "c" "integer" with
      isGenerated := true
      generationExpression := "1 + 1" }
    { col "c" "integer" with default := "0" } :=
  ⟨by decide +kernel, by decide +kernel, rfl, exists_plan (by decide +kernel)⟩

/-- the full C19 fails: the bounds of a bigint identity are set while the column is still an integer -/
theorem C19_identity_violated : ColumnPlanFails pg
    { col "c" "integer" with
      isNullable := false
      identity := some intIdentity }
    { col "c" "bigint" with
      isNullable := false
      identity := some bigIdentity } :=
  ⟨by decide +kernel, by decide +kernel, rfl, exists_plan (by decide +kernel)⟩

/-- the full C19 fails: the type is changed while the old default, which cannot be cast, is still there -/
theorem C19_default_violated : ColumnPlanFails pgNoCast
    { col "c" "boolean" with default := "true" } { col "c" "integer" with default := "0" } :=
  ⟨by decide +kernel, by decide +kernel, rfl, exists_plan (by decide +kernel)⟩

/-- the full C20 fails: a change between types whose names differ in case only is not in the plan at all -/
theorem C20_case_violated : (col "c" "\"Foo\"").type ≠ (col "c" "\"foo\"").type ∧ ∃ stmts r',
    generateMigrationStatements rand (one (col "c" "\"Foo\"")) (one (col "c" "\"foo\"")) opts = .ok (stmts, r') ∧
    stmts = [] :=
  ⟨by decide, exists_plan (by decide +kernel)⟩

/-! ### non-vacuity -/

/-- everything changes at once: a nullable text column with a default becomes a smallint identity column … -/
example :
    let oc : Column := { col "c" "text" with
      collation := ⟨"pg_catalog", "\"default\""⟩
      default := "'1'::text" }
    let mid : Column := { col "c" "smallint" with isNullable := false }
    let c : Column := { col "c" "smallint" with
      isNullable := false
      identity := some smallIdentity }
    ColumnOk pg oc ∧ ColumnOk pg mid ∧ ColumnOk pg c ∧ TypeChange oc mid ∧
    (∃ stmts r', generateMigrationStatements rand (one oc) (one mid) opts = .ok (stmts, r') ∧
      stmts.length = 7 ∧ runColumn pg (pub "t") "c" (.of oc) stmts = some (.of mid)) ∧
    (∃ stmts r', generateMigrationStatements rand (one mid) (one c) opts = .ok (stmts, r') ∧
      runColumn pg (pub "t") "c" (.of mid) stmts = some (.of c)) := by
  refine ⟨by decide +kernel, by decide +kernel, by decide +kernel, Or.inl (by decide), exists_plan (by decide +kernel),
    exists_plan (by decide +kernel)⟩

/-- an identity column changes its type and its identity, as `hid` allows -/
example :
    let oc : Column := { col "c" "integer" with
      isNullable := false
      identity := some smallIdentity }
    let c : Column := { col "c" "bigint" with
      isNullable := false
      identity := some { smallIdentity with
        type := "d"
        cycle := true } }
    ColumnOk pg oc ∧ ColumnOk pg c ∧ identityOk oc.type smallIdentity = true ∧
    rebase oc.type c.type smallIdentity = smallIdentity ∧
    ∃ stmts r', generateMigrationStatements rand (one oc) (one c) opts = .ok (stmts, r') ∧
      stmts.length = 3 ∧ runColumn pg (pub "t") "c" (.of oc) stmts = some (.of c) := by
  refine ⟨by decide +kernel, by decide +kernel, by decide, by decide, exists_plan (by decide +kernel)⟩

end Verif
