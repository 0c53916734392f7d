import Verif.Spec.PartCheck
import Verif.Props.PartColumns
import Verif.Props.Check

/-!
# The check constraints of partitions (C97)
-/

namespace Verif

open Spec

section
variable {S D : Type} [Obj S] {old new : List S} {buildDiff : S → S → Nat → Nat → Except Err (D × Bool)} {r : ListDiff S D}

/-- a diff of lists is empty only if both lists are -/
theorem diffLists_isEmpty (h : diffLists old new buildDiff = .ok r) (he : r.isEmpty = true) : old = [] ∧ new = [] := by
  obtain ⟨c1, c2, _, _, c5⟩ := C08_classification h
  have hf : ∀ p ∈ new.zipIdx, ∀ e, verdict buildDiff old new p.1 p.2 ≠ .fail e := by
    rcases diffLists_spec buildDiff old new with ⟨_, h2⟩ | ⟨_, e, h2, _⟩ | ⟨_, h2, _⟩
    · rw [h2] at h; cases h
    · rw [h2] at h; cases h
    · exact h2
  unfold ListDiff.isEmpty at he
  simp only [Bool.and_eq_true, decide_eq_true_eq, List.length_eq_zero_iff] at he
  obtain ⟨⟨e1, e2⟩, e3⟩ := he
  have hnew : new = [] := by
    cases hz : new.zipIdx with
    | nil => exact List.zipIdx_eq_nil_iff.mp hz
    | cons p l =>
      exfalso
      rw [e1, hz] at c1
      rw [e2, hz] at c2
      have hp := hf p (by rw [hz]; exact List.mem_cons_self)
      cases hv : verdict buildDiff old new p.1 p.2 with
      | fail e => exact hp e hv
      | _ =>
        rw [List.filterMap_cons] at c1 c2
        simp only [hv] at c1 c2
        first | cases c1 | cases c2
  subst hnew
  refine ⟨?_, rfl⟩
  cases old with
  | nil => rfl
  | cons o l =>
    have := (c5 o).mpr ⟨List.mem_cons_self, Or.inl (by simp)⟩
    rw [e3] at this
    cases this

end

section
variable {r r' : Rand} {old new : Schema} {opts : PlanOptions} {stmts : List Statement} {d : SchemaDiff}

/-- a table that stays is altered -/
theorem check_kept (dr : DiffRun opts old new d) (run : PlanRun opts d r r' stmts) (hr : FromReader r)
    (hn : (new.tables.map Obj.getName).Nodup) {o t : Table} (ho : o ∈ old.tables) (ht : t ∈ new.tables) {n : String}
    (eo : o.name.fq = n) (e : t.name.fq = n) (hk : o.partitionKeyDef = t.partitionKeyDef) (hp : o.parentTable = t.parentTable) :
    ∃ td, (∃ i j, buildTableDiff o t j i = .ok (td, false)) ∧ orderIf opts td ∈ d.tableDiffs.alters ∧
      ∃ l, yields ((SchemaGen.tableGen d).alter (orderIf opts td)) l ∧
        stmts.filter (fun s => s.ddl.aroundCheck n (freeNames old new n)) =
          l.filter (fun s => s.ddl.aroundCheck n (freeNames old new n)) ∧
        stmts.filter (fun s : Statement => s.ddl.dropsTable n) = [] := by
  have hno := diffLists_old_nodup dr.htd0
  have uo : ∀ {x : Table}, x ∈ old.tables → x.name.fq = n → x = o := fun hx ex =>
    List.inj_on_of_nodup_map hno hx ho (ex.trans eo.symm)
  have un : ∀ {x : Table}, x ∈ new.tables → x.name.fq = n → x = t := fun hx ex =>
    List.inj_on_of_nodup_map hn hx ht (ex.trans e.symm)
  cases check_fate dr run hr hn n with
  | absent ho' _ _ _ => exact absurd (List.mem_map.mpr ⟨o, ho, eo⟩) ho'
  | dropped _ _ _ hn' _ _ => exact absurd (List.mem_map.mpr ⟨t, ht, e⟩) hn'
  | added _ _ _ ho' _ _ _ _ _ => exact absurd (List.mem_map.mpr ⟨o, ho, eo⟩) ho'
  | recreated o' t' ho' ht' eo' e' hb _ _ _ _ _ _ =>
    obtain rfl := uo ho' eo'
    obtain rfl := un ht' e'
    obtain ⟨i, j, td, hb⟩ := hb
    unfold buildTableDiff at hb
    rw [if_neg (by simp [Table.isPartitioned, hk]), if_neg (by simp [hk]), if_neg (by simp [hp])] at hb
    simp only [except_bind_ok, except_pure_ok] at hb
    obtain ⟨_, _, _, _, _, _, _, _, _, _, hb⟩ := hb
    cases hb
  | altered o' t' ho' ht' eo' e' td hb hm l hl h hd =>
    obtain rfl := uo ho' eo'
    obtain rfl := un ht' e'
    exact ⟨td, hb, hm, l, hl, h, hd⟩

theorem alterPartitionColumn_mem {t : SQName} {m : GoMap String ColumnDiff} {cd : ColumnDiff} {s : Statement}
    (hs : s ∈ TableGen.alterPartitionColumn t m cd) :
    ∃ c, s.ddl = .alterTable t (.alterColumn c .setNotNull) ∨ s.ddl = .alterTable t (.alterColumn c .dropNotNull) := by
  unfold TableGen.alterPartitionColumn at hs
  split at hs
  · cases hs
  split at hs
  · cases hs
  split at hs <;> rw [List.mem_singleton.mp hs]
  · exact ⟨_, Or.inr rfl⟩
  · exact ⟨_, Or.inl rfl⟩

/-- the statements of an altered partition are about NOT NULL, replica identities and row level security -/
theorem part_silent {g : TableGen} {td : TableDiff} {l : List Statement} (hl : yields (g.alter td) l)
    (hp : td.new.isPartition = true) {s : Statement} (hs : s ∈ l) :
    (∃ c, s.ddl = .alterTable td.new.name (.alterColumn c .setNotNull) ∨ s.ddl = .alterTable td.new.name (.alterColumn c .dropNotNull)) ∨
    (∃ ty, s.ddl = .alterTable td.new.name (.replicaIdentity ty)) ∨
    s.ddl = .alterTable td.new.name .disableRLS ∨ s.ddl = .alterTable td.new.name .noForceRLS ∨
    s.ddl = .alterTable td.new.name .enableRLS ∨ s.ddl = .alterTable td.new.name .forceRLS := by
  obtain ⟨run⟩ := table_run hl
  rw [run.hstmts] at hs
  simp only [List.mem_append] at hs
  have single : ∀ {c : Bool} {x : Statement}, s ∈ (if c then [x] else []) → s = x := by
    intro c x hx; cases c <;> simp_all
  rcases hs with ((((hs | hs) | hs) | hs) | hs) | hs
  · rw [single hs]; exact Or.inr (Or.inr (Or.inl rfl))
  · rw [single hs]; exact Or.inr (Or.inr (Or.inr (Or.inl rfl)))
  · have hb := run.hpartition hp
    unfold TableGen.alterPartition at hb
    split at hb
    · cases hb
    split at hb
    · cases hb
    split at hb
    · cases hb
    split at hb
    · cases hb
    rw [← Except.ok.inj hb] at hs
    obtain ⟨cd, _, hs⟩ := List.mem_flatMap.mp hs
    exact Or.inl (alterPartitionColumn_mem hs)
  · rcases run.hreplica with ⟨_, e⟩ | ⟨_, s', h1, e⟩
    · rw [e] at hs; cases hs
    · rw [e] at hs
      obtain ⟨ty, _, e⟩ := alterReplicaIdentityStatement_ok h1
      rw [List.mem_singleton.mp hs, e]
      exact Or.inr (Or.inl ⟨_, rfl⟩)
  · rw [single hs]; exact Or.inr (Or.inr (Or.inr (Or.inr (Or.inl rfl))))
  · rw [single hs]; exact Or.inr (Or.inr (Or.inr (Or.inr (Or.inr rfl))))

/-- an altered partition has no check constraints, policies and privileges of its own -/
theorem part_bare {g : TableGen} {td : TableDiff} {o t : Table} {i j : Nat} (hb : buildTableDiff o t j i = .ok (td, false))
    {l : List Statement} (hl : yields (g.alter (orderIf opts td)) l) (hp : t.isPartition = true) :
    (o.checkConstraints = [] ∧ t.checkConstraints = []) ∧ (o.policies = [] ∧ t.policies = []) ∧
      o.privileges = [] ∧ t.privileges = [] := by
  obtain ⟨n1, n2, _, _, _, _, b7, ⟨_, _, b8⟩, b9⟩ := buildTableDiff_ok hb
  obtain ⟨run⟩ := table_run hl
  have h := run.hpartition (by rw [orderIf_new, n2]; exact hp)
  unfold TableGen.alterPartition at h
  split at h
  · cases h
  split at h
  · cases h
  split at h
  · cases h
  split at h
  · cases h
  rename_i h1 h2 h3 h4
  rw [orderIf_checks, Bool.not_eq_true, Bool.not_eq_false'] at h2
  rw [orderIf_policies, Bool.not_eq_true, Bool.not_eq_false'] at h3
  rw [orderIf_privileges, Bool.not_eq_true, Bool.not_eq_false'] at h4
  exact ⟨diffLists_isEmpty b7 h2, diffLists_isEmpty b8 h3, diffLists_isEmpty b9 h4⟩

/-- the constraint of a table, on its partition -/
def inheritedCheck (x : Option CheckState) : Option PartCheckState := x.map fun c => ⟨c, true⟩

theorem partCheckOf_bare {s : Schema} {p n k : String} (h : checkOf s n k = none) :
    partCheckOf s p n k = inheritedCheck (checkOf s p k) := by
  unfold partCheckOf inheritedCheck
  rw [h]
  cases checkOf s p k <;> rfl

variable {cols : String → List String}

theorem partCheckStep_follows {p n k : String} {s : Statement} (hc : ∀ t c q, s.ddl = .createTable t c q → t.fq ≠ p ∧ t.fq ≠ n)
    (hd : ∀ t, s.ddl = .dropTable t → t.fq ≠ p ∧ t.fq ≠ n)
    (ha : ∀ t q f, s.ddl = .alterTable t (.attachPartition q f) → q.fq ≠ n)
    (hi : ∀ t e ni nv, s.ddl = .alterTable t (.addCheck k e ni nv) → t.fq = p → ni = false)
    (hn : ∀ t a, s.ddl = .alterTable t a → t.fq = n → ∀ y, ownCheck k y a = some y)
    {x x' : Option CheckState} (h : checkStep cols p k x s.ddl = some x') :
    partCheckStep cols p n k (x, inheritedCheck x) s.ddl = some (x', inheritedCheck x') := by
  cases e : s.ddl with
  | createTable t c q =>
    obtain ⟨h1, h2⟩ := hc t c q e
    rw [e] at h
    simp only [checkStep, if_neg h1, Option.some.injEq] at h
    subst h
    exact if_neg (by rintro (h | h); exacts [h1 h, h2 h])
  | dropTable t =>
    obtain ⟨h1, h2⟩ := hd t e
    rw [e] at h
    simp only [checkStep, if_neg h1, Option.some.injEq] at h
    subst h
    exact if_neg (by rintro (h | h); exacts [h1 h, h2 h])
  | alterTable t a =>
    rw [e] at h
    unfold checkStep at h
    unfold partCheckStep
    dsimp only at h ⊢
    by_cases e1 : t.fq = p
    · rw [if_pos e1] at h ⊢
      cases a with
      | attachPartition q f =>
        cases h
        exact if_neg (ha t q f e)
      | addCheck name ex ni nv =>
        unfold checkAction cascadeCheck
        unfold checkAction at h
        dsimp only at h ⊢
        by_cases hk : name = k
        · subst hk
          have hni := hi t ex ni nv e e1
          subst hni
          rw [if_pos rfl] at h ⊢
          cases x with
          | none => cases h; rw [if_pos rfl]; rfl
          | some c => cases h
        · rw [if_neg hk] at h ⊢
          cases h
          rw [if_neg hk]
          rfl
      | validateConstraint q =>
        unfold checkAction cascadeCheck
        unfold checkAction at h
        dsimp only at h ⊢
        by_cases hk : readsAs q k = true
        · rw [if_pos hk] at h ⊢
          cases x with
          | none => cases h
          | some c => cases h; rw [if_pos hk]; rfl
        · rw [if_neg hk] at h ⊢
          cases h
          rw [if_neg hk]
          rfl
      | dropConstraint q =>
        unfold checkAction cascadeCheck
        unfold checkAction at h
        dsimp only at h ⊢
        by_cases hk : readsAs q k = true
        · rw [if_pos hk] at h ⊢
          cases x with
          | none => cases h
          | some c => cases h; rw [if_pos hk]; rfl
        · rw [if_neg hk] at h ⊢
          cases h
          rw [if_neg hk]
          rfl
      | dropColumn c =>
        unfold checkAction cascadeCheck
        unfold checkAction at h
        dsimp only at h ⊢
        cases x with
        | none => cases h; rfl
        | some z =>
          cases h
          by_cases hc : c ∈ cols z.expression
          · simp [inheritedCheck, hc]
          · simp [inheritedCheck, hc]
      | _ => cases h; rfl
    · rw [if_neg e1] at h ⊢
      cases h
      by_cases e2 : t.fq = n
      · rw [if_pos e2, hn t a e e2]; rfl
      · rw [if_neg e2]
  | _ => rw [e] at h; cases h; rfl

theorem runPartCheck_follows {p n k : String} {l : List Statement}
    (h : ∀ s ∈ l, ∀ x x', checkStep cols p k x s.ddl = some x' →
      partCheckStep cols p n k (x, inheritedCheck x) s.ddl = some (x', inheritedCheck x')) :
    ∀ {x x' : Option CheckState}, runCheck cols p k x l = some x' →
      runPartCheck cols p n k (x, inheritedCheck x) l = some (x', inheritedCheck x') := by
  induction l with
  | nil => intro x x' e; cases e; rfl
  | cons s l ih =>
    intro x x' e
    obtain ⟨z, h1, h2⟩ := Option.bind_eq_some_iff.mp (show (checkStep cols p k x s.ddl).bind _ = _ from e)
    show (partCheckStep cols p n k (x, inheritedCheck x) s.ddl).bind _ = _
    rw [h s List.mem_cons_self x z h1]
    exact ih (fun s hs => h s (List.mem_cons_of_mem _ hs)) h2

/-- a table that is in the old schema is not attached -/
theorem kept_not_attached (dr : DiffRun opts old new d) (run : PlanRun opts d r r' stmts)
    (hn : (new.tables.map Obj.getName).Nodup) {t : Table} (ht : t ∈ new.tables) {td : TableDiff} (hm : td ∈ d.tableDiffs.alters)
    (e : td.new = t) {s : Statement} (hs : s ∈ stmts) {t' q : SQName} {f : String}
    (es : s.ddl = .alterTable t' (.attachPartition q f)) : q.fq ≠ t.name.fq := by
  intro eq
  obtain ⟨a, b, es', ha, hb⟩ := run.around
  rw [es', List.mem_append, List.mem_append] at hs
  rcases hs with (hs | hs) | hs
  · have := ha s hs; rw [es] at this; cases this
  · obtain ⟨u, hu⟩ := run.graph_shape hs
    cases hu with
    | attachPartition x hx p' hp' hf =>
      cases es
      obtain ⟨x0, _, rfl, hx0⟩ := dr.added_mem hx
      rw [packIf_name] at eq
      have hx' : x0 = t := List.inj_on_of_nodup_map hn hx0 ht eq
      refine dr.added_ne_altered hn hx hm ?_
      rw [packIf_name, e, hx']
    | newTable x h ccs hc s hs => cases hs <;> cases es
    | alterTable td h s hs =>
      cases hs with
      | column cd h s hs => cases hs <;> cases es
      | _ => cases es
    | _ => cases es
  · have := hb s hs; rw [es] at this; cases this

set_option maxHeartbeats 1000000 in
theorem part_follows (dr : DiffRun opts old new d) (run : PlanRun opts d r r' stmts) (hr : FromReader r)
    (hn : NamesUnique new.tables) {op tp o t : Table} (hs : PartStays old new op tp o t)
    (hroot : op.parentTable = tp.parentTable) {k : String} (hk' : Apart old new t.name.fq k)
    (hi : ∀ c ∈ tp.checkConstraints, c.isInheritable = true) :
    (o.checkConstraints = [] ∧ t.checkConstraints = []) ∧
    ∀ s ∈ stmts, ∀ x x', checkStep cols tp.name.fq k x s.ddl = some x' →
      partCheckStep cols tp.name.fq t.name.fq k (x, inheritedCheck x) s.ddl = some (x', inheritedCheck x') := by
  obtain ⟨tdp, ⟨ip, jp, hbp⟩, hmp, lp, hlp, hfp, hdp⟩ := check_kept dr run hr hn hs.oldParent hs.newParent
    (n := tp.name.fq) (by rw [hs.parentName]) rfl hs.parentKey hroot
  obtain ⟨tdn, ⟨i, j, hbn⟩, hmn, ln, hln, hfn, hdn⟩ := check_kept dr run hr hn hs.oldPart hs.newPart
    (n := t.name.fq) (by rw [hs.partName]) rfl hs.partKey hs.oldAttached
  have hpart : t.isPartition = true := by simp [Table.isPartition, hs.attached]
  obtain ⟨⟨co, ct⟩, _, _⟩ := part_bare hbn hln hpart
  obtain ⟨_, p2, _, _, _, _, p7, _⟩ := buildTableDiff_ok hbp
  have n2 := (buildTableDiff_ok hbn).2.1
  have hnewn : (orderIf opts tdn).new = t := (orderIf_new opts tdn).trans n2
  have hnewp : (orderIf opts tdp).new = tp := (orderIf_new opts tdp).trans p2
  refine ⟨⟨co, ct⟩, fun s hmem x x' h => ?_⟩
  have hKn : ∀ q, readsAs q k = true → freeNames old new t.name.fq q = true := fun q h => freeNames_iff.mpr ⟨k, h, hk'⟩
  have inP : s.ddl.aroundCheck tp.name.fq (freeNames old new tp.name.fq) = true → s ∈ lp := fun h =>
    (List.mem_filter.mp (hfp ▸ List.mem_filter.mpr ⟨hmem, h⟩)).1
  have inN : s.ddl.aroundCheck t.name.fq (freeNames old new t.name.fq) = true → s ∈ ln := fun h =>
    (List.mem_filter.mp (hfn ▸ List.mem_filter.mpr ⟨hmem, h⟩)).1
  have noCreate : ∀ {l : List Statement} {td : TableDiff}, yields ((SchemaGen.tableGen d).alter td) l → s ∈ l →
      ∀ t c q, s.ddl ≠ .createTable t c q := by
    intro l td hl hs t c q e
    cases (table_alter_origin hl hs).shape with
    | column cd h s hs => cases hs <;> cases e
    | _ => cases e
  refine partCheckStep_follows ?_ ?_ ?_ ?_ ?_ h
  · intro u c q e
    refine ⟨fun eu => ?_, fun eu => ?_⟩
    · exact noCreate hlp (inP (by rw [e]; exact decide_eq_true eu)) u c q e
    · exact noCreate hln (inN (by rw [e]; exact decide_eq_true eu)) u c q e
  · intro u e
    have g1 := filter_nil_false hdp s hmem
    have g2 := filter_nil_false hdn s hmem
    rw [e] at g1 g2
    exact ⟨of_decide_eq_false g1, of_decide_eq_false g2⟩
  · intro u q f e
    exact kept_not_attached dr run hn hs.newPart hmn hnewn hmem e
  · clear h
    intro u ex ni nv e eu
    have hl := inP (by rw [e]; exact decide_eq_true eu)
    cases (table_alter_origin hlp hl).shape with
    | column cd h s hs => cases hs <;> cases e
    | addCheck temps ht c h =>
      cases e
      rw [Bool.not_eq_false']
      rcases h with h | h
      · rw [orderIf_checks] at h
        exact hi c (diffLists_adds_mem p7 h)
      · obtain ⟨cd, _, hc⟩ := forall₂_right (yields_mapMs ht) h
        obtain ⟨s, s', hc⟩ := hc
        unfold buildTempNotNullConstraint at hc
        obtain ⟨u, s1, h1, h⟩ := genM_bind_ok.mp hc
        obtain ⟨rfl, rfl⟩ := genM_pure_ok.mp h
        rfl
    | _ => cases e
  · intro u a e eu y
    have silent : s ∈ ln → ownCheck k y a = some y := by
      intro hl
      rcases part_silent hln (by rw [hnewn]; exact hpart) hl with ⟨c, h | h⟩ | ⟨ty, h⟩ | h | h | h | h <;>
        (rw [h] at e; cases e; rfl)
    cases a with
    | addCheck name ex ni nv => exact silent (inN (by rw [e]; exact decide_eq_true eu))
    | dropColumn c => exact silent (inN (by rw [e]; exact decide_eq_true eu))
    | validateConstraint q =>
      by_cases hq : readsAs q k = true
      · exact silent (inN (by rw [e]; exact Bool.and_eq_true_iff.mpr ⟨decide_eq_true eu, hKn q hq⟩))
      · exact if_neg hq
    | dropConstraint q =>
      by_cases hq : readsAs q k = true
      · exact silent (inN (by rw [e]; exact Bool.and_eq_true_iff.mpr ⟨decide_eq_true eu, hKn q hq⟩))
      · exact if_neg hq
    | _ => rfl

theorem partStays_normalize {op tp o t : Table} (h : PartStays old new op tp o t) :
    PartStays old.normalize new.normalize (normalizeTable op) (normalizeTable tp) (normalizeTable o) (normalizeTable t) where
  oldParent := mem_normalize_tables_of h.oldParent
  newParent := mem_normalize_tables_of h.newParent
  oldPart := mem_normalize_tables_of h.oldPart
  newPart := mem_normalize_tables_of h.newPart
  parentName := h.parentName
  partName := h.partName
  ne := h.ne
  attached := h.attached
  oldAttached := h.oldAttached
  parentKey := h.parentKey
  partKey := h.partKey

theorem normalizeTable_checks_nil {t : Table} (h : (normalizeTable t).checkConstraints = []) : t.checkConstraints = [] := by
  rw [List.eq_nil_iff_forall_not_mem] at h ⊢
  intro c hc
  exact h _ (List.mem_map_of_mem (mem_sort.mpr hc))

/-- **C97**: the check constraints of a partition follow those of its table.  A table and one of its partitions are in both
schemas; `k` is the name of a check constraint, of either or of none.  The database has the constraint of the table and, on
the partition, the inherited one, or one of its own.  Running the plan accepts every statement about them, and ends with both
as the target has them; so it does at the end for the constraints that are made up on the way (`k` is any name).  Missing:
partitions of partitions, and tables with constraints that C65 does not cover. -/
theorem C97_partition_checks_converge_partial (h : generateMigrationStatements r old new opts = .ok (stmts, r'))
    (hr : FromReader r) (ho : NamesUnique old.tables) (hn : NamesUnique new.tables) {op tp o t : Table}
    (hs : PartStays old new op tp o t) (hp : ChecksPlannable cols old new tp.name.fq) (ht : TemporaryMentions cols)
    (ha : DrawsDiffer r r') {k : String} (hk : Apart old new tp.name.fq k) (hk' : Apart old new t.name.fq k)
    (hi : ∀ c ∈ tp.checkConstraints, c.isInheritable = true) :
    runPartCheck cols tp.name.fq t.name.fq k (checkOf old tp.name.fq k, partCheckOf old tp.name.fq t.name.fq k) stmts =
      some (checkOf new tp.name.fq k, partCheckOf new tp.name.fq t.name.fq k) := by
  obtain ⟨d, ⟨dr⟩, ⟨run⟩⟩ := plan_runs h
  have hroot : op.parentTable = tp.parentTable :=
    (hp.roots op (Or.inl hs.oldParent) (by rw [hs.parentName])).trans (hp.roots tp (Or.inr hs.newParent) rfl).symm
  obtain ⟨⟨h1, h2⟩, h3⟩ := part_follows (cols := cols) dr run hr (normalize_tables_nodup hn) (partStays_normalize hs) hroot
    (apart_normalize hk') (by
      intro c hc
      obtain ⟨c0, h0, rfl⟩ := List.mem_map.mp hc
      exact hi c0 (mem_sort.mp h0))
  have e1 : checkOf old t.name.fq k = none := by
    rw [← hs.partName, checkOf_of_mem ho hs.oldPart, normalizeTable_checks_nil h1]; rfl
  have e2 : checkOf new t.name.fq k = none := by
    rw [checkOf_of_mem hn hs.newPart, normalizeTable_checks_nil h2]; rfl
  rw [partCheckOf_bare e1, partCheckOf_bare e2,
    checkOf_normalize ho (fun t h => hp.checks t (Or.inl h)), checkOf_normalize hn (fun t h => hp.checks t (Or.inr h))]
  exact runPartCheck_follows h3 (checks_converge dr run hr (normalize_tables_nodup hn) (checksPlannable_normalize hp) ht ha
    (apart_normalize hk))

/-- **C97**, NOT NULL: when a plan makes a column of the table NOT NULL, and with it that of the partition, there is at this
moment a validated check constraint on the partition, that of the table, which excludes NULL in the column, so that Postgres
need not look at the rows of the partition.  Missing is what is missing in C21. -/
theorem C97_not_null_is_covered_partial (h : generateMigrationStatements r old new opts = .ok (stmts, r'))
    (hr : FromReader r) (ho : NamesUnique old.tables) (hn : NamesUnique new.tables) {op tp o t : Table}
    (hs : PartStays old new op tp o t) (hp : ChecksPlannable cols old new tp.name.fq) (ht : TemporaryMentions cols)
    (ha : DrawsDiffer r r') (hk : ∀ k, checkNames old new tp.name.fq stmts k → Apart old new tp.name.fq k)
    (hk' : ∀ k, checkNames old new tp.name.fq stmts k → Apart old new t.name.fq k)
    (hi : ∀ c ∈ tp.checkConstraints, c.isInheritable = true) {c : String} (hc : '\n' ∉ c.toList)
    {parse : String → Option Cond} {F : Funs} (hrd : ReadsChecks parse F old new tp.name.fq c)
    {a b : List Statement} {y : Statement} (e : stmts = a ++ y :: b) (hy : y.ddl = .alterTable tp.name (.alterColumn c .setNotNull)) :
    ∃ k st e, runPartCheck cols tp.name.fq t.name.fq k (checkOf old tp.name.fq k, partCheckOf old tp.name.fq t.name.fq k) a =
        some (some st, some ⟨st, true⟩) ∧ st.valid = true ∧ parse st.expression = some e ∧ e.Excludes F c := by
  obtain ⟨k, st, ex, g1, g2, g3⟩ := C21_not_null_is_covered_partial h hr ho hn hp ht ha hk hc hrd e hy
  obtain ⟨d, ⟨dr⟩, ⟨run⟩⟩ := plan_runs h
  have hroot : op.parentTable = tp.parentTable :=
    (hp.roots op (Or.inl hs.oldParent) (by rw [hs.parentName])).trans (hp.roots tp (Or.inr hs.newParent) rfl).symm
  obtain ⟨⟨h1, _⟩, h3⟩ := part_follows (cols := cols) dr run hr (normalize_tables_nodup hn) (partStays_normalize hs) hroot
    (apart_normalize (hk' k g1)) (by
      intro c hc
      obtain ⟨c0, h0, rfl⟩ := List.mem_map.mp hc
      exact hi c0 (mem_sort.mp h0))
  have e1 : checkOf old t.name.fq k = none := by
    rw [← hs.partName, checkOf_of_mem ho hs.oldPart, normalizeTable_checks_nil h1]; rfl
  refine ⟨k, st, ex, ?_, g3⟩
  rw [partCheckOf_bare e1]
  exact runPartCheck_follows (fun s hs => h3 s (by rw [e]; exact List.mem_append_left _ hs)) g2

/-- **C97** is not met by partitions that have something of their own: a partition that is in both schemas, and has a check
constraint, a policy or a privilege in either, lets every plan fail, though nothing may have changed (`alterPartition`,
sql_generator.go:1067-1079, asks whether there is anything to compare instead of whether there is a difference). -/
theorem C97_own_checks_violated (hn : NamesUnique new.tables) {o t : Table} (ho : o ∈ old.tables)
    (ht : t ∈ new.tables) (en : o.name = t.name) {p : SQName} (hp : t.parentTable = some p) (hpo : o.parentTable = t.parentTable)
    (hk : o.partitionKeyDef = t.partitionKeyDef)
    (hown : o.checkConstraints ≠ [] ∨ t.checkConstraints ≠ [] ∨ o.policies ≠ [] ∨ t.policies ≠ [] ∨
      o.privileges ≠ [] ∨ t.privileges ≠ []) :
    ¬ ∃ stmts r', generateMigrationStatements r old new opts = .ok (stmts, r') := by
  rintro ⟨stmts, r', h⟩
  obtain ⟨d, ⟨dr⟩, ⟨run⟩⟩ := plan_runs h
  obtain ⟨td, ⟨i, j, hb⟩, _, l, hl, _⟩ := slots_kept dr run (normalize_tables_nodup hn) (mem_normalize_tables_of ho)
    (mem_normalize_tables_of ht) (n := t.name.fq) (by rw [← en]; rfl) rfl hk hpo
  obtain ⟨⟨h1, h2⟩, ⟨h3, h4⟩, h5, h6⟩ := part_bare hb hl (by
    show Table.isPartition (normalizeTable t) = true
    simp [Table.isPartition, normalizeTable, hp])
  have key : ∀ {α β : Type} {f : α → β} [Obj α] {l : List α}, (sortObjs l).map f = [] → l = [] := by
    intro α β f _ l h
    rw [List.eq_nil_iff_forall_not_mem] at h ⊢
    intro c hc
    exact h _ (List.mem_map_of_mem (mem_sort.mpr hc))
  have key' : ∀ {α : Type} [Obj α] {l : List α}, sortObjs l = [] → l = [] := by
    intro α _ l h
    exact key (f := id) (by rw [h]; rfl)
  rcases hown with h | h | h | h | h | h
  · exact h (key h1)
  · exact h (key h2)
  · exact h (key h3)
  · exact h (key h4)
  · exact h (key' h5)
  · exact h (key' h6)

end

namespace Samples

/-- the tables of `checked`, partitioned, with a partition -/
def checkedParts (null : Bool) (checks : List CheckConstraint) : Table × Table :=
  ({ parent "p" [{ col "x" "integer" with isNullable := null }] "LIST (x)" with checkConstraints := checks },
   partition "p1" "p" [{ col "x" "integer" with isNullable := null }] "FOR VALUES IN (1)")

def oldCheckedParts : Table × Table := checkedParts true [positive "gone" 1, positive "changed" 2, positive "kept" 4]
def newCheckedParts : Table × Table := checkedParts false [positive "changed" 3, positive "kept" 4, positive "fresh" 5]

theorem checkedParts_stay (null null' : Bool) (l l' : List CheckConstraint) :
    PartStays (schemaOf (checkedParts null l)) (schemaOf (checkedParts null' l')) (checkedParts null l).1 (checkedParts null' l').1
      (checkedParts null l).2 (checkedParts null' l').2 :=
  ⟨List.mem_cons_self, List.mem_cons_self, List.mem_cons_of_mem _ List.mem_cons_self, List.mem_cons_of_mem _ List.mem_cons_self,
    rfl, rfl, show (pub "p1").fq ≠ (pub "p").fq by decide +kernel, rfl, rfl, rfl, rfl⟩

theorem checkedParts_plannable : ChecksPlannable sampleCols (schemaOf oldCheckedParts) (schemaOf newCheckedParts) (pub "p").fq := by
  have hp : ∀ t ∈ (schemaOf oldCheckedParts).tables ++ (schemaOf newCheckedParts).tables, (t.name.fq = (pub "p").fq → t.parentTable = none) ∧
      (t.columns.map (·.name)).Nodup ∧
      (t.checkConstraints.map (·.name)).Nodup ∧ ∀ c ∈ t.checkConstraints, nameOk c.name = true ∧
        ¬ "pgschemadiff_tmpnn_".toList <+: c.name.toList ∧ ∀ x ∈ sampleCols c.expression, x ∈ c.keyColumns := by
    decide +kernel
  refine ⟨fun t ht e => (hp t (List.mem_append.mpr ht)).1 e, fun t ht _ => ?_⟩
  obtain ⟨_, h2, h3, h4⟩ := hp t (List.mem_append.mpr ht)
  exact ⟨h2, h3, fun c hc => (h4 c hc).1, fun c hc => (h4 c hc).2.1, fun c hc => (h4 c hc).2.2⟩

end Samples

open Samples

/-- the hypotheses of `C97_partition_checks_converge_partial` can be met: a constraint of the table is dropped, one made, one made
again, and one made up and dropped, and the partition ends with what it inherits -/
example : ∃ stmts r', generateMigrationStatements readerRand (schemaOf oldCheckedParts) (schemaOf newCheckedParts) opts = .ok (stmts, r') ∧
    stmts.length = 10 ∧
    partCheckOf (schemaOf newCheckedParts) (pub "p").fq (pub "p1").fq "changed" = some ⟨⟨"(x > 3)", false, true⟩, true⟩ ∧
    ∀ k, ¬ "pgschemadiff_tmpidx_".toList <+: k.toList →
      runPartCheck sampleCols (pub "p").fq (pub "p1").fq k (checkOf (schemaOf oldCheckedParts) (pub "p").fq k,
        partCheckOf (schemaOf oldCheckedParts) (pub "p").fq (pub "p1").fq k) stmts =
        some (checkOf (schemaOf newCheckedParts) (pub "p").fq k,
          partCheckOf (schemaOf newCheckedParts) (pub "p").fq (pub "p1").fq k) := by
  obtain ⟨stmts, r', h, e, hpos⟩ := exists_plan_pos (r := readerRand) (old := schemaOf oldCheckedParts) (new := schemaOf newCheckedParts)
    (opts := opts) (P := fun stmts k => stmts.length = 10 ∧ k ≤ 4) (by decide +kernel)
  exact ⟨stmts, r', h, e, by decide +kernel, fun k hk => C97_partition_checks_converge_partial h (fromReader_ofBytes _)
    (by unfold NamesUnique; decide +kernel) (by unfold NamesUnique; decide +kernel) (checkedParts_stay _ _ _ _)
    checkedParts_plannable sampleCols_temporary (readerRand_differ hpos)
    (apart_of ⟨rfl, rfl⟩ ⟨rfl, rfl⟩ hk) (apart_of ⟨rfl, rfl⟩ ⟨rfl, rfl⟩ hk) (by decide +kernel)⟩

/-- the hypotheses of `C97_not_null_is_covered_partial` can be met -/
example : ∃ stmts r', generateMigrationStatements readerRand (schemaOf oldCheckedParts) (schemaOf newCheckedParts) opts = .ok (stmts, r') ∧
    (stmts.filter fun s => s.ddl.setsNotNull (pub "p").fq "x").length = 1 ∧
    ∀ a y b, stmts = a ++ y :: b → y.ddl = .alterTable (pub "p") (.alterColumn "x" .setNotNull) →
      ∃ k st e, runPartCheck sampleCols (pub "p").fq (pub "p1").fq k (checkOf (schemaOf oldCheckedParts) (pub "p").fq k,
          partCheckOf (schemaOf oldCheckedParts) (pub "p").fq (pub "p1").fq k) a = some (some st, some ⟨st, true⟩) ∧
        st.valid = true ∧ sampleParse st.expression = some e ∧ e.Excludes (fun _ v => v) "x" := by
  obtain ⟨stmts, r', h, e, hpos, h2⟩ := exists_plan_pos (r := readerRand) (old := schemaOf oldCheckedParts)
    (new := schemaOf newCheckedParts) (opts := opts)
    (P := fun stmts k => (stmts.filter fun s : Statement => s.ddl.setsNotNull (pub "p").fq "x").length = 1 ∧ k ≤ 4 ∧
      ∀ k ∈ checksAdded (pub "p").fq stmts, ¬ "pgschemadiff_tmpidx_".toList <+: k.toList) (by decide +kernel)
  have hap : ∀ n k, checkNames (schemaOf oldCheckedParts) (schemaOf newCheckedParts) (pub "p").fq stmts k →
      Apart (schemaOf oldCheckedParts) (schemaOf newCheckedParts) n k := by
    intro n k hk
    refine apart_of ⟨rfl, rfl⟩ ⟨rfl, rfl⟩ ?_
    rcases hk with ⟨t, ht, _, hk⟩ | hk
    · have : ∀ t ∈ (schemaOf oldCheckedParts).tables ++ (schemaOf newCheckedParts).tables, ∀ c ∈ t.checkConstraints,
          ¬ "pgschemadiff_tmpidx_".toList <+: c.name.toList := by decide +kernel
      obtain ⟨c, hc, rfl⟩ := List.mem_map.mp hk
      exact this t (List.mem_append.mpr ht) c hc
    · exact h2 k hk
  refine ⟨stmts, r', h, e, fun a y b es ey => ?_⟩
  refine C97_not_null_is_covered_partial h (fromReader_ofBytes _) (by unfold NamesUnique; decide +kernel)
    (by unfold NamesUnique; decide +kernel) (checkedParts_stay _ _ _ _) checkedParts_plannable sampleCols_temporary
    (readerRand_differ hpos) (hap _) (hap _) (by decide +kernel) (by decide) ?_ es ey
  refine ⟨if_pos rfl, fun t ht _ x hx _ => ?_⟩
  have : ∀ t ∈ (schemaOf oldCheckedParts).tables ++ (schemaOf newCheckedParts).tables, ∀ x ∈ t.checkConstraints,
      ∃ m ∈ [1, 2, 3, 4, 5], sampleParse x.expression = some (Cond.cmp .gt (.col "x") (.int m)) ∧
        x.expression = String.ofList (Cond.cmp .gt (.col "x") (.int m)).render := by decide +kernel
  obtain ⟨m, _, m1, m2⟩ := this t (List.mem_append.mpr ht) x hx
  refine ⟨_, m1, m2, fun m => ?_, ?_, ?_⟩
  · simp [Cond.columns, Scalar.columns]
  · intro m hm
    simp [Cond.columns, Scalar.columns, Cond.calls, Scalar.calls] at hm
    subst hm
    decide
  · intro f hf; cases hf

/-- the hypotheses of `C97_own_checks_violated` can be met: a partition with a check constraint of its own that stays -/
example : ¬ ∃ stmts r', generateMigrationStatements readerRand
    (schemaOf ((checkedParts true []).1, { (checkedParts true []).2 with checkConstraints := [positive "own" 1] }))
    (schemaOf ((checkedParts true []).1, { (checkedParts true []).2 with checkConstraints := [positive "own" 1] })) opts =
      .ok (stmts, r') :=
  C97_own_checks_violated (by unfold NamesUnique; decide +kernel) (List.mem_cons_of_mem _ List.mem_cons_self)
    (List.mem_cons_of_mem _ List.mem_cons_self) rfl (p := pub "p") rfl rfl rfl (Or.inl (by simp))

end Verif
