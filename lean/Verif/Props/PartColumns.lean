import Verif.Spec.PartColumns
import Verif.Lemmas.TableOps
import Verif.Props.Columns
import Verif.Props.Views

/-!
# The columns of partitions (C89)
-/

namespace Verif

open Spec

/-! ### statements on the table, which reach its partition -/

/-- the columns of the table and of the partition, with the identity they share, and something about NOT NULL of both -/
def Twin (J : Bool → Bool → Prop) : Option ColState → Option ColState → Prop
  | none, none => True
  | some a, some b => { b with nullable := a.nullable } = a ∧ (a.nullable = false → b.nullable = false) ∧ J a.nullable b.nullable
  | _, _ => False

/-- the column of a partition beside that of its table -/
def Beside (J : Bool → Bool → Prop) : Option ColState → Option ColState → Prop
  | none, none => True
  | some a, some b => b = { a with nullable := b.nullable, identity := none } ∧ (a.nullable = false → b.nullable = false) ∧
      J a.nullable b.nullable
  | _, _ => False

theorem Beside.twin {J : Bool → Bool → Prop} {x y : Option ColState} (h : Beside J x y) : Twin J x (lent x y) := by
  cases x <;> cases y <;> first | exact h | skip
  rename_i a b
  obtain ⟨h1, h2, h3⟩ := h
  refine ⟨?_, h2, h3⟩
  rw [h1]
  rfl

theorem Twin.beside {J : Bool → Bool → Prop} {x y : Option ColState} (h : Twin J x y) : Beside J x (asPart y) := by
  cases x <;> cases y <;> first | exact h | skip
  rename_i a b
  obtain ⟨h1, h2, h3⟩ := h
  refine ⟨?_, h2, h3⟩
  rw [← h1]

/-- the action sets or drops NOT NULL on the column, or adds it -/
def touchesNull (c : String) : TableAction → Bool
  | .addColumn d => d.name = c
  | .alterColumn c' .setNotNull => c' = c
  | .alterColumn c' .dropNotNull => c' = c
  | _ => false

/-- an alteration of the column of the table is accepted on the partition -/
theorem alterColumn_twin {pg : Pg} {J : Bool → Bool → Prop} {a b a' : ColState} {act : ColumnAction}
    (h : Twin J (some a) (some b)) (hs : alterColumn pg a act = some a')
    (hJ : (act = .setNotNull ∨ act = .dropNotNull) → J a'.nullable a'.nullable) :
    ∃ b', alterColumn pg b act = some b' ∧ Twin J (some a') (some b') := by
  obtain ⟨t, co, nl, df, gn, idn⟩ := a
  obtain ⟨t', co', nl', df', gn', idn'⟩ := b
  obtain ⟨h1, h2, h3⟩ := h
  simp only [ColState.mk.injEq, true_and] at h1 h2 h3
  obtain ⟨rfl, rfl, rfl, rfl, rfl⟩ := h1
  have hct : ∀ ty coll, changeType pg ⟨t', co', nl, df', gn', idn'⟩ ty coll = some a' →
      ∃ b', changeType pg ⟨t', co', nl', df', gn', idn'⟩ ty coll = some b' ∧ Twin J (some a') (some b') := by
    intro ty coll hs
    unfold changeType at hs ⊢
    dsimp only at hs ⊢
    split at hs
    · cases hs
    · rename_i hg
      rw [if_neg hg]
      split at hs
      · cases hs
      · rename_i e he
        simp only [he]
        cases idn' with
        | none =>
          simp only [Option.some.injEq] at hs
          subst hs
          exact ⟨_, rfl, rfl, h2, h3⟩
        | some i =>
          simp only at hs ⊢
          split at hs
          · rename_i hi
            rw [if_pos hi]
            simp only [Option.some.injEq] at hs
            subst hs
            exact ⟨_, rfl, rfl, h2, h3⟩
          · cases hs
  cases act with
  | setNotNull =>
    simp only [alterColumn, Option.some.injEq] at hs
    subst hs
    exact ⟨_, rfl, rfl, fun _ => rfl, hJ (Or.inl rfl)⟩
  | dropNotNull =>
    simp only [alterColumn] at hs ⊢
    split at hs
    · cases hs
    · rename_i hi
      rw [if_neg hi]
      simp only [Option.some.injEq] at hs
      subst hs
      exact ⟨_, rfl, rfl, fun h => (nomatch h), hJ (Or.inr rfl)⟩
  | dropDefault =>
    simp only [alterColumn] at hs ⊢
    split at hs
    · cases hs
    · rename_i hi
      rw [if_neg hi]
      simp only [Option.some.injEq] at hs
      subst hs
      exact ⟨_, rfl, rfl, h2, h3⟩
  | setDefault e =>
    simp only [alterColumn] at hs ⊢
    split at hs
    · cases hs
    · rename_i hi
      rw [if_neg hi]
      simp only [Option.some.injEq] at hs
      subst hs
      exact ⟨_, rfl, rfl, h2, h3⟩
  | setTypeFromMillis ty => exact hct _ _ hs
  | setType ty coll => exact hct _ _ hs
  | dropIdentity =>
    simp only [alterColumn] at hs ⊢
    split at hs
    · rename_i hi
      rw [if_pos hi]
      simp only [Option.some.injEq] at hs
      subst hs
      exact ⟨_, rfl, rfl, h2, h3⟩
    · cases hs
  | addIdentity d =>
    simp only [alterColumn] at hs ⊢
    split at hs
    · cases hs
    · rename_i hi
      have hnl : nl = false := by cases nl <;> simp_all
      have hnl' := h2 hnl
      subst hnl hnl'
      rw [if_neg hi]
      split at hs
      · rename_i hk
        rw [if_pos hk]
        simp only [Option.some.injEq] at hs
        subst hs
        exact ⟨_, rfl, rfl, h2, h3⟩
      · cases hs
  | alterIdentity mods =>
    simp only [alterColumn] at hs ⊢
    cases idn' with
    | none => cases hs
    | some i =>
      simp only at hs ⊢
      split at hs
      · cases hs
      · rename_i hm
        rw [if_neg hm]
        split at hs
        · rename_i hk
          rw [if_pos hk]
          simp only [Option.some.injEq] at hs
          subst hs
          exact ⟨_, rfl, rfl, h2, h3⟩
        · cases hs

theorem slotAction_twin {pg : Pg} {J : Bool → Bool → Prop} {c : String} {x y x' : Option ColState} {a : TableAction}
    (h : Twin J x y) (hs : slotAction pg c x a = some x') (hJ : touchesNull c a = true → ∀ v, J v v) :
    ∃ y', slotAction pg c y a = some y' ∧ Twin J x' y' := by
  have same : ∀ {a}, slotAction pg c x a = some x → slotAction pg c x a = some x' → slotAction pg c y a = some y →
      ∃ y', slotAction pg c y a = some y' ∧ Twin J x' y' := by
    intro a h1 h2 h3
    rw [h1, Option.some.injEq] at h2
    exact ⟨y, h3, h2 ▸ h⟩
  cases a with
  | addColumn d =>
    by_cases e : d.name = c
    · replace hs : (if x.isNone && definitionOk d then some (some (ColState.created pg d)) else none) = some x' :=
        (if_pos e).symm.trans hs
      split at hs
      · rename_i hd
        cases x with
        | some a => simp at hd
        | none =>
          cases y with
          | some b => exact h.elim
          | none =>
            cases hs
            exact ⟨_, (if_pos e).trans (if_pos hd), rfl, id, hJ (by simp [touchesNull, e]) _⟩
      · cases hs
    · exact same (if_neg e) hs (if_neg e)
  | dropColumn c' =>
    by_cases e : c' = c
    · replace hs : (if x.isSome then some none else none) = some x' := (if_pos e).symm.trans hs
      cases x with
      | none => cases hs
      | some a =>
        cases y with
        | none => exact h.elim
        | some b => cases hs; exact ⟨none, if_pos e, trivial⟩
    · exact same (if_neg e) hs (if_neg e)
  | alterColumn c' act =>
    by_cases e : c' = c
    · replace hs : (x.bind fun st => alterColumn pg st act).map some = some x' := (if_pos e).symm.trans hs
      cases x with
      | none => cases hs
      | some a =>
        cases y with
        | none => exact h.elim
        | some b =>
          obtain ⟨a', h1, h2⟩ := Option.map_eq_some_iff.mp hs
          subst h2
          obtain ⟨b', h3, h4⟩ := alterColumn_twin h (show alterColumn pg a act = some a' from h1) (by
            rintro (rfl | rfl)
            · exact hJ (by simp [touchesNull, e]) _
            · exact hJ (by simp [touchesNull, e]) _)
          exact ⟨some b', (if_pos e).trans (by simp [h3]), h4⟩
    · exact same (if_neg e) hs (if_neg e)
  | _ => exact same rfl hs rfl

theorem slotAction_beside {pg : Pg} {J : Bool → Bool → Prop} {c : String} {x y x' : Option ColState} {a : TableAction}
    (h : Beside J x y) (hs : slotAction pg c x a = some x') (hJ : touchesNull c a = true → ∀ v, J v v) :
    ∃ y', slotAction pg c (lent x y) a = some y' ∧ Beside J x' (asPart y') := by
  obtain ⟨y', h1, h2⟩ := slotAction_twin h.twin hs hJ
  exact ⟨y', h1, h2.beside⟩

/-- statements on the table -/
theorem pair_beside {pg : Pg} {J : Bool → Bool → Prop} {p n c : String} {l : List Statement} {x y x' : Option ColState}
    (hl : ∀ s ∈ l, (∃ t a, s.ddl = .alterTable t a ∧ t.fq = p ∧ onColumns a = true ∧
      (touchesNull c a = true → ∀ v, J v v)) ∨ ∃ t c', s.ddl = .analyze t c')
    (h : Beside J x y) (hs : runSlot pg p c (some x) l = some (some x')) :
    ∃ y', runPair pg p n c (x, y) l = some (x', y') ∧ Beside J x' y' := by
  induction l generalizing x y with
  | nil => cases hs; exact ⟨y, rfl, h⟩
  | cons s l ih =>
    have hl' := fun s hs => hl s (List.mem_cons_of_mem _ hs)
    rcases hl s List.mem_cons_self with ⟨t, a, e, et, ha, hJ⟩ | ⟨t, c', e⟩
    · have hs : ((slotStep pg p c (some x) s.ddl).bind fun s' => runWith (slotStep pg p c) s' l) = some (some x') := hs
      rw [e, show slotStep pg p c (some x) (.alterTable t a) = (slotAction pg c x a).map some from
        if_pos (by simp [et, ha])] at hs
      cases hx : slotAction pg c x a with
      | none => rw [hx] at hs; cases hs
      | some x1 =>
        rw [hx] at hs
        obtain ⟨y1, h1, h2⟩ := slotAction_beside h hx hJ
        obtain ⟨y', h3, h4⟩ := ih hl' h2 hs
        refine ⟨y', ?_, h4⟩
        have hstep : pairStep pg p n c (x, y) s.ddl = some (x1, asPart y1) := by
          rw [e]
          refine (if_pos et).trans ?_
          cases a with
          | addColumn => exact (if_pos ha).trans (by simp only [hx, h1]; rfl)
          | dropColumn => exact (if_pos ha).trans (by simp only [hx, h1]; rfl)
          | alterColumn => exact (if_pos ha).trans (by simp only [hx, h1]; rfl)
          | _ => cases ha
        exact (runWith_cons hstep).trans h3
    · have h1 : slotStep pg p c (some x) s.ddl = some (some x) := by rw [e]; rfl
      have h2 : pairStep pg p n c (x, y) s.ddl = some (x, y) := by rw [e]; rfl
      obtain ⟨y', h3, h4⟩ := ih hl' h ((runWith_cons h1).symm.trans hs)
      exact ⟨y', (runWith_cons h2).trans h3, h4⟩

/-! ### statements on the partition -/

/-- the statements about other columns -/
theorem pair_other {pg : Pg} {p n c : String} {t : SQName} (et : t.fq = n) (hpn : n ≠ p) {m : GoMap String ColumnDiff}
    {l : List ColumnDiff} (hl : ∀ cd ∈ l, cd.new.name ≠ c) (s : ColPair) :
    runPair pg p n c s (l.flatMap (TableGen.alterPartitionColumn t m)) = some s := by
  refine runWith_keeps fun x hx => ?_
  obtain ⟨cd, hcd, hx⟩ := List.mem_flatMap.mp hx
  have key : ∀ a, pairStep pg p n c s (.alterTable t (.alterColumn cd.new.name a)) = some s := by
    intro a
    refine (if_neg (by rw [et]; exact hpn)).trans ((if_pos et).trans ?_)
    rw [show partAction pg c s.1 s.2 (.alterColumn cd.new.name a) = some s.2 from if_neg (hl cd hcd)]
    rfl
  unfold TableGen.alterPartitionColumn at hx
  split at hx
  · cases hx
  split at hx
  · cases hx
  split at hx
  · rw [List.mem_singleton.mp hx]; exact key _
  · rw [List.mem_singleton.mp hx]; exact key _

/-- the statement about the column -/
theorem pair_column {pg : Pg} {p n c : String} {t : SQName} (et : t.fq = n) (hpn : n ≠ p) {m : GoMap String ColumnDiff}
    {cd : ColumnDiff} (hc : cd.new.name = c) {a b : ColState} (hid : a.identity.isSome = true → cd.new.isNullable = false)
    (hb : b.identity = none) (hnull : cd.new.isNullable = true → a.nullable = true) :
    runPair pg p n c (some a, some b) (TableGen.alterPartitionColumn t m cd) = some (some a, some { b with
      nullable := if cd.old.isNullable = cd.new.isNullable ∨ TableGen.coveredByParent m cd = true then b.nullable
        else cd.new.isNullable }) := by
  unfold TableGen.alterPartitionColumn
  by_cases h : cd.old.isNullable = cd.new.isNullable
  · rw [if_pos h, if_pos (Or.inl h)]; rfl
  by_cases h' : TableGen.coveredByParent m cd = true
  · rw [if_neg h, if_pos h', if_pos (Or.inr h')]; rfl
  have hno : ¬ (cd.old.isNullable = cd.new.isNullable ∨ TableGen.coveredByParent m cd = true) := by
    rintro (e | e)
    exacts [h e, h' e]
  rw [if_neg h, if_neg h', if_neg hno]
  have hstep : ∀ act b', partAction pg c (some a) (some b) (.alterColumn c act) = some (some b') →
      pairStep pg p n c (some a, some b) (.alterTable t (.alterColumn cd.new.name act)) = some (some a, some b') := by
    intro act b' e
    refine (if_neg (by rw [et]; exact hpn)).trans ((if_pos et).trans ?_)
    rw [hc, e]; rfl
  by_cases hn : cd.new.isNullable = true
  · rw [if_pos hn]
    have hi : a.identity.isSome = false := by
      cases hi : a.identity.isSome with
      | false => rfl
      | true => rw [hid hi] at hn; exact (Bool.false_ne_true hn).elim
    refine (runWith_cons (hstep .dropNotNull { b with nullable := true } ?_)).trans (by rw [hn]; rfl)
    refine (if_pos rfl).trans ((if_neg (by simp [hnull hn])).trans ?_)
    simp [lent, asPart, alterColumn, hi, hb]
  · rw [if_neg hn]
    have hn : cd.new.isNullable = false := by simpa using hn
    have e := hstep .setNotNull { b with nullable := false } (by simp [partAction, lent, asPart, alterColumn, hb])
    rw [hn]
    exact runWith_cons (l := []) e

/-! ### the plan -/

section
variable {opts : PlanOptions} {old new : Schema} {d : SchemaDiff} {r r' : Rand} {stmts : List Statement}

/-- a table that is kept as it is partitioned and attached is altered in place -/
theorem slots_kept (dr : DiffRun opts old new d) (run : PlanRun opts d r r' stmts) (hn : (new.tables.map Obj.getName).Nodup)
    {o t : Table} (ho : o ∈ old.tables) (ht : t ∈ new.tables) {n : String} (eo : o.name.fq = n) (e : t.name.fq = n)
    (hk : o.partitionKeyDef = t.partitionKeyDef) (hp : o.parentTable = t.parentTable) :
    ∃ td, (∃ i j, buildTableDiff o t j i = .ok (td, false)) ∧ orderIf opts td ∈ d.tableDiffs.alters ∧
      ∃ l, yields ((SchemaGen.tableGen d).alter (orderIf opts td)) l ∧
        stmts.filter (fun s => s.ddl.onSlots n) = l.filter (fun s => s.ddl.onSlots n) ∧
        stmts.filter (fun s : Statement => s.ddl.dropsTable n) = [] := by
  have hno := diffLists_old_nodup dr.htd0
  have uo : ∀ {x : Table}, x ∈ old.tables → x.name.fq = n → x = o := fun hx ex =>
    List.inj_on_of_nodup_map hno hx ho (ex.trans eo.symm)
  have un : ∀ {x : Table}, x ∈ new.tables → x.name.fq = n → x = t := fun hx ex =>
    List.inj_on_of_nodup_map hn hx ht (ex.trans e.symm)
  cases slot_fate dr run hn n with
  | absent ho' _ _ _ => exact absurd (List.mem_map.mpr ⟨o, ho, eo⟩) ho'
  | dropped _ _ _ hn' _ _ => exact absurd (List.mem_map.mpr ⟨t, ht, e⟩) hn'
  | added _ _ _ ho' _ _ _ _ _ => exact absurd (List.mem_map.mpr ⟨o, ho, eo⟩) ho'
  | recreated o' t' ho' ht' eo' e' hb _ _ _ _ _ _ =>
    obtain rfl := uo ho' eo'
    obtain rfl := un ht' e'
    obtain ⟨i, j, td, hb⟩ := hb
    unfold buildTableDiff at hb
    rw [if_neg (by simp [Table.isPartitioned, hk]), if_neg (by simp [hk]), if_neg (by simp [hp])] at hb
    simp only [except_bind_ok, except_pure_ok] at hb
    obtain ⟨_, _, _, _, _, _, _, _, _, _, hb⟩ := hb
    cases hb
  | altered o' t' ho' ht' eo' e' td hb hm l hl h hd =>
    obtain rfl := uo ho' eo'
    obtain rfl := un ht' e'
    exact ⟨td, hb, hm, l, hl, h, hd⟩

theorem onSlots_inner {n : String} {s : Statement} (h : s.ddl.onSlots n = true) : ¬ s.ddl.IsOuter := by
  intro ho
  cases hs : s.ddl <;> rw [hs] at h ho <;> first | cases h | cases ho

/-- the columns of a table are altered before those of its partitions -/
theorem slots_parent_first (run : PlanRun opts d r r' stmts) {td : TableDiff} (ht : td ∈ d.tableDiffs.alters) {q : SQName}
    (hq : td.new.parentTable = some q) :
    AllBefore (fun s => s.ddl.onSlots q.fq = true) (fun s => s.ddl.onSlots td.new.name.fq = true) stmts := by
  refine run.allBefore (fun s => onSlots_inner) (fun s => onSlots_inner) ?_
  intro u x v y hx hy hp hq'
  rw [slot_id hx hp, slot_id hy hq']
  exact .single ((run.declared_table_alter ht).2 q hq)

/-- the columns of the parent that the generator looks at -/
theorem TableGen.alterPartition_parent {g : TableGen} {td pd : TableDiff} {l : List Statement} (h : g.alterPartition td = .ok l)
    {q : SQName} (hq : td.new.parentTable = some q) (hg : g.tableDiffsByName.get? q.getName = some pd) :
    l = td.columnsDiff.alters.flatMap (TableGen.alterPartitionColumn td.new.name (diffByName pd.columnsDiff.alters)) := by
  unfold TableGen.alterPartition at h
  split at h
  · cases h
  split at h
  · cases h
  split at h
  · cases h
  split at h
  · cases h
  cases h
  simp only [hq, hg]

theorem coveredByParent_eq {A : List ColumnDiff} (hn : (A.map fun cd => cd.new.name).Nodup) {cdp : ColumnDiff} (h : cdp ∈ A)
    {cd : ColumnDiff} (e : cdp.new.name = cd.new.name) :
    TableGen.coveredByParent (diffByName A) cd = true ↔
      cd.new.isNullable = cdp.new.isNullable ∧ cdp.new.isNullable ≠ cdp.old.isNullable := by
  have hg : (diffByName A).get? cd.new.name = some cdp := by
    rw [← e]
    exact diffByName_get?_of_mem (S := Column) hn h
  unfold TableGen.coveredByParent
  rw [hg]
  simp

/-- the statements of an altered partition that are about its columns -/
theorem part_slots {g : TableGen} {td pd : TableDiff} {l : List Statement} (hl : yields (g.alter td) l) {q : SQName}
    (hq : td.new.parentTable = some q) (hg : g.tableDiffsByName.get? q.getName = some pd) {n : String}
    (e : td.new.name.fq = n) :
    l.filter (fun s => s.ddl.onSlots n) =
      td.columnsDiff.alters.flatMap (TableGen.alterPartitionColumn td.new.name (diffByName pd.columnsDiff.alters)) := by
  obtain ⟨tr⟩ := table_run hl
  have hb := TableGen.alterPartition_parent (tr.hpartition (by simp [Table.isPartition, hq])) hq hg
  have hrest : ∀ l' : List Statement, (∀ s ∈ l', ∃ a, s.ddl = .alterTable td.new.name a ∧ onColumns a = false) →
      l'.filter (fun s => s.ddl.onSlots n) = [] := by
    intro l' h
    rw [List.filter_eq_nil_iff]
    intro s hs
    obtain ⟨a, e1, e2⟩ := h s hs
    rw [e1]
    simp [Ddl.onSlots, e2]
  have hbody : tr.body.filter (fun s => s.ddl.onSlots n) = tr.body := by
    rw [List.filter_eq_self, hb]
    intro s hs
    obtain ⟨cd, _, hs⟩ := List.mem_flatMap.mp hs
    unfold TableGen.alterPartitionColumn at hs
    split at hs
    · cases hs
    split at hs
    · cases hs
    split at hs <;> rw [List.mem_singleton.mp hs] <;> simp [stmt, Ddl.onSlots, onColumns, e]
  rw [tr.hstmts, ← hb]
  simp only [List.filter_append, hbody]
  rw [hrest _ ?_, hrest _ ?_, hrest _ ?_, hrest _ ?_, hrest _ ?_]
  · simp
  · intro s hs
    split at hs
    · rw [List.mem_singleton.mp hs]; exact ⟨_, rfl, rfl⟩
    · cases hs
  · intro s hs
    split at hs
    · rw [List.mem_singleton.mp hs]; exact ⟨_, rfl, rfl⟩
    · cases hs
  · intro s hs
    rcases tr.hreplica with ⟨_, e'⟩ | ⟨_, s0, h1, e'⟩
    · rw [e'] at hs; cases hs
    · rw [e'] at hs
      obtain ⟨ty, _, rfl⟩ := alterReplicaIdentityStatement_ok h1
      rw [List.mem_singleton.mp hs]; exact ⟨_, rfl, rfl⟩
  · intro s hs
    split at hs
    · rw [List.mem_singleton.mp hs]; exact ⟨_, rfl, rfl⟩
    · cases hs
  · intro s hs
    split at hs
    · rw [List.mem_singleton.mp hs]; exact ⟨_, rfl, rfl⟩
    · cases hs

/-- what the theorem asks of the table `op`, `tp` and its partition `o`, `t` -/
structure Spec.PartKept (pg : Pg) (old new : Schema) (op tp o t : Table) : Prop where
  oldParent : op ∈ old.tables
  newParent : tp ∈ new.tables
  oldPart : o ∈ old.tables
  newPart : t ∈ new.tables
  /-- a table and one of its partitions, in both schemas -/
  parentName : op.name = tp.name
  partName : o.name = t.name
  ne : t.name.fq ≠ tp.name.fq
  root : tp.parentTable = none
  attached : t.parentTable = some tp.name
  oldAttached : o.parentTable = t.parentTable
  /-- neither is partitioned in another way -/
  parentKey : op.partitionKeyDef = tp.partitionKeyDef
  partKey : o.partitionKeyDef = t.partitionKeyDef
  /-- the table is one that C71 covers -/
  plannable : ColumnsPlannable pg old new tp.name.fq
  names : (t.columns.map (·.name)).Nodup
  /-- the columns of the partition are those of the table -/
  oldInherits : ∀ c, Inherits (columnOf op c) (columnOf o c)
  newInherits : ∀ c, Inherits (columnOf tp c) (columnOf t c)

theorem columnOf_find {t : Table} {c : String} {st : ColState} (h : columnOf t c = some st) :
    ∃ x ∈ t.columns, x.name = c ∧ st = .of x := by
  unfold columnOf at h
  obtain ⟨x, hx, e⟩ := Option.map_eq_some_iff.mp h
  exact ⟨x, List.mem_of_find?_eq_some hx, by simpa using List.find?_some hx, e.symm⟩

theorem columnOf_missing {t : Table} {c : String} (h : columnOf t c = none) : c ∉ t.columns.map (·.name) := by
  unfold columnOf at h
  rw [Option.map_eq_none_iff, List.find?_eq_none] at h
  intro hc
  obtain ⟨x, hx, e⟩ := List.mem_map.mp hc
  exact h x hx (by simpa using e)

set_option maxHeartbeats 1000000 in
theorem part_columns (dr : DiffRun opts old new d) (run : PlanRun opts d r r' stmts)
    (hn : (new.tables.map Obj.getName).Nodup) {pg : Pg} {op tp o t : Table} (hk : PartKept pg old new op tp o t) (c : String) :
    ∃ y, runPair pg tp.name.fq t.name.fq c (columnOf op c, columnOf o c) stmts = some (columnOf tp c, y) ∧
      (¬ OwnNotNull (columnOf op c) (columnOf tp c) (columnOf t c) → y = columnOf t c) ∧
      (OwnNotNull (columnOf op c) (columnOf tp c) (columnOf t c) → y = asPart (columnOf tp c)) := by
  have hroot : op.parentTable = none := hk.plannable.oldRoot op hk.oldParent (by rw [hk.parentName])
  have hroot' : tp.parentTable = none := hk.root
  obtain ⟨tdp, ⟨ip, jp, hbp⟩, hmp, lp, hlp, hfp, hdp⟩ := slots_kept dr run hn hk.oldParent hk.newParent
    (n := tp.name.fq) (by rw [hk.parentName]) rfl hk.parentKey (hroot.trans hroot'.symm)
  obtain ⟨tdn, ⟨i, j, hbn⟩, hmn, ln, hln, hfn, hdn⟩ := slots_kept dr run hn hk.oldPart hk.newPart
    (n := t.name.fq) (by rw [hk.partName]) rfl hk.partKey hk.oldAttached
  obtain ⟨p1, p2, _, _, _, hcp, _⟩ := buildTableDiff_ok hbp
  obtain ⟨n1, n2, _, _, _, hcn, _⟩ := buildTableDiff_ok hbn
  have hnewp : (orderIf opts tdp).new = tp := (orderIf_new opts tdp).trans p2
  have hnewn : (orderIf opts tdn).new = t := (orderIf_new opts tdn).trans n2
  have hup := hk.plannable.names tp hk.newParent rfl
  have hoop := diffLists_old_nodup hcp
  have hoon := diffLists_old_nodup hcn
  -- the generator finds the alterations of the parent
  have hget : (SchemaGen.tableGen d).tableDiffsByName.get? tp.name.getName = some (orderIf opts tdp) := by
    have hg : (diffByName d.tableDiffs.alters).get? (Obj.getName (IsDiff.getNew (orderIf opts tdp) : Table)) =
        some (orderIf opts tdp) := by
      refine diffByName_get?_of_mem (S := Table) ?_ hmp
      have := dr.alters_nodup hn
      refine List.Nodup.map_on ?_ (List.Nodup.of_map _ this)
      intro x hx y hy exy
      obtain ⟨_, _, _, a, b, hxa, _⟩ := dr.altered hx
      obtain ⟨_, _, _, a', b', hya, _⟩ := dr.altered hy
      have : x.new = y.new := List.inj_on_of_nodup_map hn (List.mem_of_getElem? hxa) (List.mem_of_getElem? hya) exy
      exact List.inj_on_of_nodup_map (dr.alters_nodup hn) hx hy (by rw [this])
    rw [show Obj.getName (IsDiff.getNew (orderIf opts tdp) : Table) = tp.name.getName from by
      show Obj.getName (orderIf opts tdp).new = _
      rw [hnewp]; rfl] at hg
    exact hg
  have hN := part_slots hln (by rw [hnewn]; exact hk.attached) hget (n := t.name.fq) (by rw [hnewn])
  rw [hnewn] at hN
  -- the statements about the two tables
  have hbefore := slots_parent_first run hmn (q := tp.name) (by rw [hnewn]; exact hk.attached)
  rw [hnewn] at hbefore
  have hdisj : ∀ s : Statement, s.ddl.onSlots tp.name.fq = true → s.ddl.onSlots t.name.fq = true → False := by
    intro s h1 h2
    cases hs : s.ddl with
    | createTable t' _ _ =>
      rw [hs] at h1 h2
      exact hk.ne ((of_decide_eq_true h2).symm.trans (of_decide_eq_true h1))
    | alterTable t' a =>
      rw [hs] at h1 h2
      simp only [Ddl.onSlots, Bool.and_eq_true, decide_eq_true_eq] at h1 h2
      exact hk.ne (h2.1.symm.trans h1.1)
    | analyze t' _ =>
      rw [hs] at h1 h2
      exact hk.ne ((of_decide_eq_true h2).symm.trans (of_decide_eq_true h1))
    | _ => rw [hs] at h1; cases h1
  have hsplit := filter_or_of_before hbefore hdisj
  have hattach : ∀ s ∈ stmts, ∀ t' q f, s.ddl = .alterTable t' (.attachPartition q f) → q.fq ≠ t.name.fq := by
    intro s hs t' q f e eq
    obtain ⟨a, b, es, ha, hb⟩ := run.around
    rw [es, List.mem_append, List.mem_append] at hs
    rcases hs with (hs | hs) | hs
    · have := ha s hs; rw [e] at this; cases this
    · obtain ⟨u, hu⟩ := run.graph_shape hs
      cases hu with
      | attachPartition x hx p' hp' hf =>
        cases e
        obtain ⟨x0, _, rfl, hx0⟩ := dr.added_mem hx
        rw [packIf_name] at eq
        have hx' : x0 = t := List.inj_on_of_nodup_map hn hx0 hk.newPart eq
        refine dr.added_ne_altered hn hx hmn ?_
        rw [packIf_name, hnewn, hx']
      | newTable x h ccs hc s hs => cases hs <;> cases e
      | alterTable td h s hs =>
        cases hs with
        | column cd h s hs => cases hs <;> cases e
        | _ => cases e
      | _ => cases e
    · have := hb s hs; rw [e] at this; cases this
  have hrun : runPair pg tp.name.fq t.name.fq c (columnOf op c, columnOf o c) stmts =
      runPair pg tp.name.fq t.name.fq c (columnOf op c, columnOf o c)
        (stmts.filter (fun s => s.ddl.onSlots tp.name.fq) ++ stmts.filter fun s => s.ddl.onSlots t.name.fq) := by
    rw [← hsplit]
    refine runWith_filter (I := fun _ => True) ?_ (fun _ _ _ _ _ _ _ => trivial) trivial
    intro x hx hs s _
    obtain ⟨h1, h2⟩ := Bool.or_eq_false_iff.mp hs
    have h3 := filter_nil_false hdp x hx
    have h4 := filter_nil_false hdn x hx
    have h5 := hattach x hx
    cases hd : x.ddl with
    | createTable t' _ _ =>
      rw [hd] at h1 h2
      exact if_neg (by rintro (e | e); exacts [of_decide_eq_false h1 e, of_decide_eq_false h2 e])
    | dropTable t' =>
      rw [hd] at h3 h4
      exact if_neg (by rintro (e | e); exacts [of_decide_eq_false h3 e, of_decide_eq_false h4 e])
    | alterTable t' a =>
      rw [hd] at h1 h2
      simp only [Ddl.onSlots, Bool.and_eq_false_iff, decide_eq_false_iff_not] at h1 h2
      unfold pairStep
      dsimp only
      by_cases e1 : t'.fq = tp.name.fq
      · rw [if_pos e1]
        have ha : onColumns a = false := h1.resolve_left (fun h => h e1)
        cases a with
        | addColumn => cases ha
        | dropColumn => cases ha
        | alterColumn => cases ha
        | attachPartition q f => exact if_neg (h5 _ _ _ hd)
        | _ => rfl
      · rw [if_neg e1]
        by_cases e2 : t'.fq = t.name.fq
        · rw [if_pos e2]
          have ha : onColumns a = false := h2.resolve_left (fun h => h e2)
          cases a with
          | addColumn => cases ha
          | dropColumn => cases ha
          | alterColumn => cases ha
          | _ => rfl
        · rw [if_neg e2]
    | _ => rfl
  -- the table by itself
  have hslot : runSlot pg tp.name.fq c (some (columnOf op c)) (stmts.filter fun s => s.ddl.onSlots tp.name.fq) =
      some (some (columnOf tp c)) := by
    refine slot_altered hbp hlp (by rw [List.filter_filter]; simpa using hfp) ?_ rfl hroot' hup
      (hk.plannable.oldOk op hk.oldParent (by rw [hk.parentName])) (hk.plannable.newOk tp hk.newParent rfl)
      (hk.plannable.kept op hk.oldParent tp hk.newParent (by rw [hk.parentName]) rfl
        (by simp [Table.isPartitioned, hk.parentKey])) c
    rw [List.filter_eq_nil_iff]
    intro s hs hd
    obtain ⟨_, hs⟩ := List.mem_filter.mp hs
    cases hd' : s.ddl <;> rw [hd'] at hs hd <;> first | cases hd | cases hs
  -- its statements
  have hshape : ∀ s ∈ stmts.filter (fun s => s.ddl.onSlots tp.name.fq), (∃ t' a, s.ddl = .alterTable t' a ∧
      t'.fq = tp.name.fq ∧ onColumns a = true ∧ (touchesNull c a = true →
        (∃ x ∈ tdp.columnsDiff.adds, x.name = c) ∨
        ∃ cd ∈ tdp.columnsDiff.alters, cd.new.name = c ∧ cd.old.isNullable ≠ cd.new.isNullable)) ∨
      ∃ t' c', s.ddl = .analyze t' c' := by
    intro s hs
    rw [hfp] at hs
    obtain ⟨hs, hslot⟩ := List.mem_filter.mp hs
    have key : ∀ cd ∈ (orderIf opts tdp).columnsDiff.alters, cd.old.isNullable ≠ cd.new.isNullable → cd.new.name = c →
        ∃ cd ∈ tdp.columnsDiff.alters, cd.new.name = c ∧ cd.old.isNullable ≠ cd.new.isNullable := by
      intro cd hcd hne e
      obtain ⟨cd0, h0, x1, x2⟩ := orderIf_columns opts tdp hcd
      exact ⟨cd0, h0, by rw [← x2]; exact e, by rw [← x1, ← x2]; exact hne⟩
    cases (table_alter_origin hlp hs).shape with
    | column cd h s hs' =>
      cases hs' with
      | analyze => exact Or.inr ⟨_, _, rfl⟩
      | setNotNull hh =>
        exact Or.inl ⟨_, _, rfl, by rw [hnewp], rfl, fun ht => Or.inr (key cd h (by simp [hh.1, hh.2])
          (of_decide_eq_true ht))⟩
      | dropNotNull hh =>
        exact Or.inl ⟨_, _, rfl, by rw [hnewp], rfl, fun ht => Or.inr (key cd h (by simp [hh.1, hh.2])
          (of_decide_eq_true ht))⟩
      | _ => exact Or.inl ⟨_, _, rfl, by rw [hnewp], rfl, fun ht => (nomatch ht)⟩
    | addColumn x h def_ hd =>
      rw [orderIf_columnsAdds] at h
      exact Or.inl ⟨_, _, rfl, by rw [hnewp], rfl, fun ht => Or.inl ⟨x, h,
        (buildColumnDefinition_name hd).symm.trans (of_decide_eq_true ht)⟩⟩
    | dropColumn x h => exact Or.inl ⟨_, _, rfl, by rw [hnewp], rfl, fun ht => (nomatch ht)⟩
    | partDropNotNull cd h hh =>
      exact Or.inl ⟨_, _, rfl, by rw [hnewp], rfl, fun ht => Or.inr (key cd h (by simp [hh.1, hh.2])
        (of_decide_eq_true ht))⟩
    | partSetNotNull cd h hh =>
      exact Or.inl ⟨_, _, rfl, by rw [hnewp], rfl, fun ht => Or.inr (key cd h (by simp [hh.1, hh.2])
        (of_decide_eq_true ht))⟩
    | _ => simp [stmt, Ddl.onSlots, onColumns, validateConstraintStatement] at hslot
  -- the first part
  have hpart1 : ∀ J : Bool → Bool → Prop, (((∃ x ∈ tdp.columnsDiff.adds, x.name = c) ∨
      ∃ cd ∈ tdp.columnsDiff.alters, cd.new.name = c ∧ cd.old.isNullable ≠ cd.new.isNullable) → ∀ v, J v v) →
      Beside J (columnOf op c) (columnOf o c) → ∃ y, runPair pg tp.name.fq t.name.fq c (columnOf op c, columnOf o c)
        (stmts.filter fun s => s.ddl.onSlots tp.name.fq) = some (columnOf tp c, y) ∧ Beside J (columnOf tp c) y := by
    intro J hJ hb
    refine pair_beside (fun s hs => ?_) hb hslot
    rcases hshape s hs with ⟨t', a, e1, e2, e3, e4⟩ | h
    · exact Or.inl ⟨t', a, e1, e2, e3, fun h => hJ (e4 h)⟩
    · exact Or.inr h
  -- the second part
  have hnodup : ((orderIf opts tdn).columnsDiff.alters.map fun cd => cd.new.name).Nodup := by
    rw [orderIf_column_names]
    exact (columnsDiff_alters hcn).2.nodup hk.names
  have hnone : ∀ s : ColPair, (columnOf o c = none ∨ columnOf t c = none) →
      runPair pg tp.name.fq t.name.fq c s (stmts.filter fun s => s.ddl.onSlots t.name.fq) = some s := by
    intro s h
    rw [hfn, hN]
    refine pair_other rfl hk.ne (fun cd hcd e => ?_) s
    obtain ⟨cd0, h0, x1, x2⟩ := orderIf_columns opts tdn hcd
    obtain ⟨y1, y2, y3⟩ := (columnsDiff_alters hcn).1 cd0 h0
    rw [x2] at e
    rcases h with h | h
    · exact columnOf_missing h (List.mem_map.mpr ⟨_, y1, y3.trans e⟩)
    · exact columnOf_missing h (List.mem_map.mpr ⟨_, y2, e⟩)
  have happ : ∀ y z, runPair pg tp.name.fq t.name.fq c (columnOf op c, columnOf o c)
      (stmts.filter fun s => s.ddl.onSlots tp.name.fq) = some (columnOf tp c, y) →
      runPair pg tp.name.fq t.name.fq c (columnOf tp c, y) (stmts.filter fun s => s.ddl.onSlots t.name.fq) =
        some (columnOf tp c, z) →
      runPair pg tp.name.fq t.name.fq c (columnOf op c, columnOf o c) stmts = some (columnOf tp c, z) := by
    intro y z h1 h2
    rw [hrun]
    unfold runPair at h1 h2 ⊢
    rw [runWith_append, h1]
    exact h2
  have hio := hk.oldInherits c
  have hin := hk.newInherits c
  have hokn := hk.plannable.newOk tp hk.newParent rfl
  have close : ∀ {a b : ColState}, b = { a with nullable := b.nullable, identity := none } → a.nullable = b.nullable →
      b = { a with identity := none } := by
    intro a b h e
    rw [h, ← e]
  cases htp : columnOf tp c with
  | none =>
    rw [htp] at hin happ hpart1
    have ht : columnOf t c = none := by cases hb : columnOf t c with
      | none => rfl
      | some b => rw [hb] at hin; exact hin.elim
    obtain ⟨y, h1, h2⟩ := hpart1 (fun _ _ => True) (fun _ _ => trivial) (by
      cases ha : columnOf op c <;> cases hb : columnOf o c <;> rw [ha, hb] at hio
      · trivial
      · exact hio
      · exact hio
      · exact ⟨hio.1, hio.2, trivial⟩)
    have hy : y = none := by cases y with
      | none => rfl
      | some b => exact h2.elim
    subst hy
    refine ⟨none, happ _ _ h1 (hnone _ (Or.inr ht)), fun _ => ht.symm, fun _ => rfl⟩
  | some a' =>
    rw [htp] at hin happ hpart1
    cases ht : columnOf t c with
    | none => rw [ht] at hin; exact hin.elim
    | some b1 =>
      rw [ht] at hin
      obtain ⟨hin1, hin2⟩ := hin
      cases hop : columnOf op c with
      | none =>
        rw [hop] at hio happ hpart1
        have ho : columnOf o c = none := by cases hb : columnOf o c with
          | none => rfl
          | some b => rw [hb] at hio; exact hio.elim
        rw [ho] at happ hpart1 ⊢
        obtain ⟨y, h1, h2⟩ := hpart1 (fun v w => v = w) (fun _ _ => rfl) trivial
        cases y with
        | none => exact h2.elim
        | some b' =>
          obtain rfl := close h2.1 h2.2.2
          refine ⟨_, happ _ _ h1 (hnone _ (Or.inl ho)), fun hno => ?_, fun _ => rfl⟩
          cases e1 : a'.nullable with
          | false => rw [close hin1 (e1.trans (hin2 e1).symm), e1]
          | true =>
            cases e2 : b1.nullable with
            | true => rw [close hin1 (e1.trans e2.symm), e1]
            | false => exact absurd ⟨⟨_, rfl, e1⟩, ⟨_, rfl, e2⟩, fun _ h => (nomatch h)⟩ hno
      | some a =>
        rw [hop] at hio happ hpart1
        cases ho : columnOf o c with
        | none => rw [ho] at hio; exact hio.elim
        | some b0 =>
          rw [ho] at hio happ hpart1
          obtain ⟨hio1, hio2⟩ := hio
          -- the columns
          obtain ⟨xa, hxa, exa, rfl⟩ := columnOf_find hop
          obtain ⟨xa', hxa', exa', rfl⟩ := columnOf_find htp
          obtain ⟨xb0, hxb0, exb0, rfl⟩ := columnOf_find ho
          obtain ⟨xb1, hxb1, exb1, rfl⟩ := columnOf_find ht
          have hdec : ∀ {o t : Table} {td : TableDiff}, diffLists o.columns t.columns buildColumnDiff = .ok td.columnsDiff →
              (t.columns.map (·.name)).Nodup → ∀ {x y : Column}, x ∈ o.columns → y ∈ t.columns → x.name = c → y.name = c →
              (∃ cd ∈ td.columnsDiff.alters, cd.old = x ∧ cd.new = y) ∧ c ∉ td.columnsDiff.adds.map (·.name) := by
            intro o t td hcols hu x y hx hy ex ey
            obtain ⟨dec, _, _, _, n4, _, _⟩ := diffLists_decision hcols hu (key := fun cd => cd.new.name)
              (fun o x j i d _ hb => by cases hb; rfl) c
            cases dec with
            | absent h1 h2 => exact absurd (List.mem_map.mpr ⟨x, hx, ex⟩) h1
            | dropped _ _ _ h2 _ => exact absurd (List.mem_map.mpr ⟨y, hy, ey⟩) h2
            | added _ _ _ h1 _ => exact absurd (List.mem_map.mpr ⟨x, hx, ex⟩) h1
            | recreated _ _ _ _ _ _ hb' _ _ => obtain ⟨_, _, _, hb'⟩ := hb'; cases hb'
            | altered x' y' cd hx' hy' ex' ey' hb' hcd =>
              obtain ⟨_, _, hb'⟩ := hb'
              have e1 : x' = x := List.inj_on_of_nodup_map (diffLists_old_nodup hcols) hx' hx (ex'.trans ex.symm)
              have e2 : y' = y := List.inj_on_of_nodup_map hu hy' hy (ey'.trans ey.symm)
              subst e1 e2
              cases hb'
              exact ⟨⟨_, hcd, rfl, rfl⟩, fun h => n4 h (List.mem_map.mpr ⟨_, hcd, ey⟩)⟩
          obtain ⟨⟨cdp0, hcdp0, op0, np0⟩, hnadd⟩ := hdec hcp hup hxa hxa' exa exa'
          obtain ⟨⟨cdn0, hcdn0, on0, nn0⟩, _⟩ := hdec hcn hk.names hxb0 hxb1 exb0 exb1
          obtain ⟨cdp, hcdp, op1, np1⟩ := mem_orderIf_columns opts hcdp0
          obtain ⟨cdn, hcdn, on1, nn1⟩ := mem_orderIf_columns opts hcdn0
          replace op1 := op1.trans op0
          replace np1 := np1.trans np0
          replace on1 := on1.trans on0
          replace nn1 := nn1.trans nn0
          have hpnodup : ((orderIf opts tdp).columnsDiff.alters.map fun cd => cd.new.name).Nodup := by
            rw [orderIf_column_names]
            exact (columnsDiff_alters hcp).2.nodup hup
          have hcov := coveredByParent_eq hpnodup hcdp (cd := cdn) (by rw [np1, nn1, exa', exb1])
          rw [op1, np1, nn1] at hcov
          -- the second part
          have hpart2 : ∀ b' : ColState, b'.identity = none →
              runPair pg tp.name.fq t.name.fq c (some (.of xa'), some b')
                (stmts.filter fun s => s.ddl.onSlots t.name.fq) = some (some (.of xa'), some { b' with
                  nullable := if xb0.isNullable = xb1.isNullable ∨ (xb1.isNullable = xa'.isNullable ∧
                    xa'.isNullable ≠ xa.isNullable) then b'.nullable else xb1.isNullable }) := by
            intro b' hb'
            rw [hfn, hN]
            obtain ⟨A, B, hAB⟩ := List.append_of_mem hcdn
            rw [hAB] at hnodup ⊢
            have hnA : ∀ cd ∈ A, cd.new.name ≠ c := by
              intro cd hcd e
              rw [List.map_append, List.nodup_append] at hnodup
              exact hnodup.2.2 _ (List.mem_map.mpr ⟨cd, hcd, e⟩) _
                (List.mem_map.mpr ⟨cdn, List.mem_cons_self, by rw [nn1]; exact exb1⟩) rfl
            have hnB : ∀ cd ∈ B, cd.new.name ≠ c := by
              intro cd hcd e
              rw [List.map_append, List.nodup_append, List.map_cons, List.nodup_cons] at hnodup
              exact hnodup.2.1.1 (List.mem_map.mpr ⟨cd, hcd, by rw [nn1, exb1]; exact e⟩)
            have hA := pair_other (pg := pg) (p := tp.name.fq) (c := c) (t := t.name)
              (m := diffByName (orderIf opts tdp).columnsDiff.alters) rfl hk.ne hnA (some (.of xa'), some b')
            have hC := pair_column (pg := pg) (p := tp.name.fq) (c := c) (t := t.name)
              (m := diffByName (orderIf opts tdp).columnsDiff.alters) rfl hk.ne (cd := cdn) (by rw [nn1]; exact exb1)
              (a := .of xa') (b := b') (by
                intro hi
                rw [nn1]
                obtain ⟨i, hi⟩ := Option.isSome_iff_exists.mp hi
                exact hin2 ((hokn xa' hxa').identity i hi).1) hb' (by
                intro h
                rw [nn1] at h
                refine eq_true_of_ne_false fun h' => ?_
                have h2 : xb1.isNullable = false := hin2 h'
                rw [h2] at h; cases h)
            have hB := pair_other (pg := pg) (p := tp.name.fq) (c := c) (t := t.name)
              (m := diffByName (orderIf opts tdp).columnsDiff.alters) rfl hk.ne hnB (some (.of xa'), some { b' with
                  nullable := if xb0.isNullable = xb1.isNullable ∨ (xb1.isNullable = xa'.isNullable ∧
                    xa'.isNullable ≠ xa.isNullable) then b'.nullable else xb1.isNullable })
            simp only [hcov, on1, nn1] at hC
            unfold runPair at hA hB hC ⊢
            rw [List.flatMap_append, List.flatMap_cons, runWith_append, hA, Option.bind_some, runWith_append, hC,
              Option.bind_some, hB]
          by_cases hsame : xa.isNullable = xa'.isNullable
          · obtain ⟨y, h1, h2⟩ := hpart1 (fun _ w => w = xb0.isNullable) (by
              rintro (⟨x, hx, e⟩ | ⟨cd, hcd, e, hne⟩)
              · exact absurd (List.mem_map.mpr ⟨x, hx, e⟩) hnadd
              · exfalso
                obtain ⟨z1, z2, z3⟩ := (columnsDiff_alters hcp).1 cd hcd
                have y1 : cd.old = xa := List.inj_on_of_nodup_map hoop z1 hxa ((z3.trans e).trans exa.symm)
                have y2 : cd.new = xa' := List.inj_on_of_nodup_map hup z2 hxa' (e.trans exa'.symm)
                rw [y1, y2] at hne
                exact hne hsame) ⟨hio1, hio2, rfl⟩
            cases y with
            | none => exact h2.elim
            | some b' =>
              obtain ⟨k1, k2, k3⟩ := h2
              refine ⟨_, happ _ _ h1 (hpart2 b' (by rw [k1])), fun _ => ?_, ?_⟩
              · have e : (if xb0.isNullable = xb1.isNullable ∨ (xb1.isNullable = xa'.isNullable ∧
                    xa'.isNullable ≠ xa.isNullable) then b'.nullable else xb1.isNullable) = xb1.isNullable := by
                  split
                  · rename_i h
                    rcases h with h | h
                    · rw [k3, h]
                    · exact absurd hsame.symm h.2
                  · rfl
                rw [e]
                rw [k1, hin1]
                rfl
              · rintro ⟨⟨_, e1, e2⟩, _, e3⟩
                cases e1
                have := e3 _ rfl
                simp only [ColState.of] at this e2
                rw [hsame, e2] at this
                cases this
          · obtain ⟨y, h1, h2⟩ := hpart1 (fun v w => v = xa'.isNullable → w = xa'.isNullable) (fun _ _ h => h)
              ⟨hio1, hio2, fun h => absurd h hsame⟩
            cases y with
            | none => exact h2.elim
            | some b' =>
              obtain ⟨k1, k2, k3⟩ := h2
              have k3 : b'.nullable = xa'.isNullable := k3 rfl
              obtain rfl := close k1 k3.symm
              refine ⟨_, happ _ _ h1 (hpart2 _ rfl), fun hno => ?_, ?_⟩
              · have e : (if xb0.isNullable = xb1.isNullable ∨ (xb1.isNullable = xa'.isNullable ∧
                    xa'.isNullable ≠ xa.isNullable) then (ColState.of xa').nullable else xb1.isNullable) = xb1.isNullable := by
                  split
                  · show xa'.isNullable = xb1.isNullable
                    cases e1 : xa'.isNullable with
                    | false => exact (hin2 e1).symm
                    | true =>
                      cases e2 : xb1.isNullable with
                      | true => rfl
                      | false =>
                        refine absurd ⟨⟨_, rfl, e1⟩, ⟨_, rfl, e2⟩, fun z hz => ?_⟩ hno
                        cases hz
                        show xa.isNullable = false
                        cases e3 : xa.isNullable with
                        | false => rfl
                        | true => rw [e1, e3] at hsame; exact absurd rfl hsame
                  · rfl
                rw [e, hin1]
                rfl
              · rintro ⟨⟨_, e1, e2⟩, ⟨_, e3, e4⟩, e5⟩
                cases e1
                cases e3
                have e6 : xa.isNullable = false := e5 _ rfl
                have e7 : xb0.isNullable = false := hio2 e6
                have e8 : xb1.isNullable = false := e4
                rw [if_pos (Or.inl (e7.trans e8.symm))]
                rfl

theorem partKept_normalize {pg : Pg} {op tp o t : Table} (hk : PartKept pg old new op tp o t) :
    PartKept pg old.normalize new.normalize (normalizeTable op) (normalizeTable tp) (normalizeTable o) (normalizeTable t) where
  oldParent := mem_normalize_tables_of hk.oldParent
  newParent := mem_normalize_tables_of hk.newParent
  oldPart := mem_normalize_tables_of hk.oldPart
  newPart := mem_normalize_tables_of hk.newPart
  parentName := hk.parentName
  partName := hk.partName
  ne := hk.ne
  root := hk.root
  attached := hk.attached
  oldAttached := hk.oldAttached
  parentKey := hk.parentKey
  partKey := hk.partKey
  plannable := columnsPlannable_normalize hk.plannable
  names := hk.names
  oldInherits := hk.oldInherits
  newInherits := hk.newInherits

/-- **C89**: the columns of partitions follow those of their table.  Take a table and one of its partitions, both in both
schemas, and a column name.  Running the plan accepts every statement about the columns of either, and ends with the column
of the table and that of the partition as the target has them.  Missing: `OwnNotNull`, a column that is NOT NULL in the
partition alone and that the table did not have or had as NOT NULL; partitions with defaults of their own (`Inherits`);
partitions of partitions.  Partitions that are added are in C71 and C90. -/
theorem C89_partition_columns_converge_partial (h : generateMigrationStatements r old new opts = .ok (stmts, r'))
    (hn : NamesUnique new.tables) {pg : Pg} {op tp o t : Table} (hk : PartKept pg old new op tp o t) (c : String)
    (hno : ¬ OwnNotNull (columnOf op c) (columnOf tp c) (columnOf t c)) :
    runPair pg tp.name.fq t.name.fq c (columnOf op c, columnOf o c) stmts = some (columnOf tp c, columnOf t c) := by
  obtain ⟨d, ⟨dr⟩, ⟨run⟩⟩ := plan_runs h
  obtain ⟨y, h1, h2, _⟩ := part_columns dr run (normalize_tables_nodup hn) (partKept_normalize hk) c
  rw [h2 hno] at h1
  exact h1

/-- **C89** fails whenever the target has a column that is NOT NULL in a partition and nullable in its table, if the table
did not have the column or had it as NOT NULL: the column of the partition ends as nullable as that of the table
(`alterPartition`, sql_generator.go:1063-1127, looks at columns the partition has in both schemas, and finds that nothing
changes, or finds nothing). -/
theorem C89_own_not_null_violated (h : generateMigrationStatements r old new opts = .ok (stmts, r'))
    (hn : NamesUnique new.tables) {pg : Pg} {op tp o t : Table} (hk : PartKept pg old new op tp o t) (c : String)
    (hown : OwnNotNull (columnOf op c) (columnOf tp c) (columnOf t c)) :
    runPair pg tp.name.fq t.name.fq c (columnOf op c, columnOf o c) stmts = some (columnOf tp c, asPart (columnOf tp c)) ∧
      asPart (columnOf tp c) ≠ columnOf t c := by
  obtain ⟨d, ⟨dr⟩, ⟨run⟩⟩ := plan_runs h
  obtain ⟨y, h1, _, h2⟩ := part_columns dr run (normalize_tables_nodup hn) (partKept_normalize hk) c
  rw [h2 hown] at h1
  refine ⟨h1, fun e => ?_⟩
  obtain ⟨⟨a, ea, ha⟩, ⟨b, eb, hb⟩, _⟩ := hown
  rw [ea, eb] at e
  cases e
  exact absurd (ha.symm.trans hb) (by simp)

end

namespace Samples

/-- checks `PartKept` -/
def partChecked (old new : Schema) (op tp o t : Table) : Bool :=
  decide (op ∈ old.tables ∧ tp ∈ new.tables ∧ o ∈ old.tables ∧ t ∈ new.tables ∧ op.name = tp.name ∧ o.name = t.name ∧
    t.name.fq ≠ tp.name.fq ∧ tp.parentTable = none ∧ t.parentTable = some tp.name ∧ o.parentTable = t.parentTable ∧
    op.partitionKeyDef = tp.partitionKeyDef ∧ o.partitionKeyDef = t.partitionKeyDef ∧ (t.columns.map (·.name)).Nodup) &&
  columnsChecked { old with tables := old.tables.filter fun x => x.name.fq = tp.name.fq }
    { new with tables := new.tables.filter fun x => x.name.fq = tp.name.fq } &&
  decide (op.columns.map (·.name) = o.columns.map (·.name) ∧ tp.columns.map (·.name) = t.columns.map (·.name) ∧
    (∀ c ∈ op.columns.map Column.name, Inherits (columnOf op c) (columnOf o c)) ∧
    ∀ c ∈ tp.columns.map Column.name, Inherits (columnOf tp c) (columnOf t c))

theorem inherits_of {p t : Table} (h : p.columns.map (·.name) = t.columns.map (·.name))
    (h' : ∀ c ∈ p.columns.map (·.name), Inherits (columnOf p c) (columnOf t c)) (c : String) :
    Inherits (columnOf p c) (columnOf t c) := by
  by_cases hc : c ∈ p.columns.map (·.name)
  · exact h' c hc
  · rw [columnOf_none hc, columnOf_none (h ▸ hc)]
    trivial

theorem partKept_of {old new : Schema} {op tp o t : Table} (h : partChecked old new op tp o t = true) :
    PartKept pg old new op tp o t := by
  obtain ⟨h, h3⟩ := Bool.and_eq_true_iff.mp h
  obtain ⟨h1, h2⟩ := Bool.and_eq_true_iff.mp h
  obtain ⟨a1, a2, a3, a4, a5, a6, a7, a8, a9, a10, a11, a12, a13⟩ := of_decide_eq_true h1
  obtain ⟨b1, b2, b3, b4⟩ := of_decide_eq_true h3
  have hp := columnsPlannable_of h2 tp.name.fq
  have mem : ∀ {l : List Table} {x : Table}, x ∈ l → x.name.fq = tp.name.fq →
      x ∈ l.filter fun x => x.name.fq = tp.name.fq := fun h e => List.mem_filter.mpr ⟨h, decide_eq_true e⟩
  exact ⟨a1, a2, a3, a4, a5, a6, a7, a8, a9, a10, a11, a12, ⟨fun o h e => hp.oldRoot o (mem h e) e, fun o h e => hp.names o (mem h e) e, fun o h e => hp.oldOk o (mem h e) e,
    fun o h e => hp.newOk o (mem h e) e, fun o h t h' e e' => hp.kept o (mem h e) t (mem h' e') e e'⟩, a13,
    inherits_of b1 b3, inherits_of b2 b4⟩

def notNull (c : Column) : Column := { c with isNullable := false }

/-- the table and its partition, before: `k` is NOT NULL in both, `w` in the partition alone -/
def oldFollow : Table × Table :=
  (parent "p" [notNull (col "k" "integer"), col "x" "integer", { col "y" "integer" with default := "1" }, col "w" "integer",
    col "z" "integer"] "LIST (k)",
   partition "p1" "p" [notNull (col "k" "integer"), col "x" "integer", { col "y" "integer" with default := "1" },
    notNull (col "w" "integer"), col "z" "integer"] "FOR VALUES IN (1)")

/-- after: `k` is an identity column (of the table), `x` changes its type and is NOT NULL in the partition alone, `y` is NOT NULL in both and loses its default, `w` is
nullable in both, `z` is gone, `v` is new -/
def newFollow : Table × Table :=
  (parent "p" [{ notNull (col "k" "integer") with identity := some intIdentity }, col "x" "bigint",
    notNull (col "y" "integer"), col "w" "integer", notNull { col "v" "integer" with default := "7" }] "LIST (k)",
   partition "p1" "p" [notNull (col "k" "integer"), notNull (col "x" "bigint"), notNull (col "y" "integer"),
    col "w" "integer", notNull { col "v" "integer" with default := "7" }] "FOR VALUES IN (1)")

/-- `x` is to be NOT NULL in the partition alone, and is NOT NULL in both; `v` is new, and NOT NULL in the partition alone -/
def oldOwn : Table × Table :=
  (parent "p" [notNull (col "k" "integer"), notNull (col "x" "integer")] "LIST (k)",
   partition "p1" "p" [notNull (col "k" "integer"), notNull (col "x" "integer")] "FOR VALUES IN (1)")

def newOwn : Table × Table :=
  (parent "p" [notNull (col "k" "integer"), col "x" "integer", col "v" "integer"] "LIST (k)",
   partition "p1" "p" [notNull (col "k" "integer"), notNull (col "x" "integer"), notNull (col "v" "integer")]
    "FOR VALUES IN (1)")

def schemaOf (x : Table × Table) : Schema := { Schema.empty with tables := [x.1, x.2] }

/-- a default of the partition alone -/
def withDefault (e : String) : Table × Table :=
  (parent "p" [col "k" "integer", col "x" "integer"] "LIST (k)",
   partition "p1" "p" [col "k" "integer", { col "x" "integer" with default := e }] "FOR VALUES IN (1)")

end Samples

open Samples

/-- `C89_partition_columns_converge_partial` is not vacuous: a column of the table that becomes an identity column, one that changes its type in both and becomes NOT NULL in
the partition alone, one that becomes NOT NULL in both, one that is nullable again in the partition, one added, one dropped -/
example : NamesUnique (schemaOf newFollow).tables ∧
    PartKept pg (schemaOf oldFollow) (schemaOf newFollow) oldFollow.1 newFollow.1 oldFollow.2 newFollow.2 ∧
    (∀ c ∈ ["k", "x", "y", "w", "z", "v"],
      ¬ OwnNotNull (columnOf oldFollow.1 c) (columnOf newFollow.1 c) (columnOf newFollow.2 c)) ∧
    ∃ stmts r', generateMigrationStatements Samples.rand (schemaOf oldFollow) (schemaOf newFollow) opts = .ok (stmts, r') ∧
      stmts.length = 12 ∧
      (stmts.any fun s : Statement => s.ddl.render = "ALTER TABLE \"public\".\"p1\" ALTER COLUMN \"x\" SET NOT NULL") ∧
      (stmts.any fun s : Statement => s.ddl.render = "ALTER TABLE \"public\".\"p1\" ALTER COLUMN \"w\" DROP NOT NULL") := by
  refine ⟨by unfold NamesUnique; decide +kernel, partKept_of (by decide +kernel), ?_,
    exists_plan (P := fun stmts => stmts.length = 12 ∧
      (stmts.any fun s : Statement => s.ddl.render = "ALTER TABLE \"public\".\"p1\" ALTER COLUMN \"x\" SET NOT NULL") ∧
      (stmts.any fun s : Statement => s.ddl.render = "ALTER TABLE \"public\".\"p1\" ALTER COLUMN \"w\" DROP NOT NULL"))
      (by decide +kernel)⟩
  have key : ∀ {a b c : Option ColState}, (b.all fun x => !x.nullable) = true ∨ (c.all fun x => x.nullable) = true ∨
      (a.any fun x => x.nullable) = true → ¬ OwnNotNull a b c := by
    rintro a b c h ⟨⟨x, rfl, hx⟩, ⟨y, rfl, hy⟩, hz⟩
    rcases h with h | h | h
    · simp [hx] at h
    · simp [hy] at h
    · cases a with
      | none => cases h
      | some z => rw [Option.any_some, hz z rfl] at h; cases h
  intro c hc
  refine key ?_
  revert c
  decide +kernel

/-- `C89_own_not_null_violated` is not vacuous: a column that is NOT NULL and is to be so in the partition alone, and one that
is added so -/
example : NamesUnique (schemaOf newOwn).tables ∧
    PartKept pg (schemaOf oldOwn) (schemaOf newOwn) oldOwn.1 newOwn.1 oldOwn.2 newOwn.2 ∧
    (∀ c ∈ ["x", "v"], OwnNotNull (columnOf oldOwn.1 c) (columnOf newOwn.1 c) (columnOf newOwn.2 c)) ∧
    ∃ stmts r', generateMigrationStatements Samples.rand (schemaOf oldOwn) (schemaOf newOwn) opts = .ok (stmts, r') ∧
      stmts.map (fun s : Statement => s.ddl.render) = ["ALTER TABLE \"public\".\"p\" ADD COLUMN \"v\" integer",
        "ALTER TABLE \"public\".\"p\" ALTER COLUMN \"x\" DROP NOT NULL"] := by
  refine ⟨by unfold NamesUnique; decide +kernel, partKept_of (by decide +kernel), ?_,
    exists_plan (P := fun stmts => stmts.map (fun s : Statement => s.ddl.render) =
      ["ALTER TABLE \"public\".\"p\" ADD COLUMN \"v\" integer",
        "ALTER TABLE \"public\".\"p\" ALTER COLUMN \"x\" DROP NOT NULL"]) (by decide +kernel)⟩
  have key : ∀ {a b c : Option ColState}, (b.any fun x => x.nullable) = true ∧ (c.any fun x => !x.nullable) = true ∧
      (a.all fun x => !x.nullable) = true → OwnNotNull a b c := by
    rintro a b c ⟨h1, h2, h3⟩
    cases b with
    | none => cases h1
    | some x =>
      cases c with
      | none => cases h2
      | some y =>
        refine ⟨⟨x, rfl, h1⟩, ⟨y, rfl, by simpa using h2⟩, ?_⟩
        rintro z rfl
        simpa using h3
  intro c hc
  refine key ?_
  revert c
  decide +kernel

/-- **C89** fails for defaults: the default that a partition has beside that of its table changes, and the plan is empty
(`alterPartition`, sql_generator.go:1063-1127, does not look at defaults). -/
theorem C89_own_default_violated : ∃ old new : Schema, NamesUnique new.tables ∧ ∃ op ∈ old.tables, ∃ tp ∈ new.tables,
    ∃ o ∈ old.tables, ∃ t ∈ new.tables, op = tp ∧ o.name = t.name ∧ t.parentTable = some tp.name ∧
      o.parentTable = t.parentTable ∧ t.name.fq ≠ tp.name.fq ∧
      (∀ pg : Pg, ∀ x ∈ o.columns ++ t.columns, x.default ≠ "" → x.identity = none ∧ x.isGenerated = false ∧
        (alterColumn pg (.of x) (.setDefault "2")).isSome) ∧
      ∃ stmts r', generateMigrationStatements Samples.rand old new opts = .ok (stmts, r') ∧ ∀ pg,
        runPair pg tp.name.fq t.name.fq "x" (columnOf op "x", columnOf o "x") stmts = some (columnOf tp "x", columnOf o "x") ∧
        columnOf o "x" ≠ columnOf t "x" := by
  refine ⟨schemaOf (withDefault "1"), schemaOf (withDefault "2"), by unfold NamesUnique; decide +kernel,
    (withDefault "1").1, by decide +kernel, (withDefault "2").1, by decide +kernel,
    (withDefault "1").2, by decide +kernel, (withDefault "2").2, by decide +kernel, rfl, rfl, rfl, rfl, by decide +kernel, ?_, ?_⟩
  · intro pg x hx hd
    have h : ∀ x ∈ (withDefault "1").2.columns ++ (withDefault "2").2.columns, x.identity = none ∧ x.isGenerated = false := by
      decide +kernel
    obtain ⟨h1, h2⟩ := h x hx
    exact ⟨h1, h2, by simp [alterColumn, ColState.of, h1, h2]⟩
  · obtain ⟨stmts, r', h, e⟩ := exists_plan (r := Samples.rand) (old := schemaOf (withDefault "1"))
      (new := schemaOf (withDefault "2")) (opts := opts) (P := fun stmts => stmts = []) (by decide +kernel)
    subst e
    exact ⟨[], r', h, fun pg => ⟨rfl, by decide +kernel⟩⟩

end Verif
