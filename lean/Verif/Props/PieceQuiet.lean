import Verif.Spec.PieceQuiet
import Verif.Props.ColumnQuiet

/-!
# C108: policies, privileges and check constraints are touched only in what changes
-/

namespace Verif

open Spec

section
variable {opts : PlanOptions} {old new : Schema} {d : SchemaDiff} {r r' : Rand} {stmts : List Statement}

/-- what is in both lists is added or deleted only if it is recreated -/
theorem remade_of_listed {S : Type} [Obj S] {os xs : List S} {b : S → S → Nat → Nat → Except Err (OldNew S × Bool)}
    {l : ListDiff S (OldNew S)} (h : diffLists os xs b = .ok l) (hn : (xs.map Obj.getName).Nodup)
    (hb : ∀ o x i j p, b o x i j = .ok (p, false) → p = ⟨o, x⟩) {o x : S} (ho : o ∈ os) (hx : x ∈ xs)
    (e : Obj.getName o = Obj.getName x) {y : S} (hy : y ∈ l.adds ∨ y ∈ l.deletes) (ey : Obj.getName y = Obj.getName x) :
    ∃ i j p, b o x i j = .ok (p, true) := by
  have hO := diffLists_old_nodup h
  obtain ⟨dec, _, _, _, k1, k2, _⟩ := diffLists_decision h hn (key := fun p : OldNew S => Obj.getName p.new)
    (fun o x j i p _ hp => by rw [hb o x j i p hp]) (Obj.getName x)
  cases dec with
  | absent _ h => exact absurd (List.mem_map.mpr ⟨_, hx, rfl⟩) h
  | dropped _ _ _ h _ => exact absurd (List.mem_map.mpr ⟨_, hx, rfl⟩) h
  | added _ _ _ h _ => exact absurd (List.mem_map.mpr ⟨_, ho, e⟩) h
  | recreated o1 x1 h1 h2 e1 e2 hr _ _ =>
    obtain rfl := List.inj_on_of_nodup_map hO h1 ho (e1.trans e.symm)
    obtain rfl := List.inj_on_of_nodup_map hn h2 hx e2
    obtain ⟨i, j, p, hp⟩ := hr
    exact ⟨j, i, p, hp⟩
  | altered o1 x1 p h1 h2 e1 e2 hp h3 =>
    obtain ⟨i, j, hp⟩ := hp
    have : Obj.getName x ∈ l.alters.map fun p : OldNew S => Obj.getName p.new :=
      List.mem_map.mpr ⟨p, h3, by rw [hb _ _ _ _ _ hp]; exact e2⟩
    rcases hy with hy | hy
    · exact absurd this (k1 (List.mem_map.mpr ⟨y, hy, ey⟩))
    · exact absurd this (k2 (List.mem_map.mpr ⟨y, hy, ey⟩))

/-- the difference of a table that stays -/
theorem stays_diff (dr : DiffRun opts old.normalize new.normalize d) (ht : NamesUnique new.tables) {o x : Table}
    (ho : o ∈ old.tables) (hx : x ∈ new.tables) (e : o.name.fq = x.name.fq) {td : TableDiff} (hm : td ∈ d.tableDiffs.alters)
    (en : td.new.name.fq = x.name.fq) :
    ∃ td0 i j, td = orderIf opts td0 ∧ buildTableDiff (normalizeTable o) (normalizeTable x) i j = .ok (td0, false) := by
  obtain ⟨td0, _, rfl, i, j, g1, g2, g3, g4⟩ := dr.altered hm
  rw [orderIf_new] at g1 g3 g4 en
  rw [orderIf_old] at g2 g3 g4
  have hn : td0.new = normalizeTable x := List.inj_on_of_nodup_map (normalize_tables_nodup ht) (List.mem_of_getElem? g1)
    (mem_normalize_tables_of hx) en
  have hold : td0.old = normalizeTable o := List.inj_on_of_nodup_map (diffLists_old_nodup dr.htd0) (List.mem_of_getElem? g2)
    (mem_normalize_tables_of ho) (g3.trans (en.trans e.symm))
  rw [hn, hold] at g4
  exact ⟨td0, _, _, rfl, g4⟩

/-- a table that stays is not made -/
theorem stays_not_added (dr : DiffRun opts old.normalize new.normalize d) (ht : NamesUnique new.tables) {o x : Table}
    (ho : o ∈ old.tables) (hx : x ∈ new.tables) (e : o.name.fq = x.name.fq) (hp : o.isPartitioned = x.isPartitioned)
    (hq : o.parentTable = x.parentTable) {t : Table} (hm : t ∈ d.tableDiffs.adds) : t.name.fq ≠ x.name.fq := by
  intro en
  have h1 : (byName dr.td0.adds).has x.name.fq = true := by
    rw [byName_has, ← dr.addNames]
    exact List.mem_map.mpr ⟨t, hm, en⟩
  obtain ⟨b, hb, e1, h2⟩ := (comes_iff dr ht).mp h1
  obtain rfl : b = x := List.inj_on_of_nodup_map ht hb hx e1
  rcases h2 o ho e with h | h
  · exact h hp
  · exact h hq

/-- a policy that differs only in what can be altered is not made again -/
theorem PolicyGen.remade {g : PolicyGen} {o x : Policy} {e : Err} (hn : o.escapedName = x.escapedName)
    (h : g.gen.alter ⟨o, x⟩ = .error e) (hi : e.isNotImplemented = true) : PolicyRemade o x := by
  have h' : (do
      let statements ← g.alter ⟨o, x⟩
      let deps ← g.addAlterDeps x o
      return (⟨[⟨g.vertexId x .addAlter, .sooner, statements⟩], deps⟩ : PartialGraph Statement)) = .error e := h
  cases ha : g.alter ⟨o, x⟩ with
  | error e1 =>
    by_contra hc
    unfold PolicyRemade at hc
    push Not at hc
    obtain ⟨c1, c2, c3, c4⟩ := hc
    unfold PolicyGen.alter at ha
    dsimp only at ha
    rw [if_neg] at ha
    · split at ha <;> cases ha
    · rw [not_not]
      obtain ⟨on, op, oa, oc, ok, ou, ol⟩ := o
      obtain ⟨xn, xp, xa, xc, xk, xu, xl⟩ := x
      dsimp only at hn c1 c2 c3 c4 ⊢
      subst hn c1 c2
      simp only [Policy.mk.injEq, true_and, and_true]
      refine ⟨?_, ?_, ?_⟩
      · split
        · rfl
        · rename_i h; exact not_not.mp h
      · by_cases h : ok = xk
        · simp [h]
        · rw [if_pos ⟨h, fun h' => c4 (fun h0 => h (h0.trans h'.symm)) h'⟩]
      · by_cases h : ou = xu
        · simp [h]
        · rw [if_pos ⟨h, fun h' => c3 (fun h0 => h (h0.trans h'.symm)) h'⟩]
  | ok l =>
    rw [ha] at h'
    cases hd : g.addAlterDeps x o with
    | ok ds => rw [hd] at h'; cases h'
    | error e' =>
      rw [hd] at h'
      cases h'
      have : e.isNotImplemented = false := by
        unfold PolicyGen.addAlterDeps at hd
        cases h1 : getTargetColumns x.columns g.newSchemaColumnsByName with
        | error e1 => rw [h1] at hd; cases hd; exact getTargetColumns_error h1
        | ok l =>
          rw [h1] at hd
          dsimp only [bind, Except.bind] at hd
          split at hd
          · cases hd
          · cases h2 : getTargetColumns o.columns g.oldSchemaColumnsByName with
            | error e1 => rw [h2] at hd; cases hd; exact getTargetColumns_error h2
            | ok l => rw [h2] at hd; cases hd
      rw [this] at hi
      cases hi

/-- what altering a policy does -/
theorem PolicyGen.alter_justified {g : PolicyGen} {o x : Policy} {l : List Statement}
    (h : g.alter ⟨normalizePolicy o, normalizePolicy x⟩ = .ok l) {s : Statement} (hs : s ∈ l) (n k : String) :
    PolicyJustified n k o x s.ddl := by
  simp only [PolicyGen.alter, ite_error_ok] at h
  obtain ⟨he, h⟩ := h
  have he := not_not.mp he
  split at h
  · cases h; cases hs
  rename_i hc
  cases h
  rw [List.mem_singleton.mp hs]
  intro _ _
  refine ⟨?_, ?_, ?_, ?_, ?_⟩
  · have e1 := congrArg Policy.isPermissive he
    have e2 := congrArg Policy.cmd he
    have e3 := congrArg Policy.usingExpression he
    have e4 := congrArg Policy.checkExpression he
    dsimp only at e1 e2 e3 e4
    rintro (h | h | ⟨h1, h2⟩ | ⟨h1, h2⟩)
    · exact h e1
    · exact h e2
    · split at e3
      · rename_i h; exact h.2 h2
      · exact h1 (e3.trans h2)
    · split at e4
      · rename_i h; exact h.2 h2
      · exact h1 (e4.trans h2)
  · rintro ⟨h1, h2, h3⟩
    refine hc ⟨fun h => ?_, fun h => ?_, fun h => ?_⟩
    · rw [if_pos h] at h1; cases h1
    · rw [if_pos h] at h2; cases h2
    · rw [if_pos h] at h3; cases h3
  · intro v hv
    split at hv
    · rename_i h
      cases hv
      exact ⟨fun hp => h (sortStrings_eq_iff.mpr hp), sortBy_perm _ _⟩
    · cases hv
  · intro v hv
    split at hv
    · rename_i h
      cases hv
      exact ⟨h.1, rfl⟩
    · cases hv
  · intro v hv
    split at hv
    · rename_i h
      cases hv
      exact ⟨h.1, rfl⟩
    · cases hv

/-- the policies of a table, normalized -/
theorem normalize_policies_nodup {t : Table} (h : NamesUnique t.policies) :
    ((normalizeTable t).policies.map Obj.getName).Nodup :=
  (map_normalize_names (f := normalizePolicy) fun _ => rfl).nodup_iff.mpr h

/-- the check constraints of a table, normalized -/
theorem normalize_checks_nodup {t : Table} (h : NamesUnique t.checkConstraints) :
    ((normalizeTable t).checkConstraints.map Obj.getName).Nodup :=
  (map_normalize_names (f := normalizeCheckConstraint) fun _ => rfl).nodup_iff.mpr h

theorem buildPolicyDiffs_fun {g : PolicyGen} {o x : Policy} {p : OldNew Policy} {b : Bool}
    (h : (match g.gen.alter ⟨o, x⟩ with
      | .ok _ => (.ok (⟨o, x⟩, false) : Except Err (OldNew Policy × Bool))
      | .error e => if e.isNotImplemented then .ok (⟨o, x⟩, true) else .error e) = .ok (p, b)) :
    p = ⟨o, x⟩ ∧ (b = true → o.escapedName = x.escapedName → PolicyRemade o x) := by
  cases ha : g.gen.alter ⟨o, x⟩ with
  | ok l => rw [ha] at h; cases h; exact ⟨rfl, fun h => by cases h⟩
  | error e =>
    rw [ha] at h
    dsimp only at h
    split at h
    · rename_i hi
      cases h
      exact ⟨rfl, fun _ hn => PolicyGen.remade hn ha hi⟩
    · cases h

/-- where a statement of the vertex of a table comes from -/
theorem GraphOrigin.of_table {st : GenState} {id : VertexId} {s : Statement} (h : GraphOrigin opts d st id s) {nm : SQName}
    (hid : id = tableVertexId nm .addAlter) (hv : ∀ v, s.ddl ≠ .createView v) :
    (∃ t ∈ d.tableDiffs.adds, t.name.fq = nm.fq) ∨
    ∃ td ∈ d.tableDiffs.alters, td.new.name.fq = nm.fq ∧ TableAlterOrigin (SchemaGen.tableGen d) td s := by
  have name : ∀ {n : SQName}, tableVertexId n .addAlter = tableVertexId nm .addAlter → n.fq = nm.fq :=
    fun h => congrArg VertexId.objId h
  have other : ∀ {i : VertexId} {k : String} {P : Prop}, i = tableVertexId nm .addAlter → i.objType = k → k ≠ "table" → P :=
    fun h1 h2 h3 => absurd (h2.symm.trans (congrArg VertexId.objType h1)) h3
  cases h with
  | tableAdd t mem l h hs hid' => exact Or.inl ⟨t, mem, name (hid'.symm.trans hid)⟩
  | tableDelete t mem l h hs hid' => exact DiffType.noConfusion (congrArg VertexId.diffType (hid'.symm.trans hid))
  | tableAlter td mem h hid' hl => exact Or.inr ⟨td, mem, name (hid'.symm.trans hid), h⟩
  | viewAdd v mem h hid' => exact absurd (by rw [h]; rfl) (hv v)
  | index h => cases h <;> rename_i hid' <;> exact other (hid'.symm.trans hid) (k := "index") rfl (by decide)
  | fk h => cases h <;> rename_i hid' <;> exact other (hid'.symm.trans hid) (k := "fkconstraint") rfl (by decide)
  | sequence h => cases h <;> rename_i hid' <;> exact other (hid'.symm.trans hid) (k := "sequence") rfl (by decide)
  | ownership h => cases h <;> rename_i hid' <;> exact other (hid'.symm.trans hid) (k := "sequence_ownership") rfl (by decide)
  | function h => cases h <;> rename_i hid' <;> exact other (hid'.symm.trans hid) (k := "function") rfl (by decide)
  | trigger h => cases h <;> rename_i hid' <;> exact other (hid'.symm.trans hid) (k := "trigger") rfl (by decide)
  | attach t mem p hp h hid' => exact other (hid'.symm.trans hid) (k := "attachpartition") rfl (by decide)
  | rename i mem n h hid' => exact other (hid'.symm.trans hid) (k := "indexrename") rfl (by decide)
  | procedureAdd p h mem hid' => exact other (hid'.symm.trans hid) (k := "procedure") rfl (by decide)
  | procedureDelete p mem h hid' => exact other (hid'.symm.trans hid) (k := "procedure") rfl (by decide)
  | viewDelete v mem h hid' => exact other (hid'.symm.trans hid) (k := "view") rfl (by decide)
  | matViewAdd v mem h hid' => exact other (hid'.symm.trans hid) (k := "materialized_view") rfl (by decide)
  | matViewDelete v mem h hid' => exact other (hid'.symm.trans hid) (k := "materialized_view") rfl (by decide)

/-- a policy is altered by the generator of policies -/
theorem TableAlterOrigin.alterPolicy {g : TableGen} {td : TableDiff} {s : Statement} (h : TableAlterOrigin g td s) {t : SQName}
    {q : String} {a : Option (List String)} {b c : Option String} (hd : s.ddl = .alterPolicy t q a b c) :
    ∃ (psg : PolicyGen) (pd : OldNew Policy) (l : List Statement), pd ∈ td.policiesDiff.alters ∧ psg.alter pd = .ok l ∧ s ∈ l := by
  cases h with
  | disableRLS h => rw [h] at hd; cases hd
  | unforceRLS h => rw [h] at hd; cases hd
  | enableRLS h => rw [h] at hd; cases hd
  | forceRLS h => rw [h] at hd; cases hd
  | replica ty h => rw [h] at hd; cases hd
  | dropTemp temps ht c hc h => rw [h] at hd; cases hd
  | partition body h hs =>
    cases (TableAlterOrigin.partition body h hs).shape with
    | column cd h _ hs' => cases hs' <;> cases hd
    | alterPolicy pd mem a b c =>
      rw [(ListDiff.isEmpty_iff.mp (TableGen.alterPartition_empty h).2.1).2.2] at mem
      cases mem
    | _ => cases hd
  | column h =>
    cases h with
    | add o mem l h hs =>
      obtain ⟨def_, _, h⟩ := except_bind_ok.mp h
      cases h; rw [List.mem_singleton.mp hs] at hd; cases hd
    | delete o mem l h hs => cases h; rw [List.mem_singleton.mp hs] at hd; cases hd
    | alter o mem l h hs => cases ColumnGen.alter_shape h hs <;> cases hd
  | check temps ht h =>
    cases h with
    | add o mem l h hs =>
      rcases (CheckGen.add_ok h).2 with ⟨hv, rfl⟩ | ⟨hv, _, rfl⟩
      · rw [List.mem_singleton.mp hs] at hd; cases hd
      · simp only [List.mem_cons, List.not_mem_nil, or_false] at hs
        rcases hs with rfl | rfl <;> cases hd
    | delete o mem l h hs =>
      obtain ⟨_, rfl⟩ := CheckGen.delete_ok h
      rw [List.mem_singleton.mp hs] at hd; cases hd
    | alter o mem l h hs =>
      obtain ⟨_, _, _, rfl⟩ := CheckGen.alter_ok h
      split at hs
      · rw [List.mem_singleton.mp hs] at hd; cases hd
      · cases hs
  | policy psg hp h =>
    cases h with
    | add o mem l h hs =>
      obtain ⟨cmd, hcmd, h⟩ := except_bind_ok.mp h
      cases h; rw [List.mem_singleton.mp hs] at hd; cases hd
    | delete o mem l h hs => cases h; rw [List.mem_singleton.mp hs] at hd; cases hd
    | alter o mem l h hs => exact ⟨psg, o, l, mem, h, hs⟩
  | privilege h =>
    cases h with
    | add o mem l h hs => cases h; rw [List.mem_singleton.mp hs] at hd; cases hd
    | delete o mem l h hs => cases h; rw [List.mem_singleton.mp hs] at hd; cases hd
    | alter o mem l h hs => cases h; cases hs

/-- **C108.**  A policy in both schemas, on a table that stays, is made again only if it cannot be altered, and is altered only in the
roles and expressions that differ. -/
theorem C108_policies_altered_in_what_changes (h : generateMigrationStatements r old new opts = .ok (stmts, r'))
    (ht : NamesUnique new.tables) {o x : Table} (ho : o ∈ old.tables) (hx : x ∈ new.tables) (e : o.name.fq = x.name.fq)
    (hp : o.isPartitioned = x.isPartitioned) (hq : o.parentTable = x.parentTable) (hu : NamesUnique x.policies)
    {po px : Policy} (hpo : po ∈ o.policies) (hpx : px ∈ x.policies) (ep : po.escapedName = px.escapedName) :
    ∀ s ∈ stmts, PolicyJustified x.name.fq px.escapedName po px s.ddl := by
  obtain ⟨d, ⟨dr⟩, ⟨run⟩⟩ := plan_runs h
  intro s hs
  by_cases hout : s.ddl.IsOuter
  · cases hd : s.ddl <;> rw [hd] at hout <;> first | exact hout.elim | trivial
  have hpo' : normalizePolicy po ∈ (normalizeTable o).policies := List.mem_map_of_mem ((sortObjs_perm _).mem_iff.mpr hpo)
  have hpx' : normalizePolicy px ∈ (normalizeTable x).policies := List.mem_map_of_mem ((sortObjs_perm _).mem_iff.mpr hpx)
  have hN := normalize_policies_nodup hu
  have stays : ∀ {t : Table}, t ∈ d.tableDiffs.adds → t.name.fq ≠ x.name.fq := stays_not_added dr ht ho hx e hp hq
  have listed : ∀ {td : TableDiff} {y : Policy}, td ∈ d.tableDiffs.alters → td.new.name.fq = x.name.fq →
      (y ∈ td.policiesDiff.adds ∨ y ∈ td.policiesDiff.deletes) → y.escapedName = px.escapedName → PolicyRemade po px := by
    intro td y hm en hy ey
    obtain ⟨td0, i, j, rfl, hb⟩ := stays_diff dr ht ho hx e hm en
    obtain ⟨psg0, _, hpd⟩ := (buildTableDiff_ok hb).2.2.2.2.2.2.2.1
    rw [orderIf_policies] at hy
    obtain ⟨i, j, p, hp⟩ := remade_of_listed hpd hN (fun o x i j p hp => (buildPolicyDiffs_fun hp).1) hpo' hpx' ep hy ey
    exact (buildPolicyDiffs_fun hp).2 rfl ep
  obtain ⟨id, hor⟩ := run.mem_graph_origin hs hout
  cases hor.shape with
  | newTable t hm ccs hcc _ hs' hid =>
    cases hs' with
    | policy p h cmd hc => exact fun h1 => absurd h1 (stays hm)
    | _ => trivial
  | alterTable td hm _ hs' hid =>
    cases hs' with
    | column cd h _ hs' => cases hs' <;> trivial
    | createPolicy y mem cmd hcmd => exact fun h1 h2 => listed hm h1 (Or.inl mem) h2
    | dropPolicy y mem => exact fun h1 h2 => listed hm h1 (Or.inr mem) h2
    | alterPolicy pd mem a b c =>
      intro h1 h2
      rcases hor.of_table hid (fun v hv => by cases hv) with ⟨t, hm', e'⟩ | ⟨td', hm', e', hto⟩
      · exact absurd (e'.trans h1) (stays hm')
      obtain ⟨td0, i, j, rfl, hb⟩ := stays_diff dr ht ho hx e hm' (e'.trans h1)
      obtain ⟨psg0, _, hpd⟩ := (buildTableDiff_ok hb).2.2.2.2.2.2.2.1
      obtain ⟨psg, pd', l, mem', hl, hsl⟩ := hto.alterPolicy rfl
      rw [orderIf_policies] at mem'
      obtain ⟨i, y, j, z, k1, k2, k3, k4⟩ := diffLists_alters_mem hpd mem'
      obtain rfl := (buildPolicyDiffs_fun k4).1
      have ey : y.escapedName = px.escapedName := by
        obtain ⟨_, ⟨_, _, _, rfl⟩ | rfl⟩ := PolicyGen.alter_ok hl
        · cases hsl
        · have := congrArg Statement.ddl (List.mem_singleton.mp hsl)
          have := (Ddl.alterPolicy.inj this).2.1
          exact this.symm.trans h2
      obtain rfl : y = normalizePolicy px := List.inj_on_of_nodup_map hN (List.mem_of_getElem? k1) hpx' ey
      obtain rfl : z = normalizePolicy po :=
        List.inj_on_of_nodup_map (diffLists_old_nodup hpd) (List.mem_of_getElem? k2) hpo' (k3.trans ep.symm)
      exact PolicyGen.alter_justified hl hsl x.name.fq px.escapedName h1 h2
    | _ => trivial
  | _ => trivial

/-- **C108.**  A privilege in both schemas, on a table that stays, is granted or revoked only if the right to grant it on differs. -/
theorem C108_privileges_granted_when_changed (h : generateMigrationStatements r old new opts = .ok (stmts, r'))
    (ht : NamesUnique new.tables) {o x : Table} (ho : o ∈ old.tables) (hx : x ∈ new.tables) (e : o.name.fq = x.name.fq)
    (hp : o.isPartitioned = x.isPartitioned) (hq : o.parentTable = x.parentTable) (hu : NamesUnique x.privileges)
    {po px : TablePrivilege} (hpo : po ∈ o.privileges) (hpx : px ∈ x.privileges) (eg : po.grantee = px.grantee)
    (ep : po.privilege = px.privilege) : ∀ s ∈ stmts, PrivilegeJustified x.name.fq po px s.ddl := by
  obtain ⟨d, ⟨dr⟩, ⟨run⟩⟩ := plan_runs h
  intro s hs
  by_cases hout : s.ddl.IsOuter
  · cases hd : s.ddl <;> rw [hd] at hout <;> first | exact hout.elim | trivial
  have hpo' : po ∈ (normalizeTable o).privileges := (sortObjs_perm _).mem_iff.mpr hpo
  have hpx' : px ∈ (normalizeTable x).privileges := (sortObjs_perm _).mem_iff.mpr hpx
  have hN : ((normalizeTable x).privileges.map Obj.getName).Nodup := ((sortObjs_perm x.privileges).map _).nodup_iff.mpr hu
  have names : ∀ {y : TablePrivilege}, y.privilege = px.privilege → y.grantee = px.grantee → Obj.getName y = Obj.getName px := by
    intro y h1 h2
    show y.getName = px.getName
    unfold TablePrivilege.getName
    rw [h1, h2]
  have listed : ∀ {td : TableDiff} {y : TablePrivilege}, td ∈ d.tableDiffs.alters → td.new.name.fq = x.name.fq →
      (y ∈ td.privilegesDiff.adds ∨ y ∈ td.privilegesDiff.deletes) → y.privilege = px.privilege → y.grantee = px.grantee →
      po.isGrantable ≠ px.isGrantable := by
    intro td y hm en hy e1 e2
    obtain ⟨td0, i, j, rfl, hb⟩ := stays_diff dr ht ho hx e hm en
    have hpd := (buildTableDiff_ok hb).2.2.2.2.2.2.2.2
    rw [orderIf_privileges] at hy
    obtain ⟨i, j, p, hp⟩ := remade_of_listed hpd hN (fun o x i j p hp => by unfold buildPrivilegeDiff at hp; exact (congrArg Prod.fst (Except.ok.inj hp)).symm)
      hpo' hpx' (names ep eg) hy (names e1 e2)
    unfold buildPrivilegeDiff at hp
    have := congrArg Prod.snd (Except.ok.inj hp)
    exact of_decide_eq_true (p := po.isGrantable ≠ px.isGrantable) this
  obtain ⟨id, hsh⟩ := run.mem_shape hs hout
  cases hsh with
  | newTable t hm ccs hcc _ hs' hid =>
    cases hs' with
    | grant p h => exact fun h1 => absurd h1 (stays_not_added dr ht ho hx e hp hq hm)
    | _ => trivial
  | alterTable td hm _ hs' hid =>
    cases hs' with
    | column cd h _ hs' => cases hs' <;> trivial
    | grant y mem => exact fun h1 h2 h3 => listed hm h1 (Or.inl mem) h2 h3
    | revoke y mem => exact fun h1 h2 h3 => listed hm h1 (Or.inr mem) h2 h3
    | _ => trivial
  | _ => trivial

/-- **C108.**  A check constraint in both schemas, on a table that stays, is made again only if its expression or inheritance differs or
it is no longer to be valid.  Its name is not one the plan could choose for a temporary constraint. -/
theorem C108_checks_made_again_when_changed (h : generateMigrationStatements r old new opts = .ok (stmts, r'))
    (ht : NamesUnique new.tables) {o x : Table} (ho : o ∈ old.tables) (hx : x ∈ new.tables) (e : o.name.fq = x.name.fq)
    (hp : o.isPartitioned = x.isPartitioned) (hq : o.parentTable = x.parentTable) (hu : NamesUnique x.checkConstraints)
    {co cx : CheckConstraint} (hco : co ∈ o.checkConstraints) (hcx : cx ∈ x.checkConstraints) (ec : co.name = cx.name)
    (hnt : ∀ b, cx.name ≠ "pgschemadiff_tmpnn_" ++ b) : ∀ s ∈ stmts, CheckJustified x.name.fq co cx s.ddl := by
  obtain ⟨d, ⟨dr⟩, ⟨run⟩⟩ := plan_runs h
  intro s hs
  by_cases hout : s.ddl.IsOuter
  · cases hd : s.ddl <;> rw [hd] at hout <;> first | exact hout.elim | trivial
  have hco' : normalizeCheckConstraint co ∈ (normalizeTable o).checkConstraints :=
    List.mem_map_of_mem ((sortObjs_perm _).mem_iff.mpr hco)
  have hcx' : normalizeCheckConstraint cx ∈ (normalizeTable x).checkConstraints :=
    List.mem_map_of_mem ((sortObjs_perm _).mem_iff.mpr hcx)
  have hN := normalize_checks_nodup hu
  obtain ⟨id, hsh⟩ := run.mem_shape hs hout
  cases hsh with
  | newTable t hm ccs hcc _ hs' hid =>
    cases hs' with
    | check p h => exact fun h1 => absurd h1 (stays_not_added dr ht ho hx e hp hq hm)
    | _ => trivial
  | alterTable td hm _ hs' hid =>
    cases hs' with
    | column cd h _ hs' => cases hs' <;> trivial
    | addCheck temps hte c mem =>
      intro h1 h2
      rcases mem with mem | mem
      · obtain ⟨td0, i, j, rfl, hb⟩ := stays_diff dr ht ho hx e hm h1
        have hcd := (buildTableDiff_ok hb).2.2.2.2.2.2.1
        rw [orderIf_checks] at mem
        obtain ⟨i, j, p, hp⟩ := remade_of_listed hcd hN
          (fun o x i j p hp => by unfold buildCheckConstraintDiff at hp; exact (congrArg Prod.fst (Except.ok.inj hp)).symm)
          hco' hcx' ec (Or.inl mem) h2
        unfold buildCheckConstraintDiff at hp
        have := congrArg Prod.snd (Except.ok.inj hp)
        simp only [Bool.or_eq_true, decide_eq_true_eq, Bool.and_eq_true, Bool.not_eq_true'] at this
        rcases this with (h | h) | h
        · exact Or.inl h
        · exact Or.inr (Or.inl h)
        · exact Or.inr (Or.inr h)
      · obtain ⟨_, _, ⟨b, hb⟩, _⟩ := forall₂_right (tempConstraints_ok hte) mem
        refine absurd ?_ (hnt (String.ofList b))
        rw [← h2, ← String.toList_inj, String.toList_append, ← hb]; simp
    | _ => trivial
  | _ => trivial

end


/-! ### an instance -/

open Samples

/-- a table with two policies, two privileges and two check constraints -/
def quietPiecesOld : Schema := { Schema.empty with
  tables := [{ table "t" [col "x" "bigint", col "n" "text"] with
    policies := [⟨"\"p\"", true, ["a", "b"], "r", "", "(x > 0)", []⟩, ⟨"\"q\"", true, ["a"], "r", "", "(x > 0)", []⟩]
    privileges := [⟨"a", "SELECT", false⟩, ⟨"b", "SELECT", false⟩]
    checkConstraints := [quietCheck "c1" "x" "(x > 0)", quietCheck "c2" "n" "(n <> '')"] }] }

/-- of each, one changes: the first policy its expression (and the order of its roles), the second its kind -/
def quietPiecesNew : Schema := { Schema.empty with
  tables := [{ table "t" [col "x" "bigint", col "n" "text"] with
    policies := [⟨"\"p\"", true, ["b", "a"], "r", "", "(x > 1)", []⟩, ⟨"\"q\"", false, ["a"], "r", "", "(x > 0)", []⟩]
    privileges := [⟨"a", "SELECT", true⟩, ⟨"b", "SELECT", false⟩]
    checkConstraints := [quietCheck "c1" "x" "(x > 1)", quietCheck "c2" "n" "(n <> '')"] }] }

/-- the hypotheses of C108 can be met: eight statements; the roles of the first policy, the second privilege and the second check
constraint are left alone -/
example : ∃ stmts r', generateMigrationStatements readerRand quietPiecesOld quietPiecesNew opts = .ok (stmts, r') ∧
    stmts.length = 8 ∧
    (∃ s ∈ stmts, s.ddl = .alterPolicy (pub "t") "\"p\"" none (some "(x > 1)") none) ∧
    (∀ s ∈ stmts, ∀ v b c, s.ddl ≠ .alterPolicy (pub "t") "\"p\"" (some v) b c) ∧
    (∀ s ∈ stmts, s.ddl ≠ .dropPolicy (pub "t") "\"p\"") ∧
    (∀ s ∈ stmts, ∀ g, s.ddl ≠ .grant (pub "t") "SELECT" "b" g) ∧
    ∀ s ∈ stmts, ∀ a b c, s.ddl ≠ .alterTable (pub "t") (.addCheck "c2" a b c) := by
  obtain ⟨stmts, r', h, hl, hs⟩ : ∃ stmts r', generateMigrationStatements readerRand quietPiecesOld quietPiecesNew opts =
      .ok (stmts, r') ∧ stmts.length = 8 ∧ ∃ s ∈ stmts, s.ddl = .alterPolicy (pub "t") "\"p\"" none (some "(x > 1)") none :=
    exists_plan (by decide +kernel)
  have ht : NamesUnique quietPiecesNew.tables := by unfold NamesUnique; decide +kernel
  have ho : quietPiecesOld.tables[0] ∈ quietPiecesOld.tables := List.getElem_mem _
  have hx : quietPiecesNew.tables[0] ∈ quietPiecesNew.tables := List.getElem_mem _
  have hp := C108_policies_altered_in_what_changes h ht ho hx rfl rfl rfl (by unfold NamesUnique; decide +kernel)
    (List.mem_cons_self) (List.mem_cons_self) rfl
  have hg := C108_privileges_granted_when_changed h ht ho hx rfl rfl rfl (by unfold NamesUnique; decide +kernel)
    (List.mem_cons_of_mem _ List.mem_cons_self) (List.mem_cons_of_mem _ List.mem_cons_self) rfl rfl
  have hc := C108_checks_made_again_when_changed h ht ho hx rfl rfl rfl (by unfold NamesUnique; decide +kernel)
    (List.mem_cons_of_mem _ List.mem_cons_self) (List.mem_cons_of_mem _ List.mem_cons_self) rfl (fun b hb => by
      have := congrArg (fun s : String => s.toList.head?) hb
      simp only [String.toList_append] at this
      rw [List.head?_append, show "pgschemadiff_tmpnn_".toList.head? = some 'p' by decide +kernel, Option.some_or] at this
      exact absurd this (by decide +kernel))
  refine ⟨stmts, r', h, hl, hs, fun s hm v b c hv => ?_, fun s hm hv => ?_, fun s hm g hv => ?_, fun s hm a b c hv => ?_⟩
  · have := hp s hm
    rw [hv] at this
    exact ((this rfl rfl).2.2.1 v rfl).1 (.swap _ _ _)
  · have := hp s hm
    rw [hv] at this
    rcases this rfl rfl with h | h | h | h
    · exact h rfl
    · exact h rfl
    · exact absurd h.2 (by decide)
    · exact absurd h.1 (by decide)
  · have := hg s hm
    rw [hv] at this
    exact this rfl rfl rfl rfl
  · have := hc s hm
    rw [hv] at this
    rcases this rfl rfl with h | h | h
    · exact h rfl
    · exact absurd h.2 (by decide)
    · exact h rfl

end Verif
