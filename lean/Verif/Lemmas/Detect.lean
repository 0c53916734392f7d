import Verif.Lemmas.Fate
import Verif.Lemmas.Family
import Verif.Lemmas.IndexDiff
import Verif.Lemmas.TableRun
import Verif.Spec.Detect

/-!
# What generators that have nothing to say say about their input
-/

namespace Verif

open Spec (Corresponds)

/-! ### kept objects -/

section
variable {S D : Type} [Obj S] {old new : List S} {buildDiff : S → S → Nat → Nat → Except Err (D × Bool)} {r : ListDiff S D}

theorem diffLists_kept_new (h : diffLists old new buildDiff = .ok r) (hn : (new.map Obj.getName).Nodup) (ha : r.adds = [])
    {x : S} (hx : x ∈ new) : ∃ o ∈ old, ∃ d ∈ r.alters, ∃ j i, Obj.getName o = Obj.getName x ∧
      buildDiff o x j i = .ok (d, false) := by
  rcases diffLists_new_cases h hn hx with h1 | ⟨o, ho, d, hd, j, i, _, e, hb⟩
  · rw [ha] at h1; cases h1
  · exact ⟨o, ho, d, hd, j, i, e, hb⟩

theorem diffLists_kept_old (h : diffLists old new buildDiff = .ok r) (hn : (new.map Obj.getName).Nodup)
    {o : S} (ho : o ∈ old) (hd : o ∉ r.deletes) : ∃ x ∈ new, ∃ d ∈ r.alters, ∃ j i, Obj.getName o = Obj.getName x ∧
      buildDiff o x j i = .ok (d, false) := by
  obtain ⟨c1, c2, c3, _⟩ := C08_every_object_once h hn
  obtain ⟨j, hj⟩ := List.mem_iff_getElem?.mp ho
  have hh := (not_congr (c2 j o hj)).mp hd
  rw [not_or, not_not] at hh
  obtain ⟨x, hx, e⟩ := List.mem_map.mp hh.1
  obtain ⟨i, hi⟩ := List.mem_iff_getElem?.mp hx
  rcases diffLists_new_cases h hn hx with h1 | ⟨o', ho', d, hd', j', i', _, e', hb⟩
  · exfalso
    rcases (c1 i x hi).mp h1 with h2 | ⟨j', o', d, k1, k2, k3⟩
    · exact h2 (List.mem_map.mpr ⟨o, ho, e.symm⟩)
    · have : o' = o := List.inj_on_of_nodup_map (diffLists_old_nodup h) (List.mem_of_getElem? k1) ho (k2.trans e)
      subst this
      have hjj : j' = j := by
        have n := diffLists_old_nodup h
        have e1 : (old.map Obj.getName)[j]? = some (Obj.getName o') := by simp [hj]
        have e2 : (old.map Obj.getName)[j']? = some (Obj.getName o') := by simp [k1]
        obtain ⟨_, f1⟩ := List.getElem?_eq_some_iff.mp e1
        obtain ⟨_, f2⟩ := List.getElem?_eq_some_iff.mp e2
        exact n.getElem_inj_iff.mp (f2.trans f1.symm)
      subst hjj
      exact hh.2 ⟨i, x, d, hi, k2, k3⟩
  · have : o' = o := List.inj_on_of_nodup_map (diffLists_old_nodup h) ho' ho (e'.trans e)
    subst this
    exact ⟨x, hx, d, hd', j', i', e', hb⟩

/-- only kept objects -/
theorem diffLists_corresponds (h : diffLists old new buildDiff = .ok r) (hn : (new.map Obj.getName).Nodup) (ha : r.adds = [])
    (hd : r.deletes = []) {R : S → S → Prop}
    (hR : ∀ o ∈ old, ∀ x ∈ new, ∀ j i, ∀ d ∈ r.alters, Obj.getName o = Obj.getName x → buildDiff o x j i = .ok (d, false) → R o x) :
    Corresponds R old new := by
  refine ⟨fun o ho => ?_, fun x hx => ?_⟩
  · obtain ⟨x, hx, d, hdd, j, i, e, hb⟩ := diffLists_kept_old h hn ho (by rw [hd]; exact List.not_mem_nil)
    exact ⟨x, hx, hR o ho x hx j i d hdd e hb⟩
  · obtain ⟨o, ho, d, hdd, j, i, e, hb⟩ := diffLists_kept_new h hn ha hx
    exact ⟨o, ho, hR o ho x hx j i d hdd e hb⟩

end

/-- sorting and normalizing -/
theorem corresponds_sort {S : Type} [Obj S] {R : S → S → Prop} {l l' : List S} (h : Corresponds R (sortObjs l) (sortObjs l')) :
    Corresponds R l l' := by
  refine ⟨fun a ha => ?_, fun b hb => ?_⟩
  · obtain ⟨b, hb, hr⟩ := h.1 a ((sortObjs_perm l).mem_iff.mpr ha)
    exact ⟨b, (sortObjs_perm l').mem_iff.mp hb, hr⟩
  · obtain ⟨a, ha, hr⟩ := h.2 b ((sortObjs_perm l').mem_iff.mpr hb)
    exact ⟨a, (sortObjs_perm l).mem_iff.mp ha, hr⟩

theorem corresponds_normalize {S : Type} [Obj S] {R R' : S → S → Prop} {l l' : List S} {f : S → S}
    (hf : ∀ a b, R (f a) (f b) → R' a b) (h : Corresponds R ((sortObjs l).map f) ((sortObjs l').map f)) :
    Corresponds R' l l' := by
  refine ⟨fun a ha => ?_, fun b hb => ?_⟩
  · obtain ⟨b, hb, hr⟩ := h.1 (f a) (List.mem_map_of_mem ((sortObjs_perm l).mem_iff.mpr ha))
    obtain ⟨b', hb', rfl⟩ := List.mem_map.mp hb
    exact ⟨b', (sortObjs_perm l').mem_iff.mp hb', hf _ _ hr⟩
  · obtain ⟨a, ha, hr⟩ := h.2 (f b) (List.mem_map_of_mem ((sortObjs_perm l').mem_iff.mpr hb))
    obtain ⟨a', ha', rfl⟩ := List.mem_map.mp ha
    exact ⟨a', (sortObjs_perm l).mem_iff.mp ha', hf _ _ hr⟩

theorem corresponds_imp {S : Type} {R R' : S → S → Prop} {l l' : List S} (hR : ∀ a b, R a b → R' a b)
    (h : Corresponds R l l') : Corresponds R' l l' :=
  ⟨fun a ha => let ⟨b, hb, hr⟩ := h.1 a ha; ⟨b, hb, hR _ _ hr⟩, fun b hb => let ⟨a, ha, hr⟩ := h.2 b hb; ⟨a, ha, hR _ _ hr⟩⟩

theorem corresponds_of_eq {S : Type} {R : S → S → Prop} (hR : ∀ a, R a a) {l l' : List S} (h : l = l') : Corresponds R l l' := by
  subst h
  exact ⟨fun a ha => ⟨a, ha, hR a⟩, fun a ha => ⟨a, ha, hR a⟩⟩

/-! ### silent generators -/

theorem forall₂_nil_left {α β : Type} {R : α → List β → Prop} {l : List α} {ls : List (List β)} (h : List.Forall₂ R l ls)
    (he : ls.flatten = []) {a : α} (ha : a ∈ l) : R a [] := by
  obtain ⟨b, hb, hr⟩ := forall₂_mem_left h a ha
  rw [List.flatten_eq_nil_iff] at he
  rw [he b hb] at hr
  exact hr

/-- a silent legacy generator: no addition, no deletion and no alteration says anything -/
theorem legacy_silent {m : Type → Type} [Monad m] [Yields m] {S D : Type} [GoZero S] [IsDiff D S] {g : LegacyGen m S D}
    {ld : ListDiff S D} {pg : PartialGraph Statement} (h : yields (generatePartialGraph g.toNew ld) pg)
    (he : pg.statements = []) :
    (∀ o ∈ ld.adds, yields (g.add o) []) ∧ (∀ o ∈ ld.deletes, yields (g.delete o) []) ∧
      ∀ d ∈ ld.alters, yields (g.alter d) [] := by
  obtain ⟨as, ds, cs, h1, h2, h3, e⟩ := legacy_statements h
  rw [he, eq_comm, List.append_eq_nil_iff, List.append_eq_nil_iff] at e
  exact ⟨fun o ho => forall₂_nil_left h1 e.1.1 ho, fun o ho => forall₂_nil_left h2 e.1.2 ho,
    fun o ho => forall₂_nil_left h3 e.2 ho⟩

theorem flatMap_statements_nil {α : Type} {R : α → PartialGraph Statement → Prop} {l : List α} {ps : List (PartialGraph Statement)}
    (h : List.Forall₂ R l ps) (he : ps.flatMap (·.statements) = []) {a : α} (ha : a ∈ l) : ∃ p, R a p ∧ p.statements = [] := by
  obtain ⟨b, hb, hr⟩ := forall₂_mem_left h a ha
  rw [List.flatMap_eq_nil_iff] at he
  exact ⟨b, hr, he b hb⟩

/-- a silent generator -/
theorem graph_silent {S D : Type} {g : VertexGen (Except Err) S D} {ld : ListDiff S D} {pg : PartialGraph Statement}
    (h : generatePartialGraph g ld = .ok pg) (he : pg.statements = []) :
    (∀ o ∈ ld.adds, ∃ p, g.add o = .ok p ∧ p.statements = []) ∧ (∀ o ∈ ld.deletes, ∃ p, g.delete o = .ok p ∧ p.statements = []) ∧
      ∀ d ∈ ld.alters, ∃ p, g.alter d = .ok p ∧ p.statements = [] := by
  obtain ⟨as, ds, cs, h1, h2, h3, rfl⟩ := yields_generatePartialGraph (m := Except Err) h
  rw [PartialGraph.statements_concat, List.flatMap_append, List.flatMap_append, List.append_eq_nil_iff, List.append_eq_nil_iff] at he
  exact ⟨fun o ho => flatMap_statements_nil h1 he.1.1 ho, fun o ho => flatMap_statements_nil h2 he.1.2 ho,
    fun o ho => flatMap_statements_nil h3 he.2 ho⟩

theorem concatMapM_silent {α β : Type} {f : α → Except Err (List β)} {l : List α} (h : concatMapM f l = .ok []) :
    ∀ a ∈ l, f a = .ok [] := by
  induction l with
  | nil => intro a ha; cases ha
  | cons a l ih =>
    unfold concatMapM at h
    obtain ⟨x, hx, h⟩ := except_bind_ok.mp h
    obtain ⟨y, hy, h⟩ := except_bind_ok.mp h
    have he : x ++ y = [] := except_pure_ok.mp h
    rw [List.append_eq_nil_iff] at he
    intro b hb
    rcases List.mem_cons.mp hb with rfl | hb
    · rw [hx, he.1]
    · exact ih (by rw [hy, he.2]) b hb

theorem silent_nil {α : Type} {l : List α} {P : α → Prop} (h : ∀ a ∈ l, P a) (hn : ∀ a, ¬ P a) : l = [] :=
  List.eq_nil_iff_forall_not_mem.mpr fun a ha => hn a (h a ha)

section
variable {opts : PlanOptions} {d : SchemaDiff} {r r' : Rand}

/-- in an empty plan nothing says anything -/
theorem PlanRun.silent (run : PlanRun opts d r r' []) :
    run.schemas = ⟨[], [], []⟩ ∧ run.extensions = ⟨[], [], []⟩ ∧ run.enums = ⟨[], [], []⟩ ∧
      ∀ f : Family, f.graph = true → (run.part f).statements = [] := by
  have h := run.hstmts
  simp only [SchemaGen.assemble, List.nil_eq, List.append_eq_nil_iff] at h
  obtain ⟨⟨⟨⟨⟨⟨⟨⟨⟨h1, h2⟩, h3⟩, h4⟩, h5⟩, h6⟩, h7⟩, h8⟩, h9⟩, h10⟩ := h
  refine ⟨?_, ?_, ?_, ?_⟩
  · cases he : run.schemas; rw [he] at h1 h2 h10; simp_all
  · cases he : run.extensions; rw [he] at h3 h4 h9; simp_all
  · cases he : run.enums; rw [he] at h5 h6 h8; simp_all
  · have hp := C02_order_is_permutation _ run.hordered
    rw [h7] at hp
    have hg : run.graph.statements = [] := hp.symm.eq_nil
    rw [run.graph_parts, PartialGraph.statements_concat, List.flatMap_eq_nil_iff] at hg
    intro f hf
    exact hg _ (List.mem_map_of_mem (by cases f <;> simp [Family.graph] at hf ⊢))

end

/-! ### what silent alterations leave -/

theorem addValues_nil {n : SQName} {old : List String} : ∀ {l : List String}, EnumGen.addValues n old l = [] → ∀ x ∈ l, x ∈ old := by
  intro l
  induction l with
  | nil => intro _ x hx; cases hx
  | cons a l ih =>
    intro h x hx
    unfold EnumGen.addValues at h
    rw [List.append_eq_nil_iff] at h
    rcases List.mem_cons.mp hx with rfl | hx
    · by_contra hn
      rw [if_neg hn] at h
      exact absurd h.2 (by simp)
    · exact ih h.1 x hx

theorem EnumGen.alter_silent {o n : Enum} (h : EnumGen.alter ⟨o, n⟩ = .ok []) : Spec.IndistinctEnum o n := by
  unfold EnumGen.alter at h
  dsimp only at h
  split at h
  · cases h
  · rename_i hl
    rw [ite_error_ok] at h
    obtain ⟨he, h⟩ := h
    have he := not_not.mp he
    have h4 : EnumGen.addValues n.name o.labels n.labels = [] := by injection h
    refine ⟨by rw [← he], fun l => ⟨fun hl' => ?_, addValues_nil h4 l⟩⟩
    simp only [List.any_eq_true, not_exists, not_and, Bool.not_eq_true] at hl
    have := hl l hl'
    simpa using this

theorem ColumnGen.alter_silent {t : SQName} {d : ColumnDiff} (hn : d.old.name = d.new.name) (h : ColumnGen.alter t d = .ok []) :
    Spec.IndistinctColumn d.old d.new := by
  unfold ColumnGen.alter at h
  rw [ite_error_ok] at h
  obtain ⟨_, h⟩ := h
  obtain ⟨ident, h1, h⟩ := except_bind_ok.mp h
  have h := except_pure_ok.mp h
  unfold ColumnGen.alterStatements at h
  simp only [List.append_eq_nil_iff, ite_eq_right_iff, reduceCtorEq, imp_false] at h
  obtain ⟨⟨⟨⟨⟨k1, k2⟩, k3⟩, k4⟩, k5⟩, k6⟩ := h
  have hnull : d.old.isNullable = d.new.isNullable := by
    by_contra hne
    cases e : d.new.isNullable
    · exact k1 ⟨hne, e⟩
    · exact k4 ⟨hne, e⟩
  have hdef : d.old.default = d.new.default := by
    by_contra hne
    by_cases e : d.new.default = ""
    · exact k2 ⟨fun e' => hne (e'.trans e.symm), e⟩
    · exact k6 ⟨hne, e⟩
  have htype : equalFold d.old.type d.new.type = true ∧ equalFold d.old.collation.fq d.new.collation.fq = true := by
    simpa using k5
  have hid : d.old.identity = d.new.identity := by
    subst k3
    unfold ColumnGen.buildUpdateIdentityStatements at h1
    split at h1
    · assumption
    · split at h1
      · cases h1
      · split at h1
        · obtain ⟨x, _, h1⟩ := except_bind_ok.mp h1
          cases h1
        · obtain ⟨x, _, h1⟩ := except_bind_ok.mp h1
          cases h1
  exact ⟨hn, htype.1, htype.2, hdef, hnull, hid⟩

theorem CheckGen.alter_silent {g : CheckGen} {o n : CheckConstraint} (h : g.alter ⟨o, n⟩ = .ok []) :
    n = { o with keyColumns := n.keyColumns } ∧ o.keyColumns.Perm n.keyColumns := by
  unfold CheckGen.alter at h
  dsimp only at h
  rw [ite_error_ok, ite_error_ok] at h
  obtain ⟨he, _, h⟩ := h
  have he := not_not.mp he
  have hb : ¬ ((!o.isValid && n.isValid) = true) := by
    intro hb
    rw [if_pos hb] at h
    cases h
  rw [if_neg hb] at he
  obtain ⟨n1, n2, n3, n4, n5, n6⟩ := n
  obtain ⟨o1, o2, o3, o4, o5, o6⟩ := o
  simp only [CheckConstraint.mk.injEq] at he ⊢
  obtain ⟨e1, e2, e3, e4, e5, e6⟩ := he
  refine ⟨⟨e1.symm, trivial, e3.symm, e4.symm, e5.symm, e6.symm⟩, ?_⟩
  exact (sortBy_perm _ _).symm.trans ((List.Perm.of_eq e2).trans (sortBy_perm _ _))

theorem PolicyGen.alter_silent {g : PolicyGen} {o n : Policy} (h : g.alter ⟨o, n⟩ = .ok []) :
    n = { o with columns := n.columns } := by
  unfold PolicyGen.alter at h
  dsimp only at h
  rw [ite_error_ok] at h
  obtain ⟨he, h⟩ := h
  have he := not_not.mp he
  split at h
  · rename_i hc
    obtain ⟨c1, c2, c3⟩ := hc
    rw [if_neg c1, if_neg c2, if_neg c3] at he
    exact he.symm
  · cases h

theorem FkGen.alter_silent {o n : ForeignKeyConstraint} (h : FkGen.alter ⟨o, n⟩ = .ok []) : o = n := by
  unfold FkGen.alter at h
  dsimp only at h
  split at h
  · split at h
    · cases h
    · rw [ite_error_ok] at h
      obtain ⟨_, h⟩ := h
      cases h
  · rw [ite_error_ok] at h
    exact not_not.mp h.1

theorem SequenceGen.alter_silent {o n : Sequence} (h : SequenceGen.alter ⟨o, n⟩ = .ok []) : n = { o with owner := n.owner } := by
  unfold SequenceGen.alter at h
  dsimp only at h
  rw [ite_error_ok] at h
  obtain ⟨he, h⟩ := h
  have he := not_not.mp he
  split at he
  · rename_i hd
    rw [if_pos hd] at h
    cases h
  · exact he.symm

theorem TriggerGen.alter_silent {o n : Trigger} (h : TriggerGen.alter ⟨o, n⟩ = .ok []) : o = n := by
  unfold TriggerGen.alter at h
  dsimp only at h
  split at h
  · assumption
  · split at h
    · cases h
    · obtain ⟨x, _, h⟩ := except_bind_ok.mp h
      cases h

theorem GoMap.get?_eq_of_sameMap {a b : GoMap String String} (h : sameMap a b = true) (k : String) : a.get? k = b.get? k := by
  simp only [sameMap, Bool.and_eq_true, List.all_eq_true, decide_eq_true_eq] at h
  cases ha : a.get? k with
  | some v => exact (h.1 (k, v) (GoMap.mem_of_get? ha)).symm
  | none =>
    cases hb : b.get? k with
    | none => rfl
    | some v => rw [h.2 (k, v) (GoMap.mem_of_get? hb)] at ha; cases ha

/-! ### indexes -/

theorem constraintData_setNotLocal (i : Index) : Spec.constraintData i.setNotLocal = Spec.constraintData i := by
  unfold Spec.constraintData Index.setNotLocal
  cases i.constraint <;> rfl

theorem constraintData_afterDiff (part : Bool) (o n : Index) : Spec.constraintData (o.afterDiff part n) = Spec.constraintData o := by
  unfold Index.afterDiff
  split
  · exact constraintData_setNotLocal o
  · rfl

theorem constraintData_effective (cfg : IndexDiffConfig) (ns : List Index) (o : Index) :
    Spec.constraintData (effectiveOldIndex cfg ns o) = Spec.constraintData o := by
  unfold effectiveOldIndex
  split
  · rfl
  · split
    · rename_i o' r h
      obtain ⟨part, _, _, e, _⟩ := buildIndexDiffAux_some h
      rw [e]; exact constraintData_afterDiff _ _ _
    · rfl

theorem IndexGen.alter_silent {g : IndexGen} {o n : Index} (h : g.alter ⟨o, n⟩ = .ok []) :
    n = { o with isInvalid := n.isInvalid } ∧ (n.isInvalid = true → o.isInvalid = true) := by
  unfold IndexGen.alter at h
  obtain ⟨part, hp, h⟩ := except_bind_ok.mp h
  dsimp only at h
  obtain ⟨con, hcon, h⟩ := except_bind_ok.mp h
  rw [ite_error_ok] at h
  obtain ⟨he, h⟩ := h
  have he := not_not.mp he
  have h : con ++ (match o.parentIdx, n.parentIdx with
    | none, some p => [IndexGen.buildAttachIndex n p]
    | _, _ => []) = [] := by injection h
  rw [List.append_eq_nil_iff] at h
  obtain ⟨rfl, h⟩ := h
  have hcc : ¬ ((decide (o.constraint = none) && n.constraint.isSome) = true) := by
    intro hc
    simp only [Bool.and_eq_true, decide_eq_true_eq, Option.isSome_iff_exists] at hc
    obtain ⟨h1, c, h2⟩ := hc
    rw [h1, h2] at hcon
    unfold IndexGen.constraintStatements at hcon
    obtain ⟨x, _, hcon⟩ := except_bind_ok.mp hcon
    cases hcon
  have hpar : o.parentIdx = none → n.parentIdx = none := by
    intro h0
    cases h1 : n.parentIdx with
    | none => rfl
    | some p => rw [h0, h1] at h; cases h
  rw [if_neg hcc] at he
  have he2 : (if (part && o.isInvalid && !n.isInvalid) = true then { o with isInvalid := n.isInvalid } else o) = n := by
    split at he
    · rename_i h0
      have h1 := hpar h0
      split at he
      · rename_i hc
        rw [if_pos hc, ← he]
        simp only [Index.mk.injEq, true_and]
        rw [h1]; exact h0
      · rename_i hc
        rw [if_neg hc, ← he]
        obtain ⟨o1, o2, o3, o4, o5, o6, o7, o8, o9⟩ := o
        simp only at h0
        simp only [Index.mk.injEq, true_and]
        rw [h1]; exact h0
    · exact he
  split at he2
  · rename_i hc
    refine ⟨he2.symm, fun hn => ?_⟩
    simp only [Bool.and_eq_true] at hc
    exact hc.1.2
  · subst he2
    exact ⟨rfl, id⟩

/-! ### the table generator -/

theorem ListDiff.eq_nil_of_isEmpty {S D : Type} {ld : ListDiff S D} (h : ld.isEmpty = true) :
    ld.adds = [] ∧ ld.deletes = [] ∧ ld.alters = [] := by
  have : ld.adds = [] ∧ ld.alters = [] ∧ ld.deletes = [] := by simpa [ListDiff.isEmpty, and_assoc] using h
  exact ⟨this.1, this.2.2, this.2.1⟩

/-- what a silent alteration of a table has been through -/
structure SilentTable (g : TableGen) (d : TableDiff) : Prop where
  replica : d.old.replicaIdentity = d.new.replicaIdentity
  rlsEnabled : d.old.rlsEnabled = d.new.rlsEnabled
  rlsForced : d.old.rlsForced = d.new.rlsForced
  partition : d.old.isPartition = d.new.isPartition
  base : d.new.isPartition = false → ∃ temps, ∃ run : BaseRun d temps [], run.columns.statements = [] ∧
    run.checks.statements = [] ∧ run.policies.statements = [] ∧ run.privileges.statements = []
  part : d.new.isPartition = true → d.old.forValues = d.new.forValues ∧ d.checkConstraintDiff.isEmpty = true ∧
    d.policiesDiff.isEmpty = true ∧ d.privilegesDiff.isEmpty = true

theorem TableGen.alter_silent {g : TableGen} {d : TableDiff} (h : yields (g.alter d) []) : SilentTable g d := by
  obtain ⟨run⟩ := table_run h
  have hs := run.hstmts
  simp only [List.nil_eq, List.append_eq_nil_iff, ite_eq_right_iff, imp_false, Bool.and_eq_true, not_and,
    Bool.not_eq_true', Bool.not_eq_true, List.cons_ne_self] at hs
  obtain ⟨⟨⟨⟨⟨h1, h2⟩, h3⟩, h4⟩, h5⟩, h6⟩ := hs
  refine ⟨?_, ?_, ?_, run.hpart, ?_, ?_⟩
  · rcases run.hreplica with ⟨e, _⟩ | ⟨_, s, _, e⟩
    · exact e
    · rw [h4] at e; cases e
  · cases ho : d.old.rlsEnabled <;> cases hn : d.new.rlsEnabled <;> simp_all
  · cases ho : d.old.rlsForced <;> cases hn : d.new.rlsForced <;> simp_all
  · intro hn
    have hb := run.hbase hn
    rw [h3] at hb
    obtain ⟨b⟩ := base_run hb
    have := b.hbody
    rw [List.nil_eq, List.append_eq_nil_iff] at this
    have hp := C02_order_is_permutation _ b.hordered
    rw [this.1] at hp
    have hg := hp.symm.eq_nil
    rw [PartialGraph.statements_concat] at hg
    simp only [List.flatMap_cons, List.flatMap_nil, List.append_nil, List.append_eq_nil_iff] at hg
    exact ⟨_, b, hg.1, hg.2.1, hg.2.2.1, hg.2.2.2⟩
  · intro hn
    have hb := run.hpartition hn
    unfold TableGen.alterPartition at hb
    rw [ite_error_ok, ite_error_ok, ite_error_ok, ite_error_ok] at hb
    obtain ⟨k1, k2, k3, k4, _⟩ := hb
    exact ⟨not_not.mp k1, by simpa using k2, by simpa using k3, by simpa using k4⟩

end Verif
