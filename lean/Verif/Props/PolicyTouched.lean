import Verif.Spec.PolicyTouched
import Verif.Props.Policy
import Verif.Props.PieceQuiet

/-!
# C114: policies are made and dropped exactly when they have to be
-/

namespace Verif

open Spec

section
variable {opts : PlanOptions} {old new : Schema} {r r' : Rand} {stmts : List Statement}

/-- a policy that can be altered need not be made again -/
theorem PolicyGen.not_remade {g : PolicyGen} {d : OldNew Policy} {l : List Statement} (h : g.alter d = .ok l) :
    ¬ PolicyRemade d.old d.new := by
  obtain ⟨he, _⟩ := PolicyGen.alter_ok h
  obtain ⟨⟨on, op, oa, oc, ok, ou, ol⟩, ⟨xn, xp, xa, xc, xk, xu, xl⟩⟩ := d
  dsimp only at he ⊢
  simp only [Policy.mk.injEq] at he
  obtain ⟨_, h2, _, h4, h5, h6, _⟩ := he
  rintro (c | c | ⟨c1, c2⟩ | ⟨c1, c2⟩)
  · exact c h2
  · exact c h4
  · dsimp only at c1 c2
    rw [if_neg (by rw [c2]; simp)] at h6
    exact c1 (h6.trans c2)
  · dsimp only at c1 c2
    rw [if_neg (by rw [c2]; simp)] at h5
    exact c1 (h5.trans c2)

/-- which policies the diff adds and which it deletes -/
theorem policies_diff_mem {g : PolicyGen} {os xs : List Policy} {d : ListDiff Policy (OldNew Policy)}
    (h : buildPolicyDiffs g os xs = .ok d) (hn : (xs.map Obj.getName).Nodup) (k : String) :
    ((∃ p ∈ d.adds, p.escapedName = k) ↔ PolicyComes os xs k) ∧ ((∃ p ∈ d.deletes, p.escapedName = k) ↔ PolicyGoes os xs k) := by
  have hO := diffLists_old_nodup h
  obtain ⟨_, _, _, m1, m2, _⟩ := C08_every_object_once h hn
  obtain ⟨dec, _, _, _, k1, k2, _⟩ := diffLists_decision h hn (key := fun p : OldNew Policy => Obj.getName p.new)
    (fun o x j i p _ hp => by rw [(buildPolicyDiffs_fun hp).1]) k
  have inO : ∀ {p : Policy}, p ∈ os → p.escapedName = k → k ∈ os.map Obj.getName := fun h e => List.mem_map.mpr ⟨_, h, e⟩
  have inX : ∀ {p : Policy}, p ∈ xs → p.escapedName = k → k ∈ xs.map Obj.getName := fun h e => List.mem_map.mpr ⟨_, h, e⟩
  cases dec with
  | absent a b =>
    refine ⟨⟨?_, ?_⟩, ⟨?_, ?_⟩⟩
    · rintro ⟨p, hp, e⟩; exact absurd (inX (m1.subset hp) e) b
    · rintro ⟨p, hp, e, _⟩; exact absurd (inX hp e) b
    · rintro ⟨p, hp, e⟩; exact absurd (inO (m2 p hp) e) a
    · rintro ⟨p, hp, e, _⟩; exact absurd (inO hp e) a
  | dropped o ho e b hd =>
    refine ⟨⟨?_, ?_⟩, ⟨?_, ?_⟩⟩
    · rintro ⟨p, hp, e⟩; exact absurd (inX (m1.subset hp) e) b
    · rintro ⟨p, hp, e, _⟩; exact absurd (inX hp e) b
    · exact fun _ => ⟨o, ho, e, fun x hx ex => absurd (inX hx ex) b⟩
    · exact fun _ => ⟨o, hd, e⟩
  | added x hx e a ha =>
    refine ⟨⟨?_, ?_⟩, ⟨?_, ?_⟩⟩
    · exact fun _ => ⟨x, hx, e, fun o ho eo => absurd (inO ho eo) a⟩
    · exact fun _ => ⟨x, ha, e⟩
    · rintro ⟨p, hp, e⟩; exact absurd (inO (m2 p hp) e) a
    · rintro ⟨p, hp, e, _⟩; exact absurd (inO hp e) a
  | recreated o x ho hx eo ex hb hd ha =>
    obtain ⟨i, j, p, hb⟩ := hb
    have hr := (buildPolicyDiffs_fun hb).2 rfl (eo.trans ex.symm)
    refine ⟨⟨fun _ => ⟨x, hx, ex, ?_⟩, fun _ => ⟨x, ha, ex⟩⟩, ⟨fun _ => ⟨o, ho, eo, ?_⟩, fun _ => ⟨o, hd, eo⟩⟩⟩
    · intro o1 h1 e1
      rw [List.inj_on_of_nodup_map hO h1 ho ((show Obj.getName o1 = k from e1).trans eo.symm)]; exact hr
    · intro x1 h1 e1
      rw [List.inj_on_of_nodup_map hn h1 hx ((show Obj.getName x1 = k from e1).trans ex.symm)]; exact hr
  | altered o x p ho hx eo ex hb hp =>
    obtain ⟨i, j, hb⟩ := hb
    obtain rfl := (buildPolicyDiffs_fun hb).1
    have hin : k ∈ d.alters.map fun p : OldNew Policy => Obj.getName p.new := List.mem_map.mpr ⟨_, hp, ex⟩
    have hr : ¬ PolicyRemade o x := by
      cases ha : g.alter ⟨o, x⟩ with
      | ok l => exact PolicyGen.not_remade ha
      | error e =>
        exfalso
        have : g.gen.alter ⟨o, x⟩ = .error e := by
          show (do
            let statements ← g.alter ⟨o, x⟩
            let deps ← g.addAlterDeps x o
            return (⟨[⟨g.vertexId x .addAlter, .sooner, statements⟩], deps⟩ : PartialGraph Statement)) = .error e
          rw [ha]; rfl
        rw [this] at hb
        dsimp only at hb
        split at hb <;> cases hb
    refine ⟨⟨?_, ?_⟩, ⟨?_, ?_⟩⟩
    · rintro ⟨q, hq, e⟩; exact absurd hin (k1 (List.mem_map.mpr ⟨q, hq, e⟩))
    · rintro ⟨x1, h1, e1, hall⟩
      rw [List.inj_on_of_nodup_map hn h1 hx ((show Obj.getName x1 = k from e1).trans ex.symm)] at hall
      exact absurd (hall o ho eo) hr
    · rintro ⟨q, hq, e⟩; exact absurd hin (k2 (List.mem_map.mpr ⟨q, hq, e⟩))
    · rintro ⟨o1, h1, e1, hall⟩
      rw [List.inj_on_of_nodup_map hO h1 ho ((show Obj.getName o1 = k from e1).trans eo.symm)] at hall
      exact absurd (hall x hx ex) hr

/-- the statements making and dropping policies among those altering a table -/
theorem alter_policies_mem {g : TableGen} {d : TableDiff} {l : List Statement} (h : yields (g.alter d) l) (k : String) :
    ((∃ s ∈ l, makesPolicy d.new.name k s.ddl = true) ↔ ∃ p ∈ d.policiesDiff.adds, p.escapedName = k) ∧
    ((∃ s ∈ l, takesPolicy d.new.name k s.ddl = true) ↔ ∃ p ∈ d.policiesDiff.deletes, p.escapedName = k) := by
  obtain ⟨run⟩ := table_run h
  refine ⟨⟨?_, ?_⟩, ⟨?_, ?_⟩⟩
  · rintro ⟨s, hs, hm⟩
    cases (table_alter_origin h hs).shape with
    | createPolicy p hp cmd hc => exact ⟨p, hp, (of_decide_eq_true (p := d.new.name = d.new.name ∧ p.escapedName = k) hm).2⟩
    | column _ _ _ hs => cases hs <;> cases hm
    | _ => cases hm
  · rintro ⟨p, hp, rfl⟩
    cases hq : d.new.isPartition with
    | true =>
      have := (TableGen.alterPartition_empty (run.hpartition hq)).2.1
      rw [(ListDiff.isEmpty_iff.mp this).1] at hp; cases hp
    | false =>
      obtain ⟨base⟩ := base_run (run.hbase hq)
      obtain ⟨l', h1, h2⟩ := stmts_of_add (m := Except Err) (g := base.psg.legacy) base.hpolicies hp
      obtain ⟨cmd, _, h1⟩ := except_bind_ok.mp h1
      cases h1
      have := base.mem_ordered.mpr (Or.inr (Or.inr (Or.inl (h2 _ List.mem_cons_self))))
      obtain ⟨a, b, e, _⟩ := run.around base
      rw [e]
      exact ⟨_, List.mem_append_left _ (List.mem_append_right _ this),
        decide_eq_true ⟨congrArg Table.name (newPolicyGen_table base.hpsg), rfl⟩⟩
  · rintro ⟨s, hs, hm⟩
    cases (table_alter_origin h hs).shape with
    | dropPolicy p hp => exact ⟨p, hp, (of_decide_eq_true (p := d.new.name = d.new.name ∧ p.escapedName = k) hm).2⟩
    | column _ _ _ hs => cases hs <;> cases hm
    | _ => cases hm
  · rintro ⟨p, hp, rfl⟩
    cases hq : d.new.isPartition with
    | true =>
      have := (TableGen.alterPartition_empty (run.hpartition hq)).2.1
      rw [(ListDiff.isEmpty_iff.mp this).2.1] at hp; cases hp
    | false =>
      obtain ⟨base⟩ := base_run (run.hbase hq)
      obtain ⟨l', h1, h2⟩ := stmts_of_delete (m := Except Err) (g := base.psg.legacy) base.hpolicies hp
      cases h1
      have := base.mem_ordered.mpr (Or.inr (Or.inr (Or.inl (h2 _ List.mem_cons_self))))
      obtain ⟨a, b, e, _⟩ := run.around base
      rw [e]
      exact ⟨_, List.mem_append_left _ (List.mem_append_right _ this),
        decide_eq_true ⟨congrArg Table.name (newPolicyGen_table base.hpsg), rfl⟩⟩

/-- **C114.**  On a table that stays, a plan makes a policy exactly if the target has it and the source has none that can be
altered into it, and drops one exactly if the source has it and it cannot be altered into one of the target. -/
theorem C114_policies_made_and_dropped (h : generateMigrationStatements r old new opts = .ok (stmts, r'))
    (ht : NamesUnique new.tables) {o x : Table} (ho : o ∈ old.tables) (hx : x ∈ new.tables) (e : o.name.fq = x.name.fq)
    (hp : o.isPartitioned = x.isPartitioned) (hq : o.parentTable = x.parentTable) (hu : NamesUnique x.policies) (k : String) :
    ((∃ s ∈ stmts, makesPolicy x.name k s.ddl = true) ↔ PolicyComes o.policies x.policies k) ∧
    ((∃ s ∈ stmts, takesPolicy x.name k s.ddl = true) ↔ PolicyGoes o.policies x.policies k) := by
  obtain ⟨d, ⟨dr⟩, ⟨run⟩⟩ := plan_runs h
  have hN := normalize_tables_nodup ht
  rcases plan_table dr run hN (mem_normalize_tables_of hx) with ⟨hm, _⟩ | ⟨td, htd, e1, _, _, l, hl, hf⟩
  · refine absurd ?_ (stays_not_added dr ht ho hx e hp hq hm)
    unfold packIf; split <;> rfl
  have en : td.new.name = x.name := by rw [e1]; rfl
  have inl : ∀ P : Ddl → Bool, (∀ y, P y = true → y.tableBody x.name = true) →
      ((∃ s ∈ stmts, P s.ddl = true) ↔ ∃ s ∈ l, P s.ddl = true) := by
    intro P hP
    have hfP := hf (fun s => P s.ddl) fun s hs => hP _ hs
    constructor <;> rintro ⟨s, hs, hps⟩
    · have : s ∈ stmts.filter fun z => P z.ddl := List.mem_filter.mpr ⟨hs, hps⟩
      rw [hfP] at this
      exact ⟨s, (List.mem_filter.mp this).1, hps⟩
    · have : s ∈ l.filter fun z => P z.ddl := List.mem_filter.mpr ⟨hs, hps⟩
      rw [← hfP] at this
      exact ⟨s, (List.mem_filter.mp this).1, hps⟩
  obtain ⟨a1, a2⟩ := alter_policies_mem hl k
  rw [en] at a1 a2
  have mem : ∀ {l : List Policy} {p : Policy}, p ∈ l → normalizePolicy p ∈ (sortObjs l).map normalizePolicy :=
    fun h => List.mem_map_of_mem ((sortObjs_perm _).mem_iff.mpr h)
  have mem' : ∀ {l : List Policy} {q : Policy}, q ∈ (sortObjs l).map normalizePolicy → ∃ p ∈ l, normalizePolicy p = q :=
    fun h => by
      obtain ⟨p, hp, e⟩ := List.mem_map.mp h
      exact ⟨p, (sortObjs_perm _).mem_iff.mp hp, e⟩
  have key : ((∃ p ∈ td.policiesDiff.adds, p.escapedName = k) ↔ PolicyComes (normalizeTable o).policies (normalizeTable x).policies k) ∧
      ((∃ p ∈ td.policiesDiff.deletes, p.escapedName = k) ↔ PolicyGoes (normalizeTable o).policies (normalizeTable x).policies k) := by
    obtain ⟨td0, i, j, rfl, hb⟩ := stays_diff dr ht ho hx e htd (by rw [en])
    obtain ⟨psg, _, hpd⟩ := (buildTableDiff_ok hb).2.2.2.2.2.2.2.1
    rw [orderIf_policies]
    exact policies_diff_mem hpd (normalize_policies_nodup hu) k
  rw [inl _ fun y hy => by cases y <;> first | cases hy | exact decide_eq_true (of_decide_eq_true hy).1,
    inl _ fun y hy => by cases y <;> first | cases hy | exact decide_eq_true (of_decide_eq_true hy).1, a1, a2, key.1, key.2]
  refine ⟨⟨?_, ?_⟩, ⟨?_, ?_⟩⟩
  · rintro ⟨q, hq, eq, hall⟩
    obtain ⟨p, hp, rfl⟩ := mem' hq
    exact ⟨p, hp, eq, fun o1 h1 e1 => hall (normalizePolicy o1) (mem h1) e1⟩
  · rintro ⟨p, hp, eq, hall⟩
    refine ⟨_, mem hp, eq, fun o1 h1 e1 => ?_⟩
    obtain ⟨o2, h2, rfl⟩ := mem' h1
    exact hall o2 h2 e1
  · rintro ⟨q, hq, eq, hall⟩
    obtain ⟨p, hp, rfl⟩ := mem' hq
    exact ⟨p, hp, eq, fun o1 h1 e1 => hall (normalizePolicy o1) (mem h1) e1⟩
  · rintro ⟨p, hp, eq, hall⟩
    refine ⟨_, mem hp, eq, fun o1 h1 e1 => ?_⟩
    obtain ⟨o2, h2, rfl⟩ := mem' h1
    exact hall o2 h2 e1

end

section
open Samples

/-- a table with three policies -/
def touchedPoliciesOld : Schema := { Schema.empty with
  tables := [{ table "t" [col "x" "bigint"] with
    policies := [⟨"\"p\"", true, ["a"], "r", "", "(x > 0)", []⟩, ⟨"\"q\"", true, ["a"], "r", "", "(x > 0)", []⟩,
      ⟨"\"g\"", true, ["a"], "r", "", "(x > 0)", []⟩] }] }

/-- one gets another expression, one another command, one goes and one comes -/
def touchedPoliciesNew : Schema := { Schema.empty with
  tables := [{ table "t" [col "x" "bigint"] with
    policies := [⟨"\"p\"", true, ["a"], "r", "", "(x > 1)", []⟩, ⟨"\"q\"", true, ["a"], "d", "", "(x > 0)", []⟩,
      ⟨"\"n\"", true, ["a"], "r", "", "(x > 0)", []⟩] }] }

instance (o x : Policy) : Decidable (PolicyRemade o x) := by unfold PolicyRemade; infer_instance
instance (os xs : List Policy) (k : String) : Decidable (PolicyComes os xs k) := by unfold PolicyComes; infer_instance
instance (os xs : List Policy) (k : String) : Decidable (PolicyGoes os xs k) := by unfold PolicyGoes; infer_instance

/-- the hypotheses of C114 can be met: five statements, of which two make and two drop a policy -/
example : ∃ stmts r', generateMigrationStatements readerRand touchedPoliciesOld touchedPoliciesNew opts = .ok (stmts, r') ∧
    stmts.length = 5 ∧
    (∃ s ∈ stmts, makesPolicy (pub "t") "\"n\"" s.ddl = true) ∧ (∃ s ∈ stmts, takesPolicy (pub "t") "\"g\"" s.ddl = true) ∧
    (∃ s ∈ stmts, makesPolicy (pub "t") "\"q\"" s.ddl = true) ∧ (∃ s ∈ stmts, takesPolicy (pub "t") "\"q\"" s.ddl = true) ∧
    (¬ ∃ s ∈ stmts, makesPolicy (pub "t") "\"p\"" s.ddl = true) ∧ (¬ ∃ s ∈ stmts, takesPolicy (pub "t") "\"p\"" s.ddl = true) ∧
    ¬ ∃ s ∈ stmts, takesPolicy (pub "t") "\"n\"" s.ddl = true := by
  obtain ⟨stmts, r', h, hl⟩ : ∃ stmts r', generateMigrationStatements readerRand touchedPoliciesOld touchedPoliciesNew opts =
      .ok (stmts, r') ∧ stmts.length = 5 := exists_plan (by decide +kernel)
  have hc := C114_policies_made_and_dropped h (by unfold NamesUnique; decide +kernel) (o := touchedPoliciesOld.tables[0])
    (x := touchedPoliciesNew.tables[0]) (List.getElem_mem _) (List.getElem_mem _) rfl rfl rfl
    (by unfold NamesUnique; decide +kernel)
  exact ⟨stmts, r', h, hl, (hc _).1.mpr (by decide +kernel), (hc _).2.mpr (by decide +kernel), (hc _).1.mpr (by decide +kernel),
    (hc _).2.mpr (by decide +kernel), fun hh => absurd ((hc _).1.mp hh) (by decide +kernel),
    fun hh => absurd ((hc _).2.mp hh) (by decide +kernel), fun hh => absurd ((hc _).2.mp hh) (by decide +kernel)⟩

end
end Verif
