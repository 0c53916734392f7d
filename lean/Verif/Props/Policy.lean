import Verif.Lemmas.Inner
import Verif.Lemmas.Fate
import Verif.Spec.Policy
import Verif.Samples.Basic

/-!
# Policies and row level security
-/

namespace Verif

open Spec

/-- the statements about one policy -/
def Ddl.isPolicy (t : SQName) (n : String) : Ddl → Bool
  | .createPolicy t' n' .. => t' = t ∧ n' = n
  | .alterPolicy t' n' .. => t' = t ∧ n' = n
  | .dropPolicy t' n' => t' = t ∧ n' = n
  | _ => false

/-- those making it as in the new schema -/
def Ddl.setsPolicy (t : SQName) (n : String) : Ddl → Prop
  | .createPolicy t' n' .. => t' = t ∧ n' = n
  | .alterPolicy t' n' .. => t' = t ∧ n' = n
  | _ => False

instance (t : SQName) (n : String) (x : Ddl) : Decidable (x.setsPolicy t n) := by
  cases x <;> unfold Ddl.setsPolicy <;> infer_instance

theorem Ddl.isPolicy_iff {t : SQName} {n : String} {x : Ddl} :
    x.isPolicy t n = true ↔ x = .dropPolicy t n ∨ x.setsPolicy t n := by
  cases x <;> simp [Ddl.isPolicy, Ddl.setsPolicy]

theorem Ddl.isPolicy_tableBody {t : SQName} {n : String} {x : Ddl} (h : x.isPolicy t n = true) : x.tableBody t = true := by
  cases x <;> simp_all [Ddl.isPolicy, Ddl.tableBody]

theorem policyStep_other {t : SQName} {n : String} {x : Ddl} (h1 : x.isPolicy t n = false)
    (h2 : ∀ c p, x ≠ .createTable t c p) (h3 : x ≠ .dropTable t) (s : Option PolicyState) : policyStep t n s x = some s := by
  cases x <;> first
    | rfl
    | (simp only [Ddl.isPolicy, decide_eq_false_iff_not] at h1; exact if_neg h1)
    | skip
  · refine if_neg ?_; rintro rfl; exact h2 _ _ rfl
  · refine if_neg ?_; rintro rfl; exact h3 rfl

theorem runPolicy_filter {t : SQName} {n : String} {P : Statement → Bool} {l : List Statement}
    (h : ∀ x ∈ l, P x = false → ∀ s, policyStep t n s x.ddl = some s) (s : Option PolicyState) :
    runPolicy t n s l = runPolicy t n s (l.filter P) := by
  induction l generalizing s with
  | nil => rfl
  | cons x l ih =>
    have ih := ih fun y hy => h y (List.mem_cons_of_mem _ hy)
    rw [List.filter_cons]
    cases hp : P x with
    | false =>
      rw [if_neg (by simp), runPolicy, h x List.mem_cons_self hp]
      exact ih s
    | true =>
      rw [if_pos rfl, runPolicy, runPolicy]
      cases policyStep t n s x.ddl with
      | none => rfl
      | some s' => exact ih s'

theorem runPolicy_append (t : SQName) (n : String) (s : Option PolicyState) (a b : List Statement) :
    runPolicy t n s (a ++ b) = (runPolicy t n s a).bind fun s' => runPolicy t n s' b := by
  induction a generalizing s with
  | nil => rfl
  | cons x a ih =>
    rw [List.cons_append, runPolicy, runPolicy]
    cases policyStep t n s x.ddl with
    | none => rfl
    | some s' => exact ih s'

theorem runPolicy_one {t : SQName} {n : String} {s a : Option PolicyState} {x : Statement}
    (h : policyStep t n s x.ddl = some a) : runPolicy t n s [x] = some a := by
  rw [runPolicy, h]; rfl

theorem policy_deps {g : PolicyGen} {n o : Policy} {deps : List Dependency} (h : g.addAlterDeps n o = .ok deps) :
    mustRunBefore (g.vertexId n .delete) (g.vertexId n .addAlter) ∈ deps := by
  obtain ⟨t, _, h⟩ := except_bind_ok.mp h
  split at h
  · cases h; exact List.mem_cons_self
  · obtain ⟨t', _, h⟩ := except_bind_ok.mp h
    cases h; exact List.mem_cons_self

/-- the statements about one policy among those altering a table, dropping first -/
theorem alter_policy_statements {g : TableGen} {d : TableDiff} {stmts : List Statement} (run : TableRun g d stmts)
    (base : BaseRun d run.temps run.body) (n : String) :
    stmts.filter (fun s => s.ddl.isPolicy d.new.name n) =
      base.policies.statements.filter (fun s => s.ddl = .dropPolicy d.new.name n) ++
      base.policies.statements.filter fun s => s.ddl.setsPolicy d.new.name n := by
  obtain ⟨a, b, e, ha, hb⟩ := run.around base
  have hwrap : ∀ l : List Statement, (∀ s ∈ l, s.ddl.IsWrap) → l.filter (fun s => s.ddl.isPolicy d.new.name n) = [] := by
    intro l hl
    rw [List.filter_eq_nil_iff]
    intro s hs hp
    have := hl s hs
    cases hd : s.ddl <;> rw [hd] at this hp <;> first | cases this | cases hp
    all_goals cases hp
  have hord : ∀ P : Statement → Bool, (∀ s, P s = true → s.ddl.isPolicy d.new.name n = true) → ∀ ty : DiffType,
      (∀ v s, BaseShape d run.temps base.psg v s → P s = true → v = policyVertexId d.new.name n ty) →
      base.ordered.filter P = base.policies.statements.filter P := by
    intro P hP ty hv
    rw [order_filter base.hordered (policyVertexId d.new.name n ty).text]
    · rw [PartialGraph.statements_concat]
      simp only [List.flatMap_cons, List.flatMap_nil, List.filter_append, List.append_nil]
      have hno : ∀ p ∈ [base.columns, base.checks, base.privileges], p.statements.filter P = [] := by
        intro p hp
        rw [List.filter_eq_nil_iff]
        intro s hs hps
        have hps := hP s hps
        simp only [List.mem_cons, List.not_mem_nil, or_false] at hp
        rcases hp with rfl | rfl | rfl
        · cases mem_of_legacy (m := Except Err) base.hcolumns hs with
          | add o mem l h hs =>
            obtain ⟨def_, _, h⟩ := except_bind_ok.mp h
            cases h; rw [List.mem_singleton.mp hs] at hps; cases hps
          | delete o mem l h hs => cases h; rw [List.mem_singleton.mp hs] at hps; cases hps
          | alter o mem l h hs => cases ColumnGen.alter_shape h hs <;> cases hps
        · cases mem_of_legacy (m := Except Err) base.hchecks hs with
          | add o mem l h hs =>
            rcases (CheckGen.add_ok h).2 with ⟨hv, rfl⟩ | ⟨hv, _, rfl⟩
            · rw [List.mem_singleton.mp hs] at hps; cases hps
            · simp only [List.mem_cons, List.not_mem_nil, or_false] at hs
              rcases hs with rfl | rfl <;> cases hps
          | delete o mem l h hs =>
            obtain ⟨_, rfl⟩ := CheckGen.delete_ok h
            rw [List.mem_singleton.mp hs] at hps; cases hps
          | alter o mem l h hs =>
            obtain ⟨_, _, _, rfl⟩ := CheckGen.alter_ok h
            split at hs
            · rw [List.mem_singleton.mp hs] at hps; cases hps
            · cases hs
        · cases mem_of_legacy (m := Except Err) base.hprivileges hs with
          | add o mem l h hs => cases h; rw [List.mem_singleton.mp hs] at hps; cases hps
          | delete o mem l h hs => cases h; rw [List.mem_singleton.mp hs] at hps; cases hps
          | alter o mem l h hs => cases h; cases hs
      rw [hno base.columns (by simp), hno base.checks (by simp), hno base.privileges (by simp)]
      simp
    · intro v hvm s hs hp
      rw [hv _ _ ((base.vertex_origin hvm hs).shape base.hpsg) hp]
  have hdrop : ∀ v s, BaseShape d run.temps base.psg v s → s.ddl = .dropPolicy d.new.name n →
      v = policyVertexId d.new.name n .delete := by
    intro v s h hd
    cases h with
    | dropPolicy p hp hid => simp only [stmt, Ddl.dropPolicy.injEq] at hd; rw [hid, hd.2]
    | column cd hcd s hs => cases hs <;> cases hd
    | _ => cases hd
  have hsets : ∀ v s, BaseShape d run.temps base.psg v s → s.ddl.setsPolicy d.new.name n →
      v = policyVertexId d.new.name n .addAlter ∧
      base.graph.Declared (policyVertexId d.new.name n .delete).text (policyVertexId d.new.name n .addAlter).text := by
    have et := newPolicyGen_table base.hpsg
    intro v s h hd
    cases h with
    | createPolicy p hp cmd hc hid =>
      obtain ⟨_, rfl⟩ := hd
      refine ⟨hid, ?_⟩
      obtain ⟨deps, h1, h2⟩ := deps_of_add (m := Except Err) base.hpolicies hp
      have := base.declared_before (p := base.policies) (by simp) (h2 _ (policy_deps h1))
      unfold PolicyGen.vertexId at this
      rw [et] at this; exact this
    | alterPolicy p hp l hl a b c hs hid =>
      obtain ⟨_, rfl⟩ := hd
      refine ⟨hid, ?_⟩
      obtain ⟨deps, h1, h2⟩ := deps_of_alter (m := Except Err) base.hpolicies hp
      have := base.declared_before (p := base.policies) (by simp) (h2 _ (policy_deps h1))
      unfold PolicyGen.vertexId at this
      rw [et] at this; exact this
    | column cd hcd s hs => cases hs <;> cases hd
    | _ => cases hd
  have hbef : AllBefore (fun s => s.ddl = .dropPolicy d.new.name n) (fun s => s.ddl.setsPolicy d.new.name n) base.ordered :=
    base.allBefore fun u x v y hx hy hp hq => by
      obtain ⟨e1, e2⟩ := hsets v y hy hq
      rw [hdrop u x hx hp, e1]
      exact .single e2
  refine (congrArg _ e).trans ?_
  rw [List.filter_append, List.filter_append, hwrap a ha, hwrap b hb, List.nil_append, List.append_nil]
  refine (List.filter_congr fun s _ => ?_).trans ((hbef.filter_eq ?_).trans ?_)
  · rw [Bool.eq_iff_iff, decide_eq_true_eq]; exact Ddl.isPolicy_iff
  · rintro s ⟨h1, h2⟩; rw [h1] at h2; cases h2
  · rw [hord (fun s => decide (s.ddl = .dropPolicy d.new.name n)) ?_ .delete ?_,
      hord (fun s => decide (s.ddl.setsPolicy d.new.name n)) ?_ .addAlter ?_]
    · intro s hs; exact Ddl.isPolicy_iff.mpr (Or.inr (of_decide_eq_true hs))
    · intro v s hv hs; exact (hsets v s hv (of_decide_eq_true hs)).1
    · intro s hs; exact Ddl.isPolicy_iff.mpr (Or.inl (of_decide_eq_true hs))
    · intro v s hv hs; exact hdrop v s hv (of_decide_eq_true hs)

/-! ### one policy -/

section
variable {l : List Policy} {n : String}

theorem policyOf_none : policyOf l n = none ↔ n ∉ l.map Policy.escapedName := by
  unfold policyOf
  rw [Option.map_eq_none_iff, List.find?_eq_none, List.mem_map]
  simp

theorem policyOf_mem (hd : (l.map Policy.escapedName).Nodup) {p : Policy} (hp : p ∈ l) :
    policyOf l p.escapedName = some (.of p) := by
  unfold policyOf
  cases e : l.find? fun q => q.escapedName = p.escapedName with
  | none => rw [List.find?_eq_none] at e; exact absurd (e p hp) (by simp)
  | some q =>
    have h1 := List.mem_of_find?_eq_some e
    have h2 := List.find?_some e
    rw [List.inj_on_of_nodup_map hd h1 hp (by simpa using h2)]; rfl

end

theorem commandChar_of {c cmd : String} (h : policyCharToSQL c = .ok cmd) : commandChar cmd = some c := by
  unfold policyCharToSQL at h
  split at h
  · cases h; rename_i e; rw [e]; rfl
  split at h
  · cases h; rename_i e; rw [e]; rfl
  split at h
  · cases h; rename_i e; rw [e]; rfl
  split at h
  · cases h; rename_i e; rw [e]; rfl
  split at h
  · cases h; rename_i e; rw [e]; rfl
  · cases h

theorem nonEmpty?_getD (s : String) : (nonEmpty? s).getD "" = s := by
  unfold nonEmpty?; split
  · rfl
  · rename_i h; exact (not_not.mp h).symm

theorem nonEmpty?_empty : nonEmpty? "" = none := rfl

/-- creating a policy -/
theorem policyStep_create {t : SQName} {p : Policy} {cmd : String} (hc : policyCharToSQL p.cmd = .ok cmd) (hp : PolicyOk p) :
    policyStep t p.escapedName none (.createPolicy t p.escapedName p.isPermissive cmd p.appliesTo
      (nonEmpty? p.usingExpression) (nonEmpty? p.checkExpression)) = some (some (.of p)) := by
  simp only [policyStep, Option.isSome_none, Bool.false_eq_true, and_self, if_true, if_false, commandChar_of hc, hp.roles,
    nonEmpty?_getD]
  rw [if_pos]; rfl
  unfold clausesAllowed
  rw [Bool.and_eq_true, Bool.or_eq_true, Bool.or_eq_true, Bool.and_eq_true]
  constructor
  · by_cases e : p.cmd = "a"
    · rw [hp.using_ e]; exact Or.inr rfl
    · exact Or.inl (by simp [e])
  · by_cases e : p.cmd = "r" ∨ p.cmd = "d"
    · rw [hp.check e]; exact Or.inr rfl
    · rw [not_or] at e; exact Or.inl (by simp [e])

/-- altering a policy -/
theorem policyStep_alter {g : PolicyGen} {d : OldNew Policy} {l : List Statement} (h : g.alter d = .ok l)
    (hp : PolicyOk d.new) {t : SQName} (ht : g.table.name = t) :
    runPolicy t d.new.escapedName (some (.of d.old)) l = some (some (.of d.new)) := by
  obtain ⟨o, n⟩ := d
  obtain ⟨e, hl⟩ := PolicyGen.alter_ok h
  simp only at e hl hp ⊢
  obtain ⟨o1, o2, o3, o4, o5, o6, o7⟩ := o
  obtain ⟨n1, n2, n3, n4, n5, n6, n7⟩ := n
  simp only [Policy.mk.injEq] at e hl
  obtain ⟨rfl, rfl, _, rfl, e5, e6, _⟩ := e
  rcases hl with ⟨h3, h6, h5, rfl⟩ | rfl
  · rw [if_neg h5] at e5
    rw [if_neg h6] at e6
    subst h3 e5 e6; rfl
  · have hr : ∀ a, policyStep t o1 (some (.of ⟨o1, o2, o3, o4, o5, o6, o7⟩)) (g.alterStatement ⟨⟨o1, o2, o3, o4, o5, o6, o7⟩,
        ⟨o1, o2, n3, o4, n5, n6, n7⟩⟩).ddl = some a → runPolicy t o1 (some (.of ⟨o1, o2, o3, o4, o5, o6, o7⟩))
        [g.alterStatement ⟨⟨o1, o2, o3, o4, o5, o6, o7⟩, ⟨o1, o2, n3, o4, n5, n6, n7⟩⟩] = some a := by
      intro a ha; rw [runPolicy, ha]; rfl
    refine hr _ ?_
    unfold PolicyGen.alterStatement
    simp only [stmt, policyStep, PolicyState.of]
    have hu : (if o6 ≠ n6 ∧ n6 ≠ "" then some n6 else none).getD o6 = n6 := by
      revert e6; split
      · intro _; rfl
      · intro e; exact e
    have hc : (if o5 ≠ n5 ∧ n5 ≠ "" then some n5 else none).getD o5 = n5 := by
      revert e5; split
      · intro _; rfl
      · intro e; exact e
    have hu' : o4 = "a" → (if o6 ≠ n6 ∧ n6 ≠ "" then some n6 else none) = none := fun e => by
      have := hp.using_ e
      simp only at this
      rw [if_neg (by simp [this])]
    have hc' : o4 = "r" ∨ o4 = "d" → (if o5 ≠ n5 ∧ n5 ≠ "" then some n5 else none) = none := fun e => by
      have := hp.check e
      simp only at this
      rw [if_neg (by simp [this])]
    have hr1 : (if o3 ≠ n3 then some n3 else none) ≠ some [] := by
      have := hp.roles
      simp only at this
      split
      · simpa using this
      · simp
    have hr2 : (match (motive := Option (List String) → String → Bool) if o3 ≠ n3 then some n3 else none with
        | some l => fun r => decide (r ∈ l)
        | none => fun r => decide (r ∈ o3)) = fun r => decide (r ∈ n3) := by
      by_cases e3 : o3 ≠ n3
      · rw [if_pos e3]
      · rw [if_neg e3, not_not.mp e3]
    generalize (if o6 ≠ n6 ∧ n6 ≠ "" then some n6 else none) = u at *
    generalize (if o5 ≠ n5 ∧ n5 ≠ "" then some n5 else none) = c at *
    generalize (if o3 ≠ n3 then some n3 else none) = ro at *
    have hcl : clausesAllowed o4 u c = true := by
      unfold clausesAllowed
      rw [Bool.and_eq_true, Bool.or_eq_true, Bool.or_eq_true, Bool.and_eq_true]
      constructor
      · by_cases e : o4 = "a"
        · rw [hu' e]; exact Or.inr rfl
        · exact Or.inl (by simp [e])
      · by_cases e : o4 = "r" ∨ o4 = "d"
        · rw [hc' e]; exact Or.inr rfl
        · rw [not_or] at e; exact Or.inl (by simp [e])
    rw [if_pos ⟨ht, trivial⟩, if_neg hr1]
    refine (if_pos hcl).trans ?_
    rw [Option.some.injEq, Option.some.injEq, PolicyState.mk.injEq]
    exact ⟨rfl, rfl, hr2, hu, hc⟩

theorem filter_of_filter {α : Type} {a b : List α} {P Q : α → Bool} (h : a.filter Q = b.filter Q)
    (hPQ : ∀ s, P s = true → Q s = true) : a.filter P = b.filter P := by
  have : ∀ l : List α, l.filter P = (l.filter Q).filter P := by
    intro l
    rw [List.filter_filter]
    refine List.filter_congr fun x _ => ?_
    cases hp : P x with
    | false => rfl
    | true => rw [hPQ x hp]; rfl
  rw [this a, this b, h]

/-- altering the policies of a table makes every one of them as in the new schema -/
theorem alter_policies {g : TableGen} {d : TableDiff} {l : List Statement} (h : yields (g.alter d) l)
    (hd : ∃ psg, newPolicyGen (nilableTable d.old) d.new = .ok psg ∧
      buildPolicyDiffs psg d.old.policies d.new.policies = .ok d.policiesDiff)
    (hn : (d.new.policies.map Policy.escapedName).Nodup) (hok : ∀ p ∈ d.new.policies, PolicyOk p) (n : String) :
    runPolicy d.new.name n (policyOf d.old.policies n) (l.filter fun s => s.ddl.isPolicy d.new.name n) =
      some (policyOf d.new.policies n) := by
  obtain ⟨psg, hpsg, hd⟩ := hd
  have hod : (d.old.policies.map Policy.escapedName).Nodup := diffLists_old_nodup hd
  have hkey : ∀ (o x : Policy) (j i : Nat) (dd : OldNew Policy), Obj.getName o = Obj.getName x →
      (match psg.gen.alter ⟨o, x⟩ with
        | .ok _ => (.ok (⟨o, x⟩, false) : Except Err (OldNew Policy × Bool))
        | .error e => if e.isNotImplemented then .ok (⟨o, x⟩, true) else .error e) = .ok (dd, false) → dd = ⟨o, x⟩ := by
    intro o x j i dd _ hb
    split at hb
    · cases hb; rfl
    · split at hb <;> cases hb
  obtain ⟨run⟩ := table_run h
  by_cases hpart : d.new.isPartition = true
  · obtain ⟨_, hemp, _⟩ := TableGen.alterPartition_empty (run.hpartition hpart)
    obtain ⟨ea, ed, ec⟩ := ListDiff.isEmpty_iff.mp hemp
    have hnil : (l.filter fun s => s.ddl.isPolicy d.new.name n) = [] := by
      rw [List.filter_eq_nil_iff]
      intro s hs hp
      cases (table_alter_origin h hs).shape with
      | createPolicy p hp' => rw [ea] at hp'; cases hp'
      | dropPolicy p hp' => rw [ed] at hp'; cases hp'
      | alterPolicy p hp' => rw [ec] at hp'; cases hp'
      | column _ _ _ hs => cases hs <;> cases hp
      | _ => cases hp
    have := (diffLists_decision hd hn (key := fun d => d.new.escapedName)
      (fun o x j i dd e hb => by rw [hkey o x j i dd e hb]; rfl) n).1
    rw [hnil]
    cases this with
    | absent ho hx =>
      rw [policyOf_none.mpr ho, policyOf_none.mpr hx]; rfl
    | dropped _ _ _ _ h => rw [ed] at h; cases h
    | added _ _ _ _ h => rw [ea] at h; cases h
    | recreated _ _ _ _ _ _ _ h => rw [ed] at h; cases h
    | altered _ _ _ _ _ _ _ _ h => rw [ec] at h; cases h
  · obtain ⟨base⟩ := base_run (run.hbase (by simpa using hpart))
    obtain rfl : psg = base.psg := Except.ok.inj (hpsg.symm.trans base.hpsg)
    have et := newPolicyGen_table base.hpsg
    rw [alter_policy_statements run base n, runPolicy_append]
    have hcreate : ∀ p l, base.psg.add p = .ok l → ∃ cmd, policyCharToSQL p.cmd = .ok cmd ∧
        l = [stmt (.createPolicy d.new.name p.escapedName p.isPermissive cmd p.appliesTo (nonEmpty? p.usingExpression)
          (nonEmpty? p.checkExpression)) [.authzUpdate]] := by
      intro p l hl
      obtain ⟨cmd, hcmd, h⟩ := except_bind_ok.mp hl
      cases h; rw [et]; exact ⟨cmd, hcmd, rfl⟩
    have hdel : ∀ p l, base.psg.delete p = .ok l → l = [stmt (.dropPolicy d.new.name p.escapedName) [.authzUpdate]] := by
      intro p l hl; cases hl; rw [et]
    have halt : ∀ p l, base.psg.alter p = .ok l → ∀ s ∈ l, s.ddl.setsPolicy d.new.name p.new.escapedName := by
      intro p l hl s hs
      obtain ⟨_, ⟨_, _, _, rfl⟩ | rfl⟩ := PolicyGen.alter_ok hl
      · cases hs
      · rw [List.mem_singleton.mp hs]; exact ⟨congrArg Table.name et, rfl⟩
    have fate := legacy_fate (m := Except Err) (g := base.psg.legacy) hd hn base.hpolicies (key := fun d => d.new.escapedName)
      (n := n) (P := fun s => s.ddl.isPolicy d.new.name n)
      (fun o x j i dd e hb => by rw [hkey o x j i dd e hb]; rfl)
      (by
        intro o _ l hl hne
        obtain ⟨cmd, _, rfl⟩ := hcreate o l hl
        exact List.filter_cons_of_neg (by simp only [stmt, Ddl.isPolicy, decide_eq_true_eq]; exact fun h => hne h.2))
      (by
        intro o _ l hl hne
        obtain rfl := hdel o l hl
        exact List.filter_cons_of_neg (by simp only [stmt, Ddl.isPolicy, decide_eq_true_eq]; exact fun h => hne h.2))
      (by
        intro o _ l hl hne
        rw [List.filter_eq_nil_iff]
        intro s hs hp
        have h1 := halt o l hl s hs
        rcases Ddl.isPolicy_iff.mp hp with h2 | h2
        · rw [h2] at h1; exact h1
        · cases hdd : s.ddl <;> rw [hdd] at h1 h2 <;> first | exact h1 | exact hne (h1.2.symm.trans h2.2))
    have fd : ∀ {a : List Statement}, (base.policies.statements.filter fun s => s.ddl.isPolicy d.new.name n) =
        (a.filter fun s => s.ddl.isPolicy d.new.name n) →
        (base.policies.statements.filter fun s => s.ddl = .dropPolicy d.new.name n) =
          (a.filter fun s => s.ddl = .dropPolicy d.new.name n) := fun hs =>
      filter_of_filter hs fun s hs => Ddl.isPolicy_iff.mpr (Or.inl (of_decide_eq_true hs))
    have fs : ∀ {a : List Statement}, (base.policies.statements.filter fun s => s.ddl.isPolicy d.new.name n) =
        (a.filter fun s => s.ddl.isPolicy d.new.name n) →
        (base.policies.statements.filter fun s => s.ddl.setsPolicy d.new.name n) =
          (a.filter fun s => s.ddl.setsPolicy d.new.name n) := fun hs =>
      filter_of_filter hs fun s hs => Ddl.isPolicy_iff.mpr (Or.inr (of_decide_eq_true hs))
    have hdrop1 : ∀ q : PolicyState, runPolicy d.new.name n (some q) [stmt (.dropPolicy d.new.name n) [.authzUpdate]] =
        some none := by
      intro q; simp [runPolicy, policyStep, stmt]
    cases fate with
    | absent ho hx hs =>
      rw [fd (a := []) hs, fs (a := []) hs, policyOf_none.mpr ho, policyOf_none.mpr hx]; rfl
    | dropped o ho e hx _ l hl hs =>
      obtain rfl : o.escapedName = n := e
      obtain rfl := hdel o l hl
      rw [fd hs, fs hs, policyOf_mem hod ho, policyOf_none.mpr hx, List.filter_cons_of_pos (by simp [stmt]),
        List.filter_cons_of_neg (by simp [stmt, Ddl.setsPolicy]), List.filter_nil, hdrop1]
      rfl
    | added x hx e ho _ l hl hs =>
      obtain rfl : x.escapedName = n := e
      obtain ⟨cmd, hcmd, rfl⟩ := hcreate x l hl
      rw [fd hs, fs hs, policyOf_mem hn hx, policyOf_none.mpr ho, List.filter_cons_of_neg (by simp [stmt]),
        List.filter_cons_of_pos (by simp [stmt, Ddl.setsPolicy]), List.filter_nil]
      exact runPolicy_one (policyStep_create (t := d.new.name) hcmd (hok x hx))
    | recreated o x ho hx eo ex _ _ _ l l' hl hl' hs =>
      obtain rfl : x.escapedName = n := ex
      have eo : o.escapedName = x.escapedName := eo
      obtain rfl := hdel o l hl
      obtain ⟨cmd, hcmd, rfl⟩ := hcreate x l' hl'
      rw [← List.filter_append] at hs
      rw [fd hs, fs hs, policyOf_mem hn hx, ← eo, policyOf_mem hod ho, eo]
      rw [List.filter_append, List.filter_append, List.filter_cons_of_neg (by simp [stmt]), List.filter_cons_of_pos (by simp [stmt]),
        List.filter_cons_of_pos (by simp [stmt, Ddl.setsPolicy]), List.filter_cons_of_neg (by simp [stmt, Ddl.setsPolicy]),
        List.filter_nil, List.filter_nil, List.nil_append, List.append_nil, hdrop1]
      exact runPolicy_one (policyStep_create (t := d.new.name) hcmd (hok x hx))
    | altered o x dd ho hx eo ex hb _ l hl hs =>
      obtain ⟨i, j, hb⟩ := hb
      obtain rfl := hkey o x j i dd (eo.trans ex.symm) hb
      obtain rfl : x.escapedName = n := ex
      have eo : o.escapedName = x.escapedName := eo
      have ha := halt _ l hl
      rw [fd hs, fs hs, policyOf_mem hn hx, ← eo, policyOf_mem hod ho, eo, List.filter_eq_nil_iff.mpr,
        List.filter_eq_self.mpr]
      · exact policyStep_alter (d := ⟨o, x⟩) hl (hok x hx) (congrArg Table.name et)
      · intro s hs; exact decide_eq_true (ha s hs)
      · intro s hs he
        have := ha s hs
        rw [of_decide_eq_true he] at this; exact this

/-- the policies of a new table -/
theorem add_policies {g : TableGen} {t : Table} {l : List Statement} (h : g.add t = .ok l)
    (hn : (t.policies.map Policy.escapedName).Nodup) (hok : ∀ p ∈ t.policies, PolicyOk p) (n : String)
    (s : Option PolicyState) :
    runPolicy t.name n s (l.filter fun s => s.ddl.tableBody t.name) = some (policyOf t.policies n) := by
  have hbody : (l.filter fun s => s.ddl.tableBody t.name) = l := by
    rw [List.filter_eq_self]
    intro s hs
    obtain ⟨_, _, hsh⟩ := TableGen.add_shape h hs
    rw [hsh.tableBody]; simp
  rw [hbody]
  obtain ⟨run⟩ := add_run h
  obtain ⟨parts, hparts, hpol⟩ := concatMapM_spec run.hpolicies
  have et := newPolicyGen_table run.hpsg
  have hpart : ∀ p b, (do let pg ← run.psg.gen.add p; return pg.statements : Except Err _) = .ok b →
      ∃ cmd, policyCharToSQL p.cmd = .ok cmd ∧
        b = [stmt (.createPolicy t.name p.escapedName p.isPermissive cmd p.appliesTo (nonEmpty? p.usingExpression)
          (nonEmpty? p.checkExpression)) [.authzUpdate]] := by
    intro p b hb
    obtain ⟨pg, hpg, hb⟩ := except_bind_ok.mp hb
    obtain ⟨l, deps, hl, _, rfl⟩ := toNew_add (m := Except Err) (g := run.psg.legacy) hpg
    obtain ⟨cmd, hcmd, hl⟩ := except_bind_ok.mp hl
    cases hl
    rw [← except_pure_ok.mp hb, single_statements, et]
    exact ⟨cmd, hcmd, rfl⟩
  have hfil : ∃ f : List Statement → List Statement, (∀ a, (f a) = a.map fun s => { s with hazards := [] }) ∧
      ∀ s0 : Option PolicyState, runPolicy t.name n s0 l =
        runPolicy t.name n none ((f run.policies).filter fun s => s.ddl.isPolicy t.name n) := by
    refine ⟨stripMigrationHazards, fun _ => rfl, fun s0 => ?_⟩
    obtain ⟨ccs, cols, rest, _, _, e, hrest⟩ := TableGen.add_create h
    have e' := e.symm.trans run.hstmts
    rw [List.cons.injEq] at e'
    refine (congrArg _ e).trans ?_
    rw [runPolicy]
    have e2 : ∀ a b, policyStep t.name n s0 (Ddl.createTable t.name a b) = some none := fun a b => if_pos rfl
    show (policyStep t.name n s0 (Ddl.createTable _ _ _)).bind _ = _
    rw [e2, Option.bind_some, runPolicy_filter (P := fun s => s.ddl.isPolicy t.name n)]
    · refine congrArg _ ?_
      have hno : ∀ a : List Statement, (∀ s ∈ a, ∀ p1 p2 p3 p4 p5, s.ddl = .createPolicy t.name n p1 p2 p3 p4 p5 → False) →
          (∀ s ∈ a, s ∈ rest) → a.filter (fun s => s.ddl.isPolicy t.name n) = [] := by
        intro a ha hsub
        rw [List.filter_eq_nil_iff]
        intro s hs hp
        cases (hrest s (hsub s hs)).1 with
        | policy p hp' cmd hc =>
          simp only [stmt, Ddl.isPolicy, decide_eq_true_eq] at hp
          exact ha _ hs p.isPermissive cmd p.appliesTo (nonEmpty? p.usingExpression) (nonEmpty? p.checkExpression)
            (by simp only [stmt]; rw [hp.2])
        | _ => cases hp
      have hsub : ∀ s, s ∈ _ → s ∈ rest := fun s hs => e'.2 ▸ hs
      simp only [List.mem_append] at hsub
      rw [e'.2]
      simp only [List.filter_append]
      rw [hno (stripMigrationHazards run.checks) ?_ fun s hs => hsub s (by simp [hs]),
        hno (stripMigrationHazards run.replica) ?_ fun s hs => hsub s (by simp [hs]),
        hno (stripMigrationHazards (if t.rlsEnabled then [enableRLSForTable t] else [])) ?_ fun s hs => hsub s (by simp [hs]),
        hno (stripMigrationHazards (if t.rlsForced then [forceRLSForTable t] else [])) ?_ fun s hs => hsub s (by simp [hs]),
        hno (stripMigrationHazards run.privileges) ?_ fun s hs => hsub s (by simp [hs])]
      · simp
      · intro s hs _ _ _ _ _ he
        obtain ⟨s0, hs0, rfl⟩ := List.mem_map.mp hs
        obtain ⟨c, _, b, hb, hs⟩ := mem_concatMapM run.hprivileges hs0
        cases hb; rw [List.mem_singleton.mp hs] at he; cases he
      · intro s hs _ _ _ _ _ he
        obtain ⟨s0, hs0, rfl⟩ := List.mem_map.mp hs
        split at hs0
        · rw [List.mem_singleton.mp hs0] at he; cases he
        · cases hs0
      · intro s hs _ _ _ _ _ he
        obtain ⟨s0, hs0, rfl⟩ := List.mem_map.mp hs
        split at hs0
        · rw [List.mem_singleton.mp hs0] at he; cases he
        · cases hs0
      · intro s hs _ _ _ _ _ he
        obtain ⟨s0, hs0, rfl⟩ := List.mem_map.mp hs
        rcases run.hreplica with ⟨_, h⟩ | ⟨_, s', h', h⟩
        · rw [h] at hs0; cases hs0
        · rw [h] at hs0
          obtain ⟨_, _, e⟩ := except_bind_ok.mp h'
          rw [List.mem_singleton.mp hs0, ← except_pure_ok.mp e] at he
          cases he
      · intro s hs _ _ _ _ _ he
        obtain ⟨s0, hs0, rfl⟩ := List.mem_map.mp hs
        obtain ⟨c, hc, b, hb, hs⟩ := mem_concatMapM run.hchecks hs0
        rcases (CheckGen.add_ok hb).2 with ⟨_, rfl⟩ | ⟨_, h, _⟩
        · rw [List.mem_singleton.mp hs] at he; cases he
        · cases h
    · intro x hx hp s'
      refine policyStep_other hp ((hrest x hx).2 t.name) ?_ s'
      intro he
      cases (hrest x hx).1 <;> cases he
  obtain ⟨f, hf, hrun⟩ := hfil
  rw [hrun s, hf]
  have hmap : ∀ a : List Statement, ((a.map fun s => { s with hazards := [] }).filter fun s => s.ddl.isPolicy t.name n) =
      (a.filter fun s => s.ddl.isPolicy t.name n).map fun s => { s with hazards := [] } := by
    intro a; rw [List.filter_map]; rfl
  rw [hmap, hpol]
  cases hq : policyOf t.policies n with
  | none =>
    rw [policyOf_none] at hq
    rw [flatten_filter_nil hparts]
    · rfl
    · intro p hp b hb
      obtain ⟨cmd, _, rfl⟩ := hpart p b hb
      refine List.filter_cons_of_neg ?_
      simp only [stmt, Ddl.isPolicy, decide_eq_true_eq]
      rintro ⟨_, rfl⟩
      exact hq (List.mem_map_of_mem hp)
  | some q =>
    have : n ∈ t.policies.map Policy.escapedName := by
      by_contra hh; rw [policyOf_none.mpr hh] at hq; cases hq
    obtain ⟨p, hp, rfl⟩ := List.mem_map.mp this
    rw [policyOf_mem hn hp] at hq
    obtain ⟨b, hb, e⟩ := flatten_filter_focus (P := fun s => s.ddl.isPolicy t.name p.escapedName) (key := Policy.escapedName)
      hparts hn hp (by
        intro x _ b hb hne
        obtain ⟨cmd, _, rfl⟩ := hpart x b hb
        refine List.filter_cons_of_neg ?_
        simp only [stmt, Ddl.isPolicy, decide_eq_true_eq]
        exact fun h => hne h.2)
    obtain ⟨cmd, hcmd, rfl⟩ := hpart p b hb
    rw [e, List.filter_cons_of_pos (by simp [stmt, Ddl.isPolicy]), List.filter_nil, ← hq]
    exact runPolicy_one (policyStep_create hcmd (hok p hp))

theorem policyState_normalize (p : Policy) : PolicyState.of (normalizePolicy p) = PolicyState.of p := by
  unfold PolicyState.of normalizePolicy
  simp only [PolicyState.mk.injEq, true_and, and_true]
  funext r
  exact decide_eq_decide.mpr (sortBy_perm _ _).mem_iff

theorem normalize_policy_names (l : List Policy) :
    (((sortObjs l).map normalizePolicy).map Policy.escapedName).Perm (l.map Policy.escapedName) := by
  rw [List.map_map]
  exact (sortObjs_perm l).map _

theorem policyOf_normalize {l : List Policy} (hn : (l.map Policy.escapedName).Nodup) (n : String) :
    policyOf ((sortObjs l).map normalizePolicy) n = policyOf l n := by
  have hp := normalize_policy_names l
  by_cases h : n ∈ l.map Policy.escapedName
  · obtain ⟨p, hm, rfl⟩ := List.mem_map.mp h
    rw [policyOf_mem hn hm, ← policyState_normalize p]
    exact policyOf_mem (hp.nodup_iff.mpr hn) (List.mem_map_of_mem ((sortObjs_perm l).mem_iff.mpr hm))
  · rw [policyOf_none.mpr h, policyOf_none.mpr fun hh => h (hp.mem_iff.mp hh)]

theorem policyOk_normalize {p : Policy} (h : PolicyOk p) : PolicyOk (normalizePolicy p) := by
  refine ⟨?_, h.using_, h.check⟩
  intro e
  have := (sortBy_perm id p.appliesTo).length_eq
  have e : sortStrings p.appliesTo = [] := e
  unfold sortStrings at e
  rw [e] at this
  exact h.roles (List.length_eq_zero_iff.mp this.symm)

section
variable {r r' : Rand} {old new : Schema} {opts : PlanOptions} {stmts : List Statement}

/-- C24: the plan makes the policies of every table of the new schema exactly those of the new schema: command, roles,
USING and WITH CHECK.  Postgres rejects no statement on the way, so a policy that cannot be altered is dropped before it is
created again. -/
theorem C24_policies_become_those_of_the_target (h : generateMigrationStatements r old new opts = .ok (stmts, r'))
    (hn : (new.tables.map Obj.getName).Nodup) {t : Table} (ht : t ∈ new.tables)
    (hd : (t.policies.map Policy.escapedName).Nodup) (hok : ∀ p ∈ t.policies, PolicyOk p) (n : String) :
    (∀ o ∈ old.tables, o.name = t.name → runPolicy t.name n (policyOf o.policies n) stmts = some (policyOf t.policies n)) ∧
    (Obj.getName t ∉ old.tables.map Obj.getName → runPolicy t.name n none stmts = some (policyOf t.policies n)) := by
  obtain ⟨d, ⟨dr, run, _⟩, hc⟩ := plan_table_cases h hn ht
  have hd' : ((normalizeTable t).policies.map Policy.escapedName).Nodup := (normalize_policy_names _).nodup_iff.mpr hd
  have hok' : ∀ p ∈ (normalizeTable t).policies, PolicyOk p := by
    intro p hp
    obtain ⟨q, hq, rfl⟩ := List.mem_map.mp hp
    exact policyOk_normalize (hok q ((sortObjs_perm _).mem_iff.mp hq))
  rw [← policyOf_normalize hd]
  rcases hc with ⟨l, hl, hf, hb⟩ | ⟨td, htd, e1, o', ho', e2, e3, ⟨td0, i, j, hbd, rfl⟩, hno, l, hl, hf⟩
  · have key : ∀ s, runPolicy t.name n s stmts = some (policyOf (normalizeTable t).policies n) := by
      intro s
      have ep : (packIf opts (normalizeTable t)).policies = (normalizeTable t).policies := by unfold packIf; split <;> rfl
      have en : (packIf opts (normalizeTable t)).name = t.name := by unfold packIf; split <;> rfl
      rw [runPolicy_filter (P := fun x => x.ddl = .dropTable t.name ∨ x.ddl.tableBody t.name = true)]
      · rw [hb.filter_eq, runPolicy_append]
        · have := add_policies hl (by rw [ep]; exact hd') (by rw [ep]; exact hok') n
          rw [ep, en] at this
          have e : (stmts.filter fun s => decide (s.ddl.tableBody t.name = true)) = l.filter fun s => s.ddl.tableBody t.name := by
            rw [← hf _ fun _ h => h]; exact List.filter_congr fun s _ => by simp
          have hdrops : ∀ a : List Statement, (∀ x ∈ a, x.ddl = .dropTable t.name) →
              ∀ s, ∃ s', runPolicy t.name n s a = some s' := by
            intro a ha
            induction a with
            | nil => exact fun s => ⟨s, rfl⟩
            | cons x a ih =>
              intro s
              rw [runPolicy, ha x List.mem_cons_self]
              have : policyStep t.name n s (.dropTable t.name) = some none := if_pos rfl
              rw [this]
              exact ih (fun y hy => ha y (List.mem_cons_of_mem _ hy)) none
          obtain ⟨s', hs'⟩ := hdrops (stmts.filter fun s => decide (s.ddl = .dropTable t.name))
            (fun x hx => of_decide_eq_true (List.mem_filter.mp hx).2) s
          rw [hs', e]; exact this _
        · rintro s ⟨h1, h2⟩; rw [h1] at h2; cases h2
      · intro x _ hx s
        simp only [decide_eq_false_iff_not, not_or] at hx
        refine policyStep_other ?_ ?_ hx.1 s
        · cases hk : x.ddl.isPolicy t.name n with
          | false => rfl
          | true => exact absurd (Ddl.isPolicy_tableBody hk) hx.2
        · intro c p e; exact hx.2 (by rw [e]; simp [Ddl.tableBody])
    exact ⟨fun _ _ _ => key _, fun _ => key _⟩
  · refine ⟨?_, fun hnot => absurd (List.mem_map.mpr ⟨o', ho', e3⟩) hnot⟩
    intro o ho hname
    have hoo : normalizeTable o' = normalizeTable o :=
      List.inj_on_of_nodup_map (diffLists_old_nodup dr.htd0) (mem_normalize_tables_of ho') (mem_normalize_tables_of ho)
        (e3.trans (congrArg SQName.getName hname.symm))
    have hon : o'.name = t.name := (congrArg Table.name hoo).trans hname
    obtain ⟨b1, b2, _, _, _, _, _, ⟨psg, b8, b9⟩, _⟩ := buildTableDiff_ok hbd
    rw [hoo] at b1 b8 b9
    have hod : (o.policies.map Policy.escapedName).Nodup :=
      (normalize_policy_names _).nodup_iff.mp (diffLists_old_nodup b9)
    have en : (orderIf opts td0).new = normalizeTable t := e1
    have eo : (orderIf opts td0).old = normalizeTable o := (orderIf_old _ _).trans b1
    rw [← policyOf_normalize hod]
    have := alter_policies hl ⟨psg, by rw [eo, en]; exact b8, by rw [eo, en, orderIf_policies]; exact b9⟩
      (by rw [en]; exact hd') (by rw [en]; exact hok') n
    rw [eo, en] at this
    refine Eq.trans ?_ this
    rw [runPolicy_filter (P := fun s => s.ddl.isPolicy t.name n)]
    · exact congrArg _ (hf _ fun s hs => Ddl.isPolicy_tableBody hs)
    · intro s hs hp s'
      obtain ⟨h1, h2⟩ := hno hon s hs
      exact policyStep_other hp h1 h2 s'

end

/-! ### row level security -/

/-- the statements about the row level security of a table -/
def Ddl.isRls (t : SQName) : Ddl → Bool
  | .alterTable t' .enableRLS => t' = t
  | .alterTable t' .disableRLS => t' = t
  | .alterTable t' .forceRLS => t' = t
  | .alterTable t' .noForceRLS => t' = t
  | _ => false

theorem Ddl.isRls_tableBody {t : SQName} {x : Ddl} (h : x.isRls t = true) : x.tableBody t = true := by
  cases x with
  | alterTable t' c => cases c <;> simp_all [Ddl.isRls, Ddl.tableBody]
  | _ => cases h

theorem IsPolicyOf.tableBody {t : SQName} {x : Ddl} (h : IsPolicyOf t x) : x.tableBody t = true := by
  cases x <;> simp_all [IsPolicyOf, Ddl.tableBody]

theorem BaseRun.shape {d : TableDiff} {temps : List CheckConstraint} {body : List Statement} (run : BaseRun d temps body)
    {s : Statement} (hs : s ∈ run.ordered) : ∃ id, BaseShape d temps run.psg id s := by
  have := (C02_order_is_permutation _ run.hordered).mem_iff.mp hs
  obtain ⟨v, hv, hs⟩ := PartialGraph.mem_statements.mp this
  exact ⟨_, (run.vertex_origin hv hs).shape run.hpsg⟩

theorem TableRun.body_not_rls {g : TableGen} {d : TableDiff} {stmts : List Statement} (run : TableRun g d stmts)
    (t : SQName) : ∀ s ∈ run.body, s.ddl.isRls t = false := by
  intro s hs
  cases hp : d.new.isPartition with
  | true =>
    obtain ⟨m, e⟩ := TableGen.alterPartition_ok (run.hpartition hp)
    rw [e] at hs
    obtain ⟨cd, hcd, hs⟩ := List.mem_flatMap.mp hs
    unfold TableGen.alterPartitionColumn at hs
    repeat' (split at hs)
    all_goals first
      | (cases hs; done)
      | (rw [List.mem_singleton.mp hs]; rfl)
  | false =>
    obtain ⟨base⟩ := base_run (run.hbase hp)
    have := base.hbody
    rw [this, List.mem_append] at hs
    rcases hs with hs | hs
    · obtain ⟨id, h⟩ := base.shape hs
      cases h with
      | column cd hcd s hs => cases hs <;> rfl
      | _ => rfl
    · obtain ⟨c, _, rfl⟩ := base.dropTemps_ddl hs; rfl

theorem TableRun.replica_not_rls {g : TableGen} {d : TableDiff} {stmts : List Statement} (run : TableRun g d stmts)
    (t : SQName) : ∀ s ∈ run.replica, s.ddl.isRls t = false ∧ ¬ IsPolicyOf t s.ddl := by
  intro s hs
  rcases run.hreplica with ⟨_, e⟩ | ⟨_, s', h1, e⟩
  · rw [e] at hs; cases hs
  · rw [e] at hs
    obtain ⟨ty, _, e⟩ := alterReplicaIdentityStatement_ok h1
    rw [List.mem_singleton.mp hs, e]
    exact ⟨rfl, id⟩

theorem allBefore_filter {σ : Type} {P Q : σ → Prop} {R : σ → Bool} {l : List σ} (hP : ∀ s, P s → R s = true)
    (hQ : ∀ s, Q s → R s = true) : AllBefore P Q (l.filter R) ↔ AllBefore P Q l := by
  unfold AllBefore
  rw [List.pairwise_filter]
  constructor
  · intro h
    refine h.imp fun {a b} hab hh => hab (hQ _ hh.1) (hP _ hh.2) hh
  · intro h
    exact h.imp fun hab _ _ => hab

/-- in the alteration of a table, row level security goes first and comes last -/
theorem TableRun.rls_order {g : TableGen} {d : TableDiff} {l : List Statement} (run : TableRun g d l) (t : SQName) :
    AllBefore (fun s => s.ddl = .alterTable t .disableRLS) (fun s => IsPolicyOf t s.ddl) l ∧
    AllBefore (fun s => IsPolicyOf t s.ddl) (fun s => s.ddl = .alterTable t .enableRLS) l := by
  have single : ∀ {c : Bool} {x s : Statement}, s ∈ (if c then [x] else []) → s = x := by
    intro c x s hx; cases c <;> simp_all
  have hb := run.body_not_rls t
  have hr := run.replica_not_rls t
  have e := run.hstmts
  generalize run.body = body at *
  generalize run.replica = replica at *
  subst e
  constructor
  · rw [allBefore_append, allBefore_append, allBefore_append, allBefore_append, allBefore_append]
    have no : ∀ s ∈ body ++ replica ++ (if d.new.rlsEnabled && !d.old.rlsEnabled then [enableRLSForTable d.new] else []) ++
        (if d.new.rlsForced && !d.old.rlsForced then [forceRLSForTable d.new] else []) ++
        (if !d.new.rlsForced && d.old.rlsForced then [unforceRLSForTable d.new] else []),
        s.ddl ≠ .alterTable t .disableRLS := by
      intro s hs he
      simp only [List.mem_append] at hs
      rcases hs with (((hs | hs) | hs) | hs) | hs
      · have := hb s hs; rw [he] at this; simp [Ddl.isRls] at this
      · have := (hr s hs).1; rw [he] at this; simp [Ddl.isRls] at this
      · rw [single hs] at he; cases he
      · rw [single hs] at he; cases he
      · rw [single hs] at he; cases he
    simp only [List.mem_append] at no
    refine ⟨⟨⟨⟨⟨?_, ?_, ?_⟩, ?_, ?_⟩, ?_, ?_⟩, ?_, ?_⟩, ?_, ?_⟩
    · refine allBefore_of_not_right fun s hs hq => ?_
      rw [single hs] at hq; exact hq
    · exact allBefore_of_not_left fun s hs => no s (by simp only [hs, true_or, or_true])
    · exact fun x _ y hy hh => no y (by simp only [hy, true_or, or_true]) hh.2
    · exact allBefore_of_not_left fun s hs => no s (by simp only [hs, true_or, or_true])
    · exact fun x _ y hy hh => no y (by simp only [hy, true_or, or_true]) hh.2
    · exact allBefore_of_not_left fun s hs => no s (by simp only [hs, true_or, or_true])
    · exact fun x _ y hy hh => no y (by simp only [hy, true_or, or_true]) hh.2
    · exact allBefore_of_not_left fun s hs => no s (by simp only [hs, true_or, or_true])
    · exact fun x _ y hy hh => no y (by simp only [hy, true_or, or_true]) hh.2
    · exact allBefore_of_not_left fun s hs => no s (by simp only [hs, true_or, or_true])
    · exact fun x _ y hy hh => no y (by simp only [hy, true_or, or_true]) hh.2
  · rw [List.append_assoc, allBefore_append]
    refine ⟨?_, ?_, ?_⟩
    · refine allBefore_of_not_right fun s hs he => ?_
      simp only [List.mem_append] at hs
      rcases hs with ((hs | hs) | hs) | hs
      · rw [single hs] at he; cases he
      · rw [single hs] at he; cases he
      · have := hb s hs; rw [he] at this; simp [Ddl.isRls] at this
      · have := (hr s hs).1; rw [he] at this; simp [Ddl.isRls] at this
    · refine allBefore_of_not_left fun s hs hp => ?_
      rcases List.mem_append.mp hs with hs | hs <;> rw [single hs] at hp <;> exact hp
    · rintro x hx y hy ⟨_, hp⟩
      rcases List.mem_append.mp hy with hs | hs <;> rw [single hs] at hp <;> exact hp

theorem runRls_append (t : SQName) (s : Bool × Bool) (a b : List Statement) :
    runRls t s (a ++ b) = runRls t (runRls t s a) b := List.foldl_append

theorem rlsStep_other {t : SQName} {x : Ddl} (h1 : x.isRls t = false) (h2 : ∀ c p, x ≠ .createTable t c p) (s : Bool × Bool) :
    rlsStep t s x = s := by
  cases x with
  | createTable t' c p => exact if_neg fun e => h2 c p (by rw [e])
  | alterTable t' a => cases a <;> first | rfl | exact if_neg (of_decide_eq_false h1)
  | _ => rfl

theorem runRls_filter {t : SQName} {P : Statement → Bool} {l : List Statement}
    (h : ∀ x ∈ l, P x = false → ∀ s, rlsStep t s x.ddl = s) (s : Bool × Bool) :
    runRls t s l = runRls t s (l.filter P) := by
  induction l generalizing s with
  | nil => rfl
  | cons x l ih =>
    have ih := ih fun y hy => h y (List.mem_cons_of_mem _ hy)
    rw [List.filter_cons]
    cases hp : P x with
    | false =>
      rw [if_neg (by simp)]
      have : runRls t s (x :: l) = runRls t (rlsStep t s x.ddl) l := rfl
      rw [this, h x List.mem_cons_self hp]
      exact ih s
    | true => rw [if_pos rfl]; exact ih _

theorem runRls_other {t : SQName} {l : List Statement} (h : ∀ x ∈ l, ∀ s, rlsStep t s x.ddl = s) (s : Bool × Bool) :
    runRls t s l = s := by
  rw [runRls_filter (P := fun _ => false) fun x hx _ => h x hx, List.filter_false]; rfl

/-- altering a table sets its row level security -/
theorem TableRun.rls {g : TableGen} {d : TableDiff} {l : List Statement} (run : TableRun g d l)
    (hl : ∀ s ∈ l, ∀ c p, s.ddl ≠ .createTable d.new.name c p) :
    runRls d.new.name (d.old.rlsEnabled, d.old.rlsForced) l = (d.new.rlsEnabled, d.new.rlsForced) := by
  have hb := run.body_not_rls d.new.name
  have hr := run.replica_not_rls d.new.name
  have e := run.hstmts
  generalize run.body = body at *
  generalize run.replica = replica at *
  subst e
  simp only [List.mem_append] at hl
  simp only [runRls_append]
  rw [runRls_other (l := body), runRls_other (l := replica)]
  · have e1 : ∀ s, rlsStep d.new.name s (enableRLSForTable d.new).ddl = (true, s.2) := fun _ => if_pos rfl
    have e2 : ∀ s, rlsStep d.new.name s (disableRLSForTable d.new).ddl = (false, s.2) := fun _ => if_pos rfl
    have e3 : ∀ s, rlsStep d.new.name s (forceRLSForTable d.new).ddl = (s.1, true) := fun _ => if_pos rfl
    have e4 : ∀ s, rlsStep d.new.name s (unforceRLSForTable d.new).ddl = (s.1, false) := fun _ => if_pos rfl
    cases h1 : d.new.rlsEnabled <;> cases h2 : d.old.rlsEnabled <;> cases h3 : d.new.rlsForced <;>
      cases h4 : d.old.rlsForced <;> simp [runRls, e1, e2, e3, e4]
  · exact fun s hs s' => rlsStep_other (hr s hs).1 (hl s (by simp only [hs, true_or, or_true])) s'
  · exact fun s hs s' => rlsStep_other (hb s hs) (hl s (by simp only [hs, true_or, or_true])) s'

/-- a new table: its row level security, and that it comes after its policies -/
theorem add_rls {g : TableGen} {t : Table} {l : List Statement} (h : g.add t = .ok l) :
    (∀ s, runRls t.name s l = (t.rlsEnabled, t.rlsForced)) ∧
    ∀ n, AllBefore (fun s => s.ddl = .alterTable n .disableRLS) (fun s => IsPolicyOf n s.ddl) l ∧
      AllBefore (fun s => IsPolicyOf n s.ddl) (fun s => s.ddl = .alterTable n .enableRLS) l := by
  obtain ⟨run⟩ := add_run h
  have single : ∀ {c : Bool} {x s : Statement}, s ∈ stripMigrationHazards (if c then [x] else []) → s.ddl = x.ddl := by
    intro c x s hx
    obtain ⟨s0, hs0, rfl⟩ := List.mem_map.mp hx
    cases c <;> simp_all
  have checks : ∀ s ∈ stripMigrationHazards run.checks, ∃ a b c d, s.ddl = .alterTable t.name (.addCheck a b c d) := by
    intro s hs
    obtain ⟨s0, hs0, rfl⟩ := List.mem_map.mp hs
    obtain ⟨c, hc, b, hb, hs⟩ := mem_concatMapM run.hchecks hs0
    rcases (CheckGen.add_ok hb).2 with ⟨_, rfl⟩ | ⟨_, h, _⟩
    · rw [List.mem_singleton.mp hs]; exact ⟨_, _, _, _, rfl⟩
    · cases h
  have replica : ∀ s ∈ stripMigrationHazards run.replica, ∃ a, s.ddl = .alterTable t.name (.replicaIdentity a) := by
    intro s hs
    obtain ⟨s0, hs0, rfl⟩ := List.mem_map.mp hs
    rcases run.hreplica with ⟨_, h⟩ | ⟨_, s', h', h⟩
    · rw [h] at hs0; cases hs0
    · rw [h] at hs0
      obtain ⟨ty, _, e⟩ := alterReplicaIdentityStatement_ok h'
      rw [List.mem_singleton.mp hs0, e]; exact ⟨_, rfl⟩
  have privileges : ∀ s ∈ stripMigrationHazards run.privileges, ∃ a b c, s.ddl = .grant t.name a b c := by
    intro s hs
    obtain ⟨s0, hs0, rfl⟩ := List.mem_map.mp hs
    obtain ⟨c, hc, b, hb, hs⟩ := mem_concatMapM run.hprivileges hs0
    cases hb; rw [List.mem_singleton.mp hs]; exact ⟨_, _, _, rfl⟩
  have policies : ∀ s ∈ stripMigrationHazards run.policies, ∃ a b c d e f, s.ddl = .createPolicy t.name a b c d e f := by
    intro s hs
    obtain ⟨s0, hs0, rfl⟩ := List.mem_map.mp hs
    obtain ⟨c, hc, b, hb, hs⟩ := mem_concatMapM run.hpolicies hs0
    obtain ⟨pg, hpg, hb⟩ := except_bind_ok.mp hb
    obtain ⟨l, deps, hl, _, rfl⟩ := toNew_add (m := Except Err) (g := run.psg.legacy) hpg
    obtain ⟨cmd, hcmd, hl⟩ := except_bind_ok.mp hl
    cases hl
    rw [← except_pure_ok.mp hb, single_statements, newPolicyGen_table run.hpsg] at hs
    rw [List.mem_singleton.mp hs]; exact ⟨_, _, _, _, _, _, rfl⟩
  have e := run.hstmts
  generalize stripMigrationHazards run.checks = cs at *
  generalize stripMigrationHazards run.replica = rs at *
  generalize stripMigrationHazards run.policies = ps at *
  generalize stripMigrationHazards run.privileges = gs at *
  generalize run.columnDefs = cols at *
  clear run
  subst e
  refine ⟨fun s => ?_, fun n => ⟨?_, ?_⟩⟩
  · have e0 : ∀ x l, runRls t.name s (x :: l) = runRls t.name (rlsStep t.name s x.ddl) l := fun _ _ => rfl
    rw [e0]
    simp only [runRls_append]
    have e0 : ∀ a b, rlsStep t.name s (stmt (.createTable t.name a b)).ddl = (false, false) := fun _ _ => if_pos rfl
    rw [e0, runRls_other (l := cs), runRls_other (l := rs), runRls_other (l := ps), runRls_other (l := gs)]
    · have e1 : ∀ s, rlsStep t.name s (enableRLSForTable t).ddl = (true, s.2) := fun _ => if_pos rfl
      have e3 : ∀ s, rlsStep t.name s (forceRLSForTable t).ddl = (s.1, true) := fun _ => if_pos rfl
      cases h1 : t.rlsEnabled <;> cases h2 : t.rlsForced <;> simp [runRls, stripMigrationHazards, e1, e3]
    · intro x hx s; obtain ⟨_, _, _, e⟩ := privileges x hx; rw [e]; rfl
    · intro x hx s; obtain ⟨_, _, _, _, _, _, e⟩ := policies x hx; rw [e]; rfl
    · intro x hx s; obtain ⟨_, e⟩ := replica x hx; rw [e]; rfl
    · intro x hx s; obtain ⟨_, _, _, _, e⟩ := checks x hx; rw [e]; rfl
  · refine allBefore_of_not_left fun s hs he => ?_
    simp only [List.mem_cons, List.mem_append] at hs
    rcases hs with rfl | (((((hs | hs) | hs) | hs) | hs) | hs)
    · cases he
    · obtain ⟨_, _, _, _, e⟩ := checks s hs; rw [e] at he; cases he
    · obtain ⟨_, e⟩ := replica s hs; rw [e] at he; cases he
    · obtain ⟨_, _, _, _, _, _, e⟩ := policies s hs; rw [e] at he; cases he
    · rw [single hs] at he; cases he
    · rw [single hs] at he; cases he
    · obtain ⟨_, _, _, e⟩ := privileges s hs; rw [e] at he; cases he
  · have assoc : ∀ a b : List Statement, ∀ x, x :: (cs ++ rs ++ ps ++ a ++ b ++ gs) = (x :: (cs ++ rs ++ ps)) ++ (a ++ b ++ gs) := by
      intro a b x; simp
    rw [assoc, allBefore_append]
    have no : ∀ s ∈ stripMigrationHazards (if t.rlsEnabled then [enableRLSForTable t] else []) ++
        stripMigrationHazards (if t.rlsForced then [forceRLSForTable t] else []) ++ gs, ¬ IsPolicyOf n s.ddl := by
      intro s hs hp
      simp only [List.mem_append] at hs
      rcases hs with (hs | hs) | hs
      · rw [single hs] at hp; exact hp
      · rw [single hs] at hp; exact hp
      · obtain ⟨_, _, _, e⟩ := privileges s hs; rw [e] at hp; exact hp
    refine ⟨allBefore_of_not_right fun s hs he => ?_, allBefore_of_not_left no, fun x _ y hy hh => no y hy hh.2⟩
    simp only [List.mem_cons, List.mem_append] at hs
    rcases hs with rfl | ((hs | hs) | hs)
    · cases he
    · obtain ⟨_, _, _, _, e⟩ := checks s hs; rw [e] at he; cases he
    · obtain ⟨_, e⟩ := replica s hs; rw [e] at he; cases he
    · obtain ⟨_, _, _, _, _, _, e⟩ := policies s hs; rw [e] at he; cases he

section
variable {r r' : Rand} {old new : Schema} {opts : PlanOptions} {stmts : List Statement}

/-- C23: whatever the order of the plan, row level security of a table is disabled before any of its policies is touched,
and enabled only after all of them were -/
theorem C23_row_level_security_around_policies (h : generateMigrationStatements r old new opts = .ok (stmts, r'))
    (hn : (new.tables.map Obj.getName).Nodup) (n : SQName) :
    AllBefore (fun s => s.ddl = .alterTable n .disableRLS) (fun s => IsPolicyOf n s.ddl) stmts ∧
    AllBefore (fun s => IsPolicyOf n s.ddl) (fun s => s.ddl = .alterTable n .enableRLS) stmts := by
  have h1 : ∀ s : Statement, s.ddl = .alterTable n .disableRLS → s.ddl.tableBody n = true := by
    intro s hs; rw [hs]; simp [Ddl.tableBody]
  have h2 : ∀ s : Statement, s.ddl = .alterTable n .enableRLS → s.ddl.tableBody n = true := by
    intro s hs; rw [hs]; simp [Ddl.tableBody]
  have h3 : ∀ s : Statement, IsPolicyOf n s.ddl → s.ddl.tableBody n = true := fun _ hs => IsPolicyOf.tableBody hs
  rw [← allBefore_filter h1 h3, ← allBefore_filter h3 h2]
  by_cases ht : ∃ t ∈ new.tables, t.name = n
  · obtain ⟨t, ht, rfl⟩ := ht
    obtain ⟨d, _, hc⟩ := plan_table_cases h hn ht
    rcases hc with ⟨l, hl, hf, _⟩ | ⟨td, _, _, _, _, _, _, _, _, l, hl, hf⟩
    · rw [hf _ fun _ h => h, allBefore_filter h1 h3, allBefore_filter h3 h2]
      exact (add_rls hl).2 _
    · rw [hf _ fun _ h => h, allBefore_filter h1 h3, allBefore_filter h3 h2]
      obtain ⟨run⟩ := table_run hl
      exact run.rls_order _
  · obtain ⟨d, ⟨dr⟩, ⟨run⟩⟩ := plan_runs h
    have : (stmts.filter fun s => s.ddl.tableBody n) = [] := by
      refine run.table_none_filter ?_ ?_ fun _ h => h
      · intro t hta e
        rw [dr.hadds] at hta
        obtain ⟨t0, h0, rfl⟩ := List.mem_map.mp hta
        obtain ⟨t1, h1, rfl⟩ := mem_normalize_tables (diffLists_adds_mem dr.htd0 h0)
        rw [packIf_name] at e
        exact ht ⟨t1, h1, e⟩
      · intro td htd e
        obtain ⟨td0, _, _, i, j, hi, _⟩ := dr.altered htd
        obtain ⟨t1, h1, e1⟩ := mem_normalize_tables (List.mem_of_getElem? hi)
        rw [e1] at e
        exact ht ⟨t1, h1, e⟩
    rw [this]; exact ⟨.nil, .nil⟩

/-- C23: and it becomes that of the new schema -/
theorem C23_row_level_security_becomes_that_of_the_target (h : generateMigrationStatements r old new opts = .ok (stmts, r'))
    (hn : (new.tables.map Obj.getName).Nodup) {t : Table} (ht : t ∈ new.tables) :
    (∀ o ∈ old.tables, o.name = t.name →
      runRls t.name (o.rlsEnabled, o.rlsForced) stmts = (t.rlsEnabled, t.rlsForced)) ∧
    (Obj.getName t ∉ old.tables.map Obj.getName → ∀ s, runRls t.name s stmts = (t.rlsEnabled, t.rlsForced)) := by
  obtain ⟨d, ⟨dr, run, _⟩, hc⟩ := plan_table_cases h hn ht
  have hbody : ∀ s, runRls t.name s stmts = runRls t.name s (stmts.filter fun s => s.ddl.tableBody t.name) := by
    intro s
    refine runRls_filter ?_ s
    intro x _ hx s
    refine rlsStep_other ?_ ?_ s
    · cases hk : x.ddl.isRls t.name with
      | false => rfl
      | true => rw [Ddl.isRls_tableBody hk] at hx; cases hx
    · intro c p e; rw [e] at hx; simp [Ddl.tableBody] at hx
  rcases hc with ⟨l, hl, hf, hb⟩ | ⟨td, htd, e1, o', ho', e2, e3, _, hno, l, hl, hf⟩
  · have key : ∀ s, runRls t.name s stmts = (t.rlsEnabled, t.rlsForced) := by
      intro s
      have e1 : (packIf opts (normalizeTable t)).rlsEnabled = t.rlsEnabled := by unfold packIf; split <;> rfl
      have e2 : (packIf opts (normalizeTable t)).rlsForced = t.rlsForced := by unfold packIf; split <;> rfl
      have en : (packIf opts (normalizeTable t)).name = t.name := by unfold packIf; split <;> rfl
      have := (add_rls hl).1 s
      rw [e1, e2, en] at this
      rw [hbody, hf _ fun _ h => h, ← this, ← runRls_filter]
      intro x hx hb
      obtain ⟨_, _, hsh⟩ := TableGen.add_shape hl hx
      rw [hsh.tableBody, en] at hb; simp at hb
    exact ⟨fun _ _ _ => key _, fun _ => key⟩
  · refine ⟨?_, fun hnot => absurd (List.mem_map.mpr ⟨o', ho', e3⟩) hnot⟩
    intro o ho hname
    have hoo : normalizeTable o' = normalizeTable o :=
      List.inj_on_of_nodup_map (diffLists_old_nodup dr.htd0) (mem_normalize_tables_of ho') (mem_normalize_tables_of ho)
        (e3.trans (congrArg SQName.getName hname.symm))
    obtain ⟨trun⟩ := table_run hl
    have hcr : ∀ s ∈ l, ∀ c p, s.ddl ≠ .createTable td.new.name c p := by
      intro s hs c p e
      cases (table_alter_origin hl hs).shape with
      | column _ _ _ hs => cases hs <;> cases e
      | _ => cases e
    have := trun.rls hcr
    rw [e1, e2, hoo] at this
    rw [hbody, hf _ fun _ h => h]
    refine Eq.trans ?_ this
    symm
    refine runRls_filter ?_ _
    intro x hx hb s
    refine rlsStep_other ?_ ?_ s
    · cases hk : x.ddl.isRls t.name with
      | false => exact hk
      | true => rw [Ddl.isRls_tableBody hk] at hb; cases hb
    · intro c p e; rw [e] at hb; simp [Ddl.tableBody, normalizeTable] at hb

end

section
open Samples

/-- policies are altered, recreated, dropped and created on tables that stay, and on a new one -/
def oldPolicies : Schema := { Schema.empty with
  tables := [{ table "a" [col "x" "integer", col "y" "integer"] with
      policies := [⟨"\"altered\"", true, ["joe", "PUBLIC"], "*", "", "x > 0", ["x"]⟩,
        ⟨"\"recreated\"", true, ["joe"], "r", "", "x > 0", ["x"]⟩, ⟨"\"dropped\"", true, ["joe"], "r", "", "x > 0", ["x"]⟩]
      rlsEnabled := true, rlsForced := true },
    { table "b" [col "x" "integer"] with rlsEnabled := false }] }

def newPolicies : Schema := { Schema.empty with
  tables := [{ table "a" [col "x" "integer", col "y" "integer"] with
      policies := [⟨"\"altered\"", true, ["ann"], "*", "y > 0", "x > 1", ["x", "y"]⟩,
        ⟨"\"recreated\"", false, ["joe"], "r", "", "x > 0", ["x"]⟩] },
    { table "b" [col "x" "integer"] with
      policies := [⟨"\"created\"", true, ["joe"], "a", "x > 0", "", ["x"]⟩]
      rlsEnabled := true, rlsForced := true },
    { table "c" [col "x" "integer"] with
      policies := [⟨"\"created\"", true, ["joe"], "d", "", "x > 0", ["x"]⟩]
      rlsEnabled := true }] }

instance (p : Policy) : Decidable (PolicyOk p) :=
  decidable_of_iff (p.appliesTo ≠ [] ∧ (p.cmd = "a" → p.usingExpression = "") ∧
    (p.cmd = "r" ∨ p.cmd = "d" → p.checkExpression = "")) ⟨fun h => ⟨h.1, h.2.1, h.2.2⟩, fun h => ⟨h.1, h.2, h.3⟩⟩

/-- the hypotheses of C23 and C24 hold of these schemas -/
example : (∃ stmts r', generateMigrationStatements rand oldPolicies newPolicies opts = .ok (stmts, r') ∧
      stmts.length = 12) ∧
    (newPolicies.tables.map Obj.getName).Nodup ∧
    ∀ t ∈ newPolicies.tables, (t.policies.map Policy.escapedName).Nodup ∧ ∀ p ∈ t.policies, PolicyOk p :=
  ⟨exists_plan (by decide +kernel), by decide +kernel, by decide +kernel⟩

end

end Verif
