import Verif.Spec.PolicyColumn
import Verif.Props.Policy
import Verif.Props.Columns
import Verif.Lemmas.CheckFate
import Verif.Lemmas.SelfDiff

/-!
# C81: policies and the columns they mention
-/

namespace Verif

open Spec

/-! ### the machine -/

section
variable {cols : String → List String} {t : SQName} {n c : String}

/-- the column over a list of statements -/
def columnRun (t : SQName) (c : String) (b : Bool) (l : List Statement) : Bool := l.foldl (fun b x => hasColumnStep t c b x.ddl) b

/-- if no statement mentions a column too early or disturbs it too late, the plan runs as far as the policies are concerned -/
theorem runPolicyColumn_of : ∀ {l : List Statement} {b : Bool} {p p' : Option PolicyState}, runPolicy t n p l = some p' →
    (∀ pre s post, l = pre ++ s :: post → ∀ q, runPolicy t n p pre = some q →
      (mentionsAnew cols t n c s.ddl = true → columnRun t c b pre = true) ∧
      (disturbsColumn t c s.ddl = true → q.any (PolicyState.mentions cols c) = false)) →
    runPolicyColumn cols t n c (b, p) l = some (columnRun t c b l, p') := by
  intro l
  induction l with
  | nil => intro b p p' hp _; cases hp; rfl
  | cons x l ih =>
    intro b p p' hp hg
    rw [runPolicy] at hp
    obtain ⟨p1, h1, h2⟩ := Option.bind_eq_some_iff.mp hp
    obtain ⟨g1, g2⟩ := hg [] x l rfl p rfl
    have hstep : policyColumnStep cols t n c (b, p) x.ddl = some (hasColumnStep t c b x.ddl, p1) := by
      unfold policyColumnStep
      rw [if_neg, if_neg]
      · simp only [h1, Option.map_some]
      · rintro ⟨e1, e2⟩; rw [g2 e1] at e2; cases e2
      · rintro ⟨e1, e2⟩; rw [show b = true from g1 e1] at e2; cases e2
    unfold runPolicyColumn
    rw [runWith_cons hstep]
    refine ih h2 fun pre s post e q hq => ?_
    refine hg (x :: pre) s post (by rw [e]; rfl) q ?_
    rw [runPolicy, h1]; exact hq

/-- what the machine has accepted was accepted by the policy alone, and no statement disturbed a column that was mentioned -/
theorem runPolicyColumn_some {l : List Statement} {b b' : Bool} {p p' : Option PolicyState}
    (h : runPolicyColumn cols t n c (b, p) l = some (b', p')) : runPolicy t n p l = some p' := by
  induction l generalizing b p with
  | nil => cases h; rfl
  | cons x l ih =>
    unfold runPolicyColumn at h
    rw [runWith] at h
    obtain ⟨⟨b1, p1⟩, h1, h2⟩ := Option.bind_eq_some_iff.mp h
    unfold policyColumnStep at h1
    split at h1
    · cases h1
    split at h1
    · cases h1
    obtain ⟨q, h3, h4⟩ := Option.map_eq_some_iff.mp h1
    rw [Prod.mk.injEq] at h4
    rw [runPolicy, h3, Option.bind_some, h4.2]
    exact ih h2

/-- an expression of a policy is from the beginning, or from a statement -/
theorem policy_mentions_origin : ∀ {l : List Statement} {p q : Option PolicyState}, runPolicy t n p l = some q →
    q.any (PolicyState.mentions cols c) = true →
    (∃ s ∈ l, mentionsAnew cols t n c s.ddl = true) ∨
    ∃ st, p = some st ∧ (∀ s ∈ l, s.ddl ≠ .dropPolicy t n) ∧
      ((exprMentions cols c st.using_ = true ∧ ∀ s ∈ l, ∀ r e k, s.ddl ≠ .alterPolicy t n r (some e) k) ∨
       (exprMentions cols c st.check = true ∧ ∀ s ∈ l, ∀ r u e, s.ddl ≠ .alterPolicy t n r u (some e))) := by
  intro l
  induction l with
  | nil =>
    intro p q h hq
    cases h
    right
    cases p with
    | none => cases hq
    | some st =>
      refine ⟨st, rfl, by simp, ?_⟩
      rcases Bool.or_eq_true_iff.mp (show PolicyState.mentions cols c st = true from hq) with h | h
      · exact Or.inl ⟨h, by simp⟩
      · exact Or.inr ⟨h, by simp⟩
  | cons x l ih =>
    intro p q h hq
    rw [runPolicy] at h
    obtain ⟨p1, h1, h2⟩ := Option.bind_eq_some_iff.mp h
    rcases ih h2 hq with ⟨s, hs, e⟩ | ⟨st, rfl, hd, hm⟩
    · exact Or.inl ⟨s, List.mem_cons_of_mem _ hs, e⟩
    have keep : p = some st → x.ddl ≠ .dropPolicy t n → (∀ r e k, x.ddl ≠ .alterPolicy t n r e k) →
        ∃ st, p = some st ∧ (∀ s ∈ x :: l, s.ddl ≠ .dropPolicy t n) ∧
          ((exprMentions cols c st.using_ = true ∧ ∀ s ∈ x :: l, ∀ r e k, s.ddl ≠ .alterPolicy t n r (some e) k) ∨
           (exprMentions cols c st.check = true ∧ ∀ s ∈ x :: l, ∀ r u e, s.ddl ≠ .alterPolicy t n r u (some e))) := by
      intro e1 e2 e3
      refine ⟨st, e1, ?_, ?_⟩
      · intro s hs
        rcases List.mem_cons.mp hs with rfl | hs
        · exact e2
        · exact hd s hs
      · rcases hm with ⟨m1, m2⟩ | ⟨m1, m2⟩
        · refine Or.inl ⟨m1, fun s hs => ?_⟩
          rcases List.mem_cons.mp hs with rfl | hs
          · exact fun r e k => e3 r (some e) k
          · exact m2 s hs
        · refine Or.inr ⟨m1, fun s hs => ?_⟩
          rcases List.mem_cons.mp hs with rfl | hs
          · exact fun r u e => e3 r u (some e)
          · exact m2 s hs
    cases hx : x.ddl with
    | createPolicy t' n' perm cmd roles u k =>
      rw [hx] at h1
      by_cases htn : t' = t ∧ n' = n
      · left
        refine ⟨x, List.mem_cons_self, ?_⟩
        simp only [policyStep, if_pos htn] at h1
        split at h1
        · cases h1
        split at h1
        · cases h1
        split at h1
        · cases h1
        split at h1
        · simp only [Option.some.injEq] at h1
          subst h1
          have hfin : ∀ e : Option String, exprMentions cols c (e.getD "") = true → clauseMentions cols c e = true := by
            intro e he
            cases e with
            | none => simp [exprMentions] at he
            | some e => exact he
          rw [hx]
          simp only [mentionsAnew, htn, and_self, decide_true, Bool.true_and, Bool.or_eq_true]
          rcases hm with ⟨m1, _⟩ | ⟨m1, _⟩
          · exact Or.inl (hfin u m1)
          · exact Or.inr (hfin k m1)
        · cases h1
      · right
        simp only [policyStep, if_neg htn, Option.some.injEq] at h1
        exact keep h1 (by rw [hx]; nofun) (by rw [hx]; nofun)
    | alterPolicy t' n' roles u k =>
      rw [hx] at h1
      by_cases htn : t' = t ∧ n' = n
      · simp only [policyStep, if_pos htn] at h1
        split at h1
        · cases h1
        rename_i st0
        split at h1
        · cases h1
        split at h1
        · simp only [Option.some.injEq] at h1
          subst h1
          rcases hm with ⟨m1, m2⟩ | ⟨m1, m2⟩
          · cases u with
            | some e =>
              left
              refine ⟨x, List.mem_cons_self, ?_⟩
              rw [hx]
              simp only [mentionsAnew, htn, and_self, decide_true, Bool.true_and, Bool.or_eq_true]
              exact Or.inl m1
            | none =>
              right
              refine ⟨st0, rfl, ?_, Or.inl ⟨m1, ?_⟩⟩
              · intro s hs
                rcases List.mem_cons.mp hs with rfl | hs
                · rw [hx]; nofun
                · exact hd s hs
              · intro s hs
                rcases List.mem_cons.mp hs with rfl | hs
                · rw [hx]; intro r e k' h; cases h
                · exact m2 s hs
          · cases k with
            | some e =>
              left
              refine ⟨x, List.mem_cons_self, ?_⟩
              rw [hx]
              simp only [mentionsAnew, htn, and_self, decide_true, Bool.true_and, Bool.or_eq_true]
              exact Or.inr m1
            | none =>
              right
              refine ⟨st0, rfl, ?_, Or.inr ⟨m1, ?_⟩⟩
              · intro s hs
                rcases List.mem_cons.mp hs with rfl | hs
                · rw [hx]; nofun
                · exact hd s hs
              · intro s hs
                rcases List.mem_cons.mp hs with rfl | hs
                · rw [hx]; intro r e k' h; cases h
                · exact m2 s hs
        · cases h1
      · right
        simp only [policyStep, if_neg htn, Option.some.injEq] at h1
        refine keep h1 (by rw [hx]; nofun) ?_
        intro r e k'
        rw [hx]; intro he
        simp only [Ddl.alterPolicy.injEq] at he
        exact htn ⟨he.1, he.2.1⟩
    | dropPolicy t' n' =>
      rw [hx] at h1
      by_cases htn : t' = t ∧ n' = n
      · simp only [policyStep, if_pos htn] at h1
        split at h1 <;> cases h1
      · right
        simp only [policyStep, if_neg htn, Option.some.injEq] at h1
        refine keep h1 ?_ (by rw [hx]; nofun)
        rw [hx]; intro he
        simp only [Ddl.dropPolicy.injEq] at he
        exact htn he
    | createTable t' cs pk =>
      rw [hx] at h1
      simp only [policyStep] at h1
      split at h1
      · cases h1
      · right; exact keep (Option.some.inj h1) (by rw [hx]; nofun) (by rw [hx]; nofun)
    | dropTable t' =>
      rw [hx] at h1
      simp only [policyStep] at h1
      split at h1
      · cases h1
      · right; exact keep (Option.some.inj h1) (by rw [hx]; nofun) (by rw [hx]; nofun)
    | _ =>
      rw [hx] at h1
      right
      exact keep (Option.some.inj h1) (by rw [hx]; nofun) (by rw [hx]; nofun)

/-- a column that is not dropped, and was there or is added, is there -/
theorem columnRun_true {l : List Statement} {b : Bool} (h1 : ∀ s ∈ l, s.ddl ≠ .alterTable t (.dropColumn c))
    (h2 : ∀ s ∈ l, s.ddl ≠ .dropTable t) (h3 : ∀ s ∈ l, ∀ cs p, s.ddl ≠ .createTable t cs p)
    (h : b = true ∨ ∃ s ∈ l, ∃ d : ColumnDef, d.name = c ∧ s.ddl = .alterTable t (.addColumn d)) :
    columnRun t c b l = true := by
  induction l generalizing b with
  | nil =>
    rcases h with h | ⟨_, hs, _⟩
    · exact h
    · cases hs
  | cons x l ih =>
    show columnRun t c (hasColumnStep t c b x.ddl) l = true
    refine ih (fun s hs => h1 s (List.mem_cons_of_mem _ hs)) (fun s hs => h2 s (List.mem_cons_of_mem _ hs))
      (fun s hs => h3 s (List.mem_cons_of_mem _ hs)) ?_
    have hkeep : b = true → hasColumnStep t c b x.ddl = true := by
      rintro rfl
      have a1 := h1 x List.mem_cons_self
      have a2 := h2 x List.mem_cons_self
      have a3 := h3 x List.mem_cons_self
      unfold hasColumnStep
      split
      · rename_i e; rw [e] at a3; rw [if_neg]; rintro rfl; exact a3 _ _ rfl
      · rename_i e; rw [e] at a2; rw [if_neg]; rintro rfl; exact a2 rfl
      · split <;> rfl
      · rename_i e; rw [e] at a1; rw [if_neg]; rintro ⟨rfl, rfl⟩; exact a1 rfl
      · rfl
    rcases h with h | ⟨s, hs, d, hd, e⟩
    · exact Or.inl (hkeep h)
    · rcases List.mem_cons.mp hs with rfl | hs
      · left; rw [e]; simp [hasColumnStep, hd]
      · exact Or.inr ⟨s, hs, d, hd, e⟩

/-- a column that is not added, and was not there or is dropped, is not there -/
theorem columnRun_false {l : List Statement} {b : Bool}
    (h1 : ∀ s ∈ l, ∀ d : ColumnDef, d.name = c → s.ddl ≠ .alterTable t (.addColumn d))
    (h3 : ∀ s ∈ l, ∀ cs p, s.ddl ≠ .createTable t cs p)
    (h : b = false ∨ ∃ s ∈ l, s.ddl = .alterTable t (.dropColumn c)) :
    columnRun t c b l = false := by
  induction l generalizing b with
  | nil =>
    rcases h with h | ⟨_, hs, _⟩
    · exact h
    · cases hs
  | cons x l ih =>
    show columnRun t c (hasColumnStep t c b x.ddl) l = false
    refine ih (fun s hs => h1 s (List.mem_cons_of_mem _ hs)) (fun s hs => h3 s (List.mem_cons_of_mem _ hs)) ?_
    have hkeep : b = false → hasColumnStep t c b x.ddl = false := by
      rintro rfl
      have a1 := h1 x List.mem_cons_self
      have a3 := h3 x List.mem_cons_self
      unfold hasColumnStep
      split
      · rename_i e; rw [e] at a3; rw [if_neg]; rintro rfl; exact a3 _ _ rfl
      · split <;> rfl
      · rename_i e; rw [e] at a1; rw [if_neg]; rintro ⟨rfl, rfl⟩; exact a1 _ rfl rfl
      · split <;> rfl
      · rfl
    rcases h with h | ⟨s, hs, e⟩
    · exact Or.inl (hkeep h)
    · rcases List.mem_cons.mp hs with rfl | hs
      · left; rw [e]; simp [hasColumnStep]
      · exact Or.inr ⟨s, hs, e⟩

end

/-! ### the dependencies of policies on columns -/

section
variable {o t : Table} {g : PolicyGen}

theorem newPolicyGen_columns (h : newPolicyGen (nilableTable o) t = .ok g) : g.newSchemaColumnsByName = byName t.columns := by
  unfold newPolicyGen at h
  split at h
  · split at h
    · cases h
    · cases h; rfl
  · cases h; rfl

theorem newPolicyGen_old (h : newPolicyGen (some o) t = .ok g) : g.oldSchemaColumnsByName = byName o.columns := by
  unfold newPolicyGen at h
  split at h
  · split at h
    · cases h
    · rename_i e _; cases e; cases h; rfl
  · rename_i e; cases e

theorem policy_after_column (hg : g.newSchemaColumnsByName = byName t.columns) {p q : Policy} {deps : List Dependency}
    (h : g.addAlterDeps p q = .ok deps) {c : String} (hc : c ∈ p.columns) :
    mustRunAfter (g.vertexId p .addAlter) (columnVertexId c .addAlter) ∈ deps := by
  obtain ⟨cs, h1, h⟩ := except_bind_ok.mp h
  rw [hg] at h1
  rw [← (getTargetColumns_names h1).1] at hc
  obtain ⟨x, hx, rfl⟩ := List.mem_map.mp hc
  have hm : mustRunAfter (g.vertexId p .addAlter) (columnVertexId x.name .addAlter) ∈
      mustRunBefore (g.vertexId p .delete) (g.vertexId p .addAlter) ::
        cs.map fun tc => mustRunAfter (g.vertexId p .addAlter) (columnVertexId tc.name .addAlter) :=
    List.mem_cons_of_mem _ (List.mem_map.mpr ⟨x, hx, rfl⟩)
  split at h
  · cases h; exact hm
  · obtain ⟨_, _, h⟩ := except_bind_ok.mp h
    cases h; exact List.mem_append_left _ hm

theorem policy_before_drop (hn : g.newSchemaColumnsByName = byName t.columns) (ho : g.oldSchemaColumnsByName = byName o.columns)
    {p q : Policy} {deps : List Dependency} (h : g.addAlterDeps p q = .ok deps) {c : String} (hc : c ∈ q.columns)
    (hcn : c ∉ t.columns.map (·.name)) :
    mustRunBefore (g.vertexId p .addAlter) (columnVertexId c .delete) ∈ deps := by
  obtain ⟨cs, _, h⟩ := except_bind_ok.mp h
  split at h
  · rename_i e
    rw [e] at hc; cases hc
  · obtain ⟨os, h2, h⟩ := except_bind_ok.mp h
    cases h
    rw [ho] at h2
    rw [← (getTargetColumns_names h2).1] at hc
    obtain ⟨x, hx, rfl⟩ := List.mem_map.mp hc
    refine List.mem_append_right _ (List.mem_map.mpr ⟨x, List.mem_filter.mpr ⟨hx, ?_⟩, rfl⟩)
    rw [hn, Bool.not_eq_true', Bool.eq_false_iff]
    exact fun hh => hcn (byName_has.mp hh)

theorem drop_policy_before (ho : g.oldSchemaColumnsByName = byName o.columns) {p : Policy} {deps : List Dependency}
    (h : g.deleteDeps p = .ok deps) {c : String} (hc : c ∈ p.columns) :
    mustRunBefore (g.vertexId p .delete) (columnVertexId c .delete) ∈ deps ∧
    mustRunBefore (g.vertexId p .delete) (columnVertexId c .addAlter) ∈ deps := by
  obtain ⟨os, h2, h⟩ := except_bind_ok.mp h
  cases h
  rw [ho] at h2
  rw [← (getTargetColumns_names h2).1] at hc
  obtain ⟨x, hx, rfl⟩ := List.mem_map.mp hc
  exact ⟨List.mem_flatMap.mpr ⟨x, hx, by simp⟩, List.mem_flatMap.mpr ⟨x, hx, by simp⟩⟩

end

/-! ### a table that stays -/

section
variable {cols : String → List String} {o t : Table} {td : TableDiff} {temps : List CheckConstraint} {body : List Statement}
  {n c : String}

theorem nilable_old {g : PolicyGen} (h : newPolicyGen (nilableTable o) t = .ok g) :
    g.oldSchemaColumnsByName = byName o.columns := by
  by_cases hz : o = GoZero.zero
  · unfold nilableTable at h
    rw [if_pos hz] at h
    cases h
    rw [hz]; rfl
  · unfold nilableTable at h
    rw [if_neg hz] at h
    exact newPolicyGen_old h

/-- the policies of the altered table, and what the difference says of them -/
theorem policy_pair {g : PolicyGen} {ld : ListDiff Policy (OldNew Policy)}
    (h : buildPolicyDiffs g o.policies t.policies = .ok ld) {pd : OldNew Policy} (hp : pd ∈ ld.alters) :
    pd.old ∈ o.policies ∧ pd.new ∈ t.policies ∧ pd.old.escapedName = pd.new.escapedName ∧ ∃ l, g.alter pd = .ok l := by
  obtain ⟨i, x, j, y, h1, h2, h3, h4⟩ := diffLists_alters_mem h hp
  have e : pd = ⟨y, x⟩ ∧ ∃ l, g.alter ⟨y, x⟩ = .ok l := by
    split at h4
    · rename_i q hq
      simp only [Except.ok.injEq, Prod.mk.injEq, and_true] at h4
      obtain ⟨l, _, hl, _⟩ := toNew_alter (m := Except Err) (g := g.legacy) hq
      exact ⟨h4.symm, l, hl⟩
    · split at h4 <;> cases h4
  obtain ⟨rfl, l, hl⟩ := e
  exact ⟨List.mem_of_getElem? h2, List.mem_of_getElem? h1, h3, l, hl⟩

theorem clause_mentions {e : String} (h : clauseMentions cols c (nonEmpty? e) = true) : exprMentions cols c e = true := by
  unfold nonEmpty? at h
  split at h
  · exact h
  · cases h

/-- a statement that makes a policy mention a column is about a policy of the new table, after the column -/
theorem BaseRun.anew (base : BaseRun td temps body) (hnew : td.new = t)
    (hd : buildPolicyDiffs base.psg o.policies t.policies = .ok td.policiesDiff) (ht : PolicyColumnsOk cols t) {v : VertexId}
    {s : Statement} (h : BaseShape td temps base.psg v s) (hm : mentionsAnew cols t.name n c s.ddl = true) :
    c ∈ t.columns.map (·.name) ∧ v = policyVertexId t.name n .addAlter ∧
      base.graph.Declared (columnVertexId c .addAlter).text v.text := by
  subst hnew
  have et := newPolicyGen_table base.hpsg
  have ec := newPolicyGen_columns base.hpsg
  cases h with
  | createPolicy p hp cmd hc hid =>
    simp only [stmt, mentionsAnew, Bool.and_eq_true, decide_eq_true_eq, Bool.or_eq_true] at hm
    obtain ⟨⟨_, rfl⟩, hm⟩ := hm
    have hmen : (PolicyState.of p).mentions cols c = true :=
      Bool.or_eq_true_iff.mpr (hm.imp clause_mentions clause_mentions)
    obtain ⟨c1, c2⟩ := ht p (diffLists_adds_mem hd hp) c hmen
    refine ⟨c2, hid, ?_⟩
    obtain ⟨deps, h1, h2⟩ := deps_of_add (m := Except Err) base.hpolicies hp
    have := base.declared_after (p := base.policies) (by simp) (h2 _ (policy_after_column ec h1 c1))
    unfold PolicyGen.vertexId at this
    rw [et] at this
    rw [hid]; exact this
  | alterPolicy pd hp l hl a b k hs hid =>
    simp only [stmt, mentionsAnew, Bool.and_eq_true, decide_eq_true_eq, Bool.or_eq_true] at hm
    obtain ⟨⟨_, rfl⟩, hm⟩ := hm
    have hmen : (PolicyState.of pd.new).mentions cols c = true := by
      obtain ⟨_, ⟨_, _, _, rfl⟩ | rfl⟩ := PolicyGen.alter_ok hl
      · cases hs
      · have e := List.mem_singleton.mp hs
        simp only [PolicyGen.alterStatement, stmt, Statement.mk.injEq, Ddl.alterPolicy.injEq, and_true] at e
        obtain ⟨_, _, _, e1, e2⟩ := e
        refine Bool.or_eq_true_iff.mpr ?_
        rcases hm with hm | hm
        · left
          rw [e1] at hm
          split at hm
          · exact hm
          · cases hm
        · right
          rw [e2] at hm
          split at hm
          · exact hm
          · cases hm
    obtain ⟨c1, c2⟩ := ht pd.new (policy_pair hd hp).2.1 c hmen
    refine ⟨c2, hid, ?_⟩
    obtain ⟨deps, h1, h2⟩ := deps_of_alter (m := Except Err) base.hpolicies hp
    have := base.declared_after (p := base.policies) (by simp) (h2 _ (policy_after_column ec h1 c1))
    unfold PolicyGen.vertexId at this
    rw [et] at this
    rw [hid]; exact this
  | column cd hcd s hs => cases hs <;> cases hm
  | _ => cases hm

/-- a statement that disturbs a column drops it or alters it -/
theorem BaseRun.disturbs (base : BaseRun td temps body) (hnew : td.new = t) {v : VertexId} {s : Statement}
    (h : BaseShape td temps base.psg v s) (hm : disturbsColumn t.name c s.ddl = true) :
    (s.ddl = .alterTable t.name (.dropColumn c) ∧ v = columnVertexId c .delete ∧
      ∃ x ∈ td.columnsDiff.deletes, x.name = c) ∨
    (v = columnVertexId c .addAlter ∧ (∃ a, s.ddl = .alterTable t.name (.alterColumn c a)) ∧
      ∃ cd ∈ td.columnsDiff.alters, cd.new.name = c ∧
      (equalFold cd.old.type cd.new.type = false ∨ equalFold cd.old.collation.fq cd.new.collation.fq = false ∨
        (equalFold cd.old.type "bigint" = true ∧ equalFold cd.new.type "timestamp without time zone" = true))) := by
  subst hnew
  cases h with
  | dropColumn x hx hid =>
    left
    simp only [stmt, disturbsColumn, decide_eq_true_eq] at hm
    obtain ⟨_, rfl⟩ := hm
    exact ⟨rfl, hid, x, hx, rfl⟩
  | column cd hcd s hs hid =>
    right
    cases hs with
    | setTypeFromMillis h =>
      simp only [stmt, disturbsColumn, decide_eq_true_eq] at hm
      obtain ⟨_, rfl, _⟩ := hm
      exact ⟨hid, ⟨_, rfl⟩, cd, hcd, rfl, Or.inr (Or.inr h)⟩
    | setType h =>
      simp only [stmt, disturbsColumn, decide_eq_true_eq] at hm
      obtain ⟨_, rfl, _⟩ := hm
      refine ⟨hid, ⟨_, rfl⟩, cd, hcd, rfl, ?_⟩
      rcases h with h | h
      · exact Or.inl h
      · exact Or.inr (Or.inl h)
    | _ => simp [stmt, disturbsColumn, changesType] at hm
  | _ => simp [stmt, disturbsColumn, validateConstraintStatement] at hm

theorem BaseRun.addColumn_vertex (base : BaseRun td temps body) (hnew : td.new = t) {v : VertexId} {s : Statement}
    (h : BaseShape td temps base.psg v s) {d : ColumnDef} (hm : s.ddl = .alterTable t.name (.addColumn d)) :
    v = columnVertexId d.name .addAlter ∧ ∃ x ∈ td.columnsDiff.adds, x.name = d.name := by
  subst hnew
  cases h with
  | addColumn x hx def_ hd hid =>
    simp only [stmt, Ddl.alterTable.injEq, TableAction.addColumn.injEq] at hm
    rw [hid, ← hm.2, buildColumnDefinition_name hd]
    exact ⟨rfl, x, hx, rfl⟩
  | column cd hcd s hs => cases hs <;> cases hm
  | _ => cases hm

/-- what the statements of a table do, among those of the plan -/
theorem transfer_before {P Q : Statement → Prop} {a l b stmts : List Statement} (hl : AllBefore P Q l)
    (ha : ∀ s ∈ a, s.ddl.IsWrap) (hb : ∀ s ∈ b, s.ddl.IsWrap) (hP : ∀ s, P s → s.ddl.tableBody t.name = true ∧ ¬ s.ddl.IsWrap)
    (hQ : ∀ s, Q s → s.ddl.tableBody t.name = true ∧ ¬ s.ddl.IsWrap)
    (hf : stmts.filter (fun s => s.ddl.tableBody t.name) = (a ++ l ++ b).filter fun s => s.ddl.tableBody t.name) :
    AllBefore P Q stmts := by
  have h1 := allBefore_around hl (fun x hx hq => (hQ x hq).2 (ha x hx)) (fun x hx hp => (hP x hp).2 (hb x hx))
  rw [← allBefore_filter (R := fun s => s.ddl.tableBody t.name) (fun s hs => (hP s hs).1) (fun s hs => (hQ s hs).1)] at h1 ⊢
  rw [hf]; exact h1

theorem mentionsAnew_kind {tn : SQName} {x : Ddl} (h : mentionsAnew cols tn n c x = true) :
    x.tableBody tn = true ∧ ¬ x.IsWrap := by
  cases x <;> first | (cases h; done) | skip
  all_goals
    simp only [mentionsAnew, Bool.and_eq_true, decide_eq_true_eq] at h
    exact ⟨decide_eq_true h.1.1, nofun⟩

theorem disturbsColumn_kind {tn : SQName} {x : Ddl} (h : disturbsColumn tn c x = true) : x.tableBody tn = true ∧ ¬ x.IsWrap := by
  cases x with
  | alterTable t' a =>
    cases a <;> first | (cases h; done) | skip
    all_goals
      simp only [disturbsColumn, decide_eq_true_eq] at h
      exact ⟨decide_eq_true h.1, nofun⟩
  | _ => cases h

/-- a table that stays: its columns and its policies get along at every moment -/
theorem policy_column_altered {opts : PlanOptions} {g : TableGen} {l stmts : List Statement} {i j : Nat}
    (hb : buildTableDiff o t j i = .ok (td, false)) (hl : yields (g.alter (orderIf opts td)) l)
    (hf : stmts.filter (fun s => s.ddl.tableBody t.name) = l.filter fun s => s.ddl.tableBody t.name)
    (hno : ∀ s ∈ stmts, (∀ cs p, s.ddl ≠ .createTable t.name cs p) ∧ s.ddl ≠ .dropTable t.name)
    (hroot : t.parentTable = none) (hcn : (t.columns.map (·.name)).Nodup) (hpn : (t.policies.map Policy.escapedName).Nodup)
    (ho : PolicyColumnsOk cols o) (ht : PolicyColumnsOk cols t)
    (htype : TypeChanges o t c → ∀ p ∈ o.policies, (PolicyState.of p).mentions cols c = true → ¬ Stays t p)
    (hrun : runPolicy t.name n (policyOf o.policies n) stmts = some (policyOf t.policies n)) :
    runPolicyColumn cols t.name n c (columnThere o c, policyOf o.policies n) stmts =
      some (columnThere t c, policyOf t.policies n) := by
  obtain ⟨e1, e2, _, _, _, hcols, _, ⟨psg, hpsg, hpd⟩, _⟩ := buildTableDiff_ok hb
  obtain ⟨tr⟩ := table_run hl
  have hnew : (orderIf opts td).new = t := (orderIf_new opts td).trans e2
  have hold : (orderIf opts td).old = o := (orderIf_old opts td).trans e1
  have hisp : (orderIf opts td).new.isPartition = false := by rw [hnew]; simp [Table.isPartition, hroot]
  obtain ⟨base⟩ := base_run (tr.hbase hisp)
  obtain rfl : psg = base.psg := Except.ok.inj (hpsg.symm.trans (by have := base.hpsg; rw [hnew, hold] at this; exact this))
  have et := newPolicyGen_table hpsg
  have ecn := newPolicyGen_columns hpsg
  have eco := nilable_old hpsg
  have hpd' : buildPolicyDiffs base.psg o.policies t.policies = .ok (orderIf opts td).policiesDiff := by
    rw [orderIf_policies]; exact hpd
  obtain ⟨a, b, e, ha, hbw⟩ := tr.around base
  have hdecc := fun x => diffLists_decision hcols hcn (key := fun cd => cd.new.name) (fun o x j i d _ hb => by cases hb; rfl) x
  -- the statements of the plan that are in the graph
  have hmem : ∀ s ∈ stmts, s.ddl.tableBody t.name = true → ¬ s.ddl.IsWrap → s ∈ base.ordered := by
    intro s hs hk hw
    have h1 : s ∈ stmts.filter fun s => s.ddl.tableBody t.name := List.mem_filter.mpr ⟨hs, hk⟩
    rw [hf, e] at h1
    have h2 := (List.mem_filter.mp h1).1
    simp only [List.mem_append] at h2
    rcases h2 with (h2 | h2) | h2
    · exact absurd (ha s h2) hw
    · exact h2
    · exact absurd (hbw s h2) hw
  have hmem' : ∀ s ∈ base.ordered, s.ddl.tableBody t.name = true → s ∈ stmts := by
    intro s hs hk
    have h1 : s ∈ l.filter fun s => s.ddl.tableBody t.name :=
      List.mem_filter.mpr ⟨by rw [e]; simp [hs], hk⟩
    rw [← hf] at h1
    exact (List.mem_filter.mp h1).1
  have hf' : stmts.filter (fun s => s.ddl.tableBody t.name) =
      (a ++ base.ordered ++ b).filter fun s => s.ddl.tableBody t.name := hf.trans (congrArg (List.filter _) e)
  have hshape : ∀ s ∈ stmts, s.ddl.tableBody t.name = true → ¬ s.ddl.IsWrap →
      ∃ v, BaseShape (orderIf opts td) tr.temps base.psg v s := fun s hs hk hw => base.shape (hmem s hs hk hw)
  -- deleted columns are not in the new table, added ones not in the old one
  have hdel : ∀ x ∈ (orderIf opts td).columnsDiff.deletes, x.name = c → c ∉ t.columns.map (·.name) ∧ c ∈ o.columns.map (·.name) := by
    intro x hx ex
    rw [orderIf_columnsDeletes] at hx
    have hox : c ∈ o.columns.map (·.name) := List.mem_map.mpr ⟨x, diffLists_deletes_mem hcols hx, ex⟩
    refine ⟨fun hc => ?_, hox⟩
    obtain ⟨dec, _, _, _, k4, k5, k6⟩ := hdecc c
    cases dec with
    | absent h1 _ => exact h1 hox
    | dropped _ _ _ h2 _ => exact h2 hc
    | added _ _ _ h1 _ => exact h1 hox
    | recreated _ _ _ _ _ _ hb' => obtain ⟨_, _, _, hb'⟩ := hb'; cases hb'
    | altered y z cd hy hz ey ez hb' hcd =>
      refine k5 (List.mem_map.mpr ⟨x, hx, ex⟩) (List.mem_map.mpr ⟨cd, hcd, ?_⟩)
      obtain ⟨_, _, hb'⟩ := hb'; cases hb'; exact ez
  have hadd : ∀ x ∈ (orderIf opts td).columnsDiff.adds, x.name = c → c ∈ t.columns.map (·.name) ∧ c ∉ o.columns.map (·.name) := by
    intro x hx ex
    rw [orderIf_columnsAdds] at hx
    have htx : c ∈ t.columns.map (·.name) := List.mem_map.mpr ⟨x, diffLists_adds_mem hcols hx, ex⟩
    refine ⟨htx, fun hc => ?_⟩
    obtain ⟨dec, _, _, _, k4, k5, k6⟩ := hdecc c
    cases dec with
    | absent h1 _ => exact h1 hc
    | dropped _ _ _ h2 _ => exact h2 htx
    | added _ _ _ h1 _ => exact h1 hc
    | recreated _ _ _ _ _ _ hb' => obtain ⟨_, _, _, hb'⟩ := hb'; cases hb'
    | altered y z cd hy hz ey ez hb' hcd =>
      refine k4 (List.mem_map.mpr ⟨x, hx, ex⟩) (List.mem_map.mpr ⟨cd, hcd, ?_⟩)
      obtain ⟨_, _, hb'⟩ := hb'; cases hb'; exact ez
  have hdropTb : ∀ s : Statement, s.ddl = .alterTable t.name (.dropColumn c) → s.ddl.tableBody t.name = true ∧ ¬ s.ddl.IsWrap := by
    intro s hs; rw [hs]; exact ⟨decide_eq_true rfl, nofun⟩
  have haddTb : ∀ (s : Statement) (d : ColumnDef), s.ddl = .alterTable t.name (.addColumn d) →
      s.ddl.tableBody t.name = true ∧ ¬ s.ddl.IsWrap := by
    intro s d hs; rw [hs]; exact ⟨decide_eq_true rfl, nofun⟩
  have hnodrop : c ∈ t.columns.map (·.name) → ∀ s ∈ stmts, s.ddl ≠ .alterTable t.name (.dropColumn c) := by
    intro hc s hs hd
    obtain ⟨v, hv⟩ := hshape s hs (hdropTb s hd).1 (hdropTb s hd).2
    rcases base.disturbs (c := c) hnew hv (by rw [hd]; simp [disturbsColumn]) with ⟨_, _, x, hx, ex⟩ | ⟨_, ⟨a, ea⟩, _⟩
    · exact (hdel x hx ex).1 hc
    · rw [hd] at ea; cases ea
  have hnoadd : c ∉ t.columns.map (·.name) → ∀ s ∈ stmts, ∀ d : ColumnDef, d.name = c →
      s.ddl ≠ .alterTable t.name (.addColumn d) := by
    intro hc s hs d hd he
    obtain ⟨v, hv⟩ := hshape s hs (haddTb s d he).1 (haddTb s d he).2
    obtain ⟨_, x, hx, ex⟩ := base.addColumn_vertex hnew hv he
    exact hc (hadd x hx (ex.trans hd)).1
  have hadded : c ∈ t.columns.map (·.name) → c ∉ o.columns.map (·.name) →
      ∃ s ∈ stmts, ∃ d : ColumnDef, d.name = c ∧ s.ddl = .alterTable t.name (.addColumn d) := by
    intro hc hco
    obtain ⟨dec, _⟩ := hdecc c
    cases dec with
    | absent _ h2 => exact absurd hc h2
    | dropped _ _ _ h2 _ => exact absurd hc h2
    | recreated _ _ _ _ _ _ hb' => obtain ⟨_, _, _, hb'⟩ := hb'; cases hb'
    | altered y z cd hy hz ey ez hb' hcd => exact absurd (List.mem_map.mpr ⟨y, hy, ey⟩) hco
    | added x hx ex h1 h =>
      rw [← orderIf_columnsAdds opts] at h
      obtain ⟨l', k1, k2⟩ := stmts_of_add (m := Except Err) base.hcolumns h
      obtain ⟨def_, hdef, k1⟩ := except_bind_ok.mp k1
      cases k1
      have hin := k2 _ List.mem_cons_self
      have hin' := base.mem_ordered.mpr (Or.inl hin)
      rw [hnew] at hin'
      exact ⟨_, hmem' _ hin' (decide_eq_true rfl), def_, by rw [buildColumnDefinition_name hdef]; exact ex, rfl⟩
  have hdropped : c ∉ t.columns.map (·.name) → c ∈ o.columns.map (·.name) →
      ∃ s ∈ stmts, s.ddl = .alterTable t.name (.dropColumn c) := by
    intro hc hco
    obtain ⟨dec, _⟩ := hdecc c
    cases dec with
    | absent h1 _ => exact absurd hco h1
    | added _ _ _ h1 _ => exact absurd hco h1
    | recreated _ _ _ _ _ _ hb' => obtain ⟨_, _, _, hb'⟩ := hb'; cases hb'
    | altered y z cd hy hz ey ez hb' hcd => exact absurd (List.mem_map.mpr ⟨z, hz, ez⟩) hc
    | dropped x hx ex h2 h =>
      rw [← orderIf_columnsDeletes opts] at h
      obtain ⟨l', k1, k2⟩ := stmts_of_delete (m := Except Err) base.hcolumns h
      cases k1
      have hin' := base.mem_ordered.mpr (Or.inl (k2 _ List.mem_cons_self))
      rw [hnew, show x.name = c from ex] at hin'
      exact ⟨_, hmem' _ hin' (decide_eq_true rfl), rfl⟩
  -- the column in the end
  have hcol : columnRun t.name c (columnThere o c) stmts = columnThere t c := by
    by_cases hc : c ∈ t.columns.map (·.name)
    · rw [show columnThere t c = true from decide_eq_true hc]
      refine columnRun_true (hnodrop hc) (fun s hs => (hno s hs).2) (fun s hs => (hno s hs).1) ?_
      by_cases hco : c ∈ o.columns.map (·.name)
      · exact Or.inl (decide_eq_true hco)
      · exact Or.inr (hadded hc hco)
    · rw [show columnThere t c = false from decide_eq_false hc]
      refine columnRun_false (hnoadd hc) (fun s hs => (hno s hs).1) ?_
      by_cases hco : c ∈ o.columns.map (·.name)
      · exact Or.inr (hdropped hc hco)
      · exact Or.inl (decide_eq_false hco)
  -- the order of the statements
  have hB1 : AllBefore (fun s : Statement => (∃ d : ColumnDef, d.name = c ∧ s.ddl = .alterTable t.name (.addColumn d)) ∨
      (disturbsColumn t.name c s.ddl = true ∧ s.ddl ≠ .alterTable t.name (.dropColumn c)))
      (fun s => mentionsAnew cols t.name n c s.ddl = true) stmts := by
    refine transfer_before (base.allBefore ?_) ha hbw ?_ (fun s hs => mentionsAnew_kind hs) hf'
    · intro u x v y hx hy hp hq
      obtain ⟨_, ev, dec⟩ := base.anew hnew hpd' ht hy hq
      have hu : u = columnVertexId c .addAlter := by
        rcases hp with ⟨d, hd, he⟩ | ⟨h1, h2⟩
        · rw [(base.addColumn_vertex hnew hx he).1, hd]
        · rcases base.disturbs hnew hx h1 with ⟨h3, _⟩ | ⟨h3, _⟩
          · exact absurd h3 h2
          · exact h3
      rw [hu]; exact .single dec
    · rintro s (⟨d, hd, he⟩ | ⟨h1, _⟩)
      · exact haddTb s d he
      · exact disturbsColumn_kind h1
  have hB2 : ∀ p ∈ (orderIf opts td).policiesDiff.deletes, p.escapedName = n → c ∈ p.columns →
      AllBefore (fun s : Statement => s.ddl = .dropPolicy t.name n) (fun s => disturbsColumn t.name c s.ddl = true) stmts := by
    intro p hp hpn hpc
    refine transfer_before (base.allBefore ?_) ha hbw ?_ (fun s hs => disturbsColumn_kind hs) hf'
    · intro u x v y hx hy hpx hq
      obtain ⟨deps, h1, h2⟩ := deps_of_delete (m := Except Err) base.hpolicies hp
      obtain ⟨k1, k2⟩ := drop_policy_before eco h1 hpc
      have d1 := base.declared_before (p := base.policies) (by simp) (h2 _ k1)
      have d2 := base.declared_before (p := base.policies) (by simp) (h2 _ k2)
      unfold PolicyGen.vertexId at d1 d2
      rw [et, hpn] at d1 d2
      have hu : u = policyVertexId t.name n .delete := by
        cases hx with
        | dropPolicy p hp hid =>
          simp only [stmt, Ddl.dropPolicy.injEq] at hpx
          rw [hid, hpx.1, hpx.2]
        | column cd hcd s hs => cases hs <;> cases hpx
        | _ => cases hpx
      rw [hu]
      rcases base.disturbs hnew hy hq with ⟨_, hv, _⟩ | ⟨hv, _⟩
      · rw [hv]; exact .single d1
      · rw [hv]; exact .single d2
    · intro s hs; rw [hs]; exact ⟨decide_eq_true rfl, nofun⟩
  have hB3 : ∀ pd ∈ (orderIf opts td).policiesDiff.alters, pd.new.escapedName = n → c ∈ pd.old.columns →
      c ∉ t.columns.map (·.name) →
      AllBefore (fun s : Statement => ∃ r u k, s.ddl = .alterPolicy t.name n r u k)
        (fun s => s.ddl = .alterTable t.name (.dropColumn c)) stmts := by
    intro pd hp hpn hpc hct
    refine transfer_before (base.allBefore ?_) ha hbw ?_ hdropTb hf'
    · rintro u x v y hx hy ⟨r, uu, k, hpx⟩ hq
      obtain ⟨deps, h1, h2⟩ := deps_of_alter (m := Except Err) base.hpolicies hp
      have d1 := base.declared_before (p := base.policies) (by simp) (h2 _ (policy_before_drop ecn eco h1 hpc hct))
      unfold PolicyGen.vertexId at d1
      rw [et] at d1
      have d1 : base.graph.Declared (policyVertexId t.name pd.new.escapedName .addAlter).text
        (columnVertexId c .delete).text := d1
      rw [hpn] at d1
      have hu : u = policyVertexId t.name n .addAlter := by
        cases hx with
        | alterPolicy p hp l hl a b k hs hid =>
          simp only [stmt, Ddl.alterPolicy.injEq] at hpx
          rw [hid, hpx.1, hpx.2.1]
        | column cd hcd s hs => cases hs <;> cases hpx
        | _ => cases hpx
      rw [hu]
      rcases base.disturbs (c := c) hnew hy (by rw [hq]; simp [disturbsColumn]) with ⟨_, hv, _⟩ | ⟨_, ⟨a, ea⟩, _⟩
      · rw [hv]; exact .single d1
      · rw [hq] at ea; cases ea
    · rintro s ⟨r, u, k, hs⟩; rw [hs]; exact ⟨decide_eq_true rfl, nofun⟩
  rw [← hcol]
  refine runPolicyColumn_of hrun ?_
  rintro pre s post rfl q hq
  constructor
  · intro hm
    obtain ⟨v, hv⟩ := hshape s (by simp) (mentionsAnew_kind hm).1 (mentionsAnew_kind hm).2
    obtain ⟨hct, _, _⟩ := base.anew hnew hpd' ht hv hm
    refine columnRun_true (fun x hx => hnodrop hct x (by simp [hx])) (fun x hx => (hno x (by simp [hx])).2)
      (fun x hx => (hno x (by simp [hx])).1) ?_
    by_cases hco : c ∈ o.columns.map (·.name)
    · exact Or.inl (decide_eq_true hco)
    · right
      obtain ⟨x, hx, d, hd, he⟩ := hadded hct hco
      refine ⟨x, ?_, d, hd, he⟩
      simp only [List.mem_append, List.mem_cons] at hx
      rcases hx with hx | rfl | hx
      · exact hx
      · rw [he] at hm; cases hm
      · exact absurd (Or.inl ⟨d, hd, he⟩) (hB1.not_after hm x hx)
  · intro hm
    rw [Bool.eq_false_iff]
    intro hq'
    obtain ⟨v, hv⟩ := hshape s (by simp) (disturbsColumn_kind hm).1 (disturbsColumn_kind hm).2
    have hs := base.disturbs hnew hv hm
    rcases policy_mentions_origin hq hq' with ⟨y, hy, hya⟩ | ⟨st, hst, hnd, hex⟩
    · -- mentioned by a statement before
      obtain ⟨w, hw⟩ := hshape y (by simp [hy]) (mentionsAnew_kind hya).1 (mentionsAnew_kind hya).2
      obtain ⟨hct, _, _⟩ := base.anew hnew hpd' ht hw hya
      rcases hs with ⟨_, _, x, hx, ex⟩ | ⟨_, ⟨a, ea⟩, _⟩
      · exact (hdel x hx ex).1 hct
      · exact hB1.not_before (Or.inr ⟨hm, by rw [ea]; nofun⟩) y hy hya
    · -- mentioned by the old policy
      have hno' : n ∈ o.policies.map Policy.escapedName := by
        by_contra hh; rw [policyOf_none.mpr hh] at hst; cases hst
      have hod : (o.policies.map Policy.escapedName).Nodup := diffLists_old_nodup hpd
      obtain ⟨po, hpo, rfl⟩ := List.mem_map.mp hno'
      rw [policyOf_mem hod hpo, Option.some.injEq] at hst
      subst hst
      have hmen : (PolicyState.of po).mentions cols c = true :=
        Bool.or_eq_true_iff.mpr (hex.imp And.left And.left)
      obtain ⟨hc1, hc2⟩ := ho po hpo c hmen
      have hdeleted : po ∈ (orderIf opts td).policiesDiff.deletes → False := by
        intro hd
        obtain ⟨l', k1, k2⟩ := stmts_of_delete (m := Except Err) base.hpolicies hd
        cases k1
        have hin' := base.mem_ordered.mpr (Or.inr (Or.inr (Or.inl (k2 _ List.mem_cons_self))))
        rw [et] at hin'
        have hin := hmem' _ hin' (decide_eq_true rfl)
        have hbef := hB2 po hd rfl hc1
        simp only [List.mem_append, List.mem_cons] at hin
        rcases hin with hin | hin | hin
        · exact hnd _ hin rfl
        · rw [← hin] at hm; cases hm
        · exact hbef.not_after hm _ hin rfl
      have hkey : ∀ (o x : Policy) (j i : Nat) (dd : OldNew Policy), Obj.getName o = Obj.getName x →
          (match base.psg.gen.alter ⟨o, x⟩ with
            | .ok _ => (.ok (⟨o, x⟩, false) : Except Err (OldNew Policy × Bool))
            | .error e => if e.isNotImplemented then .ok (⟨o, x⟩, true) else .error e) = .ok (dd, false) → dd = ⟨o, x⟩ := by
        intro o x j i dd _ hb
        split at hb
        · cases hb; rfl
        · split at hb <;> cases hb
      obtain ⟨dec, _⟩ := diffLists_decision hpd' hpn (key := fun d => d.new.escapedName)
        (fun o x j i dd e hb => by rw [hkey o x j i dd e hb]; rfl) po.escapedName
      have huniq : ∀ y ∈ o.policies, y.escapedName = po.escapedName → y = po := fun y hy e =>
        List.inj_on_of_nodup_map hod hy hpo e
      cases dec with
      | absent h1 _ => exact h1 hno'
      | added _ _ _ h1 _ => exact h1 hno'
      | dropped y hy ey _ hd => exact hdeleted (huniq y hy ey ▸ hd)
      | recreated y x hy hx ey ex _ hd _ => exact hdeleted (huniq y hy ey ▸ hd)
      | altered y x dd hy hx ey ex hb' hdd =>
        obtain ⟨i', j', hb'⟩ := hb'
        obtain rfl := hkey y x j' i' dd (ey.trans ex.symm) hb'
        obtain rfl := huniq y hy ey
        obtain ⟨_, _, hname, la, hla⟩ := policy_pair hpd' hdd
        have hok := PolicyGen.alter_ok hla
        simp only [ne_eq] at hok
        obtain ⟨heq, hcase⟩ := hok
        have hperm : x.isPermissive = y.isPermissive := (congrArg Policy.isPermissive heq).symm
        have hcmd : x.cmd = y.cmd := (congrArg Policy.cmd heq).symm
        have hus := congrArg Policy.usingExpression heq
        have hch := congrArg Policy.checkExpression heq
        simp only at hus hch
        rcases hs with ⟨hsd, _, z, hz, ez⟩ | ⟨_, _, cd, hcd, ecd, hty⟩
        · -- the column is dropped: the policy changes before
          have hct := (hdel z hz ez).1
          have hnot : (PolicyState.of x).mentions cols c = false := by
            rw [Bool.eq_false_iff]; exact fun h => hct (ht x hx c h).2
          obtain ⟨hnu, hnk⟩ := Bool.or_eq_false_iff.mp hnot
          have hbef := hB3 ⟨y, x⟩ hdd (hname.symm) hc1 hct
          have hfin : ∀ r u k, Ddl.alterPolicy t.name y.escapedName r u k = (base.psg.alterStatement ⟨y, x⟩).ddl →
              la = [base.psg.alterStatement ⟨y, x⟩] → base.psg.alterStatement ⟨y, x⟩ ∈ pre := by
            intro r u k hddl hla'
            obtain ⟨l', k1, k2⟩ := stmts_of_alter (m := Except Err) base.hpolicies hdd
            have k1 : base.psg.alter ⟨y, x⟩ = .ok l' := k1
            rw [hla, Except.ok.injEq] at k1
            rw [← k1, hla'] at k2
            have hin' := base.mem_ordered.mpr (Or.inr (Or.inr (Or.inl (k2 _ List.mem_cons_self))))
            have hin := hmem' _ hin' (by rw [← hddl]; exact decide_eq_true rfl)
            simp only [List.mem_append, List.mem_cons] at hin
            rcases hin with hin | hin | hin
            · exact hin
            · rw [← hin, ← hddl] at hsd; cases hsd
            · exact absurd ⟨r, u, k, hddl.symm⟩ (hbef.not_after hsd _ hin)
          rcases hex with ⟨m1, m2⟩ | ⟨m1, m2⟩
          · have hne : y.usingExpression ≠ x.usingExpression := by
              intro e; rw [show (PolicyState.of x).using_ = (PolicyState.of y).using_ from e.symm, m1] at hnu; cases hnu
            have hne' : ¬ x.usingExpression = "" := by
              intro e'
              rw [if_neg (by simp [e'])] at hus
              exact hne hus
            rcases hcase with ⟨_, h2, _⟩ | hla'
            · exact h2 ⟨hne, hne'⟩
            · have hddl : Ddl.alterPolicy t.name y.escapedName (if y.appliesTo ≠ x.appliesTo then some x.appliesTo else none)
                  (some x.usingExpression) (if y.checkExpression ≠ x.checkExpression ∧ x.checkExpression ≠ "" then
                    some x.checkExpression else none) = (base.psg.alterStatement ⟨y, x⟩).ddl := by
                simp only [PolicyGen.alterStatement, stmt, et]
                rw [if_pos (⟨hne, hne'⟩ : y.usingExpression ≠ x.usingExpression ∧ x.usingExpression ≠ ""),
                  show y.escapedName = x.escapedName from hname]
              exact m2 _ (hfin _ _ _ hddl hla') _ _ _ hddl.symm
          · have hne : y.checkExpression ≠ x.checkExpression := by
              intro e; rw [show (PolicyState.of x).check = (PolicyState.of y).check from e.symm, m1] at hnk; cases hnk
            have hne' : ¬ x.checkExpression = "" := by
              intro e'
              rw [if_neg (by simp [e'])] at hch
              exact hne hch
            rcases hcase with ⟨_, _, h2, _⟩ | hla'
            · exact h2 ⟨hne, hne'⟩
            · have hddl : Ddl.alterPolicy t.name y.escapedName (if y.appliesTo ≠ x.appliesTo then some x.appliesTo else none)
                  (if y.usingExpression ≠ x.usingExpression ∧ x.usingExpression ≠ "" then
                    some x.usingExpression else none) (some x.checkExpression) = (base.psg.alterStatement ⟨y, x⟩).ddl := by
                simp only [PolicyGen.alterStatement, stmt, et]
                rw [if_pos (⟨hne, hne'⟩ : y.checkExpression ≠ x.checkExpression ∧ x.checkExpression ≠ ""),
                  show y.escapedName = x.escapedName from hname]
              exact m2 _ (hfin _ _ _ hddl hla') _ _ _ hddl.symm
        · -- the type of the column changes: excluded
          obtain ⟨cd0, h0, x1, x2⟩ := orderIf_columns opts td hcd
          obtain ⟨q1, q2, q3⟩ := (columnsDiff_alters hcols).1 cd0 h0
          rw [x1, x2] at hty
          rw [x2] at ecd
          refine htype ⟨cd0.old, q1, cd0.new, q2, q3.trans ecd, ecd, ?_⟩ y hy hmen ⟨x, hx, hname.symm, hperm, hcmd⟩
          by_contra hh
          simp only [not_or, not_not] at hh
          rw [hh.1, hh.2, equalFold_refl, equalFold_refl] at hty
          simp only [Bool.true_eq_false, false_or] at hty
          obtain ⟨k1, k2⟩ := hty
          simp only [equalFold, decide_eq_true_eq] at k1 k2
          exact absurd (k1.symm.trans k2) (by decide)

/-- a table that is created -/
theorem policy_column_new {g : TableGen} {l stmts : List Statement} {b : Bool} {p : Option PolicyState} (hl : g.add t = .ok l)
    (hf : stmts.filter (fun s => s.ddl.tableBody t.name) = l.filter fun s => s.ddl.tableBody t.name)
    (hb : AllBefore (fun s => s.ddl = .dropTable t.name) (fun s : Statement => s.ddl.tableBody t.name = true) stmts)
    (ht : PolicyColumnsOk cols t) (hrun : runPolicy t.name n p stmts = some (policyOf t.policies n)) :
    runPolicyColumn cols t.name n c (b, p) stmts = some (columnThere t c, policyOf t.policies n) := by
  obtain ⟨ccs, defs, rest, _, hdefs, el, hrest⟩ := TableGen.add_create hl
  have hbody : l.filter (fun s => s.ddl.tableBody t.name) = l := by
    rw [List.filter_eq_self]
    intro s hs
    obtain ⟨_, _, hsh⟩ := TableGen.add_shape hl hs
    rw [hsh.tableBody]; simp
  rw [hbody, el] at hf
  obtain ⟨l1, l2, e, h1, h0, h2⟩ := List.filter_eq_cons_iff.mp hf
  have hnames : defs.map (·.name) = t.columns.map (·.name) := by
    clear hf hbody el e hrest h0
    generalize t.columns = xs at hdefs ⊢
    induction hdefs with
    | nil => rfl
    | cons hd _ ih => rw [List.map_cons, List.map_cons, ih, buildColumnDefinition_name hd]
  have hany : defs.any (fun d => d.name = c) = columnThere t c := by
    unfold columnThere
    rw [← hnames, Bool.eq_iff_iff]
    simp [List.any_eq_true]
  have hq : ∀ s ∈ l2, s.ddl.tableBody t.name = true → s ∈ rest := fun s hs hk => by
    rw [← h2]; exact List.mem_filter.mpr ⟨hs, hk⟩
  have hplain : ∀ s ∈ l2, (∀ a, s.ddl ≠ .alterTable t.name (.dropColumn a)) ∧ (∀ a, s.ddl ≠ .alterTable t.name (.addColumn a)) ∧
      (∀ a b, s.ddl ≠ .alterTable t.name (.alterColumn a b)) ∧ s.ddl ≠ .dropTable t.name ∧
      ∀ cs p, s.ddl ≠ .createTable t.name cs p := by
    intro s hs
    refine ⟨?_, ?_, ?_, ?_, ?_⟩
    · intro a ea
      have := (hrest s (hq s hs (by rw [ea]; exact decide_eq_true rfl))).1
      cases this <;> cases ea
    · intro a ea
      have := (hrest s (hq s hs (by rw [ea]; exact decide_eq_true rfl))).1
      cases this <;> cases ea
    · intro a b ea
      have := (hrest s (hq s hs (by rw [ea]; exact decide_eq_true rfl))).1
      cases this <;> cases ea
    · rw [e] at hb
      exact hb.not_after (decide_eq_true rfl) s hs
    · intro cs p ea
      exact (hrest s (hq s hs (by rw [ea]; exact decide_eq_true rfl))).2 _ _ _ ea
  have hcr : ∀ (m : List Statement), (∀ s ∈ m, s ∈ l2) →
      columnRun t.name c b (l1 ++ stmt (.createTable t.name defs (if t.isPartitioned then some t.partitionKeyDef else none)) :: m) =
        columnThere t c := by
    intro m hm
    have e1 : columnRun t.name c b (l1 ++ stmt (.createTable t.name defs (if t.isPartitioned then some t.partitionKeyDef else none)) :: m) =
        columnRun t.name c (columnThere t c) m := by
      rw [← hany]
      simp only [columnRun, List.foldl_append, List.foldl_cons, stmt, hasColumnStep, if_true]
    rw [e1]
    cases hc : columnThere t c with
    | true =>
      exact columnRun_true (fun s hs => (hplain s (hm s hs)).1 c) (fun s hs => (hplain s (hm s hs)).2.2.2.1)
        (fun s hs => (hplain s (hm s hs)).2.2.2.2) (Or.inl rfl)
    | false =>
      exact columnRun_false (fun s hs d _ => (hplain s (hm s hs)).2.1 d) (fun s hs => (hplain s (hm s hs)).2.2.2.2) (Or.inl rfl)
  -- a statement of the table is after its CREATE TABLE
  have hsplit : ∀ pre s post, stmts = pre ++ s :: post → s.ddl.tableBody t.name = true →
      s = stmt (.createTable t.name defs (if t.isPartitioned then some t.partitionKeyDef else none)) ∨
      s ∈ l2 ∧ ∃ m, (∀ x ∈ m, x ∈ l2) ∧
        pre = l1 ++ stmt (.createTable t.name defs (if t.isPartitioned then some t.partitionKeyDef else none)) :: m := by
    intro pre s post e' hk
    rw [e] at e'
    rcases List.append_eq_append_iff.mp e' with ⟨a', e2, e3⟩ | ⟨c', e2, e3⟩
    · cases a' with
      | nil => rw [List.nil_append, List.cons.injEq] at e3; exact Or.inl e3.1.symm
      | cons x m =>
        rw [List.cons_append, List.cons.injEq] at e3
        right
        refine ⟨by rw [e3.2]; simp, m, fun x hx => by rw [e3.2]; simp [hx], by rw [e2, ← e3.1]⟩
    · cases c' with
      | nil => rw [List.nil_append, List.cons.injEq] at e3; exact Or.inl e3.1
      | cons x m =>
        rw [List.cons_append, List.cons.injEq] at e3
        exact absurd hk (h1 s (by rw [e2, e3.1]; simp))
  have hend : columnRun t.name c b stmts = columnThere t c := by rw [e]; exact hcr l2 fun _ h => h
  rw [← hend]
  refine runPolicyColumn_of hrun ?_
  intro pre s post e' q _
  constructor
  · intro hm
    rcases hsplit pre s post e' (mentionsAnew_kind hm).1 with rfl | ⟨hs, m, hm', rfl⟩
    · cases hm
    rw [hcr m hm']
    have := (hrest s (hq s hs (mentionsAnew_kind hm).1)).1
    cases this with
    | policy p hp cmd hcmd =>
      simp only [stmt, mentionsAnew, Bool.and_eq_true, decide_eq_true_eq] at hm
      refine decide_eq_true (ht p hp c ?_).2
      exact Bool.or_eq_true_iff.mpr ((Bool.or_eq_true_iff.mp hm.2).imp clause_mentions clause_mentions)
    | _ => cases hm
  · intro hm
    exfalso
    rcases hsplit pre s post e' (disturbsColumn_kind hm).1 with rfl | ⟨hs, _⟩
    · cases hm
    have := (hrest s (hq s hs (disturbsColumn_kind hm).1)).1
    cases this <;> cases hm

end

/-! ### C81 -/

section
variable {r r' : Rand} {old new : Schema} {opts : PlanOptions} {stmts : List Statement} {cols : String → List String}

theorem policyColumnsOk_normalize {t : Table} (h : PolicyColumnsOk cols t) : PolicyColumnsOk cols (normalizeTable t) := by
  intro p hp c hc
  obtain ⟨q, hq, rfl⟩ := List.mem_map.mp hp
  obtain ⟨h1, h2⟩ := h q ((sortObjs_perm _).mem_iff.mp hq) c hc
  exact ⟨(sortBy_perm _ _).mem_iff.mpr h1, h2⟩

/-- C81: whatever column names the expressions of the policies mention, a plan never mentions a column in a policy before the
column is there, and never drops or retypes a column while a policy mentions it; in the end both are as in the target.

The full property asks this of every table and every change.  Missing: columns of partitions, which are altered through the
parent, and columns that change their type while a policy that mentions them stays: then the plan is rejected
(`C81_type_change_violated`). -/
theorem C81_policies_and_columns_partial (h : generateMigrationStatements r old new opts = .ok (stmts, r'))
    (hn : (new.tables.map Obj.getName).Nodup) {t : Table} (ht : t ∈ new.tables) (hroot : t.parentTable = none)
    (hcn : (t.columns.map (·.name)).Nodup) (hd : (t.policies.map Policy.escapedName).Nodup) (hok : ∀ p ∈ t.policies, PolicyOk p)
    (htc : PolicyColumnsOk cols t) (n c : String) :
    (∀ o ∈ old.tables, o.name = t.name → PolicyColumnsOk cols o →
      (TypeChanges o t c → ∀ p ∈ o.policies, (PolicyState.of p).mentions cols c = true → ¬ Stays t p) →
      runPolicyColumn cols t.name n c (columnThere o c, policyOf o.policies n) stmts =
        some (columnThere t c, policyOf t.policies n)) ∧
    (Obj.getName t ∉ old.tables.map Obj.getName →
      runPolicyColumn cols t.name n c (false, none) stmts = some (columnThere t c, policyOf t.policies n)) := by
  obtain ⟨r1, r2⟩ := C24_policies_become_those_of_the_target h hn ht hd hok n
  obtain ⟨d, ⟨dr, run, _⟩, hc⟩ := plan_table_cases h hn ht
  have hd' : ((normalizeTable t).policies.map Policy.escapedName).Nodup := (normalize_policy_names _).nodup_iff.mpr hd
  have epol := policyOf_normalize hd n
  rcases hc with ⟨l, hl, hf, hb⟩ | ⟨td, htd, e1, o', ho', e2, e3, ⟨td0, i, j, hbd, rfl⟩, hno, l, hl, hf⟩
  · have ep : (packIf opts (normalizeTable t)).policies = (normalizeTable t).policies := by unfold packIf; split <;> rfl
    have en : (packIf opts (normalizeTable t)).name = t.name := by unfold packIf; split <;> rfl
    have ec := packIf_columns opts (normalizeTable t)
    have hokp : PolicyColumnsOk cols (packIf opts (normalizeTable t)) := by
      intro p hp c hc
      rw [ep] at hp
      obtain ⟨h1, h2⟩ := policyColumnsOk_normalize htc p hp c hc
      exact ⟨h1, (ec.map (·.name)).mem_iff.mpr h2⟩
    have ect : columnThere (packIf opts (normalizeTable t)) c = columnThere t c := by
      unfold columnThere
      rw [Bool.eq_iff_iff, decide_eq_true_eq, decide_eq_true_eq]
      exact (ec.map (·.name)).mem_iff
    have key : ∀ b p, runPolicy t.name n p stmts = some (policyOf t.policies n) →
        runPolicyColumn cols t.name n c (b, p) stmts = some (columnThere t c, policyOf t.policies n) := by
      intro b p hp
      have := policy_column_new (stmts := stmts) (cols := cols) (n := n) (c := c) (b := b) (p := p) hl (by rw [en]; exact hf _ fun _ h => h)
        (by rw [en]; exact hb) hokp (by rw [en, ep]; exact hp.trans (congrArg some epol.symm))
      rw [en, ep, ect] at this
      exact this.trans (by rw [show policyOf (normalizeTable t).policies n = policyOf t.policies n from epol])
    exact ⟨fun o ho hname _ _ => key _ _ (r1 o ho hname), fun hnot => key _ _ (r2 hnot)⟩
  · refine ⟨?_, fun hnot => absurd (List.mem_map.mpr ⟨o', ho', e3⟩) hnot⟩
    intro o ho hname hoc htype
    have hoo : normalizeTable o' = normalizeTable o :=
      List.inj_on_of_nodup_map (diffLists_old_nodup dr.htd0) (mem_normalize_tables_of ho') (mem_normalize_tables_of ho)
        (e3.trans (congrArg SQName.getName hname.symm))
    have hon : o'.name = t.name := (congrArg Table.name hoo).trans hname
    obtain ⟨_, _, _, _, _, _, _, ⟨psg, _, b9⟩, _⟩ := buildTableDiff_ok hbd
    rw [hoo] at b9 hbd
    have hod : (o.policies.map Policy.escapedName).Nodup :=
      (normalize_policy_names _).nodup_iff.mp (diffLists_old_nodup b9)
    have eo := policyOf_normalize hod n
    have := policy_column_altered (cols := cols) (n := n) (c := c) (opts := opts) hbd hl (hf _ fun _ h => h) (hno hon) hroot hcn hd'
      (policyColumnsOk_normalize hoc) (policyColumnsOk_normalize htc) (by
        intro htc p hp hm
        obtain ⟨q, hq, rfl⟩ := List.mem_map.mp hp
        rintro ⟨x, hx, k1, k2, k3⟩
        obtain ⟨y, hy, rfl⟩ := List.mem_map.mp hx
        exact htype htc q ((sortObjs_perm _).mem_iff.mp hq) hm ⟨y, (sortObjs_perm _).mem_iff.mp hy, k1, k2, k3⟩)
      ((congrArg (fun p => runPolicy t.name n p stmts) eo).trans ((r1 o ho hname).trans (congrArg some epol.symm)))
    have e5 : policyOf (normalizeTable o).policies n = policyOf o.policies n := eo
    have e6 : policyOf (normalizeTable t).policies n = policyOf t.policies n := epol
    rw [e5, e6] at this
    exact this

/-- the full C81 fails, and always: if the type of a column changes, and a policy that mentions it stays as it is, then
Postgres rejects the plan -/
theorem C81_type_change_violated (h : generateMigrationStatements r old new opts = .ok (stmts, r'))
    (hn : (new.tables.map Obj.getName).Nodup) {o t : Table} (ho : o ∈ old.tables) (ht : t ∈ new.tables)
    (hname : o.name = t.name) (hpart : o.isPartitioned = t.isPartitioned) (hp : o.parentTable = none)
    (hp' : t.parentTable = none) (hcn : (t.columns.map Obj.getName).Nodup) (hpn : (t.policies.map Policy.escapedName).Nodup)
    {oc c : Column} (hoc : oc ∈ o.columns) (hc : c ∈ t.columns) (hcname : oc.name = c.name) (hcase : CaseDistinct oc c)
    (hchange : TypeChange oc c) {p : Policy} (hpo : p ∈ o.policies) (hpt : p ∈ t.policies)
    (hm : (PolicyState.of p).mentions cols c.name = true) (b : Bool) :
    runPolicyColumn cols t.name p.escapedName c.name (b, policyOf o.policies p.escapedName) stmts = none := by
  obtain ⟨change, an, hsub, hddl, _⟩ := C20_type_change_flagged_partial h hn ho ht hname hpart hp hp' hcn hoc hc hcname hcase hchange
  have hin : change ∈ stmts := hsub.subset List.mem_cons_self
  have hdist : disturbsColumn t.name c.name change.ddl = true := by
    rcases hddl with e | e <;> rw [e] <;> simp [disturbsColumn, changesType]
  -- there is no statement about the policy
  obtain ⟨d, ⟨dr⟩, ⟨run⟩⟩ := plan_runs h
  obtain ⟨td0, hbd, _, b1, b2, l, hl, hf⟩ := plan_altered dr run (normalize_tables_nodup hn) (mem_normalize_tables_of ht)
    (mem_normalize_tables_of ho) hname hpart (hp.trans hp'.symm)
  obtain ⟨_, _, b3, _, b5, _, _, ⟨psg, hpsg, hpd⟩, _⟩ := buildTableDiff_ok hbd
  have hno := plan_column_stays dr run (normalize_tables_nodup hn) (mem_normalize_tables_of ht) (mem_normalize_tables_of ho) hname b3 b5
  have hd' : ((normalizeTable t).policies.map Policy.escapedName).Nodup := (normalize_policy_names _).nodup_iff.mpr hpn
  have hod' : ((normalizeTable o).policies.map Policy.escapedName).Nodup := diffLists_old_nodup hpd
  have hod : (o.policies.map Policy.escapedName).Nodup := (normalize_policy_names _).nodup_iff.mp hod'
  obtain ⟨tr⟩ := table_run hl
  have hnew : (orderIf opts td0).new = normalizeTable t := (orderIf_new opts td0).trans b2
  have hold : (orderIf opts td0).old = normalizeTable o := (orderIf_old opts td0).trans b1
  have hisp : (orderIf opts td0).new.isPartition = false := by
    rw [hnew]; show (normalizeTable t).isPartition = false; simp [Table.isPartition, normalizeTable, hp']
  obtain ⟨base⟩ := base_run (tr.hbase hisp)
  obtain ⟨a, b', e, ha, hbw⟩ := tr.around base
  have hpo' : normalizePolicy p ∈ (normalizeTable o).policies := List.mem_map_of_mem ((sortObjs_perm _).mem_iff.mpr hpo)
  have hpt' : normalizePolicy p ∈ (normalizeTable t).policies := List.mem_map_of_mem ((sortObjs_perm _).mem_iff.mpr hpt)
  have hkey : ∀ (o x : Policy) (j i : Nat) (dd : OldNew Policy), Obj.getName o = Obj.getName x →
      (match psg.gen.alter ⟨o, x⟩ with
        | .ok _ => (.ok (⟨o, x⟩, false) : Except Err (OldNew Policy × Bool))
        | .error e => if e.isNotImplemented then .ok (⟨o, x⟩, true) else .error e) = .ok (dd, false) → dd = ⟨o, x⟩ := by
    intro o x j i dd _ hb
    split at hb
    · cases hb; rfl
    · split at hb <;> cases hb
  obtain ⟨dec, _, _, q3, q4, q5, q6⟩ := diffLists_decision hpd hd' (key := fun d => d.new.escapedName)
    (fun o x j i dd e hb => by rw [hkey o x j i dd e hb]; rfl) p.escapedName
  have hu1 : ∀ y ∈ (normalizeTable o).policies, y.escapedName = p.escapedName → y = normalizePolicy p := fun y hy e =>
    List.inj_on_of_nodup_map hod' hy hpo' e
  have hu2 : ∀ y ∈ (normalizeTable t).policies, y.escapedName = p.escapedName → y = normalizePolicy p := fun y hy e =>
    List.inj_on_of_nodup_map hd' hy hpt' e
  have halt : (⟨normalizePolicy p, normalizePolicy p⟩ : OldNew Policy) ∈ td0.policiesDiff.alters := by
    cases dec with
    | absent h1 _ => exact absurd (List.mem_map.mpr ⟨_, hpo', rfl⟩) h1
    | added _ _ _ h1 _ => exact absurd (List.mem_map.mpr ⟨_, hpo', rfl⟩) h1
    | dropped _ _ _ h2 _ => exact absurd (List.mem_map.mpr ⟨_, hpt', rfl⟩) h2
    | recreated y x hy hx ey ex hb' _ _ =>
      exfalso
      obtain ⟨i', j', dd, hb'⟩ := hb'
      rw [hu1 y hy ey, hu2 x hx ex] at hb'
      split at hb'
      · cases hb'
      · rename_i er her
        rw [PolicyGen.gen_alter_self her] at hb'
        cases hb'
    | altered y x dd hy hx ey ex hb' hdd =>
      obtain ⟨i', j', hb'⟩ := hb'
      obtain rfl := hkey y x j' i' dd (ey.trans ex.symm) hb'
      rw [hu1 y hy ey, hu2 x hx ex] at hdd
      exact hdd
  have hnone : ∀ s ∈ stmts, s.ddl.isPolicy t.name p.escapedName = false := by
    intro s hs
    rw [Bool.eq_false_iff]
    intro hk
    have h1 : s ∈ l := by
      have : s ∈ stmts.filter fun s => s.ddl.isPolicy t.name p.escapedName := List.mem_filter.mpr ⟨hs, hk⟩
      rw [hf (fun s => s.ddl.isPolicy t.name p.escapedName) fun s hs => Ddl.isPolicy_tableBody hs] at this
      exact (List.mem_filter.mp this).1
    rw [e] at h1
    simp only [List.mem_append] at h1
    have hw : ¬ s.ddl.IsWrap := by
      intro hw
      cases hs : s.ddl <;> rw [hs] at hk hw <;> first | cases hk | cases hw
    have hmem : s ∈ base.ordered := by
      rcases h1 with (h1 | h1) | h1
      · exact absurd (ha s h1) hw
      · exact h1
      · exact absurd (hbw s h1) hw
    obtain ⟨v, hv⟩ := base.shape hmem
    have hin : p.escapedName ∈ td0.policiesDiff.alters.map fun d => d.new.escapedName := List.mem_map.mpr ⟨_, halt, rfl⟩
    cases hv with
    | createPolicy x hx =>
      simp only [stmt, Ddl.isPolicy, decide_eq_true_eq] at hk
      rw [orderIf_policies] at hx
      exact q4 (List.mem_map.mpr ⟨x, hx, hk.2⟩) hin
    | dropPolicy x hx =>
      simp only [stmt, Ddl.isPolicy, decide_eq_true_eq] at hk
      rw [orderIf_policies] at hx
      exact q5 (List.mem_map.mpr ⟨x, hx, hk.2⟩) hin
    | alterPolicy pd hx la hla _ _ _ hsl =>
      simp only [stmt, Ddl.isPolicy, decide_eq_true_eq] at hk
      rw [orderIf_policies] at hx
      obtain rfl : pd = ⟨normalizePolicy p, normalizePolicy p⟩ := List.inj_on_of_nodup_map q3 hx halt hk.2
      rw [PolicyGen.alter_self] at hla
      cases hla; cases hsl
    | column cd hcd s hs => cases hs <;> cases hk
    | _ => cases hk
  -- so it is there when the type changes
  obtain ⟨pre, post, rfl⟩ := List.append_of_mem hin
  unfold runPolicyColumn
  rw [runWith_append]
  cases hr : runWith (policyColumnStep cols t.name p.escapedName c.name) (b, policyOf o.policies p.escapedName) pre with
  | none => rfl
  | some st =>
    obtain ⟨st1, st2⟩ := st
    have hrun := runPolicyColumn_some (b := b) hr
    have hkeep : runPolicy t.name p.escapedName (policyOf o.policies p.escapedName) pre = some (policyOf o.policies p.escapedName) := by
      rw [runPolicy_filter (P := fun _ => false)]
      · rw [List.filter_false]; rfl
      · intro x hx _ s
        have hx' : x ∈ pre ++ change :: post := by simp [hx]
        exact policyStep_other (hnone x hx') (hno x hx').1 (hno x hx').2.1 s
    rw [hkeep, Option.some.injEq, policyOf_mem hod hpo] at hrun
    subst hrun
    show (policyColumnStep cols t.name p.escapedName c.name _ change.ddl).bind _ = none
    have : policyColumnStep cols t.name p.escapedName c.name (st1, some (PolicyState.of p)) change.ddl = none := by
      unfold policyColumnStep
      split
      · rfl
      · rw [if_pos ⟨hdist, hm⟩]
    rw [this]; rfl

end

/-! ### samples -/

namespace Samples

/-- the columns that the expressions of the samples mention -/
def policyMentions (e : String) : List String :=
  if e = "x > 0" then ["x"] else if e = "y > 0" ∨ e = "y > 1" then ["y"] else if e = "z > 0" then ["z"]
  else if e = "w > 0" then ["w"] else []

def oldPolicyColumns : Schema := { Schema.empty with
  tables := [{ table "a" [col "x" "integer", col "y" "integer", col "z" "integer"] with
      policies := [⟨"\"altered\"", true, ["PUBLIC"], "*", "", "x > 0", ["x"]⟩,
        ⟨"\"dropped\"", true, ["PUBLIC"], "r", "", "y > 0", ["y"]⟩, ⟨"\"kept\"", true, ["PUBLIC"], "r", "", "z > 0", ["z"]⟩]
      rlsEnabled := true }] }

/-- a policy moves from a dropped column to a new one, another is created on a column that changes its type, on which a third
was dropped -/
def newPolicyColumns : Schema := { Schema.empty with
  tables := [{ table "a" [col "y" "bigint", col "z" "integer", col "w" "integer"] with
      policies := [⟨"\"altered\"", true, ["PUBLIC"], "*", "", "w > 0", ["w"]⟩,
        ⟨"\"created\"", true, ["PUBLIC"], "r", "", "y > 1", ["y"]⟩, ⟨"\"kept\"", true, ["PUBLIC"], "r", "", "z > 0", ["z"]⟩]
      rlsEnabled := true }] }

/-- the type of a column changes under a policy -/
def typePolicyColumns : Schema := { Schema.empty with
  tables := [{ table "a" [col "x" "integer", col "y" "integer", col "z" "bigint"] with
      policies := [⟨"\"altered\"", true, ["PUBLIC"], "*", "", "x > 0", ["x"]⟩,
        ⟨"\"dropped\"", true, ["PUBLIC"], "r", "", "y > 0", ["y"]⟩, ⟨"\"kept\"", true, ["PUBLIC"], "r", "", "z > 0", ["z"]⟩]
      rlsEnabled := true }] }

/-- a policy that reads another table -/
def subqueryPolicy : Schema := { Schema.empty with
  tables := [{ table "a" [col "x" "integer"] with
      policies := [⟨"\"p\"", true, ["PUBLIC"], "*", "", "x IN (SELECT b.y FROM b)", ["x"]⟩] },
    table "b" [col "y" "integer"]] }

theorem policyColumnsOk_of {cols : String → List String} {t : Table}
    (h : ∀ p ∈ t.policies, ∀ c ∈ cols p.usingExpression ++ cols p.checkExpression, c ∈ p.columns ∧ c ∈ t.columns.map (·.name)) :
    PolicyColumnsOk cols t := by
  intro p hp c hc
  refine h p hp c ?_
  rw [List.mem_append]
  refine (Bool.or_eq_true_iff.mp hc).imp (fun h => ?_) (fun h => ?_)
  · simp only [exprMentions, Bool.and_eq_true, decide_eq_true_eq] at h; exact h.2
  · simp only [exprMentions, Bool.and_eq_true, decide_eq_true_eq] at h; exact h.2

end Samples

open Samples in
/-- the hypotheses of C81 can be met, by a plan with seven statements -/
example : (∃ stmts r', generateMigrationStatements rand oldPolicyColumns newPolicyColumns opts = .ok (stmts, r') ∧
      stmts.length = 7) ∧
    (newPolicyColumns.tables.map Obj.getName).Nodup ∧
    (∀ t ∈ newPolicyColumns.tables, t.parentTable = none ∧ (t.columns.map (·.name)).Nodup ∧
      (t.policies.map Policy.escapedName).Nodup ∧ (∀ p ∈ t.policies, PolicyOk p) ∧ PolicyColumnsOk policyMentions t ∧
      ∀ o ∈ oldPolicyColumns.tables, o.name = t.name ∧ PolicyColumnsOk policyMentions o ∧ TypeChanges o t "y" ∧
        ∀ p ∈ o.policies, (PolicyState.of p).mentions policyMentions "y" = true → ¬ Stays t p) := by
  refine ⟨exists_plan (by decide +kernel), by decide +kernel, ?_⟩
  intro t ht
  obtain rfl := List.mem_singleton.mp ht
  refine ⟨rfl, by decide +kernel, by decide +kernel, by decide +kernel, policyColumnsOk_of (by decide +kernel), ?_⟩
  intro o ho
  obtain rfl := List.mem_singleton.mp ho
  refine ⟨rfl, policyColumnsOk_of (by decide +kernel), ?_, ?_⟩
  · exact ⟨col "y" "integer", by simp [table], col "y" "bigint", by simp [table], rfl, rfl, Or.inl (by decide)⟩
  · unfold Stays; decide +kernel

open Samples in
/-- the hypotheses of `C81_type_change_violated` can be met: there is such a plan, and Postgres rejects it -/
example : ∃ stmts r', generateMigrationStatements rand oldPolicyColumns typePolicyColumns opts = .ok (stmts, r') ∧
    runPolicyColumn policyMentions (pub "a") "\"kept\"" "z"
      (true, some (PolicyState.of ⟨"\"kept\"", true, ["PUBLIC"], "r", "", "z > 0", ["z"]⟩)) stmts = none := by
  obtain ⟨stmts, r', h, _⟩ := exists_plan (r := rand) (old := oldPolicyColumns) (new := typePolicyColumns) (opts := opts)
    (P := fun stmts => stmts.length = 2) (by decide +kernel)
  refine ⟨stmts, r', h, ?_⟩
  exact C81_type_change_violated (cols := policyMentions) h (by decide +kernel) (o := _) (t := _) List.mem_cons_self List.mem_cons_self
    rfl rfl rfl rfl (by decide +kernel) (by decide +kernel) (oc := col "z" "integer") (c := col "z" "bigint") (by simp [table]) (by simp [table])
    rfl (by unfold CaseDistinct; decide +kernel) (Or.inl (by decide))
    (p := ⟨"\"kept\"", true, ["PUBLIC"], "r", "", "z > 0", ["z"]⟩) (by simp) (by simp) (by decide +kernel) true

/-- the full C81 fails for what policies read of other tables: the policy is created before the table it reads -/
theorem C81_subquery_violated :
    ∃ pre s mid s' post r', generateMigrationStatements Samples.rand Schema.empty Samples.subqueryPolicy Samples.opts =
        .ok (pre ++ s :: mid ++ s' :: post, r') ∧
      s.ddl.render = "CREATE POLICY \"p\" ON \"public\".\"a\"\n\tAS PERMISSIVE\n\tFOR ALL\n\tTO PUBLIC\n\tUSING (x IN (SELECT b.y FROM b))" ∧
      s'.ddl.render = "CREATE TABLE \"public\".\"b\" (\n\t\"y\" integer\n)" := by
  obtain ⟨stmts, r', h, h1⟩ := Samples.exists_plan (r := Samples.rand) (old := Schema.empty) (new := Samples.subqueryPolicy)
    (opts := Samples.opts) (P := fun stmts => stmts.map (fun s : Statement => s.ddl.render) =
      ["CREATE TABLE \"public\".\"a\" (\n\t\"x\" integer\n)",
       "CREATE POLICY \"p\" ON \"public\".\"a\"\n\tAS PERMISSIVE\n\tFOR ALL\n\tTO PUBLIC\n\tUSING (x IN (SELECT b.y FROM b))",
       "CREATE TABLE \"public\".\"b\" (\n\t\"y\" integer\n)"]) (by decide +kernel)
  obtain ⟨a, m1, e1, _, h1⟩ := List.map_eq_cons_iff.mp h1
  obtain ⟨b, m2, e2, hb, h1⟩ := List.map_eq_cons_iff.mp h1
  obtain ⟨c, m3, e3, hc, h1⟩ := List.map_eq_cons_iff.mp h1
  exact ⟨[a], b, [], c, m3, r', by rw [h, e1, e2, e3]; rfl, hb, hc⟩

end Verif
