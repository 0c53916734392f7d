import Verif.Lemmas.Effect
import Verif.Model.Cli
import Verif.Spec.Hazards
import Verif.Samples.Basic

/-!
# C33, C34: running a plan
-/

namespace Verif

open Spec Eff Cli

/-- the lock timeout the code sets -/
def usedLock (s : Statement) : Int := s.timeout.milliseconds

theorem runStatement_straight (env : Env) (h : History) (conn : Nat) (s : Statement) :
    Straight env h (runStatement conn s) (statementCalls usedLock conn s) () := by
  unfold runStatement
  refine straight_bind (cs := [_]) (straight_call _ _ _) (straight_bind (cs := [_]) (straight_call _ _ _)
    (straight_bind (cs := [_]) (ds := []) (straight_call _ _ _) (straight_pure (α := Unit) _ _ _)))

/-- the calls that run a plan on the pool that is opened after `h` -/
def planCalls (h : History) (db : String) (p : Plan) : List Call :=
  [.openPool db, .openConn h.length] ++ p.statements.flatMap (statementCalls usedLock (h.length + 1))

/-- the calls that close what was opened -/
def planCloses (env : Env) (h : History) (db : String) : List Call :=
  if Succeeded env (h ++ [.openPool db]) then
    if Succeeded env (h ++ [.openPool db, .openConn h.length]) then [.close (h.length + 1), .close h.length]
    else [.close h.length]
  else []

theorem runPlan_run (db : String) (p : Plan) (env : Env) (h : History) :
    (runPlan db p env h).2 = attempt env h (planCalls h db p) ++ planCloses env h db ∧
    (∀ u, (runPlan db p env h).1 = .ok u → AllOk env h (planCalls h db p)) ∧
    (AllOk env h (planCalls h db p) → ∀ e, (runPlan db p env h).1 ≠ .err e) := by
  unfold runPlan planCloses planCalls
  rw [eff_bind]
  have c1 := call_run (.openPool db) env h
  by_cases s1 : Succeeded env (h ++ [.openPool db])
  · have e1 : call (.openPool db) env h = (.ok h.length, h ++ [.openPool db]) := Prod.ext (c1.2.1.mpr s1) c1.1
    rw [e1, if_pos s1]
    dsimp only
    simp only [withDefer_close, withDefer_close_fst]
    have c2 := call_run (.openConn h.length) env (h ++ [.openPool db])
    have le : (h ++ [Call.openPool db]).length = h.length + 1 := by simp
    by_cases s2 : Succeeded env (h ++ [.openPool db, .openConn h.length])
    · have s2' : Succeeded env (h ++ [.openPool db] ++ [.openConn h.length]) := by simpa using s2
      have e2 : call (.openConn h.length) env (h ++ [.openPool db]) =
          (.ok (h.length + 1), h ++ [.openPool db] ++ [.openConn h.length]) :=
        Prod.ext (by rw [c2.2.1.mpr s2', le]) c2.1
      rw [eff_bind, e2, if_pos s2]
      dsimp only
      simp only [withDefer_close, withDefer_close_fst]
      have ok2 : AllOk env h [.openPool db, .openConn h.length] := ⟨s1, s2', trivial⟩
      obtain ⟨f1, f2, f3⟩ := straight_forEach (env := env) (f := runStatement (h.length + 1))
        (cs := statementCalls usedLock (h.length + 1)) p.statements (h ++ [.openPool db] ++ [.openConn h.length])
        fun a _ h' => runStatement_straight env h' _ a
      have hh : h ++ [Call.openPool db] ++ [.openConn h.length] = h ++ [.openPool db, .openConn h.length] := by simp
      rw [hh] at f1 f2 f3 ⊢
      refine ⟨?_, ?_, ?_⟩
      · rw [attempt_append.1 ok2, f1]; simp
      · intro u hu
        rw [allOk_append]
        refine ⟨ok2, ?_⟩
        by_contra hn
        have := f3 hn u
        split at hu
        · cases hu
        · split at hu
          · cases hu
          · exact this hu
      · intro hok e he
        rw [allOk_append] at hok
        have := f2 hok.2
        split at he
        · cases he
        · split at he
          · cases he
          · rw [this] at he; cases he
    · have s2' : ¬ Succeeded env (h ++ [.openPool db] ++ [.openConn h.length]) := by simpa using s2
      have hn : ¬ AllOk env h [.openPool db, .openConn h.length] := fun hok => s2' hok.2.1
      rw [if_neg s2]
      have hb : ∀ k : Nat → Eff Unit, ((call (.openConn h.length) >>= k) env (h ++ [.openPool db])).2 =
          h ++ [.openPool db] ++ [.openConn h.length] ∧
          ∀ u, ((call (.openConn h.length) >>= k) env (h ++ [.openPool db])).1 ≠ .ok u := by
        intro k
        rw [eff_bind]
        have := c2.2.2 s2'
        have c21 := c2.1
        split
        · rename_i a h' e; rw [e] at this; exact absurd rfl (this a)
        · rename_i e; rw [e] at c21; exact ⟨c21, by simp⟩
        · rename_i e; rw [e] at c21; exact ⟨c21, by simp⟩
      refine ⟨?_, ?_, ?_⟩
      · rw [attempt_append.2 hn, (hb _).1]
        simp [attempt, s1]
      · intro u hu
        split at hu
        · cases hu
        · exact absurd hu ((hb _).2 u)
      · intro hok; exact absurd (allOk_append.mp hok).1 hn
  · have hne := c1.2.2 s1
    have c11 := c1.1
    rw [if_neg s1]
    have hn : ¬ AllOk env h ([.openPool db, .openConn h.length] ++
      p.statements.flatMap (statementCalls usedLock (h.length + 1))) := fun hok => s1 hok.1
    refine ⟨?_, ?_, fun hok => absurd hok hn⟩
    · have : attempt env h ([.openPool db, .openConn h.length] ++
          p.statements.flatMap (statementCalls usedLock (h.length + 1))) = h ++ [.openPool db] := by simp [attempt, s1]
      rw [this]
      split
      · rename_i a h' e; rw [e] at hne; exact absurd rfl (hne a)
      · rename_i e; rw [e] at c11; simpa using c11
      · rename_i e; rw [e] at c11; simpa using c11
    · intro u hu
      split at hu
      · rename_i a h' e; rw [e] at hne; exact absurd rfl (hne a)
      · cases hu
      · cases hu

theorem isClose_planCloses (env : Env) (h : History) (db : String) : ∀ c ∈ planCloses env h db, IsClose c := by
  unfold planCloses
  split
  · split <;> simp [IsClose]
  · simp

/-- **C33**: running a plan opens one connection and makes, in plan order, for every statement the calls that set its
timeouts and execute it, up to and including the first that fails; after that things are only closed.  It succeeds only
if every call did, and does not return an error in that case. -/
theorem C33_apply_prefix (db : String) (p : Plan) (env : Env) (h : History) :
    ∃ (lock : Statement → Int) (closes : List Call),
      let calls := [.openPool db, .openConn h.length] ++ p.statements.flatMap (statementCalls lock (h.length + 1))
      (runPlan db p env h).2 = attempt env h calls ++ closes ∧ (∀ c ∈ closes, IsClose c) ∧
      (∀ u, (runPlan db p env h).1 = .ok u → AllOk env h calls) ∧
      (AllOk env h calls → ∀ e, (runPlan db p env h).1 ≠ .err e) :=
  ⟨usedLock, planCloses env h db, (runPlan_run db p env h).1, isClose_planCloses env h db, (runPlan_run db p env h).2⟩

theorem executed_append (a b : History) : executed (a ++ b) = executed a ++ executed b := List.filterMap_append

theorem executed_closes {cs : List Call} (h : ∀ c ∈ cs, IsClose c) : executed cs = [] := by
  unfold executed
  rw [List.filterMap_eq_nil_iff]
  intro c hc
  have := h c hc
  cases c <;> simp_all [IsClose]

theorem executed_calls (lock : Statement → Int) (conn : Nat) (ss : List Statement) :
    executed (ss.flatMap (statementCalls lock conn)) = ss := by
  induction ss with
  | nil => rfl
  | cons s ss ih => rw [List.flatMap_cons, executed_append, ih]; rfl

theorem executed_prefix {a b : History} (h : a <+: b) : executed a <+: executed b := by
  obtain ⟨t, rfl⟩ := h
  rw [executed_append]; exact List.prefix_append _ _

/-- **C33**: the statements executed are a prefix of the plan; all of it if `runPlan` succeeds. -/
theorem C33_executed_prefix (db : String) (p : Plan) (env : Env) (h : History) :
    ∃ l, (runPlan db p env h).2 = h ++ l ∧ executed l <+: p.statements ∧
      (∀ u, (runPlan db p env h).1 = .ok u → executed l = p.statements) := by
  obtain ⟨r1, r2, -⟩ := runPlan_run db p env h
  obtain ⟨l, e, hl⟩ := attempt_prefix env h (planCalls h db p)
  have hx : executed (planCalls h db p) = p.statements := by
    unfold planCalls
    rw [executed_append, executed_calls]; rfl
  have hc := executed_closes (isClose_planCloses env h db)
  refine ⟨l ++ planCloses env h db, by rw [r1, e, List.append_assoc], ?_, ?_⟩
  · rw [executed_append, hc, List.append_nil, ← hx]
    exact executed_prefix hl
  · intro u hu
    have := attempt_allOk (r2 u hu)
    rw [e] at this
    have : l = planCalls h db p := List.append_cancel_left this
    rw [executed_append, hc, List.append_nil, this, hx]

theorem attempt_stops {env : Env} {h : History} {cs : List Call} {pre : List Call} {c : Call}
    (hp : h ++ pre ++ [c] <+: attempt env h cs) (hf : ¬ Succeeded env (h ++ pre ++ [c])) :
    attempt env h cs = h ++ pre ++ [c] := by
  induction cs generalizing h pre with
  | nil =>
    have := hp.length_le
    simp [attempt] at this
  | cons d cs ih =>
    rw [attempt] at hp ⊢
    split at hp
    · rename_i hs
      rw [if_pos hs]
      cases pre with
      | nil =>
        have : [c] <+: ([d] : List Call) := by
          obtain ⟨l, e, -⟩ := attempt_prefix env (h ++ [d]) cs
          rw [e, List.append_nil, List.append_assoc, List.prefix_append_right_inj] at hp
          obtain ⟨t, ht⟩ := hp
          simp only [List.cons_append, List.nil_append, List.cons.injEq] at ht
          rw [ht.1]
          exact List.prefix_rfl
        simp only [List.cons_prefix_cons, List.prefix_nil, and_true] at this
        subst this
        rw [List.append_nil] at hf
        exact absurd hs hf
      | cons d' pre =>
        have hd : d' = d := by
          obtain ⟨l, e, -⟩ := attempt_prefix env (h ++ [d]) cs
          rw [e, List.append_assoc, List.append_assoc, List.prefix_append_right_inj] at hp
          obtain ⟨t, ht⟩ := hp
          simp only [List.cons_append, List.nil_append, List.cons.injEq] at ht
          exact ht.1
        subst hd
        have := ih (h := h ++ [d']) (pre := pre) (by simpa using hp) (by simpa using hf)
        simpa using this
    · rename_i hs
      rw [if_neg hs]
      have hl := hp.length_le
      simp only [List.length_append, List.length_cons, List.length_nil] at hl
      have hnil : pre = [] := List.length_eq_zero_iff.mp (by omega)
      subst hnil
      rw [List.append_nil] at hp ⊢
      rw [List.prefix_append_right_inj] at hp
      simp only [List.cons_prefix_cons, List.prefix_nil, and_true] at hp
      rw [hp]

/-- **C33**: after a statement that fails nothing but closing happens. -/
theorem C33_stops_at_failure (db : String) (p : Plan) (env : Env) (h pre : History) (conn : Nat) (sql : Sql)
    (hc : h ++ pre ++ [.exec conn sql] <+: (runPlan db p env h).2)
    (hf : ¬ Succeeded env (h ++ pre ++ [.exec conn sql])) :
    ∃ closes, (runPlan db p env h).2 = h ++ pre ++ [.exec conn sql] ++ closes ∧ ∀ c ∈ closes, IsClose c := by
  obtain ⟨r1, -, -⟩ := runPlan_run db p env h
  rw [r1] at hc ⊢
  have := prefix_of_not_mem hc fun hm => isClose_planCloses env h db _ hm
  exact ⟨_, by rw [attempt_stops this hf], isClose_planCloses env h db⟩


theorem before_statement {lock : Statement → Int} {conn c : Nat} {s : Statement} {ss : List Statement} {pre : List Call}
    (hp : pre ++ [.exec c (.statement s)] <+: ss.flatMap (statementCalls lock conn)) :
    c = conn ∧ s ∈ ss ∧ ∃ pre', pre = pre' ++
      [.exec conn (.setStatementTimeout s.timeout.milliseconds), .exec conn (.setLockTimeout (lock s))] := by
  induction ss generalizing pre with
  | nil => simp at hp
  | cons t ss ih =>
    rw [List.flatMap_cons] at hp
    match pre with
    | [] => simp [statementCalls] at hp
    | [a] => simp [statementCalls] at hp
    | [a, b] =>
      simp only [statementCalls, List.cons_append, List.nil_append, List.cons_prefix_cons, Call.exec.injEq,
        Sql.statement.injEq] at hp
      obtain ⟨rfl, rfl, ⟨rfl, rfl⟩, -⟩ := hp
      exact ⟨rfl, List.mem_cons_self, [], rfl⟩
    | a :: b :: d :: pre =>
      simp only [statementCalls, List.cons_append, List.nil_append, List.cons_prefix_cons] at hp
      obtain ⟨rfl, rfl, rfl, hp⟩ := hp
      obtain ⟨h1, h2, pre', rfl⟩ := ih hp
      exact ⟨h1, List.mem_cons_of_mem _ h2, _ :: _ :: _ :: pre', rfl⟩

theorem runPlan_before (db : String) (p : Plan) (env : Env) (h pre : History) (conn : Nat) (s : Statement)
    (hc : h ++ pre ++ [.exec conn (.statement s)] <+: (runPlan db p env h).2) :
    conn = h.length + 1 ∧ s ∈ p.statements ∧ ∃ pre', pre = pre' ++
      [.exec conn (.setStatementTimeout s.timeout.milliseconds), .exec conn (.setLockTimeout (usedLock s))] := by
  obtain ⟨r1, -, -⟩ := runPlan_run db p env h
  rw [r1] at hc
  have hc := prefix_of_not_mem hc fun hm => isClose_planCloses env h db _ hm
  obtain ⟨l, e, hl⟩ := attempt_prefix env h (planCalls h db p)
  rw [e, List.append_assoc, List.prefix_append_right_inj] at hc
  have hp := hc.trans hl
  unfold planCalls at hp
  match pre with
  | [] => simp at hp
  | [a] => simp at hp
  | a :: b :: pre =>
    simp only [List.cons_append, List.nil_append, List.cons_prefix_cons] at hp
    obtain ⟨rfl, rfl, hp⟩ := hp
    obtain ⟨rfl, h2, pre', rfl⟩ := before_statement hp
    exact ⟨rfl, h2, _ :: _ :: pre', rfl⟩

/-- **C34** (partial): when a statement is executed, the session's statement_timeout is its Timeout, and the session's
lock_timeout is its Timeout as well; so it is right for statements whose two timeouts agree.  Missing: the statement's
LockTimeout is never used by `runPlan` (apply_cmd.go:149), see `C34_lock_timeout_violated`. -/
theorem C34_timeouts_partial (db : String) (p : Plan) (env : Env) (h pre : History) (conn : Nat) (s : Statement)
    (hc : h ++ pre ++ [.exec conn (.statement s)] <+: (runPlan db p env h).2) :
    statementTimeout conn pre = some s.timeout.milliseconds ∧ lockTimeout conn pre = some s.timeout.milliseconds ∧
    (lockTimeout conn pre = some s.lockTimeout.milliseconds ↔ s.timeout.milliseconds = s.lockTimeout.milliseconds) := by
  obtain ⟨rfl, -, pre', rfl⟩ := runPlan_before db p env h pre conn s hc
  have h2 : lockTimeout (h.length + 1) (pre' ++ [.exec (h.length + 1) (.setStatementTimeout s.timeout.milliseconds),
      .exec (h.length + 1) (.setLockTimeout (usedLock s))]) = some s.timeout.milliseconds := by
    simp [lockTimeout, usedLock]
  refine ⟨?_, h2, ?_⟩
  · simp [statementTimeout]
  · rw [h2]; simp

/-- a world in which every call succeeds -/
def Samples.allOk : Env := ⟨fun _ => .ok (), fun _ => List.replicate 16 0, fun _ => "postgres", fun _ => Schema.empty⟩

theorem allOk_always {env : Env} (he : ∀ h, env.outcome h = .ok ()) (h : History) (cs : List Call) : AllOk env h cs := by
  induction cs generalizing h with
  | nil => trivial
  | cons c cs ih => exact ⟨he _, ih _⟩

/-- when nothing fails, every statement of the plan is executed -/
theorem runPlan_executes (db : String) (p : Plan) {env : Env} (he : ∀ h, env.outcome h = .ok ()) (h : History)
    {s : Statement} (hs : s ∈ p.statements) :
    ∃ pre, h ++ pre ++ [.exec (h.length + 1) (.statement s)] <+: (runPlan db p env h).2 := by
  obtain ⟨r1, -, -⟩ := runPlan_run db p env h
  rw [r1, attempt_allOk (allOk_always he _ _)]
  obtain ⟨a, b, hab⟩ := List.append_of_mem hs
  unfold planCalls
  rw [hab]
  refine ⟨[.openPool db, .openConn h.length] ++ a.flatMap (statementCalls usedLock (h.length + 1)) ++
    [.exec (h.length + 1) (.setStatementTimeout s.timeout.milliseconds),
      .exec (h.length + 1) (.setLockTimeout (usedLock s))],
    b.flatMap (statementCalls usedLock (h.length + 1)) ++ planCloses env h db, ?_⟩
  simp [statementCalls]

/-- **C34** is violated: a generated plan, run where every call succeeds, executes the concurrent index build with the
session's lock_timeout at twenty minutes though the statement's LockTimeout is three seconds. -/
theorem C34_lock_timeout_violated :
    ∃ (old new : Schema) (stmts : List Statement) (r : Rand) (pre : History) (conn : Nat) (s : Statement),
      generateMigrationStatements Samples.rand old new Samples.opts = .ok (stmts, r) ∧
      [] ++ pre ++ [.exec conn (.statement s)] <+: (runPlan "db" ⟨stmts, ""⟩ Samples.allOk []).2 ∧
      s.lockTimeout.milliseconds = 3000 ∧ lockTimeout conn pre = some 1200000 := by
  obtain ⟨stmts, r, e, s, hs, h1, h2⟩ := Samples.exists_plan (r := Samples.rand) (old := Samples.old3)
    (new := Samples.new3) (opts := Samples.opts)
    (P := fun l => ∃ s ∈ l, s.lockTimeout.milliseconds = 3000 ∧ s.timeout.milliseconds = 1200000) (by decide +kernel)
  obtain ⟨pre, hp⟩ := runPlan_executes "db" ⟨stmts, ""⟩ (env := Samples.allOk) (fun _ => rfl) [] hs
  have := C34_timeouts_partial _ _ _ _ _ _ _ hp
  exact ⟨_, _, stmts, r, pre, _, s, e, hp, h1, by rw [this.2.1, h2]⟩

/-- a plan with agreeing timeouts exists and is executed: the hypotheses of the theorems above can be met -/
example : ∃ pre, [] ++ pre ++ [.exec 1 (.statement (stmt (.raw "SELECT 1") [] (3 * Duration.second)))] <+:
    (runPlan "db" ⟨[stmt (.raw "SELECT 1") [] (3 * Duration.second)], ""⟩ Samples.allOk []).2 :=
  runPlan_executes "db" ⟨_, ""⟩ (fun _ => rfl) [] List.mem_cons_self

/-- a world in which the second statement fails: one statement runs, the second is tried, the third is not -/
example :
    let s (n : String) : Statement := stmt (.raw n) [] (3 * Duration.second)
    let outcome : History → Outcome Unit := fun h =>
      if executed h = [s "1", s "2"] then .err (.other "failed") else .ok ()
    let env : Env := { Samples.allOk with outcome := outcome }
    executed (runPlan "db" ⟨[s "1", s "2", s "3"], ""⟩ env []).2 = [s "1", s "2"] ∧
    (runPlan "db" ⟨[s "1", s "2", s "3"], ""⟩ env []).2.getLast? = some (.close 0) := by decide +kernel

end Verif
