import Verif.Props.TempDb

/-!
# C41, C48: validated plans, cleanup on error or panic
-/

namespace Verif

open Spec Eff TempDb

variable {α : Type}

/-! ### C48 -/

/-- **C48**: with `defer DoOnErrOrPanic(&retErr, f)`: after a success `f` makes no call and the result stands; after an
error `f` runs, finds this error, and it is returned; after a panic `f` runs and the same panic goes on; only a panic of
`f` itself replaces the outcome. -/
theorem C48_cleanup_on_failure_only (f : Option Err → Eff Unit) (body : Eff α) (env : Env) (h : History) :
    (∀ a h1, body env h = (.ok a, h1) → withDefer (doOnErrOrPanic f) body env h = (.ok a, h1)) ∧
    (∀ e h1, body env h = (.err e, h1) → ∀ h2,
      ((∃ r, f (some e) env h1 = (r, h2) ∧ ∀ v, r ≠ .panic v) → withDefer (doOnErrOrPanic f) body env h = (.err e, h2)) ∧
      (∀ v, f (some e) env h1 = (.panic v, h2) → withDefer (doOnErrOrPanic f) body env h = (.panic v, h2))) ∧
    (∀ p h1, body env h = (.panic p, h1) → ∀ h2,
      ((∃ r, f none env h1 = (r, h2) ∧ ∀ v, r ≠ .panic v) → withDefer (doOnErrOrPanic f) body env h = (.panic p, h2)) ∧
      (∀ v, f none env h1 = (.panic v, h2) → withDefer (doOnErrOrPanic f) body env h = (.panic v, h2))) := by
  refine ⟨fun a h1 hb => withDefer_onErr_ok hb, fun e h1 hb h2 => ⟨?_, ?_⟩, fun p h1 hb h2 => ⟨?_, ?_⟩⟩
  · rintro ⟨r, hr, hn⟩
    cases r with
    | panic v => exact absurd rfl (hn v)
    | ok _ => simp [withDefer, hb, frameOf, doOnErrOrPanic, hr]
    | err _ => simp [withDefer, hb, frameOf, doOnErrOrPanic, hr]
  · intro v hr
    simp [withDefer, hb, frameOf, doOnErrOrPanic, hr]
  · rintro ⟨r, hr, hn⟩
    cases r with
    | panic v => exact absurd rfl (hn v)
    | ok _ => simp [withDefer, hb, frameOf, doOnErrOrPanic, hr]
    | err _ => simp [withDefer, hb, frameOf, doOnErrOrPanic, hr]
  · intro v hr
    simp [withDefer, hb, frameOf, doOnErrOrPanic, hr]

/-- two deferred cleanups run in the reverse order of their registration, both of them after a failure -/
theorem C48_nested (f g : Option Err → Eff Unit) (body : Eff α) (env : Env) (h h1 h2 h3 : History) (e : Err)
    (hb : body env h = (.err e, h1)) (hg : g (some e) env h1 = (.ok (), h2)) (hf : f (some e) env h2 = (.ok (), h3)) :
    withDefer (doOnErrOrPanic f) (withDefer (doOnErrOrPanic g) body) env h = (.err e, h3) :=
  ((C48_cleanup_on_failure_only f _ env h).2.1 e h2
    (((C48_cleanup_on_failure_only g body env h).2.1 e h1 hb h2).1 ⟨_, hg, by simp⟩) h3).1 ⟨_, hf, by simp⟩

example : ∃ env : Env, withDefer (doOnErrOrPanic fun _ => ignoreErr do let _ ← call (.close 0))
    (do let p ← call (.openPool "x"); let _ ← call (.openConn p)) env [] = (.panic "gone", [.openPool "x", .openConn 0, .close 0]) := by
  let outcome : History → Outcome Unit := fun h =>
    match h.getLast? with
    | some (.openConn _) => .panic "gone"
    | _ => .ok ()
  exact ⟨⟨outcome, fun _ => [], fun _ => "", fun _ => Samples.old1⟩, rfl⟩

/-! ### C41 -/

/-- the calls that run the statements on a new connection, leaving out those that are not to be validated -/
def Spec.validationCalls (pool conn : Nat) (stmts : List Statement) : List Call :=
  [.openConn pool, .exec conn (.setStatementTimeout 10000)] ++
    (stmts.filter fun s => !s.skipValidation).map fun s => .exec conn (.statement s)

theorem flatMap_validated (conn : Nat) (stmts : List Statement) :
    (stmts.flatMap fun s => if s.skipValidation then [] else [Call.exec conn (.statement s)]) =
      (stmts.filter fun s => !s.skipValidation).map fun s => .exec conn (.statement s) := by
  induction stmts with
  | nil => rfl
  | cons s l ih =>
    rw [List.flatMap_cons, ih, List.filter_cons]
    cases s.skipValidation <;> simp

theorem straight_ok {m : Eff α} {env : Env} {h h' : History} {cs : List Call} {a b : α} (hs : Straight env h m cs a)
    (he : m env h = (.ok b, h')) : AllOk env h cs ∧ b = a ∧ h' = h ++ cs := by
  obtain ⟨h1, h2, h3⟩ := hs
  by_cases hok : AllOk env h cs
  · have := h2 hok
    rw [he] at this h1
    rw [attempt_allOk hok] at h1
    exact ⟨hok, by simpa using this, h1⟩
  · exact absurd (by rw [he]) (h3 hok b)

theorem executeStatements_ok {pool : Nat} {stmts : List Statement} {env : Env} {h h' : History}
    (he : executeStatementsIgnoreTimeouts pool stmts env h = (.ok (), h')) :
    AllOk env h (validationCalls pool h.length stmts) ∧ h' = h ++ validationCalls pool h.length stmts ++ [.close h.length] := by
  unfold executeStatementsIgnoreTimeouts at he
  obtain ⟨conn, h1, c1, he⟩ := eff_bind_ok.mp he
  obtain ⟨s1, rfl, rfl⟩ := call_ok.mp c1
  obtain ⟨h2, hb, rfl, -⟩ := withDefer_close_ok.mp he
  have hms : (10 * Duration.second).milliseconds = 10000 := by decide
  rw [hms] at hb
  have hst := straight_bind (k := fun _ => forEach (executeStatement h.length) stmts) (straight_call env (h ++ [.openConn pool]) (.exec h.length (.setStatementTimeout 10000)))
    (straight_forEach (f := executeStatement h.length)
      (cs := fun s => if s.skipValidation then [] else [Call.exec h.length (.statement s)]) stmts _ (by
        intro s _ h'
        unfold executeStatement
        split
        · exact straight_pure (α := Unit) env h' ()
        · exact straight_bind (straight_call env h' _) (straight_pure (α := Unit) env _ ())))
  rw [flatMap_validated] at hst
  obtain ⟨hok, -, rfl⟩ := straight_ok hst hb
  refine ⟨⟨s1, hok⟩, ?_⟩
  simp [validationCalls]

theorem plainDefer_ok {f : Eff Unit} {body : Eff α} {env : Env} {h h' : History} {a : α}
    (he : withDefer (plainDefer f) body env h = (.ok a, h')) : ∃ h1, body env h = (.ok a, h1) ∧ (f env h1).2 = h' := by
  obtain ⟨h1, e1, e2⟩ := (withDefer_ok (plainDefer_keeps f)).mp he
  refine ⟨h1, e1, ?_⟩
  unfold plainDefer at e2
  split at e2
  · simp at e2
  · rename_i x h2 _ e3; rw [e3]; exact (Prod.mk.injEq _ _ _ _ ▸ e2).2

/-- what a successful validation of a plan has done, between the histories `h` and `h'`: it created a temporary database
(`hc` is the history after that), fetched its schema, ran on it the statements `setup` that lead from this schema to
`current`, ran the statements of the plan, and fetched the schema again, `migrated`; all of this succeeded. -/
structure Spec.ValidationRun (f : Factory) (env : Env) (h h' : History) (current : Schema) (plan : Plan) (migrated : Schema) where
  hc : History
  pool : Nat
  setup : List Statement
  rand : Rand
  created : AllOk env h (createCalls f env h)
  opened : h ++ createCalls f env h ++ [.openPool (tempName f env h)] <+: hc
  pool_eq : pool = (h ++ createCalls f env h).length
  fetched : Succeeded env (hc ++ [.getSchema pool])
  setup_eq : generateMigrationStatements nilRand (env.schema (hc ++ [.getSchema pool])) current.validIndexes
    ⟨false, false, false⟩ = .ok (setup, rand)
  hs : History
  setup_ok : AllOk env (hc ++ [.getSchema pool]) (validationCalls pool (hc.length + 1) setup)
  hs_eq : hs = hc ++ [.getSchema pool] ++ validationCalls pool (hc.length + 1) setup ++ [.close (hc.length + 1)]
  hp : History
  plan_ok : AllOk env hs (validationCalls pool hs.length plan.statements)
  hp_eq : hp = hs ++ validationCalls pool hs.length plan.statements ++ [.close hs.length]
  migrated_ok : Succeeded env (hp ++ [.getSchema pool])
  migrated_eq : migrated = env.schema (hp ++ [.getSchema pool])
  contained : hp ++ [.getSchema pool] <+: h'

theorem generateWithZeroOptions_ok {a b : Schema} {l : List Statement} {env : Env} {h h' : History}
    (he : generateWithZeroOptions a b env h = (.ok l, h')) :
    h' = h ∧ ∃ r, generateMigrationStatements nilRand a b ⟨false, false, false⟩ = .ok (l, r) := by
  unfold generateWithZeroOptions at he
  cases e : generateMigrationStatements nilRand a b ⟨false, false, false⟩ with
  | ok x =>
    obtain ⟨s, r⟩ := x
    rw [e] at he
    simp only [eff_pure, Prod.mk.injEq, Outcome.ok.injEq] at he
    obtain ⟨rfl, rfl⟩ := he
    exact ⟨rfl, r, rfl⟩
  | error x =>
    rw [e] at he
    dsimp only at he
    split at he <;> cases he

theorem assertValidPlan_ok {f : Factory} {rand : Rand} {opts : PlanOptions} {current new : Schema} {plan : Plan} {env : Env}
    {h h' : History} (he : assertValidPlan f rand opts current new plan env h = (.ok (), h')) :
    ∃ migrated, Nonempty (ValidationRun f env h h' current plan migrated) ∧
      ∃ r, generateMigrationStatements rand (clearTablePrivileges migrated) (clearTablePrivileges new) opts = .ok ([], r) := by
  unfold assertValidPlan at he
  obtain ⟨db, hc, ec, he⟩ := eff_bind_ok.mp he
  obtain ⟨created, rfl, opened⟩ := create_ok ec
  unfold closing at he
  obtain ⟨h5, he, hclose⟩ := plainDefer_ok he
  obtain ⟨_, hs, es, he⟩ := eff_bind_ok.mp he
  obtain ⟨_, hp, ep, he⟩ := eff_bind_ok.mp he
  obtain ⟨migrated, hm, em, he⟩ := eff_bind_ok.mp he
  unfold setSchemaForEmptyDatabase at es
  obtain ⟨start, h1, e1, es⟩ := eff_bind_ok.mp es
  obtain ⟨setup, h2, e2, es⟩ := eff_bind_ok.mp es
  obtain ⟨s1, rfl, rfl⟩ := callData_ok.mp e1
  obtain ⟨rfl, r, e2⟩ := generateWithZeroOptions_ok e2
  obtain ⟨s2, hs_eq⟩ := executeStatements_ok es
  obtain ⟨s3, hp_eq⟩ := executeStatements_ok ep
  obtain ⟨s4, rfl, rfl⟩ := callData_ok.mp em
  simp only [List.length_append, List.length_singleton] at s2 hs_eq
  unfold assertMigratedSchemaMatchesTarget at he
  obtain ⟨⟨l, r2⟩, h6, e6, he⟩ := eff_bind_ok.mp he
  obtain ⟨e7, rfl⟩ := lift_ok.mp e6
  unfold assertEmpty at he
  dsimp only at he
  split at he
  · cases he
  · rename_i hl
    have hnil : l = [] := by simpa using hl
    subst hnil
    have h56 : hp ++ [Call.getSchema (h.length + 4)] = h5 := congrArg Prod.snd he
    refine ⟨_, ⟨⟨hc, h.length + 4, setup, r, created, opened, by simp [createCalls], s1, e2, hs, s2, hs_eq, hp, s3, hp_eq, s4,
      rfl, ?_⟩⟩, r2, e7⟩
    rw [h56, ← hclose]
    obtain ⟨l, el, -⟩ := closeDatabase_emits f ⟨h.length + 4, tempName f env h, f.options.metadataSchema⟩ env h5
    rw [el]
    exact List.prefix_append _ _

/-- **C41**: when plan generation with validation succeeds, the statements of the returned plan come from the fetched
schemas, and the plan was run: a fresh temporary database was created, set up for the current schema by a plan from what it
contained, all statements of the plan that are to be validated were executed on it, in order and successfully, and the
schema fetched afterwards has an empty diff to the target, table privileges aside. -/
theorem C41_validated_plan_migrates {hash : Schema → Except Err String} {o : GenerateOptions} {f : Factory}
    (ho : o.tempDbFactory = some f) (hv : o.validatePlan = true) {a b : SchemaSource} {env : Env} {h h' : History} {plan : Plan}
    (he : generate hash o a b env h = (.ok plan, h')) :
    ∃ current h1 new h2 rand migrated, a.getSchema (some f) env h = (.ok current, h1) ∧
      b.getSchema (some f) env h1 = (.ok new, h2) ∧
      generateMigrationStatements o.rand current new o.plan = .ok (plan.statements, rand) ∧
      Nonempty (ValidationRun f env h2 h' (afterGeneration current new) plan migrated) ∧
      ∃ r, generateMigrationStatements rand (clearTablePrivileges migrated) (clearTablePrivileges new) o.plan = .ok ([], r) := by
  unfold generate at he
  rw [ho] at he
  obtain ⟨current, h1, e1, he1⟩ := eff_bind_ok.mp he
  obtain ⟨new, h2, e2, he2⟩ := eff_bind_ok.mp he1
  obtain ⟨⟨stmts, rand⟩, h3, e3, he3⟩ := eff_bind_ok.mp he2
  obtain ⟨f3, rfl⟩ := lift_ok.mp e3
  obtain ⟨hs, h4, e4, he4⟩ := eff_bind_ok.mp he3
  obtain ⟨f4, rfl⟩ := lift_ok.mp e4
  obtain ⟨_, h5, e5, he5⟩ := eff_bind_ok.mp he4
  simp only [eff_pure, Prod.mk.injEq, Outcome.ok.injEq] at he5
  obtain ⟨rfl, rfl⟩ := he5
  unfold validateIfAsked at e5
  rw [if_pos hv, ho] at e5
  obtain ⟨migrated, hr, hx⟩ := assertValidPlan_ok e5
  exact ⟨current, h1, new, h4, rand, migrated, e1, e2, f3, hr, hx⟩

/-- **C41**: when validation is asked for without a factory for temporary databases, no plan is returned. -/
theorem C41_no_factory {hash : Schema → Except Err String} {o : GenerateOptions} (ho : o.tempDbFactory = none)
    (hv : o.validatePlan = true) {a b : SchemaSource} {env : Env} {h : History} (plan : Plan) :
    (generate hash o a b env h).1 ≠ .ok plan := by
  intro he
  have he : generate hash o a b env h = (.ok plan, (generate hash o a b env h).2) := Prod.ext he rfl
  unfold generate at he
  obtain ⟨current, h1, e1, he⟩ := eff_bind_ok.mp he
  obtain ⟨new, h2, e2, he⟩ := eff_bind_ok.mp he
  obtain ⟨⟨stmts, rand⟩, h3, e3, he⟩ := eff_bind_ok.mp he
  obtain ⟨hs, h4, e4, he⟩ := eff_bind_ok.mp he
  obtain ⟨_, h5, e5, he⟩ := eff_bind_ok.mp he
  unfold validateIfAsked at e5
  rw [if_pos hv, ho] at e5
  cases e5

namespace Samples

/-- a world in which everything succeeds and the fetched schemas are, in this order: `old1`, `new1`, an empty one, `new1` -/
def goodWorld : Env :=
  let schema : History → Schema := fun h =>
    match (h.filter fun c => match c with | .getSchema _ => true | _ => false).length with
    | 1 => old1
    | 3 => Schema.empty
    | _ => new1
  { outcome := fun _ => .ok ()
    uuid := fun _ => List.replicate 16 171
    currentDatabase := fun _ => "pgschemadiff_tmp_abababab_abab_abab_abab_abababababab"
    schema := schema }

def genOptions : GenerateOptions := ⟨opts, true, some factory, rand⟩

/-- a validated plan with statements exists -/
example : ∃ plan h', generate (fun _ => .ok "hash") genOptions (.ddl ["CREATE TABLE x ();"]) (.db 3) goodWorld [] = (.ok plan, h') ∧
    plan.statements ≠ [] := by
  have key : (match generate (fun _ => .ok "hash") genOptions (.ddl ["CREATE TABLE x ();"]) (.db 3) goodWorld [] with
    | (.ok plan, _) => !plan.statements.isEmpty
    | _ => false) = true := by decide +kernel
  split at key
  · rename_i plan h' e; exact ⟨plan, h', e, by simpa using key⟩
  · cases key

end Samples

end Verif
