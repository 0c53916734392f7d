import Verif.Spec.Written
import Verif.Lemmas.Guard
import Verif.Model.Output
import Verif.Props.TempDb
import Verif.Props.Hash
import Verif.Props.Hazards
import Verif.Props.Script

/-!
# C85, C86: the `dump` command, and which databases planning writes to
-/

namespace Verif

open Spec Eff TempDb

variable {α β : Type}

/-! ## C86 -/

/-- the call changes nothing in any database -/
def Harmless : Call → Prop
  | .exec _ sql => ¬ Changes sql
  | _ => True

theorem harmless_writes {pre : String} (env : Env) (h : History) (c : Call) (hc : Harmless c) : WritesTemporary pre env h c := by
  rintro n sql rfl hch
  exact absurd hch hc

theorem openConnectionWithDefaults_harmless (pool : Nat) : Emits Harmless (openConnectionWithDefaults pool) :=
  emits_bind (emits_call trivial) fun _ => emits_withDefer (emitsD_onErr fun _ => emits_close trivial)
    (emits_bind (emits_call (fun h => h)) fun _ => emits_pure _)

theorem dropTempDatabase_harmless (o : Factory) (name : String) : Emits Harmless (o.dropTempDatabase name) := by
  unfold Factory.dropTempDatabase
  split
  · exact emits_fail _
  · exact emits_bind (openConnectionWithDefaults_harmless _) fun _ =>
      emits_withDefer (emitsD_plain (emits_close trivial))
        (emits_bind (emits_call (fun h => h)) fun _ => emits_do (fun h => h))

theorem closeDatabase_harmless (o : Factory) (db : Database) : Emits Harmless (o.closeDatabase db) :=
  emits_bind (emits_close trivial) fun _ => dropTempDatabase_harmless o _

theorem assertOnExpectedDatabase_harmless (pool : Nat) (n : String) : Emits Harmless (assertOnExpectedDatabase pool n) := by
  refine emits_bind (openConnectionWithDefaults_harmless pool) fun _ =>
    emits_withDefer (emitsD_plain (emits_close trivial)) (emits_bind (emits_callData (fun h => h)) fun x => ?_)
  unfold checkName
  split
  · exact emits_fail _
  · exact emits_pure (α := Unit) ()

theorem newFactory_harmless (opts : Options) : Emits Harmless (newOnInstanceFactory opts) := by
  unfold newOnInstanceFactory
  split
  · exact emits_fail _
  · exact emits_bind (emits_call trivial) fun _ => emits_withDefer (emitsD_onErr fun _ => emits_close trivial)
      (emits_bind (assertOnExpectedDatabase_harmless _ _) fun _ => emits_pure _)

theorem get_append {h : History} {n : Nat} {c : Call} (l : History) (e : h[n]? = some c) : (h ++ l)[n]? = some c := by
  rw [List.getElem?_append_left (List.getElem?_eq_some_iff.mp e).1]; exact e

theorem opened_stable (p : Nat) (c : Call) : Stable fun _ h => h[p]? = some c := fun _ _ l e => get_append l e

theorem reported_stable (p : Nat) (db : String) : Stable fun env h => Reported env h p db := by
  rintro env h l ⟨j, e1, e2, e3⟩
  have hj := (List.getElem?_eq_some_iff.mp e1).1
  have : (h ++ l).take (j + 1) = h.take (j + 1) := List.take_append_of_le_length hj
  exact ⟨j, get_append l e1, by rwa [this], by rwa [this]⟩

theorem onTemporary_stable (pre : String) (p : Nat) : Stable fun env h => OnTemporary pre env h p := by
  rintro env h l ⟨db, e1, e2, e3⟩
  exact ⟨db, get_append l e1, e2, reported_stable p db env h l e3⟩

theorem stable_and {p q : Env → History → Prop} (hp : Stable p) (hq : Stable q) : Stable fun env h => p env h ∧ q env h :=
  fun env h l ⟨a, b⟩ => ⟨hp env h l a, hq env h l b⟩

theorem true_stable : Stable fun _ _ => True := fun _ _ _ _ => trivial

/-- the check of a pool: if it passes, the server has reported the expected database -/
theorem assertOnExpectedDatabase_guarded (pre : String) {q : Env → History → Prop} (hq : Stable q) (pool : Nat) (name : String) :
    Guarded (WritesTemporary pre) q (assertOnExpectedDatabase pool name) fun _ env h => q env h ∧ Reported env h pool name := by
  refine guarded_bind (guarded_of_emits (openConnectionWithDefaults_harmless pool) harmless_writes hq) fun conn => ?_
  refine guarded_withDefer (emitsD_plain (emits_close (P := Harmless) trivial)) (plainDefer_keeps _) harmless_writes
    (guarded_bind (guarded_callData _ _ fun env h _ => harmless_writes _ _ _ fun h => h) fun x => ?_)
    fun _ => stable_and hq (reported_stable _ _)
  unfold checkName
  split
  · exact guarded_fail _
  · rename_i hx
    refine guarded_pure (α := Unit) () ?_
    rintro env h ⟨h0, h1, rfl, h2, h3⟩
    refine ⟨hq _ _ _ h1, h0.length, by simp, ?_, ?_⟩
    · rw [List.take_of_length_le (by simp)]; exact h2
    · rw [List.take_of_length_le (by simp), ← h3]
      exact not_not.mp hx

/-- a database made by the factory is temporary -/
theorem create_guarded (o : Factory) :
    Guarded (WritesTemporary o.options.dbPrefix) (fun _ _ => True) o.create fun db env h =>
      OnTemporary o.options.dbPrefix env h db.connPool := by
  have hq : ∀ (env : Env) (h : History) (c : Call), Harmless c → WritesTemporary o.options.dbPrefix env h c := harmless_writes
  have hst : ∀ db : Database, Stable fun env h => OnTemporary o.options.dbPrefix env h db.connPool := fun db => onTemporary_stable _ _
  rw [create_eq]
  refine guarded_bind (guarded_of_emits (Q := Harmless) (emits_callData trivial) hq true_stable) fun bytes =>
    guarded_bind (guarded_of_emits (openConnectionWithDefaults_harmless _) hq true_stable) fun rc =>
    guarded_withDefer (emitsD_plain (emits_close (P := Harmless) trivial)) (plainDefer_keeps _) hq
    (guarded_bind (guarded_of_emits (Q := Harmless) (emits_call (fun h => h)) hq true_stable) fun _ =>
      guarded_withDefer (emitsD_onErr fun e => cleanup_emits (dropTempDatabase_harmless o _) e) (onErr_keeps _) hq ?_ hst) hst
  generalize hname : o.options.dbPrefix ++ uuidText bytes = name
  have hpre : o.options.dbPrefix.toList <+: name.toList := by
    rw [← hname, String.toList_append]; exact List.prefix_append _ _
  refine guarded_bind (mid := fun pool env h => h[pool]? = some (.openPool name)) ?_ fun pool =>
    guarded_withDefer (emitsD_onErr fun _ => emits_close (P := Harmless) trivial) (onErr_keeps _) hq ?_ hst
  · refine guarded_post (guarded_call _ fun env h _ => hq _ _ _ trivial) ?_
    rintro n env h ⟨h0, -, rfl, rfl⟩
    simp
  · have hs : Stable fun (env : Env) (h : History) => OnTemporary o.options.dbPrefix env h pool := onTemporary_stable _ _
    refine guarded_bind (guarded_post (assertOnExpectedDatabase_guarded o.options.dbPrefix (opened_stable pool _) pool name)
      (post' := fun _ env h => OnTemporary o.options.dbPrefix env h pool) ?_) fun _ => ?_
    · rintro _ env h ⟨h1, h2⟩
      exact ⟨name, h1, hpre, h2⟩
    · refine guarded_bind (guarded_post (guarded_call _ fun env h ht => ?_)
        (post' := fun _ env h => OnTemporary o.options.dbPrefix env h pool) ?_) fun _ => guarded_pure _ fun env h ht => ht
      · rintro n sql e _
        injection e with e1 e2
        exact ⟨pool, Or.inl e1.symm, ht⟩
      · rintro _ env h ⟨h0, h1, rfl, -⟩
        exact hs _ _ _ h1

section body

variable {pre : String} (pool : Nat)

theorem fetchSchema_harmless : Emits Harmless (fetchSchema pool) := emits_callData trivial

theorem executeStatements_guarded (stmts : List Statement) :
    Guarded (WritesTemporary pre) (fun env h => OnTemporary pre env h pool) (executeStatementsIgnoreTimeouts pool stmts)
      fun _ env h => OnTemporary pre env h pool := by
  have hs : Stable fun (env : Env) (h : History) => OnTemporary pre env h pool := onTemporary_stable _ _
  refine guarded_bind (mid := fun conn env h => OnTemporary pre env h pool ∧ h[conn]? = some (.openConn pool)) ?_ fun conn => ?_
  · refine guarded_post (guarded_call _ fun env h _ => harmless_writes _ _ _ trivial) ?_
    rintro n env h ⟨h0, h1, rfl, rfl⟩
    exact ⟨hs _ _ _ h1, by simp⟩
  · have hs2 : Stable fun (env : Env) (h : History) => OnTemporary pre env h pool ∧ h[conn]? = some (.openConn pool) :=
      stable_and hs (opened_stable _ _)
    refine guarded_withDefer (emitsD_plain (emits_close (P := Harmless) trivial)) (plainDefer_keeps _) harmless_writes
      (guarded_post (guarded_bind (guarded_of_emits (Q := Harmless) (emits_call (fun h => h)) harmless_writes hs2) fun _ =>
        guarded_forEach fun s _ => ?_) fun _ _ _ h => h.1) fun _ => hs
    unfold executeStatement
    split
    · exact guarded_pure (α := Unit) () fun _ _ h => h
    · refine guarded_bind (guarded_post (guarded_call _ fun env h ht => ?_)
        (post' := fun _ env h => OnTemporary pre env h pool ∧ h[conn]? = some (.openConn pool)) ?_)
        fun _ => guarded_pure (α := Unit) () fun _ _ h => h
      · rintro n sql e _
        injection e with e1 e2
        subst e1
        exact ⟨pool, Or.inr ht.2, ht.1⟩
      · rintro _ env h ⟨h0, h1, rfl, -⟩
        exact hs2 _ _ _ h1

theorem ddlBody_guarded (l : List String) : Guarded (WritesTemporary pre) (fun env h => OnTemporary pre env h pool) (do
    forEach (fun s => do let _ ← call (.exec pool (.script s))) l
    fetchSchema pool) fun _ env h => OnTemporary pre env h pool := by
  have hs : Stable fun (env : Env) (h : History) => OnTemporary pre env h pool := onTemporary_stable _ _
  refine guarded_bind (guarded_forEach fun s _ => ?_) fun _ => guarded_of_emits (fetchSchema_harmless pool) harmless_writes hs
  refine guarded_bind (guarded_post (guarded_call _ fun env h ht => ?_)
    (post' := fun _ env h => OnTemporary pre env h pool) ?_) fun _ => guarded_pure (α := Unit) () fun _ _ h => h
  · rintro n sql e _
    injection e with e1 e2
    exact ⟨pool, Or.inl e1.symm, ht⟩
  · rintro _ env h ⟨h0, h1, rfl, -⟩
    exact hs _ _ _ h1

theorem validBody_guarded (r : Rand) (o : PlanOptions) (current new : Schema) (plan : Plan) :
    Guarded (WritesTemporary pre) (fun env h => OnTemporary pre env h pool) (do
      setSchemaForEmptyDatabase pool current
      executeStatementsIgnoreTimeouts pool plan.statements
      let migrated ← fetchSchema pool
      assertMigratedSchemaMatchesTarget r o migrated new) fun _ env h => OnTemporary pre env h pool := by
  have hs : Stable fun (env : Env) (h : History) => OnTemporary pre env h pool := onTemporary_stable _ _
  have hset : Guarded (WritesTemporary pre) (fun env h => OnTemporary pre env h pool) (setSchemaForEmptyDatabase pool current)
      fun _ env h => OnTemporary pre env h pool :=
    guarded_bind (guarded_of_emits (fetchSchema_harmless pool) harmless_writes hs) fun _ =>
      guarded_bind (guarded_of_emits (Q := Harmless) (generateWithZeroOptions_emits _ _) harmless_writes hs) fun _ =>
        executeStatements_guarded pool _
  exact guarded_bind hset fun _ => guarded_bind (executeStatements_guarded pool _) fun _ =>
    guarded_bind (guarded_of_emits (fetchSchema_harmless pool) harmless_writes hs) fun _ =>
      guarded_of_emits (Q := Harmless) (assertMigrated_emits _ _ _ _) harmless_writes hs

end body

theorem closing_guarded (o : Factory) {body : Database → Eff α} {post : Database → α → Env → History → Prop}
    (hb : ∀ db, Guarded (WritesTemporary o.options.dbPrefix) (fun env h => OnTemporary o.options.dbPrefix env h db.connPool)
      (body db) (post db)) :
    Guarded (WritesTemporary o.options.dbPrefix) (fun _ _ => True) (o.create >>= fun db => closing o db (body db))
      fun _ _ _ => True :=
  guarded_bind (create_guarded o) fun db => guarded_withDefer (emitsD_plain (closeDatabase_harmless o db)) (plainDefer_keeps _)
    harmless_writes (guarded_post (hb db) fun _ _ _ _ => trivial) fun _ => true_stable

theorem getSchema_guarded (f : Factory) (src : SchemaSource) :
    Guarded (WritesTemporary f.options.dbPrefix) (fun _ _ => True) (src.getSchema (some f)) fun _ _ _ => True := by
  cases src with
  | db pool => exact guarded_of_emits (fetchSchema_harmless pool) harmless_writes true_stable
  | ddl l => exact closing_guarded f fun db => ddlBody_guarded db.connPool l

theorem generate_guarded (f : Factory) (hash : Schema → Except Err String) (o : GenerateOptions)
    (ho : o.tempDbFactory = some f) (a b : SchemaSource) :
    Guarded (WritesTemporary f.options.dbPrefix) (fun _ _ => True) (generate hash o a b) fun _ _ _ => True := by
  have hv : ∀ r x y p, Guarded (WritesTemporary f.options.dbPrefix) (fun _ _ => True) (validateIfAsked o r x y p) fun _ _ _ => True := by
    intro r x y p
    unfold validateIfAsked
    rw [ho]
    split
    · exact closing_guarded f fun db => validBody_guarded db.connPool _ _ _ _ _
    · exact guarded_pure (α := Unit) () fun _ _ _ => trivial
  have hl : ∀ {γ : Type} (x : Except Err γ),
      Guarded (WritesTemporary f.options.dbPrefix) (fun _ _ => True) (lift x) fun _ _ _ => True :=
    fun x => guarded_of_emits (Q := Harmless) (emits_lift x) harmless_writes true_stable
  unfold generate
  rw [ho]
  exact guarded_bind (getSchema_guarded f a) fun _ => guarded_bind (getSchema_guarded f b) fun _ =>
    guarded_bind (hl _) fun _ => guarded_bind (hl _) fun _ => guarded_bind (hv _ _ _ _) fun _ =>
      guarded_pure _ fun _ _ _ => trivial

theorem guarded_use {P : Env → History → Call → Prop} {m : Eff α} (hm : Guarded P (fun _ _ => True) m fun _ _ _ => True)
    (env : Env) (h : History) : ∃ l, (m env h).2 = h ++ l ∧ ∀ l1 c l2, l = l1 ++ c :: l2 → P env (h ++ l1) c := by
  obtain ⟨l, e, h1, -⟩ := hm env h trivial
  exact ⟨l, e, h1⟩

/-- **C86**: whatever happens, generating a plan sends DDL, statements of plans and the like only to pools that were opened
on a database whose name starts with the prefix of the factory and whose server has confirmed the name, or to connections of
such pools.  In particular nothing is sent to the databases the schemas come from. -/
theorem C86_generate_writes_temporary (f : Factory) (hash : Schema → Except Err String) (o : GenerateOptions)
    (ho : o.tempDbFactory = some f) (a b : SchemaSource) (env : Env) (h : History) :
    ∃ l, (generate hash o a b env h).2 = h ++ l ∧
      ∀ l1 c l2, l = l1 ++ c :: l2 → WritesTemporary f.options.dbPrefix env (h ++ l1) c :=
  guarded_use (generate_guarded f hash o ho a b) env h

theorem with_guarded {P : Env → History → Call → Prop} (hp : ∀ env h c, Harmless c → P env h c) (f : Cli.SourceFactory)
    {body : SchemaSource → Eff α} (hb : ∀ s, Guarded P (fun _ _ => True) (body s) fun _ _ _ => True) :
    Guarded P (fun _ _ => True) (f.with_ body) fun _ _ _ => True := by
  cases f with
  | ddl l => exact guarded_bind (guarded_of_emits (Q := Harmless) (emits_lift _) hp true_stable) fun _ => hb _
  | dsn db =>
    exact guarded_bind (guarded_of_emits (Q := Harmless) (emits_call trivial) hp true_stable) fun _ =>
      guarded_withDefer (emitsD_plain (emits_close (P := Harmless) trivial)) (plainDefer_keeps _) hp (hb _) fun _ => true_stable

theorem newFactory_guarded (P : Env → History → Call → Prop) (hp : ∀ env h c, Harmless c → P env h c) (opts : Options) :
    Guarded P (fun _ _ => True) (newOnInstanceFactory opts) fun f _ _ => f.options = opts := by
  intro env h ht
  obtain ⟨l, e, h1, -⟩ := guarded_of_emits (newFactory_harmless opts) hp true_stable env h ht
  exact ⟨l, e, h1, fun f hf => newFactory_returns opts env h f hf⟩

/-- under a condition that does not speak of the history -/
theorem guarded_const {P : Env → History → Call → Prop} {φ : Prop} {m : Eff α} {post : α → Env → History → Prop}
    (hm : φ → Guarded P (fun _ _ => True) m post) : Guarded P (fun _ _ => φ) m post :=
  fun env h hφ => hm hφ env h trivial

/-- **C86**: the same for the `plan` and `apply` commands up to the confirmed plan: the prefix is the default one. -/
theorem C86_plan_writes_temporary (hash : Schema → Except Err String) (po : PlanOptions) (v : Bool) (r : Rand)
    (db : String) (a b : Cli.SourceFactory) (m : Cli.Modifiers) (env : Env) (h : History) :
    ∃ l, (Cli.generatePlan hash po v r db a b m env h).2 = h ++ l ∧
      ∀ l1 c l2, l = l1 ++ c :: l2 → WritesTemporary "pgschemadiff_tmp_" env (h ++ l1) c := by
  refine guarded_use ?_ env h
  unfold Cli.generatePlan
  refine guarded_bind (newFactory_guarded _ harmless_writes _) fun f => guarded_const fun hf => ?_
  have hpre : f.options.dbPrefix = "pgschemadiff_tmp_" := by rw [hf]; rfl
  refine guarded_withDefer (emitsD_plain (emits_ignoreErr (P := Harmless) (emits_do trivial))) (plainDefer_keeps _) harmless_writes
    (with_guarded harmless_writes a fun s => with_guarded harmless_writes b fun s2 => ?_) fun _ => true_stable
  rw [← hpre]
  exact guarded_bind (generate_guarded f hash _ rfl _ _) fun _ =>
    guarded_of_emits (Q := Harmless) (emits_lift _) harmless_writes true_stable

/-! ## C85 -/

/-- neither DDL of the user nor a statement of a plan -/
def Spec.NoDdl : Call → Prop
  | .exec _ (.script _) => False
  | .exec _ (.statement _) => False
  | _ => True

theorem harmless_noDdl (c : Call) (h : Harmless c) : NoDdl c := by
  cases c with
  | exec n sql => cases sql <;> first | trivial | exact absurd trivial h
  | _ => trivial

theorem emits_imp {P Q : Call → Prop} {m : Eff α} (hm : Emits P m) (h : ∀ c, P c → Q c) : Emits Q m := by
  intro env x
  obtain ⟨l, e, hl⟩ := hm env x
  exact ⟨l, e, fun c hc => h c (hl c hc)⟩

theorem create_noDdl (o : Factory) : Emits NoDdl o.create := by
  rw [create_eq]
  exact emits_bind (emits_callData trivial) fun bytes => emits_bind (emits_imp (openConnectionWithDefaults_harmless _) harmless_noDdl)
    fun rc => emits_withDefer (emitsD_plain (emits_close trivial)) (emits_bind (emits_call trivial) fun _ =>
      emits_withDefer (emitsD_onErr fun e => cleanup_emits (emits_imp (dropTempDatabase_harmless o _) harmless_noDdl) e)
        (emits_bind (emits_call trivial) fun pool => emits_withDefer (emitsD_onErr fun _ => emits_close trivial)
          (emits_bind (emits_imp (assertOnExpectedDatabase_harmless _ _) harmless_noDdl) fun _ =>
            emits_bind (emits_call trivial) fun _ => emits_pure _)))

theorem generate_noDdl (f : Factory) (hash : Schema → Except Err String) (o : PlanOptions) (r : Rand) (pool : Nat) :
    Emits NoDdl (generate hash ⟨o, false, some f, r⟩ (.ddl []) (.db pool)) := by
  have hf : ∀ p, Emits NoDdl (fetchSchema p) := fun p => emits_imp (fetchSchema_harmless p) harmless_noDdl
  refine emits_bind (emits_bind (create_noDdl f) fun db => emits_withDefer (emitsD_plain
    (emits_imp (closeDatabase_harmless f db) harmless_noDdl)) ?_) fun _ => emits_bind (hf _) fun _ => emits_bind (emits_lift _) fun _ =>
      emits_bind (emits_lift _) fun _ => emits_bind (emits_pure (α := Unit) ()) fun _ => emits_pure _
  exact emits_bind (emits_pure (α := Unit) ()) fun _ => hf _

/-- the database named by the call is temporary -/
def Spec.NamesTemporary (pre : String) (c : Call) : Prop :=
  ∀ n name, c = .exec n (.createDatabase name) ∨ c = .exec n (.dropDatabase name) → pre.toList <+: name.toList

theorem onlyTemporary_names {f : Factory} (c : Call) (h : OnlyTemporary f c) : NamesTemporary f.options.dbPrefix c := by
  rintro n name (rfl | rfl)
  · obtain ⟨bytes, rfl⟩ := h
    rw [String.toList_append]; exact List.prefix_append _ _
  · exact h

theorem plain_names {pre : String} (c : Call) (h : Plain c) : NamesTemporary pre c := by
  rintro n name (rfl | rfl)
  · exact h.elim
  · exact h.elim

theorem guarded_and {P Q : Env → History → Call → Prop} {m : Eff α} (hp : Guarded P (fun _ _ => True) m fun _ _ _ => True)
    (hq : Guarded Q (fun _ _ => True) m fun _ _ _ => True) :
    Guarded (fun env h c => P env h c ∧ Q env h c) (fun _ _ => True) m fun _ _ _ => True := by
  intro env h _
  obtain ⟨l, e, h1, -⟩ := hp env h trivial
  obtain ⟨l', e', h1', -⟩ := hq env h trivial
  obtain rfl : l = l' := List.append_cancel_left (e.symm.trans e')
  exact ⟨l, e, fun a c b hab => ⟨h1 a c b hab, h1' a c b hab⟩, fun _ _ => trivial⟩

/-- **C85**: dumping a database changes nothing but temporary databases, and even there it runs neither DDL nor statements
of a plan; it creates and drops temporary databases only. -/
theorem C85_dump_leaves_database (hash : Schema → Except Err String) (r : Rand) (db : String) (env : Env) (h : History) :
    ∃ l, (Cli.generateDump hash r db env h).2 = h ++ l ∧
      ∀ l1 c l2, l = l1 ++ c :: l2 → WritesTemporary "pgschemadiff_tmp_" env (h ++ l1) c ∧ NoDdl c ∧
        NamesTemporary "pgschemadiff_tmp_" c := by
  have key : ∀ (P : Env → History → Call → Prop), (∀ env h c, Harmless c → Plain c → P env h c) →
      (∀ (f : Factory) pool, f.options.dbPrefix = "pgschemadiff_tmp_" →
        Guarded P (fun _ _ => True) (generate hash ⟨Cli.dumpOptions, false, some f, r⟩ (.ddl []) (.db pool)) fun _ _ _ => True) →
      Guarded P (fun _ _ => True) (Cli.generateDump hash r db) fun _ _ _ => True := by
    intro P hp hg
    have hq : ∀ (env : Env) (h : History) (c : Call), Harmless c ∧ Plain c → P env h c := fun env h c hc => hp env h c hc.1 hc.2
    unfold Cli.generateDump
    refine guarded_bind (guarded_of_emits (Q := fun c => Harmless c ∧ Plain c) (emits_call ⟨trivial, trivial⟩) hq true_stable) fun pool => ?_
    refine guarded_withDefer (emitsD_plain (emits_close (P := fun c => Harmless c ∧ Plain c) ⟨trivial, trivial⟩)) (plainDefer_keeps _) hq ?_
      fun _ => true_stable
    have hnf : Emits (fun c => Harmless c ∧ Plain c) (newOnInstanceFactory { Options.default with rootDatabase := db }) := by
      intro env h
      obtain ⟨l, e, h1⟩ := newFactory_harmless { Options.default with rootDatabase := db } env h
      obtain ⟨l', e', h1'⟩ := newFactory_emits (P := Plain) (fun _ h => h) { Options.default with rootDatabase := db } env h
      obtain rfl : l = l' := List.append_cancel_left (e.symm.trans e')
      exact ⟨l, e, fun c hc => ⟨h1 c hc, h1' c hc⟩⟩
    refine guarded_bind (mid := fun f _ _ => f.options = { Options.default with rootDatabase := db }) ?_
      fun f => guarded_const fun hf => ?_
    · intro env h ht
      obtain ⟨l, e, h1, -⟩ := guarded_of_emits hnf hq true_stable env h ht
      exact ⟨l, e, h1, fun f hf => newFactory_returns _ env h f hf⟩
    · exact guarded_withDefer (emitsD_plain (emits_ignoreErr (P := fun c => Harmless c ∧ Plain c) (emits_do ⟨trivial, trivial⟩)))
        (plainDefer_keeps _) hq (hg f pool (by rw [hf]; rfl)) fun _ => true_stable
  refine guarded_use (guarded_and (key _ (fun env h c hc _ => harmless_writes env h c hc) fun f pool hf => ?_)
    (guarded_and (key (fun _ _ => NoDdl) (fun _ _ c hc _ => harmless_noDdl c hc) fun f pool hf => ?_)
      (key (fun _ _ => NamesTemporary "pgschemadiff_tmp_") (fun _ _ c _ hc => plain_names c hc) fun f pool hf => ?_))) env h
  · rw [← hf]; exact generate_guarded f hash _ rfl _ _
  · exact guarded_of_emits (generate_noDdl f hash _ r pool) (fun _ _ _ h => h) true_stable
  · exact guarded_of_emits (generate_emits hash _ rfl _ _) (fun _ _ c h => by rw [← hf]; exact onlyTemporary_names c h) true_stable

/-- **C85**: a successful dump is the plan from the schema that the server reports for a fresh temporary database to the
schema of the dumped database, and no index is built or dropped concurrently in it, so that the script can run in one
transaction. -/
theorem C85_dump_is_plan {hash : Schema → Except Err String} {r : Rand} {db : String} {env : Env} {h h' : History} {p : Plan}
    (hd : Cli.generateDump hash r db env h = (.ok p, h')) :
    ∃ (empty target : Schema) (r' : Rand) (h1 h2 : History) (f : Factory), f.options.dbPrefix = "pgschemadiff_tmp_" ∧
      SchemaSource.getSchema (some f) (.ddl []) env h1 = (.ok empty, h2) ∧
      target = env.schema (h2 ++ [.getSchema h.length]) ∧
      generateMigrationStatements r empty target Cli.dumpOptions = .ok (p.statements, r') ∧
      ∀ s ∈ p.statements, ¬ s.ddl.IsConcurrent := by
  unfold Cli.generateDump at hd
  obtain ⟨pool, h1, e1, hd⟩ := eff_bind_ok.mp hd
  obtain ⟨-, rfl, rfl⟩ := call_ok.mp e1
  obtain ⟨h3, hd, -⟩ := (withDefer_ok (plainDefer_keeps _)).mp hd
  obtain ⟨f, h4, ef, hd⟩ := eff_bind_ok.mp hd
  obtain ⟨h5, hd, -⟩ := (withDefer_ok (plainDefer_keeps _)).mp hd
  have hf := newFactory_returns _ env _ f (by rw [ef])
  obtain ⟨empty, h6, target, h7, rand, g1, g2, g3, -⟩ := generate_ok hd
  refine ⟨empty, target, rand, h4, h6, f, by rw [hf]; rfl, g1, (callData_ok.mp g2).2.1, g3, fun s hs => ?_⟩
  exact (C18_no_concurrent_index_ops g3 rfl hs).1

/-- a server on which everything works, and that serves the sample schema in the database `db` and an empty one elsewhere -/
def Samples.server : Env where
  outcome := fun _ => .ok ()
  uuid := fun _ => List.replicate 16 7
  currentDatabase := fun h =>
    match h.getLast? with
    | some (.exec n _) => match h[n]? with
      | some (.openPool db) => db
      | _ => ""
    | _ => ""
  schema := fun h => if h.getLast? = some (.getSchema 0) then Samples.new1 else { Schema.empty with namedSchemas := [⟨"public"⟩] }

/-- the dump succeeds there, and writes to the temporary database -/
example : (match (Cli.generateDump (fun _ => .ok "x") Samples.rand "db" Samples.server []) with
    | (.ok p, h) => decide (2 ≤ p.statements.length) && h.any (fun c => match c with | .exec _ (.metadata _ _) => true | _ => false)
    | _ => false) = true := by decide +kernel

/-- **C85**: the printed script consists of the statements of the plan in order and nothing else, if each can be read by
itself. -/
theorem C85_dump_script (p : Plan) (parts : Statement → List String)
    (hd : ∀ s ∈ p.statements, Script.ReadsAs (s.ddl.render ++ ";") (parts s)) :
    Script.ReadsAs (Cli.dumpToSql p) (p.statements.flatMap parts) := by
  have key : ∀ ss : List Statement, (∀ s ∈ ss, s ∈ p.statements) →
      Script.ReadsAs (Cli.dumpToSql.dumpLoop ss) (ss.flatMap parts) := by
    intro ss
    induction ss with
    | nil => intro _; exact (by decide +kernel : Script.ReadsAs "" [])
    | cons s ss ih =>
      intro hm
      have hs := hd s (hm s List.mem_cons_self)
      have ih := ih fun x hx => hm x (List.mem_cons_of_mem _ hx)
      cases ss with
      | nil =>
        rw [Cli.dumpToSql.dumpLoop, List.flatMap_cons, List.flatMap_nil, List.append_nil]
        exact hs
      | cons t ss =>
        rw [Cli.dumpToSql.dumpLoop, List.flatMap_cons]
        · have h2 : Script.ReadsAs "\n\n" [] := by decide +kernel
          have := readsAs_append (readsAs_append hs h2) ih
          rwa [List.append_nil] at this
        · intro h; cases h
  exact key p.statements fun _ h => h

/-- the dump of a database with tables, indexes and a foreign key -/
example : ∃ stmts r', generateMigrationStatements Samples.rand { Schema.empty with namedSchemas := [⟨"public"⟩] } Samples.new1 Cli.dumpOptions =
    .ok (stmts, r') ∧ 2 ≤ stmts.length ∧ ∀ s ∈ stmts, Script.ReadsAs (s.ddl.render ++ ";") [s.ddl.render] :=
  Samples.exists_plan (by decide +kernel)

end Verif
