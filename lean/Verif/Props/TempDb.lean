import Verif.Lemmas.Effect
import Verif.Model.Cli
import Verif.Samples.Basic

/-!
# C39, C40: temporary databases
-/

namespace Verif

open Spec Eff TempDb

variable {α β : Type}

/-! ### code that makes at least these calls -/

/-- the code makes the calls `cs` first; if all succeed, it returns `a` without making others, and if one fails it does
not succeed -/
def Leads (env : Env) (h : History) (m : Eff α) (cs : List Call) (a : α) : Prop :=
  (AllOk env h cs → m env h = (.ok a, h ++ cs)) ∧
  (¬ AllOk env h cs → (∀ a, (m env h).1 ≠ .ok a) ∧ ∃ l, (m env h).2 = attempt env h cs ++ l ∧ ∀ c ∈ l, IsClose c)

/-- the code makes the calls `cs` first, until one fails -/
def Tries (env : Env) (h : History) (m : Eff α) (cs : List Call) : Prop := attempt env h cs <+: (m env h).2

theorem leads_call (env : Env) (h : History) (c : Call) : Leads env h (call c) [c] h.length := by
  obtain ⟨h1, h2, h3⟩ := call_run c env h
  refine ⟨fun hok => Prod.ext (h2.mpr hok.1) h1, fun hn => ⟨h3 fun hs => hn ⟨hs, trivial⟩, [], ?_, by simp⟩⟩
  rw [h1, attempt]; simp [attempt]

theorem leads_callData (env : Env) (h : History) (c : Call) (f : Env → History → α) :
    Leads env h (callData c f) [c] (f env (h ++ [c])) := by
  have e : attempt env h [c] = h ++ [c] := by simp [attempt]
  refine ⟨fun hok => ?_, fun hn => ?_⟩
  · have : env.outcome (h ++ [c]) = .ok () := hok.1
    simp [callData, this]
  · have : env.outcome (h ++ [c]) ≠ .ok () := fun hs => hn ⟨hs, trivial⟩
    rw [e]
    cases e2 : env.outcome (h ++ [c]) with
    | ok _ => exact absurd e2 this
    | err _ => exact ⟨by simp [callData, e2], [], by simp [callData, e2], by simp⟩
    | panic _ => exact ⟨by simp [callData, e2], [], by simp [callData, e2], by simp⟩

theorem bind_not_ok {m : Eff α} {k : α → Eff β} {env : Env} {h : History} (hn : ∀ a, (m env h).1 ≠ .ok a) :
    (∀ b, ((m >>= k) env h).1 ≠ .ok b) ∧ ((m >>= k) env h).2 = (m env h).2 := by
  rw [eff_bind]
  split
  · rename_i a h' e; rw [e] at hn; exact absurd rfl (hn a)
  · rename_i e; rw [e]; simp
  · rename_i e; rw [e]; simp

theorem leads_bind {env : Env} {h : History} {m : Eff α} {k : α → Eff β} {cs ds : List Call} {a : α} {b : β}
    (hm : Leads env h m cs a) (hk : Leads env (h ++ cs) (k a) ds b) : Leads env h (m >>= k) (cs ++ ds) b := by
  by_cases hok : AllOk env h cs
  · have e : (m >>= k) env h = k a env (h ++ cs) := by rw [eff_bind, hm.1 hok]
    refine ⟨fun h2 => ?_, fun h2 => ?_⟩
    · rw [e, hk.1 (allOk_append.mp h2).2, List.append_assoc]
    · rw [e, attempt_append.1 hok]
      exact hk.2 fun h3 => h2 (allOk_append.mpr ⟨hok, h3⟩)
  · refine ⟨fun h2 => absurd (allOk_append.mp h2).1 hok, fun _ => ?_⟩
    obtain ⟨hne, l, e, hl⟩ := hm.2 hok
    obtain ⟨h1, h2⟩ := bind_not_ok (k := k) hne
    exact ⟨h1, l, by rw [h2, e, attempt_append.2 hok], hl⟩

theorem tries_bind {env : Env} {h : History} {m : Eff α} {k : α → Eff β} {cs ds : List Call} {a : α}
    (hm : Leads env h m cs a) (hk : Tries env (h ++ cs) (k a) ds) : Tries env h (m >>= k) (cs ++ ds) := by
  unfold Tries
  by_cases hok : AllOk env h cs
  · have e : (m >>= k) env h = k a env (h ++ cs) := by rw [eff_bind, hm.1 hok]
    rw [e, attempt_append.1 hok]; exact hk
  · obtain ⟨hne, l, e, hl⟩ := hm.2 hok
    rw [(bind_not_ok hne).2, e, attempt_append.2 hok]
    exact List.prefix_append _ _

theorem tries_of_leads {env : Env} {h : History} {m : Eff α} {cs : List Call} {a : α} (hm : Leads env h m cs a) :
    Tries env h m cs := by
  unfold Tries
  by_cases hok : AllOk env h cs
  · rw [hm.1 hok, attempt_allOk hok]; exact List.prefix_rfl
  · obtain ⟨-, l, e, -⟩ := hm.2 hok
    rw [e]; exact List.prefix_append _ _

theorem tries_withDefer {env : Env} {h : History} {d : Deferred} {m : Eff α} {cs : List Call} (hd : EmitsD (fun _ => True) d)
    (hm : Tries env h m cs) : Tries env h (withDefer d m) cs := by
  unfold Tries at *
  rw [withDefer_snd]
  obtain ⟨l, e, -⟩ := hd (frameOf (m env h).1) env (m env h).2
  rw [e]
  exact hm.trans (List.prefix_append _ _)

/-! ### the pieces -/

theorem emits_close {P : Call → Prop} {n : Nat} (h : P (.close n)) : Emits P (ignoreErr do let _ ← call (.close n)) :=
  emits_ignoreErr (emits_bind (emits_call h) fun _ => emits_pure (α := Unit) ())

/-- the calls that open a connection with the default timeout -/
def connCalls (pool conn : Nat) : List Call := [.openConn pool, .exec conn (.setStatementTimeout 3000)]

theorem openConnectionWithDefaults_leads (env : Env) (h : History) (pool : Nat) :
    Leads env h (openConnectionWithDefaults pool) (connCalls pool h.length) h.length := by
  unfold openConnectionWithDefaults connCalls
  refine leads_bind (cs := [_]) (ds := [_]) (leads_call env h _) ?_
  have hb := leads_bind (cs := [_]) (ds := []) (b := h.length)
    (k := fun _ => (Pure.pure h.length : Eff Nat))
    (leads_call env (h ++ [.openConn pool]) (.exec h.length (.setStatementTimeout 3000)))
    ⟨fun _ => by rw [List.append_nil]; rfl, fun hn => absurd trivial hn⟩
  simp only [List.append_nil] at hb
  have hms : defaultStatementTimeout.milliseconds = 3000 := by decide
  simp only [hms]
  refine ⟨fun hok => ?_, fun hn => ?_⟩
  · rw [withDefer_ok (onErr_keeps _)]
    exact ⟨_, hb.1 hok, rfl⟩
  · obtain ⟨hne, l, e, hl⟩ := hb.2 hn
    refine ⟨?_, ?_⟩
    · intro a ha
      obtain ⟨h1, h2, -⟩ := (withDefer_ok (onErr_keeps _)).mp (Prod.ext ha rfl :
        withDefer _ _ env _ = (.ok a, _))
      exact hne a (by rw [h2])
    · rw [withDefer_snd]
      obtain ⟨l2, e2, hl2⟩ := emitsD_onErr (P := IsClose) (f := fun _ => ignoreErr do let _ ← call (.close h.length))
        (fun _ => emits_close (P := IsClose) trivial)
        (frameOf ((call (.exec h.length (.setStatementTimeout 3000)) >>= fun _ => (Pure.pure h.length : Eff Nat)) env
          (h ++ [.openConn pool])).1) env
        ((call (.exec h.length (.setStatementTimeout 3000)) >>= fun _ => (Pure.pure h.length : Eff Nat)) env
          (h ++ [.openConn pool])).2
      refine ⟨l ++ l2, ?_, ?_⟩
      · rw [e2, e, List.append_assoc]
      · intro c hc
        rcases List.mem_append.mp hc with hc | hc
        · exact hl c hc
        · exact hl2 c hc

/-- the calls that drop a database, on a new connection -/
def Spec.dropCalls (o : Factory) (name : String) (conn : Nat) : List Call :=
  [.openConn o.rootDb, .exec conn (.setStatementTimeout 3000),
    .exec conn (.setStatementTimeout o.options.dropTimeout.milliseconds), .exec conn (.dropDatabase name)]

theorem dropTempDatabase_tries (o : Factory) (name : String) (hp : o.options.dbPrefix.toList <+: name.toList) (env : Env)
    (h : History) : Tries env h (o.dropTempDatabase name) (dropCalls o name h.length) := by
  unfold Factory.dropTempDatabase
  rw [if_neg (by simpa using hp)]
  refine tries_bind (cs := connCalls o.rootDb h.length) (openConnectionWithDefaults_leads env h o.rootDb) ?_
  refine tries_withDefer (emitsD_plain (emits_close trivial)) ?_
  refine tries_bind (cs := [_]) (ds := [_]) (leads_call _ _ _) ?_
  refine tries_bind (cs := [_]) (ds := []) (leads_call _ _ _) ?_
  exact List.prefix_rfl


theorem leads_then {env : Env} {h : History} {m : Eff α} {k : α → Eff β} {cs : List Call} {a : α} (hm : Leads env h m cs a) :
    (AllOk env h cs → (m >>= k) env h = k a env (h ++ cs)) ∧
    (¬ AllOk env h cs → (∀ b, ((m >>= k) env h).1 ≠ .ok b) ∧
      ∃ l, ((m >>= k) env h).2 = attempt env h cs ++ l ∧ ∀ c ∈ l, IsClose c) := by
  refine ⟨fun hok => by rw [eff_bind, hm.1 hok], fun hn => ?_⟩
  obtain ⟨hne, l, e, hl⟩ := hm.2 hn
  obtain ⟨h1, h2⟩ := bind_not_ok (k := k) hne
  exact ⟨h1, l, by rw [h2, e], hl⟩

/-- the name of the database that `Create` makes -/
def Spec.tempName (o : Factory) (env : Env) (h : History) : String :=
  o.options.dbPrefix ++ uuidText (env.uuid (h ++ [.uuid]))

/-- the calls up to the creation of the database -/
def Spec.createCalls (o : Factory) (env : Env) (h : History) : List Call :=
  [.uuid, .openConn o.rootDb, .exec (h.length + 1) (.setStatementTimeout 3000),
    .exec (h.length + 1) (.createDatabase (tempName o env h))]

/-- what `Create` does once it has a pool for the new database -/
def poolPart (o : Factory) (name : String) (pool : Nat) : Eff Database := do
  assertOnExpectedDatabase pool name
  let _ ← call (.exec pool (.metadata o.options.metadataSchema o.options.metadataTable))
  return ⟨pool, name, o.options.metadataSchema⟩

/-- what `Create` does once the database exists -/
def dbPart (o : Factory) (name : String) : Eff Database := do
  let pool ← call (.openPool name)
  withDefer (doOnErrOrPanic fun _ => ignoreErr do let _ ← call (.close pool)) (poolPart o name pool)

theorem create_eq (o : Factory) : o.create = (do
    let bytes ← callData .uuid Env.uuid
    let rootConn ← openConnectionWithDefaults o.rootDb
    withDefer (plainDefer (ignoreErr do let _ ← call (.close rootConn))) do
      let _ ← call (.exec rootConn (.createDatabase (o.options.dbPrefix ++ uuidText bytes)))
      withDefer (doOnErrOrPanic (o.cleanup (o.options.dbPrefix ++ uuidText bytes)))
        (dbPart o (o.options.dbPrefix ++ uuidText bytes))) := rfl

theorem create_split (o : Factory) (env : Env) (h : History) :
    (¬ AllOk env h (createCalls o env h) → (∀ d, (o.create env h).1 ≠ .ok d) ∧
      ∃ l, (o.create env h).2 = attempt env h (createCalls o env h) ++ l ∧ ∀ c ∈ l, IsClose c) ∧
    (AllOk env h (createCalls o env h) →
      (o.create env h).2 = (withDefer (doOnErrOrPanic (o.cleanup (tempName o env h))) (dbPart o (tempName o env h)) env
        (h ++ createCalls o env h)).2 ++ [.close (h.length + 1)] ∧
      (o.create env h).1 = match env.outcome ((withDefer (doOnErrOrPanic (o.cleanup (tempName o env h)))
          (dbPart o (tempName o env h)) env (h ++ createCalls o env h)).2 ++ [.close (h.length + 1)]) with
        | .panic v => .panic v
        | _ => (withDefer (doOnErrOrPanic (o.cleanup (tempName o env h))) (dbPart o (tempName o env h)) env
          (h ++ createCalls o env h)).1) := by
  rw [create_eq]
  have l1 := leads_callData env h .uuid Env.uuid
  have l2 := openConnectionWithDefaults_leads env (h ++ [.uuid]) o.rootDb
  have len : (h ++ [Call.uuid]).length = h.length + 1 := by simp
  rw [len] at l2
  have l3 := leads_call env (h ++ [.uuid] ++ connCalls o.rootDb (h.length + 1))
    (.exec (h.length + 1) (.createDatabase (tempName o env h)))
  have hcs : createCalls o env h = [.uuid] ++ (connCalls o.rootDb (h.length + 1) ++
    [.exec (h.length + 1) (.createDatabase (tempName o env h))]) := rfl
  rw [hcs]
  by_cases k1 : AllOk env h [.uuid]
  · by_cases k2 : AllOk env (h ++ [.uuid]) (connCalls o.rootDb (h.length + 1))
    · rw [(leads_then l1).1 k1, (leads_then l2).1 k2]
      rw [allOk_append, allOk_append, attempt_append.1 k1, attempt_append.1 k2]
      have hname : o.options.dbPrefix ++ uuidText (env.uuid (h ++ [.uuid])) = tempName o env h := rfl
      simp only [hname]
      refine ⟨fun hn => ?_, fun hok => ?_⟩
      · have k3 : ¬ AllOk env (h ++ [.uuid] ++ connCalls o.rootDb (h.length + 1))
            [.exec (h.length + 1) (.createDatabase (tempName o env h))] := fun h3 => hn ⟨k1, k2, h3⟩
        obtain ⟨hne, l, e, hl⟩ := (leads_then (k := fun _ => withDefer (doOnErrOrPanic (o.cleanup (tempName o env h)))
          (dbPart o (tempName o env h))) l3).2 k3
        rw [withDefer_close, withDefer_close_fst]
        refine ⟨?_, l ++ [.close (h.length + 1)], ?_, ?_⟩
        · intro d hd
          split at hd
          · cases hd
          · exact hne d hd
        · have := congrArg (· ++ [Call.close (h.length + 1)]) e
          simpa using this
        · intro c hc
          rcases List.mem_append.mp hc with hc | hc
          · exact hl c hc
          · rw [List.mem_singleton.mp hc]; trivial
      · have e := (leads_then (k := fun _ => withDefer (doOnErrOrPanic (o.cleanup (tempName o env h)))
          (dbPart o (tempName o env h))) l3).1 hok.2.2
        rw [withDefer_close, withDefer_close_fst, e]
        simp only [List.append_assoc]
        exact ⟨trivial, rfl⟩
    · have n2 : ¬ AllOk env (h ++ [.uuid]) (connCalls o.rootDb (h.length + 1) ++
          [.exec (h.length + 1) (.createDatabase (tempName o env h))]) := fun h3 => k2 (allOk_append.mp h3).1
      refine ⟨fun _ => ?_, fun hok => absurd (allOk_append.mp hok).2 n2⟩
      rw [(leads_then l1).1 k1, attempt_append.1 k1, attempt_append.2 k2]
      exact (leads_then l2).2 k2
  · refine ⟨fun _ => ?_, fun hok => absurd (allOk_append.mp hok).1 k1⟩
    rw [attempt_append.2 k1]
    exact (leads_then l1).2 k1


/-! ### which calls the code makes -/

/-- the call neither creates nor drops a database -/
def Plain : Call → Prop
  | .exec _ (.createDatabase _) => False
  | .exec _ (.dropDatabase _) => False
  | _ => True

/-- the call drops no database but those whose name starts with the prefix, and creates none but those with a random name
after the prefix -/
def Spec.OnlyTemporary (o : Factory) : Call → Prop
  | .exec _ (.createDatabase n) => ∃ bytes, n = o.options.dbPrefix ++ uuidText bytes
  | .exec _ (.dropDatabase n) => o.options.dbPrefix.toList <+: n.toList
  | _ => True

theorem plain_temporary (o : Factory) (c : Call) (h : Plain c) : OnlyTemporary o c := by
  cases c with
  | exec n s => cases s <;> first | exact h.elim | trivial
  | _ => trivial

/-- `let _ ← call c` at the end of a function -/
theorem emits_do {P : Call → Prop} {c : Call} (h : P c) : Emits P (do let _ ← call c) :=
  emits_bind (emits_call h) fun _ => emits_pure (α := Unit) ()

theorem openConnectionWithDefaults_emits {P : Call → Prop} (hp : ∀ c, Plain c → P c) (pool : Nat) :
    Emits P (openConnectionWithDefaults pool) :=
  emits_bind (emits_call (hp _ trivial)) fun _ => emits_withDefer (emitsD_onErr fun _ => emits_close (hp _ trivial))
    (emits_bind (emits_call (hp _ trivial)) fun _ => emits_pure _)

theorem assertOnExpectedDatabase_emits {P : Call → Prop} (hp : ∀ c, Plain c → P c) (pool : Nat) (n : String) :
    Emits P (assertOnExpectedDatabase pool n) := by
  refine emits_bind (openConnectionWithDefaults_emits hp pool) fun _ =>
    emits_withDefer (emitsD_plain (emits_close (hp _ trivial))) (emits_bind (emits_callData (hp _ trivial)) fun x => ?_)
  unfold checkName
  split
  · exact emits_fail _
  · exact emits_pure (α := Unit) ()

theorem poolPart_emits {P : Call → Prop} (hp : ∀ c, Plain c → P c) (o : Factory) (name : String) (pool : Nat) :
    Emits P (poolPart o name pool) :=
  emits_bind (assertOnExpectedDatabase_emits hp pool name) fun _ => emits_bind (emits_call (hp _ trivial)) fun _ =>
    emits_pure _

theorem dbPart_emits {P : Call → Prop} (hp : ∀ c, Plain c → P c) (o : Factory) (name : String) : Emits P (dbPart o name) :=
  emits_bind (emits_call (hp _ trivial)) fun pool =>
    emits_withDefer (emitsD_onErr fun _ => emits_close (hp _ trivial)) (poolPart_emits hp o name pool)

theorem dropTempDatabase_emits {P : Call → Prop} (hp : ∀ c, Plain c → P c) (o : Factory) (name : String)
    (hd : o.options.dbPrefix.toList <+: name.toList → ∀ n, P (.exec n (.dropDatabase name))) :
    Emits P (o.dropTempDatabase name) := by
  unfold Factory.dropTempDatabase
  split
  · exact emits_fail _
  · rename_i h
    exact emits_bind (openConnectionWithDefaults_emits hp _) fun _ =>
      emits_withDefer (emitsD_plain (emits_close (hp _ trivial)))
        (emits_bind (emits_call (hp _ trivial)) fun _ => emits_do (hd (by simpa using h) _))

/-! ### functions with a cleanup -/

/-- closing connections and pools does not panic -/
def Spec.NoClosePanic (env : Env) : Prop := ∀ h n v, env.outcome (h ++ [.close n]) ≠ .panic v

theorem withDefer_onErr_ok {f : Option Err → Eff Unit} {body : Eff α} {env : Env} {h h1 : History} {a : α}
    (hb : body env h = (.ok a, h1)) : withDefer (doOnErrOrPanic f) body env h = (.ok a, h1) :=
  (withDefer_ok (onErr_keeps f)).mpr ⟨h1, hb, rfl⟩

theorem withDefer_onErr_not_ok {f : Option Err → Eff Unit} {body : Eff α} {env : Env} {h : History}
    (hb : ∀ a, (body env h).1 ≠ .ok a) :
    (∀ a, (withDefer (doOnErrOrPanic f) body env h).1 ≠ .ok a) ∧
    (withDefer (doOnErrOrPanic f) body env h).2 = (f (frameOf (body env h).1).retErr env (body env h).2).2 := by
  refine ⟨fun a ha => ?_, ?_⟩
  · obtain ⟨h1, h2, -⟩ := (withDefer_ok (onErr_keeps f)).mp (Prod.ext ha rfl : withDefer _ _ env _ = (.ok a, _))
    exact hb a (by rw [h2])
  · rw [withDefer_snd]
    unfold doOnErrOrPanic
    dsimp only
    have hc : ((frameOf (body env h).1).retErr.isSome || (frameOf (body env h).1).panicking.isSome) = true := by
      cases e : (body env h).1 with
      | ok a => exact absurd e (hb a)
      | err _ => rfl
      | panic _ => rfl
    rw [if_pos hc]
    split <;> rename_i e <;> rw [e]

theorem cleanup_snd (o : Factory) (name : String) (e : Option Err) (env : Env) (h : History) :
    (o.cleanup name e env h).2 = (o.dropTempDatabase name env h).2 := by
  unfold Factory.cleanup
  split
  · rename_i e1; rw [e1]; split <;> rfl
  · rfl

theorem cleanup_emits {P : Call → Prop} {o : Factory} {name : String} (hd : Emits P (o.dropTempDatabase name)) (e : Option Err) :
    Emits P (o.cleanup name e) := by
  intro env h
  rw [cleanup_snd]
  exact hd env h

theorem create_emits (o : Factory) : Emits (OnlyTemporary o) o.create := by
  have hp := plain_temporary o
  rw [create_eq]
  refine emits_bind (emits_callData (hp _ trivial)) fun bytes => emits_bind (openConnectionWithDefaults_emits hp _) fun rc =>
    emits_withDefer (emitsD_plain (emits_close (hp _ trivial))) (emits_bind (emits_call ⟨bytes, rfl⟩) fun _ =>
      emits_withDefer (emitsD_onErr fun e => cleanup_emits (dropTempDatabase_emits hp o _ fun h _ => h) e)
        (dbPart_emits hp o _))

theorem tempName_prefix (o : Factory) (env : Env) (h : History) :
    o.options.dbPrefix.toList <+: (tempName o env h).toList := by
  unfold tempName
  rw [String.toList_append]; exact List.prefix_append _ _

theorem dbPart_not_ok (o : Factory) (name : String) (env : Env) (h : History)
    (hn : ∀ d, (dbPart o name env h).1 ≠ .ok d) (hp : Succeeded env (h ++ [.openPool name])) :
    ∃ mid, (dbPart o name env h).2 = h ++ [.openPool name] ++ mid ++ [.close h.length] := by
  have l1 := leads_call env h (.openPool name)
  have e := (leads_then (k := fun pool => withDefer (doOnErrOrPanic fun _ => ignoreErr do let _ ← call (.close pool))
    (poolPart o name pool)) l1).1 ⟨hp, trivial⟩
  have e' : dbPart o name env h = _ := e
  rw [e'] at hn ⊢
  have hb : ∀ a, (poolPart o name h.length env (h ++ [.openPool name])).1 ≠ .ok a := by
    intro a ha
    have := withDefer_onErr_ok (f := fun _ => ignoreErr do let _ ← call (.close h.length))
      (Prod.ext ha rfl : poolPart o name h.length env (h ++ [.openPool name]) = (.ok a, _))
    rw [this] at hn
    exact hn a rfl
  rw [(withDefer_onErr_not_ok hb).2, close_run]
  have hem : Emits (fun _ => True) (poolPart o name h.length) := poolPart_emits (fun _ _ => trivial) _ _ _
  obtain ⟨l, hl, -⟩ := hem env (h ++ [.openPool name])
  exact ⟨l, by rw [hl]⟩

/-- **C39**: `Create` asks for a random name, opens a connection, sets its timeout and creates the database.  If one of
these fails, then `Create` fails, and makes no further call except closing the connection.  If they succeed and `Create`
nevertheless fails or panics, then afterwards the drop of the database is attempted on a new connection, and the pool on
the new database, if it was opened, is closed before that. -/
theorem C39_create_cleans_up (o : Factory) (env : Env) (h : History) (hcl : NoClosePanic env) :
    (¬ AllOk env h (createCalls o env h) → (∀ d, (o.create env h).1 ≠ .ok d) ∧
      ∃ l, (o.create env h).2 = attempt env h (createCalls o env h) ++ l ∧ ∀ c ∈ l, IsClose c) ∧
    (AllOk env h (createCalls o env h) → (∀ d, (o.create env h).1 ≠ .ok d) →
      ∃ h2, h ++ createCalls o env h <+: h2 ∧ attempt env h2 (dropCalls o (tempName o env h) h2.length) <+: (o.create env h).2 ∧
        (Succeeded env (h ++ createCalls o env h ++ [.openPool (tempName o env h)]) →
          ∃ mid, h2 = h ++ createCalls o env h ++ [.openPool (tempName o env h)] ++ mid ++ [.close (h.length + 4)])) := by
  obtain ⟨s1, s2⟩ := create_split o env h
  refine ⟨s1, fun hok hn => ?_⟩
  obtain ⟨e1, e2⟩ := s2 hok
  rw [e1]
  have hx : ∀ d, (withDefer (doOnErrOrPanic (o.cleanup (tempName o env h))) (dbPart o (tempName o env h)) env
        (h ++ createCalls o env h)).1 ≠ .ok d := by
    intro d hd
    apply hn d
    rw [e2]
    split
    · rename_i v hv; exact absurd hv (hcl _ _ _)
    · exact hd
  have hb : ∀ d, (dbPart o (tempName o env h) env (h ++ createCalls o env h)).1 ≠ .ok d := by
    intro d hd
    rw [withDefer_onErr_ok (Prod.ext hd rfl : dbPart o (tempName o env h) env (h ++ createCalls o env h) = (.ok d, _))] at hx
    exact hx d rfl
  refine ⟨(dbPart o (tempName o env h) env (h ++ createCalls o env h)).2, ?_, ?_, ?_⟩
  · obtain ⟨l, hl, -⟩ := dbPart_emits (P := fun _ => True) (fun _ _ => trivial) o (tempName o env h) env (h ++ createCalls o env h)
    rw [hl]; exact List.prefix_append _ _
  · rw [(withDefer_onErr_not_ok hb).2, cleanup_snd]
    exact (dropTempDatabase_tries o _ (tempName_prefix o env h) env _).trans (List.prefix_append _ _)
  · intro hp
    obtain ⟨mid, hm⟩ := dbPart_not_ok o _ env _ hb hp
    refine ⟨mid, hm.trans ?_⟩
    simp [createCalls]


/-! ### success, and closing -/

theorem withDefer_onErr_inv {f : Option Err → Eff Unit} {body : Eff α} {env : Env} {h h1 : History} {a : α}
    (hb : withDefer (doOnErrOrPanic f) body env h = (.ok a, h1)) : body env h = (.ok a, h1) := by
  obtain ⟨h2, e, e2⟩ := (withDefer_ok (onErr_keeps f)).mp hb
  rw [e]
  unfold doOnErrOrPanic at e2
  simp only [Option.isSome_none, Bool.or_self, Bool.false_eq_true, if_false, Prod.mk.injEq, true_and] at e2
  rw [e2]

theorem dbPart_ok {o : Factory} {name : String} {env : Env} {h h' : History} {db : Database}
    (hx : dbPart o name env h = (.ok db, h')) :
    db = ⟨h.length, name, o.options.metadataSchema⟩ ∧ h ++ [.openPool name] <+: h' := by
  unfold dbPart at hx
  obtain ⟨pool, h1, c1, hx⟩ := eff_bind_ok.mp hx
  obtain ⟨-, rfl, rfl⟩ := call_ok.mp c1
  have hx := withDefer_onErr_inv hx
  obtain ⟨l, hl, -⟩ := poolPart_emits (P := fun _ => True) (fun _ _ => trivial) o name h.length env (h ++ [.openPool name])
  rw [hx] at hl
  unfold poolPart at hx
  obtain ⟨-, h2, -, hx⟩ := eff_bind_ok.mp hx
  obtain ⟨-, h3, -, hx⟩ := eff_bind_ok.mp hx
  refine ⟨?_, ?_⟩
  · have := congrArg Prod.fst hx
    simpa [eff_pure, eq_comm] using this
  · dsimp only at hl
    rw [hl]
    exact List.prefix_append _ _

/-- a successful `Create` -/
theorem create_ok {o : Factory} {env : Env} {h h' : History} {db : Database} (he : o.create env h = (.ok db, h')) :
    AllOk env h (createCalls o env h) ∧ db = ⟨h.length + 4, tempName o env h, o.options.metadataSchema⟩ ∧
    h ++ createCalls o env h ++ [.openPool (tempName o env h)] <+: h' := by
  obtain ⟨s1, s2⟩ := create_split o env h
  by_cases hok : AllOk env h (createCalls o env h)
  · obtain ⟨e1, e2⟩ := s2 hok
    rw [he] at e1 e2
    dsimp only at e1 e2
    split at e2
    · cases e2
    · have hx := withDefer_onErr_inv (Prod.ext e2.symm rfl : withDefer (doOnErrOrPanic (o.cleanup (tempName o env h)))
        (dbPart o (tempName o env h)) env (h ++ createCalls o env h) = (.ok db, _))
      obtain ⟨hd, hp⟩ := dbPart_ok hx
      refine ⟨hok, hd.trans (by simp [createCalls]), ?_⟩
      rw [e1]
      exact hp.trans (List.prefix_append _ _)
  · exact absurd (by rw [he]) ((s1 hok).1 db)

/-- **C39**: closing a temporary database closes the pool and then attempts the drop. -/
theorem C39_close_drops (o : Factory) (db : Database) (hp : o.options.dbPrefix.toList <+: db.name.toList) (env : Env)
    (h : History) (hcl : NoClosePanic env) :
    attempt env (h ++ [.close db.connPool]) (dropCalls o db.name (h.length + 1)) <+: (o.closeDatabase db env h).2 := by
  unfold Factory.closeDatabase
  have hcr : ignoreErr (do let _ ← call (.close db.connPool)) env h = (.ok (), h ++ [.close db.connPool]) := by
    rw [close_run]
    cases e : env.outcome (h ++ [.close db.connPool]) with
    | panic v => exact absurd e (hcl _ _ _)
    | ok _ => rfl
    | err _ => rfl
  rw [eff_bind, hcr]
  have := dropTempDatabase_tries o db.name hp env (h ++ [.close db.connPool])
  simpa [Tries] using this

/-! ### everything that is created is dropped -/

/-- whatever database the code creates, it attempts to drop afterwards, through a factory that satisfies `F` -/
def Spec.CleansUp (F : Factory → Prop) (m : Eff α) : Prop :=
  ∀ env h, NoClosePanic env → ∀ hc conn name, h <+: hc → hc ++ [.exec conn (.createDatabase name)] <+: (m env h).2 →
    Succeeded env (hc ++ [.exec conn (.createDatabase name)]) →
    ∃ o h2, F o ∧ hc ++ [.exec conn (.createDatabase name)] <+: h2 ∧
      attempt env h2 (dropCalls o name h2.length) <+: (m env h).2

/-- the call does not create a database -/
def NotCreate : Call → Prop
  | .exec _ (.createDatabase _) => False
  | _ => True

theorem plain_notCreate (c : Call) (h : Plain c) : NotCreate c := by
  cases c with
  | exec n s => cases s <;> first | exact h.elim | trivial
  | _ => trivial

def Grows (m : Eff α) : Prop := Emits (fun _ => True) m

theorem Emits.grows {P : Call → Prop} {m : Eff α} (h : Emits P m) : Grows m := h.mono fun _ _ => trivial

theorem split_occurrence {γ : Type} {hc h1 t : List γ} {c : γ} (hp : hc ++ [c] <+: t) (h1p : h1 <+: t) :
    hc ++ [c] <+: h1 ∨ h1 <+: hc := by
  rcases List.prefix_or_prefix_of_prefix hp h1p with h | ⟨l, hl⟩
  · exact Or.inl h
  · rcases List.eq_nil_or_concat l with rfl | ⟨l', c', rfl⟩
    · rw [List.append_nil] at hl; rw [hl]; exact Or.inl List.prefix_rfl
    · rw [List.concat_eq_append, ← List.append_assoc] at hl
      obtain ⟨e, -⟩ := List.append_inj' hl rfl
      exact Or.inr ⟨l', e⟩

theorem cleansUp_of_emits {F : Factory → Prop} {m : Eff α} (hm : Emits NotCreate m) : CleansUp F m := by
  intro env h _ hc conn name hh hp _
  obtain ⟨l, e, hl⟩ := hm env h
  rw [e] at hp
  obtain ⟨x, rfl⟩ := hh
  rw [List.append_assoc, List.prefix_append_right_inj] at hp
  exact absurd (hl (.exec conn (.createDatabase name)) (hp.subset (by simp))) id

/-- every result satisfies `P` -/
def Returns (P : α → Prop) (m : Eff α) : Prop := ∀ env h a, (m env h).1 = .ok a → P a

theorem cleansUp_bind_post {F : Factory → Prop} {P : α → Prop} {m : Eff α} {k : α → Eff β} (hm : CleansUp F m)
    (hr : Returns P m) (hk : ∀ a, P a → CleansUp F (k a)) (hkg : ∀ a, P a → Grows (k a)) : CleansUp F (m >>= k) := by
  intro env h hcl hc conn name hh hp hs
  have hm := hm env h hcl hc conn name hh
  rw [eff_bind] at hp ⊢
  split at hp
  · rename_i a h1 e
    have ha := hr env h a (by rw [e])
    rw [e] at hm
    obtain ⟨l, el, -⟩ := hkg a ha env h1
    have hpre : h1 <+: (k a env h1).2 := by rw [el]; exact List.prefix_append _ _
    rcases split_occurrence hp hpre with hp1 | hp1
    · obtain ⟨o, h2, a0, a1, a2⟩ := hm hp1 hs
      exact ⟨o, h2, a0, a1, a2.trans hpre⟩
    · exact hk a ha env h1 hcl hc conn name hp1 hp hs
  · rename_i e; rw [e] at hm; exact hm hp hs
  · rename_i e; rw [e] at hm; exact hm hp hs

theorem cleansUp_bind {F : Factory → Prop} {m : Eff α} {k : α → Eff β} (hm : CleansUp F m)
    (hk : ∀ a, CleansUp F (k a)) (hkg : ∀ a, Grows (k a)) : CleansUp F (m >>= k) :=
  cleansUp_bind_post (P := fun _ => True) hm (fun _ _ _ _ => trivial) (fun a _ => hk a) (fun a _ => hkg a)

theorem cleansUp_withDefer {F : Factory → Prop} {m : Eff α} {d : Deferred} (hm : CleansUp F m)
    (hd : EmitsD NotCreate d) : CleansUp F (withDefer d m) := by
  intro env h hcl hc conn name hh hp hs
  have hm := hm env h hcl hc conn name hh
  rw [withDefer_snd] at hp ⊢
  obtain ⟨l, el, hl⟩ := hd (frameOf (m env h).1) env (m env h).2
  rw [el] at hp ⊢
  have := prefix_of_not_mem hp fun hmem => hl _ hmem
  obtain ⟨o, h2, a0, a1, a2⟩ := hm this hs
  exact ⟨o, h2, a0, a1, a2.trans (List.prefix_append _ _)⟩

theorem attempt_reached {env : Env} {h x : History} {c : Call} {cs : List Call}
    (hp : h ++ x ++ [c] <+: attempt env h cs) : AllOk env h x := by
  induction cs generalizing h x with
  | nil =>
    have := hp.length_le
    simp [attempt] at this
  | cons d cs ih =>
    cases x with
    | nil => trivial
    | cons y x =>
      rw [attempt] at hp
      split at hp
      · rename_i hs
        have hy : y = d := by
          obtain ⟨l, e, -⟩ := attempt_prefix env (h ++ [d]) cs
          rw [e, List.append_assoc, List.append_assoc, List.prefix_append_right_inj] at hp
          obtain ⟨t, ht⟩ := hp
          simp only [List.cons_append, List.nil_append, List.cons.injEq] at ht
          exact ht.1
        subst hy
        exact ⟨hs, ih (by simpa using hp)⟩
      · have := hp.length_le
        simp at this

theorem prefix_createCalls {o : Factory} {env : Env} {h x : History} {conn : Nat} {name : String}
    (hp : x ++ [.exec conn (.createDatabase name)] <+: createCalls o env h) :
    x ++ [.exec conn (.createDatabase name)] = createCalls o env h ∧ name = tempName o env h := by
  unfold createCalls at *
  match x with
  | [] => simp at hp
  | [a] => simp at hp
  | [a, b] => simp at hp
  | [a, b, c] =>
    simp only [List.cons_append, List.nil_append, List.cons_prefix_cons, Call.exec.injEq, Sql.createDatabase.injEq] at hp
    obtain ⟨rfl, rfl, rfl, ⟨rfl, rfl⟩, -⟩ := hp
    exact ⟨rfl, rfl⟩
  | a :: b :: c :: d :: x =>
    have := hp.length_le
    simp at this

/-- creating a database and closing it in the end -/
theorem cleansUp_closing {F : Factory → Prop} {o : Factory} (hF : F o) {body : Database → Eff α}
    (hb : ∀ db, Emits NotCreate (body db)) : CleansUp F (o.create >>= fun db => closing o db (body db)) := by
  intro env h hcl hc conn name hh hp hs
  obtain ⟨x, rfl⟩ := hh
  obtain ⟨s1, s2⟩ := C39_create_cleans_up o env h hcl
  obtain ⟨-, s3⟩ := create_split o env h
  by_cases hok : AllOk env h (createCalls o env h)
  · -- nothing else creates a database
    have hrest : ∃ l, (o.create env h).2 = h ++ createCalls o env h ++ l ∧ ∀ c ∈ l, NotCreate c := by
      obtain ⟨l, el, hl⟩ := emits_withDefer (P := NotCreate)
        (d := doOnErrOrPanic (o.cleanup (tempName o env h))) (body := dbPart o (tempName o env h))
        (emitsD_onErr fun e => cleanup_emits (dropTempDatabase_emits plain_notCreate o _ fun _ _ => trivial) e)
        (dbPart_emits plain_notCreate o _) env (h ++ createCalls o env h)
      refine ⟨l ++ [.close (h.length + 1)], ?_, ?_⟩
      · rw [(s3 hok).1, el, List.append_assoc]
      · intro c hc
        rcases List.mem_append.mp hc with hc | hc
        · exact hl c hc
        · rw [List.mem_singleton.mp hc]; trivial
    obtain ⟨l, el, hl⟩ := hrest
    have hunique : ∀ l', (∀ c ∈ l', NotCreate c) → h ++ x ++ [.exec conn (.createDatabase name)] <+:
        h ++ createCalls o env h ++ l' →
        x ++ [.exec conn (.createDatabase name)] = createCalls o env h ∧ name = tempName o env h := by
      intro l' hl' hp
      have hp := prefix_of_not_mem hp fun hm => hl' _ hm
      rw [List.append_assoc, List.prefix_append_right_inj] at hp
      exact prefix_createCalls hp
    by_cases hcr : ∃ db, (o.create env h).1 = .ok db
    · obtain ⟨db, hdb⟩ := hcr
      have hce : o.create env h = (.ok db, (o.create env h).2) := Prod.ext hdb rfl
      have hbind : (o.create >>= fun db => closing o db (body db)) env h =
          closing o db (body db) env (o.create env h).2 := by rw [eff_bind, hce]
      rw [hbind] at hp ⊢
      unfold closing at hp ⊢
      rw [withDefer_snd] at hp ⊢
      have hpd : ∀ fr env h, (plainDefer (o.closeDatabase db) fr env h).2 = (o.closeDatabase db env h).2 := by
        intro fr env h
        unfold plainDefer
        split <;> rename_i e <;> rw [e]
      rw [hpd] at hp ⊢
      obtain ⟨l2, el2, hl2⟩ := hb db env (o.create env h).2
      obtain ⟨l3, el3, hl3⟩ := emits_bind (P := NotCreate) (emits_ignoreErr (emits_do (c := .close db.connPool) trivial))
        (fun _ => dropTempDatabase_emits plain_notCreate o db.name fun _ _ => trivial) env (body db env (o.create env h).2).2
      have el3' : (o.closeDatabase db env (body db env (o.create env h).2).2).2 = _ := el3
      obtain ⟨hx, rfl⟩ := hunique (l ++ l2 ++ l3) (by
        intro c hc
        rcases List.mem_append.mp hc with hc | hc
        · rcases List.mem_append.mp hc with hc | hc
          · exact hl c hc
          · exact hl2 c hc
        · exact hl3 c hc) (by
        rw [el3', el2, el] at hp
        simpa only [List.append_assoc] using hp)
      obtain ⟨-, rfl, -⟩ := create_ok hce
      refine ⟨o, (body ⟨h.length + 4, tempName o env h, o.options.metadataSchema⟩ env (o.create env h).2).2 ++
        [.close (h.length + 4)], hF, ?_, ?_⟩
      · rw [List.append_assoc, hx, el2, el]
        simp only [List.append_assoc]
        rw [← List.append_assoc]
        exact List.prefix_append _ _
      · have := C39_close_drops o ⟨h.length + 4, tempName o env h, o.options.metadataSchema⟩ (tempName_prefix o env h) env
          (body ⟨h.length + 4, tempName o env h, o.options.metadataSchema⟩ env (o.create env h).2).2 hcl
        simpa using this
    · have hne : ∀ d, (o.create env h).1 ≠ .ok d := fun d hd => hcr ⟨d, hd⟩
      rw [(bind_not_ok hne).2] at hp ⊢
      obtain ⟨h2, a1, a2, -⟩ := s2 hok hne
      obtain ⟨hx, rfl⟩ := hunique l hl (by rw [← el]; exact hp)
      exact ⟨o, h2, hF, by rw [List.append_assoc, hx]; exact a1, a2⟩
  · obtain ⟨hne, l, e, hl⟩ := s1 hok
    rw [(bind_not_ok hne).2, e] at hp
    exfalso
    have hp := prefix_of_not_mem hp fun hm => hl _ hm
    have hr := attempt_reached hp
    obtain ⟨l, e, hl⟩ := attempt_prefix env h (createCalls o env h)
    rw [e, List.append_assoc, List.prefix_append_right_inj] at hp
    obtain ⟨hx, -⟩ := prefix_createCalls (hp.trans hl)
    apply hok
    rw [← hx, allOk_append]
    exact ⟨hr, hs, trivial⟩

/-! ### the callers -/

section
variable {P : Call → Prop} (hp : ∀ c, Plain c → P c)
include hp

theorem fetchSchema_emits (pool : Nat) : Emits P (fetchSchema pool) := emits_callData (hp _ trivial)

theorem executeStatements_emits (pool : Nat) (l : List Statement) : Emits P (executeStatementsIgnoreTimeouts pool l) := by
  refine emits_bind (emits_call (hp _ trivial)) fun _ => emits_withDefer (emitsD_plain (emits_close (hp _ trivial)))
    (emits_bind (emits_call (hp _ trivial)) fun _ => emits_forEach fun s _ => ?_)
  unfold executeStatement
  split
  · exact emits_pure (α := Unit) ()
  · exact emits_do (hp _ trivial)

omit hp in
theorem generateWithZeroOptions_emits (a b : Schema) : Emits P (generateWithZeroOptions a b) := by
  unfold generateWithZeroOptions
  split
  · exact emits_pure _
  · split
    · exact emits_panic _
    · exact emits_fail _

theorem setSchema_emits (pool : Nat) (s : Schema) : Emits P (setSchemaForEmptyDatabase pool s) :=
  emits_bind (fetchSchema_emits hp _) fun _ => emits_bind (generateWithZeroOptions_emits _ _) fun _ =>
    executeStatements_emits hp _ _

omit hp in
theorem assertMigrated_emits (r : Rand) (o : PlanOptions) (a b : Schema) :
    Emits P (assertMigratedSchemaMatchesTarget r o a b) := by
  have hc : ∀ l, Emits P (assertEmpty l) := by
    intro l
    unfold assertEmpty
    split
    · exact emits_fail _
    · exact emits_pure (α := Unit) ()
  exact emits_bind (emits_lift _) fun x => hc x.1

/-- the body of `getSchemaFromDdl` -/
theorem ddlBody_emits (pool : Nat) (l : List String) : Emits P (do
    forEach (fun s => do let _ ← call (.exec pool (.script s))) l
    fetchSchema pool) :=
  emits_bind (emits_forEach fun _ _ => emits_do (hp _ trivial)) fun _ => fetchSchema_emits hp _

/-- the body of `assertValidPlan` -/
theorem validBody_emits (pool : Nat) (r : Rand) (o : PlanOptions) (current new : Schema) (plan : Plan) : Emits P (do
    setSchemaForEmptyDatabase pool current
    executeStatementsIgnoreTimeouts pool plan.statements
    let migrated ← fetchSchema pool
    assertMigratedSchemaMatchesTarget r o migrated new) :=
  emits_bind (setSchema_emits hp _ _) fun _ => emits_bind (executeStatements_emits hp _ _) fun _ =>
    emits_bind (fetchSchema_emits hp _) fun _ => assertMigrated_emits _ _ _ _

end

theorem closeDatabase_emits (o : Factory) (db : Database) : Emits (OnlyTemporary o) (o.closeDatabase db) :=
  emits_bind (emits_close trivial) fun _ => dropTempDatabase_emits (plain_temporary o) o _ fun h _ => h

theorem closing_emits (o : Factory) {body : Database → Eff α} (hb : ∀ db, Emits (OnlyTemporary o) (body db)) :
    Emits (OnlyTemporary o) (o.create >>= fun db => closing o db (body db)) :=
  emits_bind (create_emits o) fun db => emits_withDefer (emitsD_plain (closeDatabase_emits o db)) (hb db)

theorem getSchema_emits {f : Factory} (src : SchemaSource) : Emits (OnlyTemporary f) (src.getSchema (some f)) := by
  cases src with
  | db pool => exact fetchSchema_emits (plain_temporary f) pool
  | ddl l => exact closing_emits f fun db => ddlBody_emits (plain_temporary f) db.connPool l

theorem validate_emits {f : Factory} (o : GenerateOptions) (ho : o.tempDbFactory = some f) (r : Rand) (a b : Schema) (p : Plan) :
    Emits (OnlyTemporary f) (validateIfAsked o r a b p) := by
  unfold validateIfAsked
  rw [ho]
  split
  · exact closing_emits f fun db => validBody_emits (plain_temporary f) db.connPool _ _ _ _ _
  · exact emits_pure (α := Unit) ()

theorem generate_emits {f : Factory} (hash : Schema → Except Err String) (o : GenerateOptions)
    (ho : o.tempDbFactory = some f) (a b : SchemaSource) : Emits (OnlyTemporary f) (generate hash o a b) := by
  unfold generate
  rw [ho]
  exact emits_bind (getSchema_emits a) fun _ => emits_bind (getSchema_emits b) fun _ => emits_bind (emits_lift _) fun _ =>
    emits_bind (emits_lift _) fun _ => emits_bind (validate_emits o ho _ _ _ _) fun _ => emits_pure _

theorem getSchema_cleansUp {F : Factory → Prop} {f : Factory} (hF : F f) (src : SchemaSource) :
    CleansUp F (src.getSchema (some f)) := by
  cases src with
  | db pool => exact cleansUp_of_emits (fetchSchema_emits plain_notCreate pool)
  | ddl l => exact cleansUp_closing hF fun db => ddlBody_emits plain_notCreate db.connPool l

theorem validate_cleansUp {F : Factory → Prop} {f : Factory} (hF : F f) (o : GenerateOptions)
    (ho : o.tempDbFactory = some f) (r : Rand) (a b : Schema) (p : Plan) : CleansUp F (validateIfAsked o r a b p) := by
  unfold validateIfAsked
  rw [ho]
  split
  · exact cleansUp_closing hF fun db => validBody_emits plain_notCreate db.connPool _ _ _ _ _
  · exact cleansUp_of_emits (emits_pure (α := Unit) ())

theorem generate_cleansUp {F : Factory → Prop} {f : Factory} (hF : F f) (hash : Schema → Except Err String)
    (o : GenerateOptions) (ho : o.tempDbFactory = some f) (a b : SchemaSource) : CleansUp F (generate hash o a b) := by
  have hg := (generate_emits hash o ho a b).grows
  unfold generate
  rw [ho]
  refine cleansUp_bind (getSchema_cleansUp hF a) (fun _ => ?_) fun _ => ?_
  · refine cleansUp_bind (getSchema_cleansUp hF b) (fun _ => ?_) fun _ => ?_
    · refine cleansUp_bind (cleansUp_of_emits (emits_lift _)) (fun x => ?_) fun _ => ?_
      · refine cleansUp_bind (cleansUp_of_emits (emits_lift _)) (fun _ => ?_) fun _ => ?_
        · exact cleansUp_bind (validate_cleansUp hF o ho _ _ _ _) (fun _ => cleansUp_of_emits (emits_pure _))
            fun _ => emits_pure _
        · exact emits_bind (validate_emits o ho _ _ _ _).grows fun _ => emits_pure _
      · exact emits_bind (emits_lift _) fun _ => emits_bind (validate_emits o ho _ _ _ _).grows fun _ => emits_pure _
    · exact emits_bind (emits_lift _) fun _ => emits_bind (emits_lift _) fun _ =>
        emits_bind (validate_emits o ho _ _ _ _).grows fun _ => emits_pure _
  · exact emits_bind (getSchema_emits b).grows fun _ => emits_bind (emits_lift _) fun _ => emits_bind (emits_lift _) fun _ =>
        emits_bind (validate_emits o ho _ _ _ _).grows fun _ => emits_pure _

/-- **C39**: plan generation attempts to drop every temporary database it created, whatever happens in between. -/
theorem C39_generate_cleans_up (f : Factory) (hash : Schema → Except Err String) (o : GenerateOptions)
    (ho : o.tempDbFactory = some f) (a b : SchemaSource) : CleansUp (· = f) (generate hash o a b) :=
  generate_cleansUp (F := (· = f)) rfl hash o ho a b

/-- **C39**: so does fetching the schema of DDL files on its own, as for `GetSchemaHash`. -/
theorem C39_get_schema_cleans_up (f : Factory) (src : SchemaSource) : CleansUp (· = f) (src.getSchema (some f)) :=
  getSchema_cleansUp (F := (· = f)) rfl src

theorem newFactory_returns (opts : Options) : Returns (fun f => f.options = opts) (newOnInstanceFactory opts) := by
  intro env h f hf
  unfold newOnInstanceFactory at hf
  split at hf
  · cases hf
  · obtain ⟨n, h1, -, e⟩ := eff_bind_ok.mp (Prod.ext hf rfl :
      _ = (Outcome.ok f, _))
    have e := withDefer_onErr_inv e
    obtain ⟨-, h2, -, e⟩ := eff_bind_ok.mp e
    have := congrArg Prod.fst e
    simp only [eff_pure, Outcome.ok.injEq] at this
    rw [← this]

theorem newFactory_emits {P : Call → Prop} (hp : ∀ c, Plain c → P c) (opts : Options) :
    Emits P (newOnInstanceFactory opts) := by
  unfold newOnInstanceFactory
  split
  · exact emits_fail _
  · exact emits_bind (emits_call (hp _ trivial)) fun _ => emits_withDefer (emitsD_onErr fun _ => emits_close (hp _ trivial))
      (emits_bind (assertOnExpectedDatabase_emits hp _ _) fun _ => emits_pure _)

theorem with_emits {P : Call → Prop} (hp : ∀ c, Plain c → P c) (f : Cli.SourceFactory) {body : SchemaSource → Eff α}
    (hb : ∀ s, Emits P (body s)) : Emits P (f.with_ body) := by
  cases f with
  | ddl l => exact emits_bind (emits_lift _) fun _ => hb _
  | dsn db =>
    exact emits_bind (emits_call (hp _ trivial)) fun _ => emits_withDefer (emitsD_plain (emits_close (hp _ trivial))) (hb _)

theorem with_cleansUp {F : Factory → Prop} (f : Cli.SourceFactory) {body : SchemaSource → Eff α}
    (hb : ∀ s, CleansUp F (body s)) (hg : ∀ s, Grows (body s)) : CleansUp F (f.with_ body) := by
  cases f with
  | ddl l => exact cleansUp_bind (cleansUp_of_emits (emits_lift _)) (fun _ => hb _) fun _ => hg _
  | dsn db =>
    exact cleansUp_bind (cleansUp_of_emits (emits_call trivial))
      (fun _ => cleansUp_withDefer (hb _) (emitsD_plain (emits_close trivial)))
      fun _ => emits_withDefer (emitsD_plain (emits_close trivial)) (hg _)

/-- **C39**: the `plan` and `apply` commands attempt to drop every temporary database they created. -/
theorem C39_generatePlan_cleans_up (hash : Schema → Except Err String) (po : PlanOptions) (v : Bool) (r : Rand)
    (db : String) (a b : Cli.SourceFactory) (m : Cli.Modifiers) :
    CleansUp (fun f => f.options = { Options.default with rootDatabase := db })
      (Cli.generatePlan hash po v r db a b m) := by
  unfold Cli.generatePlan
  refine cleansUp_bind_post (P := fun f => f.options = { Options.default with rootDatabase := db })
    (cleansUp_of_emits (newFactory_emits plain_notCreate _)) (newFactory_returns _) (fun f hf => ?_) fun f hf => ?_
  · refine cleansUp_withDefer (with_cleansUp a (fun s => with_cleansUp b (fun s2 => ?_) fun _ => ?_) fun _ => ?_)
      (emitsD_plain (emits_close trivial))
    · exact cleansUp_bind (generate_cleansUp hf hash _ rfl _ _) (fun _ => cleansUp_of_emits (emits_lift _))
        fun _ => emits_lift _
    · exact emits_bind (generate_emits hash _ rfl _ _).grows fun _ => emits_lift _
    · exact with_emits (fun _ _ => trivial) b fun _ => emits_bind (generate_emits hash _ rfl _ _).grows fun _ => emits_lift _
  · exact emits_withDefer (emitsD_plain (emits_close trivial)) (with_emits (fun _ _ => trivial) a fun _ =>
      with_emits (fun _ _ => trivial) b fun _ => emits_bind (generate_emits hash _ rfl _ _).grows fun _ => emits_lift _)

/-! ### C40 -/

/-- **C40**: whatever happens, plan generation drops no database whose name does not start with the prefix of the factory,
and creates none but those with a random name after the prefix. -/
theorem C40_generate_only_temporary (f : Factory) (hash : Schema → Except Err String) (o : GenerateOptions)
    (ho : o.tempDbFactory = some f) (a b : SchemaSource) (env : Env) (h : History) :
    ∃ l, (generate hash o a b env h).2 = h ++ l ∧ ∀ c ∈ l, OnlyTemporary f c :=
  generate_emits hash o ho a b env h

/-- **C40**: the same for every operation of the factory, also when it is asked to close a database that it did not
create. -/
theorem C40_factory_only_temporary (f : Factory) (db : Database) (env : Env) (h : History) :
    (∃ l, (f.create env h).2 = h ++ l ∧ ∀ c ∈ l, OnlyTemporary f c) ∧
    (∃ l, (f.closeDatabase db env h).2 = h ++ l ∧ ∀ c ∈ l, OnlyTemporary f c) ∧
    (∃ l, (f.close env h).2 = h ++ l ∧ ∀ c ∈ l, OnlyTemporary f c) :=
  ⟨create_emits f env h, closeDatabase_emits f db env h, emits_do trivial env h⟩

/-- lower case letters, digits and underscores -/
def simpleRest (c : Char) : Bool := ('a' ≤ c && c ≤ 'z') || ('0' ≤ c && c ≤ '9') || c == '_' || c == '$'

theorem hexByte_simple (b : UInt8) : ∀ c ∈ hexByte b, simpleRest c = true := by
  have key : ∀ n < 16, simpleRest (if n < 10 then Char.ofNat (48 + n) else Char.ofNat (87 + n)) = true := by decide
  intro c hc
  have h256 := b.toNat_lt
  simp only [hexByte, List.mem_cons, List.not_mem_nil, or_false] at hc
  rcases hc with rfl | rfl
  · exact key _ (by omega)
  · exact key _ (by omega)

theorem uuidText_simple (bytes : List UInt8) : ∀ c ∈ (uuidText bytes).toList, simpleRest c = true := by
  intro c hc
  have hx : ∀ l : List UInt8, ∀ c ∈ l.flatMap hexByte, simpleRest c = true := by
    intro l c hc
    obtain ⟨b, -, hb⟩ := List.mem_flatMap.mp hc
    exact hexByte_simple b c hb
  simp only [uuidText, String.toList_ofList, List.mem_append, List.mem_cons] at hc
  rcases hc with ((((hc | rfl | hc) | rfl | hc) | rfl | hc) | rfl | hc)
  all_goals first | exact hx _ c hc | decide

/-- **C40**: a factory that could be constructed has a prefix such that all names it creates are plain identifiers, so
that leaving them unquoted is safe; with another prefix the constructor fails before any call. -/
theorem C40_names_need_no_quoting (opts : Options) (env : Env) (h : History) :
    (∀ f h', newOnInstanceFactory opts env h = (.ok f, h') → ∀ bytes,
      isSimpleIdentifier (f.options.dbPrefix ++ uuidText bytes) = true) ∧
    (isSimpleIdentifier opts.dbPrefix = false → ∃ e, newOnInstanceFactory opts env h = (.err e, h)) := by
  refine ⟨fun f h' hf bytes => ?_, fun hn => ⟨_, by unfold newOnInstanceFactory; rw [if_pos hn]; rfl⟩⟩
  have ho := newFactory_returns opts env h f (by rw [hf])
  rw [ho]
  have hs : isSimpleIdentifier opts.dbPrefix = true := by
    cases hb : isSimpleIdentifier opts.dbPrefix with
    | true => rfl
    | false =>
      unfold newOnInstanceFactory at hf
      rw [if_pos hb] at hf
      cases hf
  unfold isSimpleIdentifier at hs ⊢
  rw [String.toList_append]
  cases e : opts.dbPrefix.toList with
  | nil => rw [e] at hs; cases hs
  | cons c cs =>
    rw [e] at hs
    simp only [Bool.and_eq_true, List.cons_append, List.all_append] at hs ⊢
    refine ⟨hs.1, hs.2, ?_⟩
    rw [List.all_eq_true]
    intro c hc
    have := uuidText_simple bytes c hc
    simpa [simpleRest] using this

/-! ### examples -/

namespace Samples

def factory : Factory := ⟨7, Options.default⟩

/-- the world in which every call succeeds, except the creation of the metadata table -/
def metadataFails : Env :=
  let outcome : History → Outcome Unit := fun h =>
    match h.getLast? with
    | some (.exec _ (.metadata _ _)) => .err (.other "metadata")
    | _ => .ok ()
  { outcome := outcome
    uuid := fun _ => List.replicate 16 171
    currentDatabase := fun _ => "pgschemadiff_tmp_abababab_abab_abab_abab_abababababab"
    schema := fun _ => old1 }

example : NoClosePanic metadataFails := by
  intro h n v
  simp [metadataFails]

/-- the creation fails after the database was created: the pool is closed, then the database is dropped -/
example : AllOk metadataFails [] (createCalls factory metadataFails []) ∧
    (∀ d, (factory.create metadataFails []).1 ≠ .ok d) ∧ (factory.create metadataFails []).2 = [.uuid, .openConn 7, .exec 1 (.setStatementTimeout 3000),
      .exec 1 (.createDatabase "pgschemadiff_tmp_abababab_abab_abab_abab_abababababab"),
      .openPool "pgschemadiff_tmp_abababab_abab_abab_abab_abababababab", .openConn 4,
      .exec 5 (.setStatementTimeout 3000), .exec 4 .currentDatabase, .close 5,
      .exec 4 (.metadata "pgschemadiff_tmp_metadata" "metadata"), .close 4, .openConn 7,
      .exec 11 (.setStatementTimeout 3000), .exec 11 (.setStatementTimeout 3000),
      .exec 11 (.dropDatabase "pgschemadiff_tmp_abababab_abab_abab_abab_abababababab"), .close 11, .close 1] := by
  refine ⟨?_, ?_, by decide +kernel⟩
  · simp [AllOk, createCalls, Succeeded, metadataFails]
  · have : (match (factory.create metadataFails []).1 with | .ok _ => false | _ => true) = true := by decide +kernel
    intro d hd
    rw [hd] at this
    cases this

end Samples

end Verif
