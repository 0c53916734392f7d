import Verif.Spec.Trace

/-!
# Reasoning about effectful code
-/

namespace Verif

open Spec Eff

variable {α β : Type}

theorem eff_bind (m : Eff α) (k : α → Eff β) (env : Env) (h : History) :
    (m >>= k) env h = match m env h with
      | (.ok a, h') => k a env h'
      | (.err e, h') => (.err e, h')
      | (.panic v, h') => (.panic v, h') := rfl

theorem eff_pure (a : α) (env : Env) (h : History) : (Pure.pure a : Eff α) env h = (.ok a, h) := rfl

theorem eff_bind_ok {m : Eff α} {k : α → Eff β} {env : Env} {h h' : History} {b : β} :
    (m >>= k) env h = (.ok b, h') ↔ ∃ a h1, m env h = (.ok a, h1) ∧ k a env h1 = (.ok b, h') := by
  rw [eff_bind]
  constructor
  · intro hb
    split at hb
    · rename_i a h1 e; exact ⟨a, h1, e, hb⟩
    · cases hb
    · cases hb
  · rintro ⟨a, h1, e, hb⟩
    rw [e]; exact hb

theorem lift_ok {x : Except Err α} {env : Env} {h h' : History} {a : α} :
    lift x env h = (.ok a, h') ↔ x = .ok a ∧ h' = h := by
  cases x <;> simp [lift, Eff.pure, fail, eq_comm]

theorem call_run (c : Call) (env : Env) (h : History) :
    (call c env h).2 = h ++ [c] ∧ ((call c env h).1 = .ok h.length ↔ Succeeded env (h ++ [c])) ∧
    (¬ Succeeded env (h ++ [c]) → ∀ n, (call c env h).1 ≠ .ok n) := by
  unfold call Succeeded
  cases e : env.outcome (h ++ [c]) <;> simp

theorem call_ok {c : Call} {env : Env} {h h' : History} {n : Nat} :
    call c env h = (.ok n, h') ↔ Succeeded env (h ++ [c]) ∧ n = h.length ∧ h' = h ++ [c] := by
  unfold call Succeeded
  cases e : env.outcome (h ++ [c]) <;> simp [eq_comm]

theorem callData_ok {c : Call} {f : Env → History → α} {env : Env} {h h' : History} {a : α} :
    callData c f env h = (.ok a, h') ↔ Succeeded env (h ++ [c]) ∧ a = f env (h ++ [c]) ∧ h' = h ++ [c] := by
  unfold callData Succeeded
  cases e : env.outcome (h ++ [c]) <;> simp [eq_comm]

/-! ### which calls are made -/

/-- every call made satisfies `P`; in particular histories only grow -/
def Emits (P : Call → Prop) (m : Eff α) : Prop := ∀ env h, ∃ l, (m env h).2 = h ++ l ∧ ∀ c ∈ l, P c

/-- the same for deferred functions -/
def EmitsD (P : Call → Prop) (d : Deferred) : Prop := ∀ fr env h, ∃ l, (d fr env h).2 = h ++ l ∧ ∀ c ∈ l, P c

section
variable {P : Call → Prop}

theorem emits_pure (a : α) : Emits P (Pure.pure a : Eff α) := fun _ h => ⟨[], by simp [eff_pure], by simp⟩

theorem emits_fail (e : Err) : Emits P (fail e : Eff α) := fun _ h => ⟨[], by simp [fail], by simp⟩

theorem emits_panic (v : String) : Emits P (Eff.panic v : Eff α) := fun _ h => ⟨[], by simp [Eff.panic], by simp⟩

theorem emits_call {c : Call} (hc : P c) : Emits P (call c) := fun env h => ⟨[c], (call_run c env h).1, by simpa using hc⟩

theorem emits_callData {c : Call} {f : Env → History → α} (hc : P c) : Emits P (callData c f) := by
  intro env h
  refine ⟨[c], ?_, by simpa using hc⟩
  unfold callData
  cases env.outcome (h ++ [c]) <;> rfl

theorem emits_bind {m : Eff α} {k : α → Eff β} (hm : Emits P m) (hk : ∀ a, Emits P (k a)) : Emits P (m >>= k) := by
  intro env h
  obtain ⟨l, e, hl⟩ := hm env h
  rw [eff_bind]
  split
  · rename_i a h1 e1
    rw [e1] at e
    obtain ⟨l2, e2, hl2⟩ := hk a env h1
    refine ⟨l ++ l2, ?_, ?_⟩
    · rw [e2]; simp only at e; rw [e, List.append_assoc]
    · intro c hc
      rcases List.mem_append.mp hc with hc | hc
      · exact hl c hc
      · exact hl2 c hc
  · rename_i e1; rw [e1] at e; exact ⟨l, e, hl⟩
  · rename_i e1; rw [e1] at e; exact ⟨l, e, hl⟩

theorem emits_ignoreErr {m : Eff Unit} (hm : Emits P m) : Emits P (ignoreErr m) := by
  intro env h
  obtain ⟨l, e, hl⟩ := hm env h
  refine ⟨l, ?_, hl⟩
  unfold ignoreErr
  split
  · rename_i e1; rw [e1] at e; exact e
  · exact e

theorem emits_forEach {f : α → Eff Unit} {l : List α} (hf : ∀ a ∈ l, Emits P (f a)) : Emits P (forEach f l) := by
  induction l with
  | nil => exact emits_pure (α := Unit) ()
  | cons a l ih =>
    exact emits_bind (hf a List.mem_cons_self) fun _ => ih fun b hb => hf b (List.mem_cons_of_mem _ hb)

theorem emits_lift (x : Except Err α) : Emits P (lift x) := by
  cases x with
  | error e => exact emits_fail e
  | ok a => exact emits_pure a

theorem emitsD_plain {f : Eff Unit} (hf : Emits P f) : EmitsD P (plainDefer f) := by
  intro fr env h
  obtain ⟨l, e, hl⟩ := hf env h
  refine ⟨l, ?_, hl⟩
  unfold plainDefer
  split
  · rename_i e1; rw [e1] at e; exact e
  · rename_i e1; rw [e1] at e; exact e

theorem emitsD_onErr {f : Option Err → Eff Unit} (hf : ∀ e, Emits P (f e)) : EmitsD P (doOnErrOrPanic f) := by
  intro fr env h
  unfold doOnErrOrPanic
  dsimp only
  split
  · obtain ⟨l, e, hl⟩ := hf fr.retErr env h
    refine ⟨l, ?_, hl⟩
    split
    · rename_i e1; rw [e1] at e; exact e
    · rename_i e1; rw [e1] at e; exact e
  · exact ⟨[], by simp, by simp⟩

theorem withDefer_snd (d : Deferred) (body : Eff α) (env : Env) (h : History) :
    (withDefer d body env h).2 = (d (frameOf (body env h).1) env (body env h).2).2 := by
  unfold withDefer
  dsimp only
  split <;> rename_i e1 <;> rw [e1]

theorem emits_withDefer {d : Deferred} {body : Eff α} (hd : EmitsD P d) (hb : Emits P body) :
    Emits P (withDefer d body) := by
  intro env h
  obtain ⟨l, e, hl⟩ := hb env h
  obtain ⟨l2, e2, hl2⟩ := hd (frameOf (body env h).1) env (body env h).2
  refine ⟨l ++ l2, ?_, ?_⟩
  · rw [withDefer_snd, e2, e, List.append_assoc]
  · intro c hc
    rcases List.mem_append.mp hc with hc | hc
    · exact hl c hc
    · exact hl2 c hc

theorem Emits.mono {Q : Call → Prop} {m : Eff α} (h : Emits P m) (hpq : ∀ c, P c → Q c) : Emits Q m := by
  intro env h'
  obtain ⟨l, e, hl⟩ := h env h'
  exact ⟨l, e, fun c hc => hpq c (hl c hc)⟩

end

/-! ### deferred functions that keep the frame or panic -/

theorem plainDefer_frame (f : Eff Unit) (fr : Frame) (env : Env) (h : History) :
    ((plainDefer f) fr env h).1.retErr = fr.retErr ∧
    ((plainDefer f fr env h).1.panicking = fr.panicking ∨
      ∃ v, (f env h).1 = .panic v ∧ (plainDefer f fr env h).1.panicking = some v) := by
  unfold plainDefer
  split
  · rename_i v h' e; exact ⟨rfl, Or.inr ⟨v, by rw [e], rfl⟩⟩
  · exact ⟨rfl, Or.inl rfl⟩

/-- a function with a deferred one succeeds iff its body does and the deferred function does not panic -/
theorem withDefer_ok {d : Deferred} {body : Eff α} {env : Env} {h h' : History} {a : α}
    (hd : ∀ fr env h, (d fr env h).1.retErr = fr.retErr ∧ (fr.panicking.isSome → (d fr env h).1.panicking.isSome)) :
    withDefer d body env h = (.ok a, h') ↔
      ∃ h1, body env h = (.ok a, h1) ∧ d ⟨none, none⟩ env h1 = (⟨none, none⟩, h') := by
  unfold withDefer
  constructor
  · intro he
    cases hb : body env h with
    | mk o h1 =>
      rw [hb] at he
      dsimp only at he
      cases o with
      | ok b =>
        simp only [frameOf] at he
        have := hd ⟨none, none⟩ env h1
        cases hf : d ⟨none, none⟩ env h1 with
        | mk fr h2 =>
          rw [hf] at he this
          obtain ⟨re, pa⟩ := fr
          simp only at this
          obtain ⟨rfl, -⟩ := this
          cases pa with
          | some v => simp at he
          | none => simp at he; exact ⟨h1, by rw [he.1], by rw [hf, he.2]⟩
      | err e =>
        simp only [frameOf] at he
        have := hd ⟨some e, none⟩ env h1
        cases hf : d ⟨some e, none⟩ env h1 with
        | mk fr h2 =>
          rw [hf] at he this
          obtain ⟨re, pa⟩ := fr
          simp only at this
          obtain ⟨rfl, -⟩ := this
          cases pa <;> simp at he
      | panic v =>
        simp only [frameOf] at he
        have := hd ⟨none, some v⟩ env h1
        cases hf : d ⟨none, some v⟩ env h1 with
        | mk fr h2 =>
          rw [hf] at he this
          obtain ⟨re, pa⟩ := fr
          cases pa with
          | some v => simp at he
          | none => simp at this
  · rintro ⟨h1, e1, e2⟩
    rw [e1]
    simp only [frameOf, e2]

theorem plainDefer_keeps (f : Eff Unit) : ∀ fr env h, ((plainDefer f) fr env h).1.retErr = fr.retErr ∧
    (fr.panicking.isSome → ((plainDefer f) fr env h).1.panicking.isSome) := by
  intro fr env h
  unfold plainDefer
  split <;> simp

theorem onErr_keeps (f : Option Err → Eff Unit) : ∀ fr env h, ((doOnErrOrPanic f) fr env h).1.retErr = fr.retErr ∧
    (fr.panicking.isSome → ((doOnErrOrPanic f) fr env h).1.panicking.isSome) := by
  intro fr env h
  unfold doOnErrOrPanic
  dsimp only
  split
  · split <;> simp
  · rename_i hc
    simp only [Bool.or_eq_true, not_or, Bool.not_eq_true, Option.isSome_eq_false_iff] at hc
    simp [hc.2]

/-! ### straight-line code -/

/-- the code makes the calls `cs` until one fails; if none does it returns `a` -/
def Straight (env : Env) (h : History) (m : Eff α) (cs : List Call) (a : α) : Prop :=
  (m env h).2 = attempt env h cs ∧ (AllOk env h cs → (m env h).1 = .ok a) ∧
    (¬ AllOk env h cs → ∀ a, (m env h).1 ≠ .ok a)

theorem attempt_allOk {env : Env} {h : History} {cs : List Call} (hok : AllOk env h cs) : attempt env h cs = h ++ cs := by
  induction cs generalizing h with
  | nil => simp [attempt]
  | cons c cs ih => rw [attempt, if_pos hok.1, ih hok.2]; simp

theorem attempt_prefix (env : Env) (h : History) (cs : List Call) : ∃ l, attempt env h cs = h ++ l ∧ l <+: cs := by
  induction cs generalizing h with
  | nil => exact ⟨[], by simp [attempt], List.prefix_rfl⟩
  | cons c cs ih =>
    rw [attempt]
    split
    · obtain ⟨l, e, hl⟩ := ih (h ++ [c])
      exact ⟨c :: l, by rw [e]; simp, List.cons_prefix_cons.mpr ⟨rfl, hl⟩⟩
    · exact ⟨[c], rfl, List.cons_prefix_cons.mpr ⟨rfl, List.nil_prefix⟩⟩

theorem allOk_append {env : Env} {h : History} {cs ds : List Call} :
    AllOk env h (cs ++ ds) ↔ AllOk env h cs ∧ AllOk env (h ++ cs) ds := by
  induction cs generalizing h with
  | nil => simp [AllOk]
  | cons c cs ih => simp only [List.cons_append, AllOk, ih, and_assoc, List.append_assoc, List.nil_append]

theorem attempt_append {env : Env} {h : History} {cs ds : List Call} :
    (AllOk env h cs → attempt env h (cs ++ ds) = attempt env (h ++ cs) ds) ∧
    (¬ AllOk env h cs → attempt env h (cs ++ ds) = attempt env h cs) := by
  induction cs generalizing h with
  | nil => simp [AllOk]
  | cons c cs ih =>
    by_cases hc : Succeeded env (h ++ [c])
    · have := ih (h := h ++ [c])
      simp only [List.cons_append, attempt, AllOk, hc, if_true, true_and]
      simpa using this
    · simp [attempt, AllOk, hc]

theorem allOk_succeeded {env : Env} {h : History} {cs : List Call} (hok : AllOk env h cs) {p : List Call} {c : Call}
    (hp : p ++ [c] <+: cs) : Succeeded env (h ++ p ++ [c]) := by
  obtain ⟨t, rfl⟩ := hp
  rw [List.append_assoc, allOk_append] at hok
  exact hok.2.1

theorem straight_pure (env : Env) (h : History) (a : α) : Straight env h (Pure.pure a) [] a :=
  ⟨rfl, fun _ => rfl, fun hn => absurd trivial hn⟩

theorem straight_call (env : Env) (h : History) (c : Call) : Straight env h (call c) [c] h.length := by
  obtain ⟨h1, h2, h3⟩ := call_run c env h
  refine ⟨?_, ?_, ?_⟩
  · rw [h1, attempt]; simp [attempt]
  · intro hok; exact h2.mpr hok.1
  · intro hn; exact h3 fun hs => hn ⟨hs, trivial⟩

theorem straight_bind {env : Env} {h : History} {m : Eff α} {k : α → Eff β} {cs ds : List Call} {a : α} {b : β}
    (hm : Straight env h m cs a) (hk : Straight env (h ++ cs) (k a) ds b) : Straight env h (m >>= k) (cs ++ ds) b := by
  obtain ⟨m1, m2, m3⟩ := hm
  obtain ⟨k1, k2, k3⟩ := hk
  by_cases hok : AllOk env h cs
  · have e1 := m2 hok
    rw [attempt_allOk hok] at m1
    have : m env h = (.ok a, h ++ cs) := Prod.ext e1 m1
    have e : (m >>= k) env h = k a env (h ++ cs) := by rw [eff_bind, this]
    refine ⟨?_, ?_, ?_⟩
    · rw [e, k1, attempt_append.1 hok]
    · intro h2; rw [e]; exact k2 (allOk_append.mp h2).2
    · intro h2; rw [e]; exact k3 fun h3 => h2 (allOk_append.mpr ⟨hok, h3⟩)
  · have hne := m3 hok
    have hb : ((m >>= k) env h).2 = (m env h).2 ∧ ∀ b, ((m >>= k) env h).1 ≠ .ok b := by
      rw [eff_bind]
      split
      · rename_i a' h' e; rw [e] at hne; exact absurd rfl (hne a')
      · rename_i e; rw [e]; simp
      · rename_i e; rw [e]; simp
    refine ⟨?_, ?_, fun _ => hb.2⟩
    · rw [hb.1, m1, attempt_append.2 hok]
    · intro h2; exact absurd (allOk_append.mp h2).1 hok

theorem straight_forEach {env : Env} {f : α → Eff Unit} {cs : α → List Call} (l : List α) (h : History)
    (hf : ∀ a ∈ l, ∀ h, Straight env h (f a) (cs a) ()) : Straight env h (forEach f l) (l.flatMap cs) () := by
  induction l generalizing h with
  | nil => exact straight_pure (α := Unit) env h ()
  | cons a l ih =>
    exact straight_bind (hf a List.mem_cons_self h) (ih _ fun b hb => hf b (List.mem_cons_of_mem _ hb))

end Verif

namespace Verif

open Spec Eff

variable {α β : Type}

/-! ### closing -/

theorem close_run (c : Call) (env : Env) (h : History) :
    ignoreErr (do let _ ← call c) env h =
      (match env.outcome (h ++ [c]) with | .panic v => .panic v | _ => .ok (), h ++ [c]) := by
  unfold ignoreErr
  rw [eff_bind]
  unfold call
  cases e : env.outcome (h ++ [c]) <;> rfl

theorem withDefer_close (c : Call) (body : Eff α) (env : Env) (h : History) :
    (withDefer (plainDefer (ignoreErr do let _ ← call c)) body env h).2 = (body env h).2 ++ [c] := by
  rw [withDefer_snd]
  unfold plainDefer
  rw [close_run]
  cases env.outcome ((body env h).2 ++ [c]) <;> rfl

/-- the result of a function that closes something in the end -/
theorem withDefer_close_fst (c : Call) (body : Eff α) (env : Env) (h : History) :
    (withDefer (plainDefer (ignoreErr do let _ ← call c)) body env h).1 =
      match env.outcome ((body env h).2 ++ [c]) with
      | .panic v => .panic v
      | _ => (body env h).1 := by
  unfold withDefer plainDefer
  dsimp only
  rw [close_run]
  cases e : env.outcome ((body env h).2 ++ [c]) <;> dsimp only <;> cases e2 : (body env h).1 <;> simp [frameOf]

theorem withDefer_close_ok {c : Call} {body : Eff α} {env : Env} {h h' : History} {a : α} :
    withDefer (plainDefer (ignoreErr do let _ ← call c)) body env h = (.ok a, h') ↔
      ∃ h1, body env h = (.ok a, h1) ∧ h' = h1 ++ [c] ∧ ∀ v, env.outcome (h1 ++ [c]) ≠ .panic v := by
  have h1 := withDefer_close c body env h
  have h2 := withDefer_close_fst c body env h
  constructor
  · intro he
    rw [he] at h1 h2
    refine ⟨(body env h).2, ?_, h1, ?_⟩
    · cases e : env.outcome ((body env h).2 ++ [c]) <;> rw [e] at h2 <;> simp at h2
      · exact Prod.ext h2.symm rfl
      · exact Prod.ext h2.symm rfl
    · intro v e; rw [e] at h2; simp at h2
  · rintro ⟨h3, e, rfl, hn⟩
    rw [e] at h1 h2
    refine Prod.ext ?_ h1
    rw [h2]
    dsimp only
    cases e : env.outcome (h3 ++ [c]) with
    | panic v => exact absurd e (hn v)
    | ok _ => rfl
    | err _ => rfl

theorem prefix_of_not_mem {α : Type} {p a b : List α} {c : α} (hp : p ++ [c] <+: a ++ b) (hc : c ∉ b) :
    p ++ [c] <+: a := by
  rcases List.prefix_or_prefix_of_prefix hp (List.prefix_append a b) with h | ⟨t, ht⟩
  · exact h
  · rcases List.eq_nil_or_concat t with rfl | ⟨t', c', rfl⟩
    · rw [List.append_nil] at ht; rw [ht]; exact List.prefix_rfl
    · exfalso
      obtain ⟨u, hu⟩ := hp
      rw [List.concat_eq_append, ← List.append_assoc] at ht
      obtain ⟨-, hcc⟩ := List.append_inj' ht rfl
      rw [← ht, List.append_assoc, List.append_assoc, List.append_right_inj] at hu
      simp only [List.cons.injEq, and_true] at hcc
      apply hc
      rw [← hu, hcc]; simp

end Verif
