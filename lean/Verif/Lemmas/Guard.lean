import Verif.Lemmas.Effect

/-!
# Calls that depend on the history, with preconditions and postconditions
-/

namespace Verif

open Spec Eff

variable {α β : Type}

/-- started after a history with `pre`, every call satisfies `P` of the history before it, and a result satisfies `post` -/
def Guarded (P : Env → History → Call → Prop) (pre : Env → History → Prop) (m : Eff α) (post : α → Env → History → Prop) : Prop :=
  ∀ env h, pre env h → ∃ l, (m env h).2 = h ++ l ∧ (∀ l1 c l2, l = l1 ++ c :: l2 → P env (h ++ l1) c) ∧
    ∀ a, (m env h).1 = .ok a → post a env (h ++ l)

/-- stays true as the history grows -/
def Stable (p : Env → History → Prop) : Prop := ∀ env h l, p env h → p env (h ++ l)

variable {P : Env → History → Call → Prop} {pre : Env → History → Prop}

theorem guarded_pre {m : Eff α} {pre' : Env → History → Prop} {post : α → Env → History → Prop} (hm : Guarded P pre m post)
    (h : ∀ env x, pre' env x → pre env x) : Guarded P pre' m post := fun env x hx => hm env x (h env x hx)

theorem guarded_post {m : Eff α} {post post' : α → Env → History → Prop} (hm : Guarded P pre m post)
    (h : ∀ a env x, post a env x → post' a env x) : Guarded P pre m post' := by
  intro env x hx
  obtain ⟨l, e, h1, h2⟩ := hm env x hx
  exact ⟨l, e, h1, fun a ha => h a _ _ (h2 a ha)⟩

theorem guarded_pure (a : α) {post : α → Env → History → Prop} (h : ∀ env x, pre env x → post a env x) :
    Guarded P pre (Pure.pure a : Eff α) post := by
  intro env x hx
  refine ⟨[], by simp [eff_pure], fun l1 c l2 e => by simp at e, fun b hb => ?_⟩
  have : a = b := by simpa [eff_pure] using hb
  subst this
  simpa using h env x hx

theorem guarded_fail (e : Err) {post : α → Env → History → Prop} : Guarded P pre (fail e : Eff α) post :=
  fun env x _ => ⟨[], by simp [fail], fun l1 c l2 e => by simp at e, fun a ha => by simp [fail] at ha⟩

theorem guarded_call (c : Call) (hc : ∀ env h, pre env h → P env h c) :
    Guarded P pre (call c) fun n env h => ∃ h0, pre env h0 ∧ h = h0 ++ [c] ∧ n = h0.length := by
  intro env h hp
  refine ⟨[c], (call_run c env h).1, fun l1 d l2 e => ?_, fun n hn => ⟨h, hp, rfl, ?_⟩⟩
  · cases l1 with
    | nil =>
      injection e with e _
      subst e
      simpa using hc env h hp
    | cons x l1 => simp at e
  · have := (call_ok (c := c) (env := env) (h := h) (n := n) (h' := (call c env h).2)).mp (Prod.ext hn rfl)
    exact this.2.1

theorem guarded_callData (c : Call) (f : Env → History → α) (hc : ∀ env h, pre env h → P env h c) :
    Guarded P pre (callData c f) fun a env h => ∃ h0, pre env h0 ∧ h = h0 ++ [c] ∧ Succeeded env h ∧ a = f env h := by
  intro env h hp
  have e2 : (callData c f env h).2 = h ++ [c] := by unfold callData; split <;> rfl
  refine ⟨[c], e2, fun l1 d l2 e => ?_, fun n hn => ⟨h, hp, rfl, ?_⟩⟩
  · cases l1 with
    | nil =>
      injection e with e _
      subst e
      simpa using hc env h hp
    | cons x l1 => simp at e
  · have := (callData_ok (c := c) (f := f) (env := env) (h := h) (a := n) (h' := (callData c f env h).2)).mp (Prod.ext hn rfl)
    exact ⟨this.1, this.2.1⟩

theorem split_append {l1 l2 a b : List Call} {c : Call} (h : l1 ++ l2 = a ++ c :: b) :
    (∃ b', l1 = a ++ c :: b') ∨ ∃ a', a = l1 ++ a' ∧ l2 = a' ++ c :: b := by
  rcases List.append_eq_append_iff.mp h with ⟨x, h1, h2⟩ | ⟨x, h1, h2⟩
  · exact Or.inr ⟨x, h1, h2⟩
  · cases x with
    | nil => exact Or.inr ⟨[], by simpa using h1.symm, by simpa using h2.symm⟩
    | cons y x =>
      injection h2 with h2 h3
      subst h2
      exact Or.inl ⟨x, h1⟩

theorem guarded_bind {m : Eff α} {k : α → Eff β} {mid : α → Env → History → Prop} {post : β → Env → History → Prop}
    (hm : Guarded P pre m mid) (hk : ∀ a, Guarded P (mid a) (k a) post) : Guarded P pre (m >>= k) post := by
  intro env h hp
  obtain ⟨l, e, h1, h2⟩ := hm env h hp
  rw [eff_bind]
  split
  · rename_i a x ex
    rw [ex] at e h2
    obtain rfl : x = h ++ l := e
    obtain ⟨l', e', h1', h2'⟩ := hk a env (h ++ l) (h2 a rfl)
    refine ⟨l ++ l', by rw [e', List.append_assoc], fun a1 c a2 ea => ?_, fun b hb => by rw [← List.append_assoc]; exact h2' b hb⟩
    rcases split_append ea with ⟨b', hb⟩ | ⟨a', ha, hb⟩
    · exact h1 _ _ _ hb
    · rw [ha, ← List.append_assoc]; exact h1' _ _ _ hb
  · rename_i er x ex
    rw [ex] at e
    exact ⟨l, e, h1, fun b hb => by simp at hb⟩
  · rename_i er x ex
    rw [ex] at e
    exact ⟨l, e, h1, fun b hb => by simp at hb⟩

/-- code whose calls are always allowed -/
theorem guarded_of_emits {Q : Call → Prop} {m : Eff α} (hm : Emits Q m) (hq : ∀ env h c, Q c → P env h c)
    (hs : Stable pre) : Guarded P pre m fun _ => pre := by
  intro env h hp
  obtain ⟨l, e, hl⟩ := hm env h
  exact ⟨l, e, fun l1 c l2 el => hq _ _ _ (hl c (by rw [el]; simp)), fun _ _ => hs _ _ _ hp⟩

theorem guarded_withDefer {Q : Call → Prop} {d : Deferred} {body : Eff α} {post : α → Env → History → Prop}
    (hd : EmitsD Q d) (hk : ∀ fr env h, (d fr env h).1.retErr = fr.retErr ∧ (fr.panicking.isSome → (d fr env h).1.panicking.isSome))
    (hq : ∀ env h c, Q c → P env h c) (hb : Guarded P pre body post) (hs : ∀ a, Stable (post a)) :
    Guarded P pre (withDefer d body) post := by
  intro env h hp
  obtain ⟨l, e, h1, h2⟩ := hb env h hp
  obtain ⟨l', e', hl'⟩ := hd (frameOf (body env h).1) env (body env h).2
  refine ⟨l ++ l', by rw [withDefer_snd, e', e, List.append_assoc], fun a1 c a2 ea => ?_, fun a ha => ?_⟩
  · rcases split_append ea with ⟨b', hb⟩ | ⟨a', ha, hb⟩
    · exact h1 _ _ _ hb
    · exact hq _ _ _ (hl' c (by rw [hb]; simp))
  · obtain ⟨x, hx, -⟩ := (withDefer_ok hk).mp (Prod.ext ha rfl : withDefer d body env h = (.ok a, _))
    rw [← List.append_assoc]
    exact hs a _ _ _ (h2 a (by rw [hx]))

theorem guarded_forEach {f : α → Eff Unit} {l : List α} (hf : ∀ a ∈ l, Guarded P pre (f a) fun _ => pre) :
    Guarded P pre (forEach f l) fun _ => pre := by
  induction l with
  | nil => exact guarded_pure (α := Unit) () fun _ _ h => h
  | cons a l ih =>
    exact guarded_bind (hf a List.mem_cons_self) fun _ => ih fun x hx => hf x (List.mem_cons_of_mem _ hx)

end Verif
