import Verif.Model.Future
import Mathlib.Algebra.BigOperators.Fin
import Mathlib.Algebra.Order.BigOperators.Group.Finset
import Mathlib.Data.Fintype.Card

/-!
# C46, C47: futures and the goroutine limiter
-/

namespace Verif

namespace Future

variable {R : Type} {n : Nat}

/-- the result exists once: nobody has it before the function returns; afterwards it is with the producer, in the channel or with
one getter -/
inductive Where (s : State R n) : Prop
  | nowhere : s.producer = .running → s.chan = [] → (∀ i, s.getter i = .waiting ∨ s.getter i = .cancelled) → Where s
  | producer (r : R) : s.producer = .sending r → s.chan = [] → (∀ i, s.getter i = .waiting ∨ s.getter i = .cancelled) → Where s
  | chan (r : R) : s.producer = .finished r → s.chan = [r] →
      (∀ i, s.getter i = .waiting ∨ s.getter i = .cancelled ∨ s.getter i = .returned r) → Where s
  | getter (r : R) (i : Fin n) : s.producer = .finished r → s.chan = [] → s.getter i = .resending r →
      (∀ j, j ≠ i → s.getter j = .waiting ∨ s.getter j = .cancelled ∨ s.getter j = .returned r) → Where s

theorem where_init : Where (init : State R n) := .nowhere rfl rfl fun _ => .inl rfl

theorem setGetter_self (s : State R n) (i : Fin n) (g : Getter R) : s.setGetter i g i = g := by simp [State.setGetter]

theorem setGetter_ne {s : State R n} {i j : Fin n} {g : Getter R} (h : j ≠ i) : s.setGetter i g j = s.getter j := by
  simp [State.setGetter, h]

theorem where_step {s s' : State R n} (h : Where s) (hs : Step s s') : Where s' := by
  cases hs with
  | cancel hw =>
    rename_i i
    have upd2 : ∀ j, s.getter j = .waiting ∨ s.getter j = .cancelled →
        s.setGetter i .cancelled j = .waiting ∨ s.setGetter i .cancelled j = .cancelled := by
      intro j hj
      by_cases e : j = i
      · rw [e, setGetter_self]; exact .inr rfl
      · rw [setGetter_ne e]; exact hj
    have upd3 : ∀ r j, s.getter j = .waiting ∨ s.getter j = .cancelled ∨ s.getter j = .returned r →
        s.setGetter i .cancelled j = .waiting ∨ s.setGetter i .cancelled j = .cancelled ∨ s.setGetter i .cancelled j = .returned r := by
      intro r j hj
      by_cases e : j = i
      · rw [e, setGetter_self]; exact .inr (.inl rfl)
      · rw [setGetter_ne e]; exact hj
    cases h with
    | nowhere h1 h2 h3 => exact .nowhere h1 h2 fun j => upd2 j (h3 j)
    | producer r h1 h2 h3 => exact .producer r h1 h2 fun j => upd2 j (h3 j)
    | chan r h1 h2 h3 => exact .chan r h1 h2 fun j => upd3 r j (h3 j)
    | getter r k h1 h2 h3 h4 =>
      have hk : k ≠ i := fun e => by rw [e, hw] at h3; cases h3
      exact .getter r k h1 h2 ((setGetter_ne hk).trans h3) fun j hj => upd3 r j (h4 j hj)
  | move hm =>
    cases hm with
    | compute hp =>
      rename_i r
      cases h with
      | nowhere h1 h2 h3 => exact .producer r rfl h2 h3
      | producer r h1 h2 h3 => rw [hp] at h1; cases h1
      | chan r h1 h2 h3 => rw [hp] at h1; cases h1
      | getter r k h1 h2 h3 h4 => rw [hp] at h1; cases h1
    | send hp hc =>
      rename_i r
      cases h with
      | nowhere h1 h2 h3 => rw [hp] at h1; cases h1
      | producer r h1 h2 h3 =>
        rw [hp] at h1; cases h1
        refine .chan r rfl (by rw [h2]; rfl) fun i => (h3 i).imp id .inl
      | chan r h1 h2 h3 => rw [hp] at h1; cases h1
      | getter r k h1 h2 h3 h4 => rw [hp] at h1; cases h1
    | receive hw hc =>
      rename_i i r rest
      cases h with
      | nowhere h1 h2 h3 => rw [h2] at hc; cases hc
      | producer r h1 h2 h3 => rw [h2] at hc; cases hc
      | chan r h1 h2 h3 =>
        rw [h2] at hc; cases hc
        refine .getter r i h1 rfl (setGetter_self ..) fun j hj => ?_
        have := setGetter_ne (s := s) (g := .resending r) hj
        show State.setGetter _ _ _ _ = _ ∨ State.setGetter _ _ _ _ = _ ∨ State.setGetter _ _ _ _ = _
        rw [this]
        exact h3 j
      | getter r k h1 h2 h3 h4 => rw [h2] at hc; cases hc
    | resend hw hc =>
      rename_i i r
      cases h with
      | nowhere h1 h2 h3 => have := h3 i; rw [hw] at this; simp at this
      | producer r h1 h2 h3 => have := h3 i; rw [hw] at this; simp at this
      | chan r h1 h2 h3 => have := h3 i; rw [hw] at this; simp at this
      | getter r' k h1 h2 h3 h4 =>
        have hk : i = k := by
          by_contra e
          have := h4 i e
          rw [hw] at this; simp at this
        subst hk
        rw [hw] at h3; cases h3
        refine .chan r h1 (by rw [h2]; rfl) fun j => ?_
        show State.setGetter _ _ _ _ = _ ∨ State.setGetter _ _ _ _ = _ ∨ State.setGetter _ _ _ _ = _
        by_cases e : j = i
        · rw [e, setGetter_self]; exact .inr (.inr rfl)
        · rw [setGetter_ne e]; exact h4 j e

theorem reach_where {k : Nat} {s : State R n} (h : Reach k s) : Where s := by
  induction h with
  | init => exact where_init
  | step _ hs ih => exact where_step ih hs

/-! ### steps are bounded -/

def Producer.rank : Producer R → Nat
  | .running => 2
  | .sending _ => 1
  | .finished _ => 0

def Getter.rank : Getter R → Nat
  | .waiting => 2
  | .resending _ => 1
  | .returned _ => 0
  | .cancelled => 0

def measure (s : State R n) : Nat := s.producer.rank + ∑ i, (s.getter i).rank

theorem sum_setGetter (s : State R n) (i : Fin n) (g : Getter R) :
    ∑ j, (s.setGetter i g j).rank + (s.getter i).rank = ∑ j, (s.getter j).rank + g.rank := by
  have h1 := Finset.add_sum_erase Finset.univ (fun j => (s.setGetter i g j).rank) (Finset.mem_univ i)
  have h2 := Finset.add_sum_erase Finset.univ (fun j => (s.getter j).rank) (Finset.mem_univ i)
  have h3 : ∑ j ∈ Finset.univ.erase i, (s.setGetter i g j).rank = ∑ j ∈ Finset.univ.erase i, (s.getter j).rank :=
    Finset.sum_congr rfl fun j hj => by rw [setGetter_ne (Finset.ne_of_mem_erase hj)]
  simp only [setGetter_self] at h1
  omega

theorem measure_step {s s' : State R n} (hs : Step s s') : measure s' < measure s := by
  cases hs with
  | cancel hw =>
    rename_i i
    have := sum_setGetter s i .cancelled
    rw [hw] at this
    simp only [measure, Getter.rank] at *
    omega
  | move hm =>
    cases hm with
    | compute hp => simp only [measure, hp, Producer.rank]; omega
    | send hp hc => simp only [measure, hp, Producer.rank]; omega
    | receive hw hc =>
      rename_i i r rest
      have := sum_setGetter s i (.resending r)
      rw [hw] at this
      simp only [measure, Getter.rank] at *
      omega
    | resend hw hc =>
      rename_i i r
      have := sum_setGetter s i (.returned r)
      rw [hw] at this
      simp only [measure, Getter.rank] at *
      omega

end Future

open Future

variable {R : Type} {n : Nat}

/-- **C46**: every `Get` that returns a result returns the one the function computed, in every interleaving with any number of
calls. -/
theorem C46_get_returns_the_result {k : Nat} {s : Future.State R n} (h : Reach k s) {i : Fin n} {r : R}
    (hr : s.getter i = .returned r) : s.producer = .finished r := by
  cases reach_where h with
  | nowhere h1 h2 h3 => have := h3 i; rw [hr] at this; simp at this
  | producer r' h1 h2 h3 => have := h3 i; rw [hr] at this; simp at this
  | chan r' h1 h2 h3 =>
    have := h3 i; rw [hr] at this
    simp only [reduceCtorEq, false_or, Getter.returned.injEq] at this
    rw [this]; exact h1
  | getter r' j h1 h2 h3 h4 =>
    by_cases e : i = j
    · rw [e, h3] at hr; cases hr
    · have := h4 i e; rw [hr] at this
      simp only [reduceCtorEq, false_or, Getter.returned.injEq] at this
      rw [this]; exact h1

/-- **C46**: hence all of them return the same. -/
theorem C46_all_gets_agree {k : Nat} {s : Future.State R n} (h : Reach k s) {i j : Fin n} {r r' : R}
    (hr : s.getter i = .returned r) (hr' : s.getter j = .returned r') : r = r' := by
  have := (C46_get_returns_the_result h hr).symm.trans (C46_get_returns_the_result h hr')
  cases this; rfl

/-- **C46**: neither the send of the result nor a re-send ever blocks: when it is due the channel has room. -/
theorem C46_sends_never_block {k : Nat} {s : Future.State R n} (h : Reach k s) {r : R}
    (hr : s.producer = .sending r ∨ ∃ i, s.getter i = .resending r) : s.chan.length < capacity := by
  cases reach_where h with
  | nowhere h1 h2 h3 => rw [h2]; exact Nat.zero_lt_one
  | producer r' h1 h2 h3 => rw [h2]; exact Nat.zero_lt_one
  | chan r' h1 h2 h3 =>
    obtain hr | ⟨i, hr⟩ := hr
    · rw [h1] at hr; cases hr
    · have := h3 i; rw [hr] at this; simp at this
  | getter r' i h1 h2 h3 h4 => rw [h2]; exact Nat.zero_lt_one

/-- **C46**: no deadlock: once the function has returned, as long as some `Get` has neither returned nor been cancelled the future
moves on without any cancellation. -/
theorem C46_no_deadlock {k : Nat} {s : Future.State R n} (h : Reach k s) (hp : s.producer ≠ .running) {i : Fin n}
    (hi : s.getter i = .waiting ∨ ∃ r, s.getter i = .resending r) : ∃ s', Move s s' := by
  cases reach_where h with
  | nowhere h1 h2 h3 => exact absurd h1 hp
  | producer r h1 h2 h3 => exact ⟨_, .send h1 (by rw [h2]; exact Nat.zero_lt_one)⟩
  | chan r h1 h2 h3 =>
    obtain hi | ⟨r', hr⟩ := hi
    · exact ⟨_, .receive hi h2⟩
    · have := h3 i; rw [hr] at this; simp at this
  | getter r j h1 h2 h3 h4 => exact ⟨_, .resend h3 (by rw [h2]; exact Nat.zero_lt_one)⟩

/-- **C46**: the number of steps is bounded, so that (with the above) every interleaving in which the function returns goes on until
every `Get` has returned or was cancelled. -/
theorem C46_steps_bounded {k : Nat} {s : Future.State R n} (h : Reach k s) : k ≤ 2 + 2 * n := by
  suffices k + Future.measure s ≤ 2 + 2 * n by omega
  induction h with
  | init => simp [Future.measure, Future.init, Producer.rank, Getter.rank, Nat.mul_comm]
  | step _ hs ih => have := measure_step hs; omega

/-- **C46**: after everything, the result is still there for later calls of `Get`. -/
theorem C46_result_stays {k : Nat} {s : Future.State R n} (h : Reach k s) {r : R} (hp : s.producer = .finished r)
    (hi : ∀ i r', s.getter i ≠ .resending r') : s.chan = [r] := by
  cases reach_where h with
  | nowhere h1 h2 h3 => rw [hp] at h1; cases h1
  | producer r h1 h2 h3 => rw [hp] at h1; cases h1
  | chan r h1 h2 h3 => rw [hp] at h1; cases h1; exact h2
  | getter r j h1 h2 h3 h4 => exact absurd h3 (hi j r)

/-- three calls: one is cancelled, the others return the result -/
example : ∃ s : Future.State Nat 3, Reach 7 s ∧ s.getter 0 = .returned 5 ∧ s.getter 1 = .cancelled ∧ s.getter 2 = .returned 5 ∧
    s.chan = [5] := by
  refine ⟨_, .step (.step (.step (.step (.step (.step (.step .init (.cancel (i := 1) rfl)) (.move (.compute (r := 5) rfl)))
    (.move (.send rfl (by decide)))) (.move (.receive (i := 2) rfl rfl))) (.move (.resend (i := 2) rfl (by decide))))
    (.move (.receive (i := 0) rfl rfl))) (.move (.resend (i := 0) rfl (by decide))), rfl, rfl, rfl, rfl⟩

/-! ## the limiter -/

namespace Limiter

/-- the calls in a given status -/
def count (s : State n) (p : Status → Bool) : Nat := (Finset.univ.filter fun i => p (s.status i) = true).card

/-- holding a slot of the semaphore -/
def holds : Status → Bool
  | .acquired => true
  | .running => true
  | .releasing => true
  | _ => false

theorem count_eq_sum (s : State n) (p : Status → Bool) : count s p = ∑ i, if p (s.status i) = true then 1 else 0 := by
  rw [count, Finset.card_filter]

theorem count_set (s : State n) (i : Fin n) (x : Status) (p : Status → Bool) (c : Nat) :
    count ⟨c, s.set i x⟩ p + (if p (s.status i) = true then 1 else 0) = count s p + (if p x = true then 1 else 0) := by
  rw [count_eq_sum, count_eq_sum]
  have h1 := Finset.add_sum_erase Finset.univ (fun j => if p (s.set i x j) = true then 1 else 0) (Finset.mem_univ i)
  have h2 := Finset.add_sum_erase Finset.univ (fun j => if p (s.status j) = true then 1 else 0) (Finset.mem_univ i)
  have h3 : ∑ j ∈ Finset.univ.erase i, (if p (s.set i x j) = true then 1 else 0) =
      ∑ j ∈ Finset.univ.erase i, (if p (s.status j) = true then 1 else 0) :=
    Finset.sum_congr rfl fun j hj => by rw [State.set, if_neg (Finset.ne_of_mem_erase hj)]
  have h4 : s.set i x i = x := by simp [State.set]
  simp only [h4] at h1
  show (∑ j, if p (s.set i x j) = true then 1 else 0) + _ = _
  omega

theorem run_inv {limit : Nat} {s : State n} {tr : List (Event n)} (h : Run limit s tr) : s.cur = count s holds ∧ s.cur ≤ limit := by
  induction h with
  | init => simp [init, count, holds]
  | @step s tr e s' _ hs ih =>
    obtain ⟨h1, h2⟩ := ih
    cases hs with
    | @acquire i hw hc =>
      have := count_set s i .acquired holds (s.cur + 1)
      simp only [hw, holds] at this
      simp at this
      exact ⟨by simp only; omega, hc⟩
    | @start i hw =>
      have := count_set s i .running holds s.cur
      simp only [hw, holds] at this
      simp at this
      exact ⟨by simp only; omega, h2⟩
    | @finish i hw =>
      have := count_set s i .releasing holds s.cur
      simp only [hw, holds] at this
      simp at this
      exact ⟨by simp only; omega, h2⟩
    | @release i hw =>
      have := count_set s i .released holds (s.cur - 1)
      simp only [hw, holds] at this
      simp at this
      exact ⟨by simp only; omega, by simp only; omega⟩
    | @refuse i hw =>
      have := count_set s i .refused holds s.cur
      simp only [hw, holds] at this
      simp at this
      exact ⟨by simp only; omega, h2⟩

theorem waiting_iff {limit : Nat} {s : State n} {tr : List (Event n)} (h : Run limit s tr) (i : Fin n) :
    ((s.status i = .waiting ∨ s.status i = .refused) → .start i ∉ tr) ∧
    (s.status i = .refused ↔ .refuse i ∈ tr) ∧ (s.status i = .waiting → .refuse i ∉ tr) := by
  induction h with
  | init => simp [init]
  | step _ hs ih =>
    obtain ⟨h1, h2, h3⟩ := ih
    cases hs with
    | @acquire j hw hc =>
      by_cases e : i = j
      · subst e
        simp_all [State.set]
      · simp_all [State.set]
    | @start j hw =>
      by_cases e : i = j
      · subst e
        simp_all [State.set]
      · simp_all [State.set]
    | @finish j hw =>
      by_cases e : i = j
      · subst e
        simp_all [State.set]
      · simp_all [State.set]
    | @release j hw =>
      by_cases e : i = j
      · subst e
        simp_all [State.set]
      · simp_all [State.set]
    | @refuse j hw =>
      by_cases e : i = j
      · subst e
        simp_all [State.set]
      · simp_all [State.set]

end Limiter

open Limiter

/-- **C47**: at no point of any schedule do more than `limit` of the submitted functions run. -/
theorem C47_at_most_limit_run {limit : Nat} {s : Limiter.State n} {tr : List (Event n)} (h : Run limit s tr) :
    (Finset.univ.filter fun i => s.status i = .running).card ≤ limit := by
  obtain ⟨h1, h2⟩ := run_inv h
  refine le_trans (Finset.card_le_card ?_) (h1 ▸ h2 : count s holds ≤ limit)
  intro i hi
  rw [Finset.mem_filter] at hi ⊢
  rw [hi.2]
  exact ⟨hi.1, rfl⟩

/-- **C47**: every slot that was released is available again: a waiting call can acquire one unless `limit` calls hold one. -/
theorem C47_slots_are_reused {limit : Nat} {s : Limiter.State n} {tr : List (Event n)} (h : Run limit s tr) {i : Fin n}
    (hi : s.status i = .waiting)
    (hf : (Finset.univ.filter fun i => s.status i = .acquired ∨ s.status i = .running ∨ s.status i = .releasing).card < limit) :
    ∃ s', Step limit s (.acquire i) s' := by
  obtain ⟨h1, -⟩ := run_inv h
  refine ⟨_, .acquire hi (h1 ▸ lt_of_le_of_lt (Finset.card_le_card ?_) hf)⟩
  intro i hi
  rw [Finset.mem_filter] at hi ⊢
  refine ⟨hi.1, ?_⟩
  revert hi
  cases s.status i <;> simp [holds]

/-- **C47**: and calls holding a slot are never stuck, so that it is released in the end. -/
theorem C47_holders_move_on {limit : Nat} {s : Limiter.State n} {i : Fin n}
    (hi : s.status i = .acquired ∨ s.status i = .running ∨ s.status i = .releasing) :
    ∃ e s', Step limit s e s' ∧ s.status i ≠ s'.status i := by
  obtain h | h | h := hi
  · exact ⟨_, _, .start h, by simp [State.set, h]⟩
  · exact ⟨_, _, .finish h, by simp [State.set, h]⟩
  · exact ⟨_, _, .release h, by simp [State.set, h]⟩

/-- **C47**: a cancelled submission never runs: neither before nor after it was refused. -/
theorem C47_refused_never_runs {limit : Nat} {s : Limiter.State n} {tr : List (Event n)} (h : Run limit s tr) {i : Fin n}
    (hr : .refuse i ∈ tr) : .start i ∉ tr := by
  obtain ⟨h1, h2, -⟩ := waiting_iff h i
  exact h1 (.inr (h2.mpr hr))

/-- limit 1, three calls: the first runs and releases its slot, the second is cancelled meanwhile, the third runs -/
example : ∃ s : Limiter.State 3, Run 1 s [.start 2, .acquire 2, .release 0, .finish 0, .refuse 1, .start 0, .acquire 0] ∧
    s.status 2 = .running := by
  refine ⟨_, .step (.step (.step (.step (.step (.step (.step .init (.acquire rfl (by decide))) (.start rfl)) (.refuse rfl))
    (.finish rfl)) (.release rfl)) (.acquire rfl (by decide))) (.start rfl), rfl⟩

end Verif
