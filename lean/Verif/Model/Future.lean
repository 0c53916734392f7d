/-!
# internal/concurrent: one future with any number of `Get` calls, and the goroutine limiter

Both are step relations; one step is one communication, so every interleaving of the goroutines is a sequence of steps.
-/

namespace Verif.Future

/-- the goroutine of `SubmitFuture` — future.go:43-49: `fn` is running; it returned and `future.resultChan <- r` is next; the
send is done (what was sent is kept to state properties) -/
inductive Producer (R : Type) where
  | running
  | sending (r : R)
  | finished (r : R)
  deriving DecidableEq

/-- a call of `Get` — future.go:57-69: in the `select` (or not yet there); received, and `f.resultChan <- res` is next;
returned the result; returned `ctx.Err()` -/
inductive Getter (R : Type) where
  | waiting
  | resending (r : R)
  | returned (r : R)
  | cancelled
  deriving DecidableEq

/-- one future: the producer, what is in its channel, and `n` calls of `Get` -/
structure State (R : Type) (n : Nat) where
  producer : Producer R
  chan : List R
  getter : Fin n → Getter R

/-- the capacity in `make(chan result[T], 1)` — future.go:40 -/
def capacity : Nat := 1

variable {R : Type} {n : Nat}

/-- at the time `SubmitFuture` makes the channel -/
def init : State R n := ⟨.running, [], fun _ => .waiting⟩

/-- a change of one getter -/
def State.setGetter (s : State R n) (i : Fin n) (g : Getter R) : Fin n → Getter R := fun j => if j = i then g else s.getter j

/-- the steps but for cancellations -/
inductive Move : State R n → State R n → Prop
  /-- `fn` returns -/
  | compute {s r} : s.producer = .running → Move s { s with producer := .sending r }
  /-- the send of line 45 -/
  | send {s r} : s.producer = .sending r → s.chan.length < capacity →
      Move s { s with producer := .finished r, chan := s.chan ++ [r] }
  /-- the receive of line 62 -/
  | receive {s i r rest} : s.getter i = .waiting → s.chan = r :: rest →
      Move s { s with chan := rest, getter := s.setGetter i (.resending r) }
  /-- the send of line 65 and the return -/
  | resend {s i r} : s.getter i = .resending r → s.chan.length < capacity →
      Move s { s with chan := s.chan ++ [r], getter := s.setGetter i (.returned r) }

/-- all steps: a call of `Get` that waits may also see its context done (line 59) at any time -/
inductive Step : State R n → State R n → Prop
  | move {s s'} : Move s s' → Step s s'
  | cancel {s i} : s.getter i = .waiting → Step s { s with getter := s.setGetter i .cancelled }

/-- the states after `k` steps of some interleaving -/
inductive Reach : Nat → State R n → Prop
  | init : Reach 0 init
  | step {k s s'} : Reach k s → Step s s' → Reach (k + 1) s'

end Verif.Future

namespace Verif.Limiter

/-- a call of `Go(ctx, fn)` — goroutine_limiter.go:21-32: waiting in `Acquire`; acquired; `fn` runs in the new goroutine;
`fn` is done and the deferred `Release` is next; released; `Acquire` returned an error -/
inductive Status where
  | waiting
  | acquired
  | running
  | releasing
  | released
  | refused
  deriving DecidableEq

/-- what happens to a call -/
inductive Event (n : Nat) where
  | acquire (i : Fin n)
  | start (i : Fin n)
  | finish (i : Fin n)
  | release (i : Fin n)
  | refuse (i : Fin n)
  deriving DecidableEq

/-- the semaphore (golang.org/x/sync/semaphore, third party): its size and how much of it is taken; and the calls -/
structure State (n : Nat) where
  cur : Nat
  status : Fin n → Status

variable {n : Nat}

def init : State n := ⟨0, fun _ => .waiting⟩

def State.set (s : State n) (i : Fin n) (x : Status) : Fin n → Status := fun j => if j = i then x else s.status j

/-- The steps.  `Acquire` succeeds only while the semaphore has room; which of the waiting calls gets it is left open. A call can be
refused at any time while it waits (its context is done). -/
inductive Step (limit : Nat) : State n → Event n → State n → Prop
  | acquire {s i} : s.status i = .waiting → s.cur < limit → Step limit s (.acquire i) ⟨s.cur + 1, s.set i .acquired⟩
  | start {s i} : s.status i = .acquired → Step limit s (.start i) ⟨s.cur, s.set i .running⟩
  | finish {s i} : s.status i = .running → Step limit s (.finish i) ⟨s.cur, s.set i .releasing⟩
  | release {s i} : s.status i = .releasing → Step limit s (.release i) ⟨s.cur - 1, s.set i .released⟩
  | refuse {s i} : s.status i = .waiting → Step limit s (.refuse i) ⟨s.cur, s.set i .refused⟩

/-- executions with their events, the last one first -/
inductive Run (limit : Nat) : State n → List (Event n) → Prop
  | init : Run limit init []
  | step {s tr e s'} : Run limit s tr → Step limit s e s' → Run limit s' (e :: tr)

end Verif.Limiter
