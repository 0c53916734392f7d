import Verif.Model.Err
import Mathlib.Data.Fin.Tuple.Basic

/-!
# Concurrent fetching (internal/concurrent/future.go, internal/concurrent/goroutine_limiter.go)

`Fetch α` is a computation made of database queries, sequencing, and the pattern used all over `schemaFetcher`: submit a
number of functions to a goroutine runner and then get all of their futures in order.  It has two meanings:

* `Fetch.eval` — the result when everything runs one after the other,
* `Fetch.process` — a transition system with all interleavings of the goroutines, including those that go on in the
  background after the code that started them has returned.

A query returns a fixed answer, unless the context is cancelled: then it may fail as well.  (A database that changes
between two queries is not modelled; `GetSchema` is documented as not atomic.)
-/

namespace Verif

/-- which `GoroutineRunner` — future.go:13-16: `SynchronousGoroutineRunner` (future.go:23-33) or
`LimitedGoroutineRunner` with its limit (goroutine_limiter.go:9-19) -/
inductive Runner where
  | synchronous
  | limited (limit : Nat)
  deriving DecidableEq, Repr

/-- a fetching computation.  `fork` submits the tasks in order, one future each (future.go:40-58), and then gets them in
order, stopping at the first error (future.go:60-72, 74-84). -/
inductive Fetch : Type → Type 1 where
  | ofExcept {α : Type} (r : Except Err α) : Fetch α
  | query {α : Type} (answer : Except Err α) : Fetch α
  | andThen {α β : Type} (p : Fetch β) (k : β → Fetch α) : Fetch α
  | fork {n : Nat} {β : Fin n → Type} (runner : Runner) (tasks : ∀ i, Fetch (β i)) : Fetch (∀ i, β i)

instance : Monad Fetch where
  pure a := .ofExcept (.ok a)
  bind := .andThen

/-- all results, or the first error -/
def collect : {n : Nat} → {β : Fin n → Type} → (∀ i, Except Err (β i)) → Except Err (∀ i, β i)
  | 0, _, _ => .ok fun i => i.elim0
  | _ + 1, _, rs =>
    match rs 0 with
    | .error e => .error e
    | .ok a =>
      match collect fun i => rs i.succ with
      | .error e => .error e
      | .ok f => .ok (Fin.cons a f)

/-- what the computation returns when run one step after the other -/
def Fetch.eval {α : Type} : Fetch α → Except Err α
  | .ofExcept r => r
  | .query answer => answer
  | .andThen p k =>
    match p.eval with
    | .error e => .error e
    | .ok a => (k a).eval
  | .fork _ tasks => collect fun i => (tasks i).eval

/-- every limiter has at least one slot -/
def Fetch.Limited {α : Type} : Fetch α → Prop
  | .ofExcept _ => True
  | .query _ => True
  | .andThen p k => p.Limited ∧ ∀ a, (k a).Limited
  | .fork runner tasks => (runner ≠ .limited 0) ∧ ∀ i, (tasks i).Limited

/-! ### transition systems -/

/-- a transition system.  The first argument of `step` says whether the context is cancelled. -/
structure Process (α : Type) where
  State : Type
  init : State
  step : Bool → State → State → Prop
  outcome : State → Option (Except Err α)

/-- the error of a cancelled context, `ctx.Err()` -/
def ctxErr : Err := .other "context"

/-- a value that is there without doing anything -/
def Process.ofExcept {α : Type} (r : Except Err α) : Process α where
  State := Unit
  init := ()
  step _ _ _ := False
  outcome _ := some r

/-- a query: one step to its answer, or to any error if the context is cancelled -/
def Process.query {α : Type} (answer : Except Err α) : Process α where
  State := Option (Except Err α)
  init := none
  step cancelled s s' := s = none ∧ (s' = some answer ∨ (cancelled ∧ ∃ e, s' = some (.error e)))
  outcome := id

/-- the states of a sequence: what is left of the first part goes on in the background of the second -/
structure SeqState (S : Type) {β : Type} (S' : β → Type) where
  first : S
  second : Option (Σ a, S' a)

/-- the steps of a sequence -/
inductive SeqStep {α β : Type} (p : Process β) (k : β → Process α) (cancelled : Bool) :
    SeqState p.State (fun a => (k a).State) → SeqState p.State (fun a => (k a).State) → Prop
  | first {s s' : p.State} {o} : p.step cancelled s s' → SeqStep p k cancelled ⟨s, o⟩ ⟨s', o⟩
  | start {s : p.State} {a : β} : p.outcome s = some (.ok a) → SeqStep p k cancelled ⟨s, none⟩ ⟨s, some ⟨a, (k a).init⟩⟩
  | second {s : p.State} {a : β} {t t' : (k a).State} : (k a).step cancelled t t' →
      SeqStep p k cancelled ⟨s, some ⟨a, t⟩⟩ ⟨s, some ⟨a, t'⟩⟩

/-- `a, err := p(); if err != nil { return err }; return k(a)` -/
def Process.andThen {α β : Type} (p : Process β) (k : β → Process α) : Process α where
  State := SeqState p.State fun a => (k a).State
  init := ⟨p.init, none⟩
  step := SeqStep p k
  outcome s :=
    match s.second with
    | some ⟨a, t⟩ => (k a).outcome t
    | none =>
      match p.outcome s.first with
      | some (.error e) => some (.error e)
      | _ => none

/-- how far the goroutine of a future is: still in the function, at the send (future.go:47), at the deferred release of the
slot (goroutine_limiter.go:27), or finished -/
inductive Phase (R : Type) where
  | running
  | sending (r : R)
  | releasing
  | finished

/-- a task: not submitted yet, or submitted.  A submitted task keeps its state, since goroutines it started may go on. -/
inductive TaskState (S R : Type) where
  | waiting
  | active (s : S) (phase : Phase R)

/-- whether a task holds a slot of the runner -/
def TaskState.holds {S R : Type} : TaskState S R → Bool
  | .waiting => false
  | .active _ .finished => false
  | .active _ _ => true

/-- how far the submitting code is: about to submit task `i`, about to get future `i`, in between receiving from and
re-sending to the channel of future `i` (future.go:65-68), or done -/
inductive MainState {n : Nat} (β : Fin n → Type) where
  | submitting (i : Nat)
  | getting (i : Nat)
  | resending (i : Fin n) (r : Except Err (β i))
  | returned (r : Except Err (∀ i, β i))

/-- `free` are the free slots of the semaphore, `chans` the contents of the channels, `vals` the values got so far -/
structure ForkState {n : Nat} (β : Fin n → Type) (S : Fin n → Type) where
  free : Nat
  tasks : ∀ i, TaskState (S i) (Except Err (β i))
  chans : ∀ i, List (Except Err (β i))
  vals : ∀ i, Option (β i)
  main : MainState β

/-- the number of functions that may run at once -/
def Runner.slots : Runner → Nat
  | .synchronous => 1
  | .limited limit => limit

/-- the capacity of a future's channel — future.go:42 -/
def chanCap : Nat := 1

/-- the synchronous runner runs the function within `Go` (future.go:30-33): the submitting code goes on only when no
submitted function is left -/
def Runner.ready {n : Nat} {β S : Fin n → Type} (runner : Runner) (s : ForkState β S) : Prop :=
  runner = .synchronous → ∀ i, (s.tasks i).holds = false

/-- the steps of submitted tasks and of the code that submits them and gets their futures -/
inductive ForkStep {n : Nat} {β : Fin n → Type} (runner : Runner) (ps : ∀ i, Process (β i)) (cancelled : Bool) :
    ForkState β (fun i => (ps i).State) → ForkState β (fun i => (ps i).State) → Prop
  /-- `l.sem.Acquire` and `go` (goroutine_limiter.go:22-29) -/
  | submit {s} (i : Fin n) : s.main = .submitting i → runner.ready s → 0 < s.free →
      ForkStep runner ps cancelled s { s with
        free := s.free - 1, tasks := Function.update s.tasks i (.active (ps i).init .running), main := .submitting (i + 1) }
  /-- `l.sem.Acquire` returns the error of the context (goroutine_limiter.go:22-24) -/
  | refuse {s} (i : Fin n) : s.main = .submitting i → cancelled = true → runner ≠ .synchronous →
      ForkStep runner ps cancelled s { s with main := .returned (.error ctxErr) }
  /-- everything is submitted -/
  | collect {s} : s.main = .submitting n → runner.ready s →
      ForkStep runner ps cancelled s { s with main := .getting 0 }
  /-- a step within a task, or of what it left in the background -/
  | task {s} (i : Fin n) {t t' : (ps i).State} {phase} : s.tasks i = .active t phase → (ps i).step cancelled t t' →
      ForkStep runner ps cancelled s { s with tasks := Function.update s.tasks i (.active t' phase) }
  /-- the function returns — future.go:46 -/
  | done {s} (i : Fin n) {t : (ps i).State} {r} : s.tasks i = .active t .running → (ps i).outcome t = some r →
      ForkStep runner ps cancelled s { s with tasks := Function.update s.tasks i (.active t (.sending r)) }
  /-- the result goes to the channel, which blocks while it is full — future.go:47-50 -/
  | send {s} (i : Fin n) {t : (ps i).State} {r} : s.tasks i = .active t (.sending r) → (s.chans i).length < chanCap →
      ForkStep runner ps cancelled s { s with
        tasks := Function.update s.tasks i (.active t .releasing), chans := Function.update s.chans i (s.chans i ++ [r]) }
  /-- `defer l.sem.Release(1)` — goroutine_limiter.go:27 -/
  | release {s} (i : Fin n) {t : (ps i).State} : s.tasks i = .active t .releasing →
      ForkStep runner ps cancelled s { s with
        free := s.free + 1, tasks := Function.update s.tasks i (.active t .finished) }
  /-- `case res := <-f.resultChan` — future.go:65 -/
  | receive {s} (i : Fin n) {r rest} : s.main = .getting i → runner.ready s → s.chans i = r :: rest →
      ForkStep runner ps cancelled s { s with chans := Function.update s.chans i rest, main := .resending i r }
  /-- `case <-ctx.Done()` — future.go:62-64 -/
  | giveUp {s} (i : Fin n) : s.main = .getting i → runner.ready s → cancelled = true →
      ForkStep runner ps cancelled s { s with main := .returned (.error ctxErr) }
  /-- the re-send, which blocks while the channel is full, and the next future — future.go:68-69, 80 -/
  | resendOk {s} (i : Fin n) {v} : s.main = .resending i (.ok v) → (s.chans i).length < chanCap →
      ForkStep runner ps cancelled s { s with
        chans := Function.update s.chans i (s.chans i ++ [.ok v]), vals := Function.update s.vals i (some v),
        main := .getting (i + 1) }
  /-- the re-send of an error, which is returned — future.go:68-69, 78-79 -/
  | resendError {s} (i : Fin n) {e} : s.main = .resending i (.error e) → (s.chans i).length < chanCap →
      ForkStep runner ps cancelled s { s with
        chans := Function.update s.chans i (s.chans i ++ [.error e]), main := .returned (.error e) }
  /-- all futures are got — future.go:83 -/
  | finish {s} {f : ∀ i, β i} : s.main = .getting n → (∀ i, s.vals i = some (f i)) →
      ForkStep runner ps cancelled s { s with main := .returned (.ok f) }

/-- submit all tasks, then get all futures in order -/
def Process.fork {n : Nat} {β : Fin n → Type} (runner : Runner) (ps : ∀ i, Process (β i)) : Process (∀ i, β i) where
  State := ForkState β fun i => (ps i).State
  init := { free := runner.slots, tasks := fun _ => .waiting, chans := fun _ => [], vals := fun _ => none, main := .submitting 0 }
  step := ForkStep runner ps
  outcome s :=
    match s.main with
    | .returned r => some r
    | _ => none

/-- the interleaved meaning of a fetching computation -/
def Fetch.process {α : Type} : Fetch α → Process α
  | .ofExcept r => .ofExcept r
  | .query answer => .query answer
  | .andThen p k => p.process.andThen fun a => (k a).process
  | .fork runner tasks => .fork runner fun i => (tasks i).process

/-- an execution: steps of the process, and at some point possibly the cancellation of the context.  The list records
whether the context was cancelled at each step. -/
inductive Process.Run {α : Type} (p : Process α) : Bool → p.State → List Bool → Prop
  | init : p.Run false p.init []
  | step {c s s' tr} : p.Run c s tr → p.step c s s' → p.Run c s' (c :: tr)
  | cancel {s tr} : p.Run false s tr → p.Run true s tr

end Verif
