import Verif.Model.Process
import Mathlib.Algebra.BigOperators.Fin
import Mathlib.Algebra.Order.BigOperators.Group.Finset

/-!
# Processes that always end, and always with the same result
-/

namespace Verif

/-- the result `r` is `v`, or the context is cancelled and `r` is some error -/
def Fits {α : Type} (c : Bool) (v r : Except Err α) : Prop := r = v ∨ (c = true ∧ ∃ e, r = .error e)

theorem Fits.mono {α : Type} {c : Bool} {v r : Except Err α} (h : Fits c v r) : Fits true v r :=
  h.imp id fun h => ⟨rfl, h.2⟩

theorem Fits.ok {α : Type} {c : Bool} {v : Except Err α} {a : α} (h : Fits c v (.ok a)) : v = .ok a := by
  obtain h | ⟨-, e, h⟩ := h
  · exact h.symm
  · cases h

/-- an invariant and a measure showing that the process ends with the result `v` -/
structure Good {α : Type} (p : Process α) (v : Except Err α) where
  inv : Bool → p.State → Prop
  measure : p.State → Nat
  init : inv false p.init
  cancel : ∀ s, inv false s → inv true s
  step : ∀ c s s', inv c s → p.step c s s' → inv c s' ∧ measure s' < measure s
  progress : ∀ c s, inv c s → p.outcome s = none → ∃ s', p.step c s s'
  stable : ∀ c s s' r, inv c s → p.outcome s = some r → p.step c s s' → p.outcome s' = some r
  fits : ∀ c s r, inv c s → p.outcome s = some r → Fits c v r

theorem Good.initAny {α : Type} {p : Process α} {v : Except Err α} (g : Good p v) (c : Bool) : g.inv c p.init := by
  cases c
  · exact g.init
  · exact g.cancel _ g.init

/-! ### values and queries -/

def Good.ofExcept {α : Type} (r : Except Err α) : Good (Process.ofExcept r) r where
  inv _ _ := True
  measure _ := 0
  init := trivial
  cancel _ _ := trivial
  step _ _ _ _ h := h.elim
  progress _ _ _ h := by cases h
  stable _ _ _ _ _ _ h := h.elim
  fits _ _ _ _ h := .inl (Option.some.inj h).symm

def Good.query {α : Type} (answer : Except Err α) : Good (Process.query answer) answer where
  inv c s := ∀ r, s = some r → Fits c answer r
  measure := fun | none => 1 | some _ => 0
  init := by intro r h; cases h
  cancel _ h r hr := (h r hr).mono
  step c s s' h hs := by
    obtain ⟨rfl, rfl | ⟨rfl, e, rfl⟩⟩ := hs
    · refine ⟨?_, Nat.zero_lt_one⟩
      rintro r ⟨⟩; exact .inl rfl
    · refine ⟨?_, Nat.zero_lt_one⟩
      rintro r ⟨⟩; exact .inr ⟨rfl, e, rfl⟩
  progress _ s _ h := ⟨some answer, h, .inl rfl⟩
  stable _ s _ r _ h hs := by
    have : s = some r := h
    rw [hs.1] at this; cases this
  fits _ _ _ h hr := h _ hr

/-! ### sequences -/

/-- the result of a sequence -/
def seqResult {α β : Type} (v : Except Err β) (w : β → Except Err α) : Except Err α :=
  match v with
  | .error e => .error e
  | .ok a => w a

/-- the measure of what comes after the first part -/
def restMeasure {α β : Type} {k : β → Process α} {w : β → Except Err α} (h : ∀ a, Good (k a) (w a)) : Except Err β → Nat
  | .error _ => 0
  | .ok a => (h a).measure (k a).init + 1

def Good.andThen {α β : Type} {p : Process β} {k : β → Process α} {v : Except Err β} {w : β → Except Err α}
    (g : Good p v) (h : ∀ a, Good (k a) (w a)) : Good (p.andThen k) (seqResult v w) where
  inv c s := g.inv c s.first ∧ ∀ a t, s.second = some ⟨a, t⟩ → v = .ok a ∧ (h a).inv c t ∧ p.outcome s.first = some (.ok a)
  measure s := g.measure s.first + match s.second with
    | none => restMeasure h v
    | some ⟨a, t⟩ => (h a).measure t
  init := ⟨g.init, by intro a t h; cases h⟩
  cancel s hs := ⟨g.cancel _ hs.1, fun a t e => ⟨(hs.2 a t e).1, (h a).cancel _ (hs.2 a t e).2.1, (hs.2 a t e).2.2⟩⟩
  step := by
    intro c s s' hs hstep
    cases hstep with
    | first hp =>
      obtain ⟨h1, h2⟩ := g.step c _ _ hs.1 hp
      refine ⟨⟨h1, fun a t e => ?_⟩, Nat.add_lt_add_right h2 _⟩
      obtain ⟨e1, e2, e3⟩ := hs.2 a t e
      exact ⟨e1, e2, g.stable c _ _ _ hs.1 e3 hp⟩
    | start ho =>
      rename_i s a
      have hv : v = .ok a := (g.fits c s _ hs.1 ho).ok
      refine ⟨⟨hs.1, ?_⟩, ?_⟩
      · rintro a' t ⟨⟩
        exact ⟨hv, (h a).initAny c, ho⟩
      · subst hv
        simp [restMeasure]
    | second ht =>
      rename_i s a t t'
      obtain ⟨e1, e2, e3⟩ := hs.2 a t rfl
      obtain ⟨h1, h2⟩ := (h a).step c _ _ e2 ht
      refine ⟨⟨hs.1, ?_⟩, Nat.add_lt_add_left h2 _⟩
      rintro a' t ⟨⟩
      exact ⟨e1, h1, e3⟩
  progress := by
    intro c s hs ho
    obtain ⟨s, o⟩ := s
    cases o with
    | none =>
      cases hp : p.outcome s with
      | none =>
        obtain ⟨s', h'⟩ := g.progress c s hs.1 hp
        exact ⟨_, .first h'⟩
      | some r =>
        cases r with
        | ok a => exact ⟨_, .start hp⟩
        | error e => simp [Process.andThen, hp] at ho
    | some x =>
      obtain ⟨a, t⟩ := x
      obtain ⟨t', h'⟩ := (h a).progress c t (hs.2 a t rfl).2.1 ho
      exact ⟨_, .second h'⟩
  stable := by
    intro c s s' r hs ho hstep
    cases hstep with
    | first hp =>
      rename_i s s' o
      cases o with
      | some x => exact ho
      | none =>
        revert ho
        simp only [Process.andThen]
        cases hq : p.outcome s with
        | none => simp
        | some q =>
          rw [g.stable c _ _ _ hs.1 hq hp]
          exact id
    | start ha => simp [Process.andThen, ha] at ho
    | second ht => exact (h _).stable c _ _ _ (hs.2 _ _ rfl).2.1 ho ht
  fits := by
    intro c s r hs ho
    obtain ⟨s, o⟩ := s
    cases o with
    | none =>
      simp only [Process.andThen] at ho
      split at ho
      · rename_i e he
        cases ho
        obtain hv | ⟨hc, -⟩ := g.fits c s _ hs.1 he
        · rw [← hv]; exact .inl rfl
        · exact .inr ⟨hc, e, rfl⟩
      · cases ho
    | some x =>
      obtain ⟨a, t⟩ := x
      obtain ⟨e1, e2, -⟩ := hs.2 a t rfl
      rw [e1]
      exact (h a).fits c t r e2 ho

/-! ### collecting results -/

theorem collect_ok {n : Nat} {β : Fin n → Type} {rs : ∀ i, Except Err (β i)} {f : ∀ i, β i} :
    collect rs = .ok f ↔ ∀ i, rs i = .ok (f i) := by
  induction n with
  | zero =>
    constructor
    · intro _ i; exact i.elim0
    · intro _; unfold collect; congr; funext i; exact i.elim0
  | succ n ih =>
    unfold collect
    constructor
    · intro h
      split at h
      · cases h
      · rename_i a ha
        split at h
        · cases h
        · rename_i g hg
          cases h
          intro i
          refine Fin.cases ?_ (fun j => ?_) i
          · rw [ha]; rfl
          · exact ih.mp hg j
    · intro h
      rw [h 0, ih.mpr fun i => h i.succ]
      simp only
      congr 1
      exact Fin.cons_self_tail f

theorem collect_error {n : Nat} {β : Fin n → Type} {rs : ∀ i, Except Err (β i)} {e : Err} (i : Fin n)
    (hi : rs i = .error e) (hlt : ∀ j < i, ∃ v, rs j = .ok v) : collect rs = .error e := by
  induction n with
  | zero => exact i.elim0
  | succ n ih =>
    unfold collect
    revert hi hlt
    refine Fin.cases ?_ (fun j => ?_) i
    · intro hi _
      rw [hi]
    · intro hi hlt
      obtain ⟨v, hv⟩ := hlt 0 (Fin.succ_pos _)
      rw [hv, ih j hi fun j' h' => hlt j'.succ (Fin.succ_lt_succ_iff.mpr h')]

/-! ### forks -/

section fork

variable {n : Nat} {β : Fin n → Type} {runner : Runner} {ps : ∀ i, Process (β i)} {vs : ∀ i, Except Err (β i)}

/-- the state of one task, its channel and what the submitting code has to do with it -/
def TaskInv {S R : Type} (outcome : S → Option R) (inv : S → Prop) (fits : R → Prop) (chan : List R) (held : R → Prop) :
    TaskState S R → Prop
  | .waiting => chan = []
  | .active t .running => inv t ∧ chan = []
  | .active t (.sending r) => inv t ∧ chan = [] ∧ outcome t = some r ∧ fits r
  | .active t .releasing => inv t ∧ ((∃ r, chan = [r] ∧ fits r) ∨ (chan = [] ∧ ∃ r, held r))
  | .active t .finished => inv t ∧ ((∃ r, chan = [r] ∧ fits r) ∨ (chan = [] ∧ ∃ r, held r))

/-- the task `i` has been submitted -/
def TaskState.isActive {S R : Type} : TaskState S R → Bool
  | .waiting => false
  | .active _ _ => true

/-- what is known at each point of the submitting code -/
def MainInv (c : Bool) (vs : ∀ i, Except Err (β i)) (vals : ∀ i, Option (β i)) (active : Fin n → Bool) : MainState β → Prop
  | .submitting k => k ≤ n ∧ ∀ i : Fin n, active i = decide (i.val < k)
  | .getting k => k ≤ n ∧ (∀ i, active i = true) ∧ ∀ i : Fin n, i.val < k → ∃ v, vals i = some v ∧ vs i = .ok v
  | .resending k r => (∀ i, active i = true) ∧ Fits c (vs k) r ∧ ∀ i : Fin n, i < k → ∃ v, vals i = some v ∧ vs i = .ok v
  | .returned r => Fits c (collect vs) r

/-- the submitting code holds the result `r` of task `i` -/
def Held (s : ForkState β (fun i => (ps i).State)) (i : Fin n) (r : Except Err (β i)) : Prop := s.main = .resending i r

structure ForkInv (g : ∀ i, Good (ps i) (vs i)) (runner : Runner) (c : Bool) (s : ForkState β fun i => (ps i).State) : Prop where
  task : ∀ i, TaskInv (ps i).outcome ((g i).inv c) (Fits c (vs i)) (s.chans i) (Held s i) (s.tasks i)
  main : MainInv c vs s.vals (fun i => (s.tasks i).isActive) s.main
  slots : s.free + ∑ i, (if (s.tasks i).holds then 1 else 0) = runner.slots
  held : ∀ i r, Held s i r → s.chans i = [] ∧ ∃ t, s.tasks i = .active t .releasing ∨ s.tasks i = .active t .finished

/-- the measure of a task -/
def taskMeasure {S R : Type} (m : S → Nat) (init : S) : TaskState S R → Nat
  | .waiting => m init + 4
  | .active t .running => m t + 3
  | .active t (.sending _) => m t + 2
  | .active t .releasing => m t + 1
  | .active t .finished => m t

/-- the measure of the submitting code -/
def mainMeasure : MainState β → Nat
  | .submitting k => (n - k) + 2 * n + 2
  | .getting k => 2 * (n - k) + 1
  | .resending k _ => 2 * (n - k)
  | .returned _ => 0

theorem TaskInv.imp {S R : Type} {outcome : S → Option R} {inv inv' : S → Prop} {fits fits' held held' : R → Prop} {chan : List R}
    (h1 : ∀ t, inv t → inv' t) (h2 : ∀ r, fits r → fits' r) (h3 : ∀ r, held r → held' r) {t : TaskState S R}
    (h : TaskInv outcome inv fits chan held t) : TaskInv outcome inv' fits' chan held' t := by
  match t with
  | .waiting => exact h
  | .active t .running => exact ⟨h1 _ h.1, h.2⟩
  | .active t (.sending r) => exact ⟨h1 _ h.1, h.2.1, h.2.2.1, h2 _ h.2.2.2⟩
  | .active t .releasing =>
    exact ⟨h1 _ h.1, h.2.imp (fun ⟨r, e, f⟩ => ⟨r, e, h2 _ f⟩) fun ⟨e, r, f⟩ => ⟨e, r, h3 _ f⟩⟩
  | .active t .finished =>
    exact ⟨h1 _ h.1, h.2.imp (fun ⟨r, e, f⟩ => ⟨r, e, h2 _ f⟩) fun ⟨e, r, f⟩ => ⟨e, r, h3 _ f⟩⟩

theorem TaskInv.inv_of {S R : Type} {outcome : S → Option R} {inv : S → Prop} {fits held : R → Prop} {chan : List R}
    {t : S} {phase : Phase R} (h : TaskInv outcome inv fits chan held (.active t phase)) : inv t := by
  match phase with
  | .running => exact h.1
  | .sending r => exact h.1
  | .releasing => exact h.1
  | .finished => exact h.1

theorem MainInv.cancel {vals : ∀ i, Option (β i)} {active : Fin n → Bool} {m : MainState β}
    (h : MainInv false vs vals active m) : MainInv true vs vals active m := by
  match m with
  | .submitting k => exact h
  | .getting k => exact h
  | .resending k r => exact ⟨h.1, h.2.1.mono, h.2.2⟩
  | .returned r => exact h.mono

/-- a sum of which one term changes -/
theorem sum_update {ι : Type} [Fintype ι] [DecidableEq ι] {f f' : ι → Nat} (i : ι) (h : ∀ j, j ≠ i → f' j = f j) :
    ∑ j, f' j + f i = ∑ j, f j + f' i := by
  rw [← Finset.add_sum_erase _ f (Finset.mem_univ i), ← Finset.add_sum_erase _ f' (Finset.mem_univ i)]
  have : ∑ j ∈ Finset.univ.erase i, f' j = ∑ j ∈ Finset.univ.erase i, f j :=
    Finset.sum_congr rfl fun j hj => h j (Finset.ne_of_mem_erase hj)
  omega

/-- the measure of a fork -/
def forkMeasure (g : ∀ i, Good (ps i) (vs i)) (s : ForkState β fun i => (ps i).State) : Nat :=
  mainMeasure s.main + ∑ i, taskMeasure (g i).measure (ps i).init (s.tasks i)

theorem holds_update (s : ForkState β fun i => (ps i).State) (i : Fin n) (x : TaskState (ps i).State (Except Err (β i))) :
    ∑ j, (if (Function.update s.tasks i x j).holds then 1 else 0) + (if (s.tasks i).holds then 1 else 0)
      = ∑ j, (if (s.tasks j).holds then 1 else 0) + (if x.holds then 1 else 0) := by
  have := sum_update (f := fun j => if (s.tasks j).holds then 1 else 0)
    (f' := fun j => if (Function.update s.tasks i x j).holds then 1 else 0) i fun j hj => by
      rw [Function.update_of_ne hj]
  simpa only [Function.update_self] using this

theorem measure_update (g : ∀ i, Good (ps i) (vs i)) (s : ForkState β fun i => (ps i).State) (i : Fin n)
    (x : TaskState (ps i).State (Except Err (β i))) :
    ∑ j, taskMeasure (g j).measure (ps j).init (Function.update s.tasks i x j)
        + taskMeasure (g i).measure (ps i).init (s.tasks i)
      = ∑ j, taskMeasure (g j).measure (ps j).init (s.tasks j) + taskMeasure (g i).measure (ps i).init x := by
  have := sum_update (f := fun j => taskMeasure (g j).measure (ps j).init (s.tasks j))
    (f' := fun j => taskMeasure (g j).measure (ps j).init (Function.update s.tasks i x j)) i fun j hj => by
      rw [Function.update_of_ne hj]
  simpa only [Function.update_self] using this

/-- a step of the goroutine of task `i` -/
theorem fork_task (g : ∀ i, Good (ps i) (vs i)) {c : Bool} {s : ForkState β fun i => (ps i).State}
    (h : ForkInv g runner c s) (i : Fin n) {x : TaskState (ps i).State (Except Err (β i))} {chan : List (Except Err (β i))}
    {free : Nat} (hinv : TaskInv (ps i).outcome ((g i).inv c) (Fits c (vs i)) chan (Held s i) x)
    (hact : x.isActive = (s.tasks i).isActive)
    (hfree : free + (if x.holds then 1 else 0) = s.free + (if (s.tasks i).holds then 1 else 0))
    (hheld : ∀ r, Held s i r → chan = [] ∧ ∃ t, x = .active t .releasing ∨ x = .active t .finished)
    (hlt : taskMeasure (g i).measure (ps i).init x < taskMeasure (g i).measure (ps i).init (s.tasks i)) :
    ForkInv g runner c { s with free := free, tasks := Function.update s.tasks i x, chans := Function.update s.chans i chan } ∧
      forkMeasure g { s with free := free, tasks := Function.update s.tasks i x, chans := Function.update s.chans i chan }
        < forkMeasure g s := by
  refine ⟨⟨fun j => ?_, ?_, ?_, fun j r hr => ?_⟩, ?_⟩
  · by_cases e : j = i
    · subst e; simp only [Function.update_self]; exact hinv
    · simp only [Function.update_of_ne e]; exact h.task j
  · have : (fun j => (Function.update s.tasks i x j).isActive) = fun j => (s.tasks j).isActive := by
      funext j
      by_cases e : j = i
      · subst e; rw [Function.update_self, hact]
      · rw [Function.update_of_ne e]
    show MainInv c vs s.vals (fun j => (Function.update s.tasks i x j).isActive) s.main
    rw [this]
    exact h.main
  · have := holds_update s i x
    have h2 := h.slots
    simp only at *
    omega
  · by_cases e : j = i
    · subst e; simpa only [Function.update_self] using hheld r hr
    · simpa only [Function.update_of_ne e] using h.held j r hr
  · have := measure_update g s i x
    unfold forkMeasure
    simp only at *
    omega

/-- a step of the submitting code that touches no task -/
theorem fork_main (g : ∀ i, Good (ps i) (vs i)) {c : Bool} {s : ForkState β fun i => (ps i).State}
    (h : ForkInv g runner c s) {m : MainState β} {vals : ∀ i, Option (β i)} {chans : ∀ i, List (Except Err (β i))}
    (hchan : ∀ i, TaskInv (ps i).outcome ((g i).inv c) (Fits c (vs i)) (chans i) (fun r => m = .resending i r) (s.tasks i))
    (hm : MainInv c vs vals (fun i => (s.tasks i).isActive) m)
    (hheld : ∀ i r, m = .resending i r → chans i = [] ∧ ∃ t, s.tasks i = .active t .releasing ∨ s.tasks i = .active t .finished)
    (hlt : mainMeasure m < mainMeasure s.main) :
    ForkInv g runner c { s with main := m, vals := vals, chans := chans } ∧
      forkMeasure g { s with main := m, vals := vals, chans := chans } < forkMeasure g s :=
  ⟨⟨hchan, hm, h.slots, hheld⟩, Nat.add_lt_add_right hlt _⟩

/-- the submitting code has no result in its hands before and after -/
theorem fork_main' (g : ∀ i, Good (ps i) (vs i)) {c : Bool} {s : ForkState β fun i => (ps i).State}
    (h : ForkInv g runner c s) {m : MainState β} (hs : ∀ i r, s.main ≠ .resending i r) (hm' : ∀ i r, m ≠ .resending i r)
    (hm : MainInv c vs s.vals (fun i => (s.tasks i).isActive) m) (hlt : mainMeasure m < mainMeasure s.main) :
    ForkInv g runner c { s with main := m } ∧ forkMeasure g { s with main := m } < forkMeasure g s :=
  fork_main g h (fun i => (h.task i).imp (fun _ => id) (fun _ => id) fun r hr => absurd hr (hs i r)) hm
    (fun i r e => absurd e (hm' i r)) hlt

theorem fork_step (g : ∀ i, Good (ps i) (vs i)) {c : Bool} {s s' : ForkState β fun i => (ps i).State}
    (h : ForkInv g runner c s) (hs : ForkStep runner ps c s s') : ForkInv g runner c s' ∧ forkMeasure g s' < forkMeasure g s := by
  cases hs with
  | submit i hm hr hf =>
    have hmain := h.main
    rw [hm] at hmain
    obtain ⟨hk, hact⟩ := hmain
    have hw : s.tasks i = .waiting := by
      have := hact i
      simp only [lt_self_iff_false, decide_false] at this
      cases e : s.tasks i with
      | waiting => rfl
      | active t ph => rw [e] at this; cases this
    have hti := h.task i
    rw [hw] at hti
    have hnh : ∀ j r, ¬ Held s j r := fun j r e => by rw [Held, hm] at e; cases e
    refine ⟨⟨fun j => ?_, ?_, ?_, fun j r hr => by cases hr⟩, ?_⟩
    · by_cases e : j = i
      · subst e
        simp only [Function.update_self]
        exact ⟨(g j).initAny c, hti⟩
      · simp only [Function.update_of_ne e]
        exact (h.task j).imp (fun _ => id) (fun _ => id) fun r hr => absurd hr (hnh j r)
    · refine ⟨by omega, fun j => ?_⟩
      by_cases e : j = i
      · subst e
        simp [Function.update_self, TaskState.isActive]
      · simp only [Function.update_of_ne e]
        refine (hact j).trans ?_
        have : j.val ≠ i.val := fun e' => e (Fin.ext e')
        congr 1
        apply propext
        omega
    · have h1 := holds_update s i (.active (ps i).init .running)
      have h2 := h.slots
      rw [hw] at h1
      have e1 : (if (TaskState.waiting : TaskState (ps i).State (Except Err (β i))).holds = true then 1 else 0) = 0 := rfl
      have e2 : (if (TaskState.active (ps i).init .running : TaskState (ps i).State (Except Err (β i))).holds = true then 1 else 0) = 1 := rfl
      rw [e1, e2] at h1
      simp only
      omega
    · have h1 := measure_update g s i (.active (ps i).init .running)
      rw [hw] at h1
      have e1 : taskMeasure (g i).measure (ps i).init (TaskState.waiting : TaskState (ps i).State (Except Err (β i)))
        = (g i).measure (ps i).init + 4 := rfl
      have e2 : taskMeasure (g i).measure (ps i).init (.active (ps i).init .running : TaskState (ps i).State (Except Err (β i)))
        = (g i).measure (ps i).init + 3 := rfl
      rw [e1, e2] at h1
      unfold forkMeasure
      simp only [hm, mainMeasure]
      omega
  | refuse i hm hc hr =>
    refine fork_main' g h (by simp [hm]) (by simp) (.inr ⟨hc, _, rfl⟩) ?_
    rw [hm]; simp only [mainMeasure]; omega
  | collect hm hr =>
    have hmain := h.main
    rw [hm] at hmain
    refine fork_main' g h (by simp [hm]) (by simp) ⟨Nat.zero_le _, fun i => ?_, fun i hi => absurd hi (Nat.not_lt_zero _)⟩ ?_
    · rw [hmain.2 i]; simp
    · rw [hm]; simp only [mainMeasure]; omega
  | task i ht hst =>
    rename_i t t' phase
    have hti := h.task i
    rw [ht] at hti
    obtain ⟨h1, h2⟩ := (g i).step c _ _ hti.inv_of hst
    have e : s.chans = Function.update s.chans i (s.chans i) := (Function.update_eq_self i s.chans).symm
    have key := fork_task g h i (x := .active t' phase) (chan := s.chans i) (free := s.free) ?_ ?_ ?_ ?_ ?_
    · rwa [← e] at key
    · match phase with
      | .running => exact ⟨h1, hti.2⟩
      | .sending r => exact ⟨h1, hti.2.1, (g i).stable c _ _ _ hti.1 hti.2.2.1 hst, hti.2.2.2⟩
      | .releasing => exact ⟨h1, hti.2⟩
      | .finished => exact ⟨h1, hti.2⟩
    · rw [ht]; rfl
    · rw [ht]; cases phase <;> rfl
    · intro r hr
      obtain ⟨e1, t'', e2⟩ := h.held i r hr
      refine ⟨e1, t', ?_⟩
      rw [ht] at e2
      obtain e2 | e2 := e2 <;> cases e2
      · exact .inl rfl
      · exact .inr rfl
    · rw [ht]
      match phase with
      | .running => simp only [taskMeasure]; omega
      | .sending r => simp only [taskMeasure]; omega
      | .releasing => simp only [taskMeasure]; omega
      | .finished => simp only [taskMeasure]; omega
  | done i ht ho =>
    rename_i t r
    have hti := h.task i
    rw [ht] at hti
    have e : s.chans = Function.update s.chans i (s.chans i) := (Function.update_eq_self i s.chans).symm
    have key := fork_task g h i (x := .active t (.sending r)) (chan := s.chans i) (free := s.free) ?_ ?_ ?_ ?_ ?_
    · rwa [← e] at key
    · exact ⟨hti.1, hti.2, ho, (g i).fits c t r hti.1 ho⟩
    · rw [ht]; rfl
    · rw [ht]; rfl
    · intro r' hr
      obtain ⟨e1, t'', e2⟩ := h.held i r' hr
      rw [ht] at e2
      obtain e2 | e2 := e2 <;> cases e2
    · rw [ht]; simp only [taskMeasure]; omega
  | send i ht hlen =>
    rename_i t r
    have hti := h.task i
    rw [ht] at hti
    refine fork_task g h i (x := .active t .releasing) (chan := s.chans i ++ [r]) (free := s.free) ?_ ?_ ?_ ?_ ?_
    · rw [hti.2.1]
      exact ⟨hti.1, .inl ⟨r, rfl, hti.2.2.2⟩⟩
    · rw [ht]; rfl
    · rw [ht]; rfl
    · intro r' hr
      obtain ⟨e1, t'', e2⟩ := h.held i r' hr
      rw [ht] at e2
      obtain e2 | e2 := e2 <;> cases e2
    · rw [ht]; simp only [taskMeasure]; omega
  | release i ht =>
    rename_i t
    have hti := h.task i
    rw [ht] at hti
    have e : s.chans = Function.update s.chans i (s.chans i) := (Function.update_eq_self i s.chans).symm
    have key := fork_task g h i (x := .active t .finished) (chan := s.chans i) (free := s.free + 1) ?_ ?_ ?_ ?_ ?_
    · rwa [← e] at key
    · exact hti
    · rw [ht]; rfl
    · rw [ht]; rfl
    · intro r hr
      exact ⟨(h.held i r hr).1, t, .inr rfl⟩
    · rw [ht]; simp only [taskMeasure]; omega
  | receive i hm hr hc =>
    rename_i r rest
    have hmain := h.main
    rw [hm] at hmain
    have hti := h.task i
    have hnh : ∀ j r, ¬ Held s j r := fun j r e => by rw [Held, hm] at e; cases e
    have key : rest = [] ∧ Fits c (vs i) r ∧ ∃ t, s.tasks i = .active t .releasing ∨ s.tasks i = .active t .finished := by
      rw [hc] at hti
      match e : s.tasks i with
      | .waiting => rw [e] at hti; cases hti
      | .active t .running => rw [e] at hti; cases hti.2
      | .active t (.sending _) => rw [e] at hti; cases hti.2.1
      | .active t .releasing =>
        rw [e] at hti
        obtain ⟨-, ⟨r', e', f⟩ | ⟨e', -⟩⟩ := hti
        · cases e'; exact ⟨rfl, f, t, .inl rfl⟩
        · cases e'
      | .active t .finished =>
        rw [e] at hti
        obtain ⟨-, ⟨r', e', f⟩ | ⟨e', -⟩⟩ := hti
        · cases e'; exact ⟨rfl, f, t, .inr rfl⟩
        · cases e'
    obtain ⟨rfl, hf, t, ht⟩ := key
    refine fork_main g h (vals := s.vals) (fun j => ?_) ⟨hmain.2.1, hf, fun j hj => hmain.2.2 j hj⟩ (fun j r' e => ?_) ?_
    · by_cases e : j = i
      · subst e
        rw [Function.update_self]
        obtain ht | ht := ht
        · rw [ht] at hti ⊢
          exact ⟨hti.1, .inr ⟨rfl, r, rfl⟩⟩
        · rw [ht] at hti ⊢
          exact ⟨hti.1, .inr ⟨rfl, r, rfl⟩⟩
      · rw [Function.update_of_ne e]
        exact (h.task j).imp (fun _ => id) (fun _ => id) fun r hr => absurd hr (hnh j r)
    · cases e
      rw [Function.update_self]
      exact ⟨rfl, t, ht⟩
    · rw [hm]; simp only [mainMeasure]; omega
  | giveUp i hm hr hc =>
    refine fork_main' g h (by simp [hm]) (by simp) (.inr ⟨hc, _, rfl⟩) ?_
    rw [hm]; simp only [mainMeasure]; omega
  | resendOk i hm hlen =>
    rename_i v
    have hmain := h.main
    rw [hm] at hmain
    obtain ⟨hact, hf, hlt⟩ := hmain
    obtain ⟨he, t, ht⟩ := h.held i _ hm
    have hti := h.task i
    refine fork_main g h (fun j => ?_) ⟨by omega, hact, fun j hj => ?_⟩ (fun j r' e => by cases e) ?_
    · by_cases e : j = i
      · subst e
        rw [Function.update_self, he]
        obtain ht | ht := ht
        · rw [ht] at hti ⊢
          exact ⟨hti.1, .inl ⟨_, rfl, hf⟩⟩
        · rw [ht] at hti ⊢
          exact ⟨hti.1, .inl ⟨_, rfl, hf⟩⟩
      · rw [Function.update_of_ne e]
        refine (h.task j).imp (fun _ => id) (fun _ => id) fun r hr => ?_
        rw [Held, hm] at hr
        cases hr
        exact absurd rfl e
    · by_cases e : j = i
      · subst e
        rw [Function.update_self]
        exact ⟨v, rfl, hf.ok⟩
      · rw [Function.update_of_ne e]
        have : j.val ≠ i.val := fun e' => e (Fin.ext e')
        exact hlt j (Fin.lt_def.mpr (by omega))
    · rw [hm]; simp only [mainMeasure]; omega
  | resendError i hm hlen =>
    rename_i err
    have hmain := h.main
    rw [hm] at hmain
    obtain ⟨hact, hf, hlt⟩ := hmain
    obtain ⟨he, t, ht⟩ := h.held i _ hm
    have hti := h.task i
    refine fork_main g h (vals := s.vals) (fun j => ?_) ?_ (fun j r' e => by cases e) ?_
    · by_cases e : j = i
      · subst e
        rw [Function.update_self, he]
        obtain ht | ht := ht
        · rw [ht] at hti ⊢
          exact ⟨hti.1, .inl ⟨_, rfl, hf⟩⟩
        · rw [ht] at hti ⊢
          exact ⟨hti.1, .inl ⟨_, rfl, hf⟩⟩
      · rw [Function.update_of_ne e]
        refine (h.task j).imp (fun _ => id) (fun _ => id) fun r hr => ?_
        rw [Held, hm] at hr
        cases hr
        exact absurd rfl e
    · obtain hf | ⟨hc, -⟩ := hf
      · exact .inl (collect_error i hf.symm fun j hj => (hlt j hj).imp fun v hv => hv.2).symm
      · exact .inr ⟨hc, _, rfl⟩
    · rw [hm]; simp only [mainMeasure]; omega
  | finish hm hv =>
    rename_i f
    have hmain := h.main
    rw [hm] at hmain
    refine fork_main' g h (by simp [hm]) (by simp) (.inl ?_) ?_
    · refine (collect_ok.mpr fun i => ?_).symm
      obtain ⟨v, e1, e2⟩ := hmain.2.2 i i.isLt
      rw [hv i] at e1
      cases e1
      exact e2
    · rw [hm]; simp only [mainMeasure]; omega

/-- a task that holds a slot can go on -/
theorem task_progress (g : ∀ i, Good (ps i) (vs i)) {c : Bool} {s : ForkState β fun i => (ps i).State}
    (h : ForkInv g runner c s) (i : Fin n) (hi : (s.tasks i).holds = true) : ∃ s', ForkStep runner ps c s s' := by
  have hti := h.task i
  match e : s.tasks i with
  | .waiting => rw [e] at hi; cases hi
  | .active t .finished => rw [e] at hi; cases hi
  | .active t .running =>
    rw [e] at hti
    cases ho : (ps i).outcome t with
    | none =>
      obtain ⟨t', ht'⟩ := (g i).progress c t hti.1 ho
      exact ⟨_, .task i e ht'⟩
    | some r => exact ⟨_, .done i e ho⟩
  | .active t (.sending r) =>
    rw [e] at hti
    exact ⟨_, .send i e (by rw [hti.2.1]; exact Nat.zero_lt_one)⟩
  | .active t .releasing => exact ⟨_, .release i e⟩

theorem fork_progress (g : ∀ i, Good (ps i) (vs i)) (hr : runner ≠ .limited 0) {c : Bool}
    {s : ForkState β fun i => (ps i).State} (h : ForkInv g runner c s) (ho : ∀ r, s.main ≠ .returned r) :
    ∃ s', ForkStep runner ps c s s' := by
  by_cases hh : ∃ i, (s.tasks i).holds = true
  · obtain ⟨i, hi⟩ := hh
    exact task_progress g h i hi
  have hh : ∀ i, (s.tasks i).holds = false := fun i => by simpa using fun e => hh ⟨i, e⟩
  have hready : runner.ready s := fun _ => hh
  have hmain := h.main
  cases hm : s.main with
  | submitting k =>
    rw [hm] at hmain
    obtain hk | rfl := Nat.lt_or_eq_of_le hmain.1
    · refine ⟨_, .submit ⟨k, hk⟩ hm hready ?_⟩
      have := h.slots
      simp only [hh] at this
      simp at this
      rw [this]
      cases runner with
      | synchronous => exact Nat.zero_lt_one
      | limited l =>
        cases l with
        | zero => exact absurd rfl hr
        | succ l => exact Nat.succ_pos _
    · exact ⟨_, .collect hm hready⟩
  | getting k =>
    rw [hm] at hmain
    obtain hk | rfl := Nat.lt_or_eq_of_le hmain.1
    · have hti := h.task ⟨k, hk⟩
      have ha : (s.tasks ⟨k, hk⟩).isActive = true := hmain.2.1 ⟨k, hk⟩
      have hf := hh ⟨k, hk⟩
      match e : s.tasks ⟨k, hk⟩ with
      | .waiting => rw [e] at ha; cases ha
      | .active t .running => rw [e] at hf; cases hf
      | .active t (.sending r) => rw [e] at hf; cases hf
      | .active t .releasing => rw [e] at hf; cases hf
      | .active t .finished =>
        rw [e] at hti
        obtain ⟨-, ⟨r, e', -⟩ | ⟨-, r, hr⟩⟩ := hti
        · exact ⟨_, .receive ⟨k, hk⟩ hm hready e'⟩
        · rw [Held, hm] at hr; cases hr
    · refine ⟨_, .finish (f := fun i => (hmain.2.2 i i.isLt).choose) hm fun i => (hmain.2.2 i i.isLt).choose_spec.1⟩
  | resending k r =>
    have he := (h.held k r hm).1
    cases r with
    | ok v => exact ⟨_, .resendOk k hm (by rw [he]; exact Nat.zero_lt_one)⟩
    | error e => exact ⟨_, .resendError k hm (by rw [he]; exact Nat.zero_lt_one)⟩
  | returned r => exact absurd hm (ho r)

theorem ForkInv.cancel {g : ∀ i, Good (ps i) (vs i)} {s : ForkState β fun i => (ps i).State}
    (h : ForkInv g runner false s) : ForkInv g runner true s :=
  ⟨fun i => (h.task i).imp ((g i).cancel) (fun _ => Fits.mono) fun _ => id, h.main.cancel, h.slots, h.held⟩

def Good.fork (g : ∀ i, Good (ps i) (vs i)) (hr : runner ≠ .limited 0) : Good (Process.fork runner ps) (collect vs) where
  inv := ForkInv g runner
  measure := forkMeasure g
  init := by
    refine ⟨fun i => rfl, ⟨Nat.zero_le _, fun i => by simp [Process.fork, TaskState.isActive]⟩, ?_, fun i r h => by cases h⟩
    simp [Process.fork, TaskState.holds]
  cancel _ := ForkInv.cancel
  step _ _ _ h hs := fork_step g h hs
  progress c s h ho := by
    refine fork_progress g hr h fun r hm => ?_
    simp [Process.fork, hm] at ho
  stable := by
    intro c s s' r h ho hs
    have hm : s.main = .returned r := by
      simp only [Process.fork] at ho
      split at ho
      · cases ho; assumption
      · cases ho
    have : s'.main = .returned r := by
      cases hs with
      | submit i h1 => rw [hm] at h1; cases h1
      | refuse i h1 => rw [hm] at h1; cases h1
      | collect h1 => rw [hm] at h1; cases h1
      | task i h1 => exact hm
      | done i h1 => exact hm
      | send i h1 => exact hm
      | release i h1 => exact hm
      | receive i h1 => rw [hm] at h1; cases h1
      | giveUp i h1 => rw [hm] at h1; cases h1
      | resendOk i h1 => rw [hm] at h1; cases h1
      | resendError i h1 => rw [hm] at h1; cases h1
      | finish h1 => rw [hm] at h1; cases h1
    simp [Process.fork, this]
  fits c s r h ho := by
    have hm : s.main = .returned r := by
      simp only [Process.fork] at ho
      split at ho
      · cases ho; assumption
      · cases ho
    have := h.main
    rw [hm] at this
    exact this

end fork

/-- every fetching computation ends, with the result of running it sequentially -/
theorem fetch_good {α : Type} (f : Fetch α) (h : f.Limited) : Nonempty (Good f.process f.eval) := by
  induction f with
  | ofExcept r => exact ⟨.ofExcept r⟩
  | query a => exact ⟨.query a⟩
  | andThen p k ihp ihk =>
    obtain ⟨g⟩ := ihp h.1
    have hk := fun a => (ihk a (h.2 a)).some
    have e : (Fetch.andThen p k).eval = seqResult p.eval fun a => (k a).eval := by
      rw [Fetch.eval]
      cases p.eval <;> rfl
    rw [e]
    exact ⟨g.andThen hk⟩
  | fork runner tasks ih =>
    exact ⟨.fork (fun i => (ih i (h.2 i)).some) h.1⟩

end Verif
