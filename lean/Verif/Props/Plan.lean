import Verif.Model.Plan
import Verif.Samples.Basic

/-!
# C30, C31, C32: plans and their modifiers
-/

namespace Verif

namespace Slice

variable {α : Type}

theorem overwrite_length (l : List α) (i : Nat) (xs : List α) (h : i + xs.length ≤ l.length) :
    (overwrite l i xs).length = l.length := by
  simp only [overwrite, List.length_append, List.length_take, List.length_drop]; omega

theorem overwrite_eq (l : List α) (i : Nat) (xs : List α) (h : i + xs.length ≤ l.length) :
    overwrite l i xs = l.take i ++ xs ++ l.drop (i + xs.length) := by
  unfold overwrite
  have : (xs ++ l.drop (i + xs.length)).length ≤ l.length - i := by
    simp only [List.length_append, List.length_drop]; omega
  rw [List.take_of_length_le this, List.append_assoc]

theorem array_set_self {s : Slice} {h : Heap α} (hs : s.arr < h.length) (a : List α) :
    s.array (h.set s.arr a) = a := by
  simp [array, List.getD_eq_getElem?_getD, hs]

theorem append_read (zero : α) (grow : Nat) {s : Slice} {h : Heap α} (hs : s.Ok h) (xs : List α) :
    (s.append zero grow xs h).1.read (s.append zero grow xs h).2 = s.read h ++ xs := by
  unfold append
  have hc := hs.cap; have hl := hs.len
  split
  · rename_i hcap
    have hle : s.off + s.len + xs.length ≤ (s.array h).length := by omega
    have : ({ s with len := s.len + xs.length } : Slice).array (h.set s.arr (overwrite (s.array h) (s.off + s.len) xs)) =
        overwrite (s.array h) (s.off + s.len) xs := array_set_self (s := s) hs.arr _
    simp only [read, this]
    rw [overwrite_eq _ _ _ hle]
    have e1 : (s.array h).take (s.off + s.len) = (s.array h).take s.off ++ ((s.array h).drop s.off).take s.len := by
      rw [List.take_add]
    rw [e1, List.append_assoc, List.append_assoc, List.drop_append_of_le_length (by simp; omega),
      List.drop_eq_nil_of_le (by simp), List.nil_append, ← List.append_assoc,
      List.take_append_of_le_length (by simp; omega)]
    exact List.take_of_length_le (by simp)
  · have hr : (s.read h).length = s.len := by simp [read]; omega
    simp only [read, array, List.getD_eq_getElem?_getD, List.drop_zero]
    rw [List.getElem?_append_right (le_refl _)]
    simp only [Nat.sub_self, List.getElem?_cons_zero, Option.getD_some]
    have hr' : (List.take s.len (List.drop s.off (h[s.arr]?.getD []))).length = s.len := by
      simpa only [read, array, List.getD_eq_getElem?_getD] using hr
    rw [List.take_append_of_le_length (by simp only [List.length_append, hr']; omega)]
    exact List.take_of_length_le (by simp only [List.length_append, hr']; omega)

theorem append_ok (zero : α) (grow : Nat) {s : Slice} {h : Heap α} (hs : s.Ok h) (xs : List α) :
    (s.append zero grow xs h).1.Ok (s.append zero grow xs h).2 ∧
      (s.append zero grow xs h).1.len = s.len + xs.length := by
  unfold append
  have hc := hs.cap; have hl := hs.len
  split
  · rename_i hcap
    refine ⟨⟨by simpa using hs.arr, hcap, ?_⟩, rfl⟩
    have : ({ s with len := s.len + xs.length } : Slice).array (h.set s.arr (overwrite (s.array h) (s.off + s.len) xs)) =
        overwrite (s.array h) (s.off + s.len) xs := array_set_self (s := s) hs.arr _
    simp only [this]
    rw [overwrite_length _ _ _ (by omega)]; exact hc
  · refine ⟨⟨by simp, by simp, ?_⟩, rfl⟩
    have hr : (s.read h).length = s.len := by simp [read]; omega
    simp only [array, List.getD_eq_getElem?_getD]
    rw [List.getElem?_append_right (le_refl _)]
    simp [hr]; omega

theorem upTo_ok {s : Slice} {h : Heap α} (hs : s.Ok h) {n : Nat} (hn : n ≤ s.len) : (s.upTo n).Ok h :=
  ⟨hs.arr, hn.trans hs.len, hs.cap⟩

theorem upTo_read {s : Slice} {h : Heap α} {n : Nat} (hn : n ≤ s.len) :
    (s.upTo n).read h = (s.read h).take n := by
  simp only [read, upTo, array, List.take_take]
  rw [min_eq_left hn]

theorem from_read {s : Slice} {h : Heap α} {n : Nat} : (s.from_ n).read h = (s.read h).drop n := by
  simp only [read, from_, array, List.drop_take, List.drop_drop]

theorem write_read {s : Slice} {h : Heap α} (hs : s.Ok h) {i : Nat} (x : α) :
    s.read (s.write i x h) = (s.read h).set i x := by
  simp only [read, write, array_set_self hs.arr]
  rw [← List.set_drop, ← List.take_set]

theorem read_length {s : Slice} {h : Heap α} (hs : s.Ok h) : (s.read h).length = s.len := by
  have := hs.cap; have := hs.len
  simp [read]; omega

theorem insert_list (l : List α) (i : Nat) (x : α) (hi : i < l.length) :
    (l.take (i + 1) ++ l.drop i).set i x = l.take i ++ x :: l.drop i := by
  rw [List.take_succ_eq_append_getElem hi, List.append_assoc, List.set_append_right _ _ (by simp)]
  have : i - (l.take i).length = 0 := by simp; omega
  rw [this]; rfl

end Slice

open Slice

/-- C30: whatever the capacity of the underlying array and however `append` grows it, `InsertStatement(i, s)` fails
iff `i` is not in `0..n`, and the plan it returns has the statements of the receiver with `s` inserted at `i`. -/
theorem C30_insert_statement {α : Type} (zero : α) (grow : Nat) (s : Slice) (h : Heap α) (hs : s.Ok h) (i : Int) (x : α) :
    (s.insertStatement zero grow i x h = none ↔ ¬ (0 ≤ i ∧ i ≤ (s.read h).length)) ∧
    ∀ s' h', s.insertStatement zero grow i x h = some (s', h') → s'.Ok h' ∧
      ∃ before after, s.read h = before ++ after ∧ (before.length : Int) = i ∧ s'.read h' = before ++ x :: after := by
  rw [read_length hs]
  refine ⟨?_, ?_⟩
  · unfold insertStatement
    split
    · simp; omega
    · split <;> simp <;> omega
  · intro s' h' he
    unfold insertStatement at he
    split at he
    · cases he
    rename_i hr
    obtain ⟨n, rfl⟩ : ∃ n : Nat, i = n := ⟨i.toNat, by omega⟩
    have hn : n ≤ s.len := by omega
    split at he
    · rename_i heq
      simp only [Option.some.injEq] at he
      have h1 := append_read zero grow hs [x]
      have h2 := append_ok zero grow hs [x]
      rw [he] at h1 h2
      refine ⟨h2.1, s.read h, [], by simp, ?_, by simpa using h1⟩
      rw [read_length hs]; omega
    · rename_i hne
      simp only [Option.some.injEq, Prod.mk.injEq, Int.toNat_natCast] at he
      obtain ⟨rfl, rfl⟩ := he
      have hup := upTo_ok hs (n := n + 1) (by omega)
      have h2 := append_ok zero grow hup ((s.from_ n).read h)
      refine ⟨⟨by simpa [write] using h2.1.arr, h2.1.len, ?_⟩, (s.read h).take n, (s.read h).drop n, by simp, ?_, ?_⟩
      · have := h2.1.cap
        simp only [write]
        rw [array_set_self h2.1.arr]; simpa using this
      · simp [read_length hs]; omega
      · rw [write_read h2.1, append_read zero grow hup, from_read, upTo_read (by omega)]
        exact insert_list _ _ _ (by rw [read_length hs]; omega)

/-- the list version used by the rest of the model agrees with the slice version -/
theorem C30_insert_statement_list (p : Plan) (zero : Statement) (grow : Nat) (s : Slice) (h : Heap Statement) (hs : s.Ok h)
    (hp : p.statements = s.read h) (i : Int) (x : Statement) :
    (s.insertStatement zero grow i x h).map (fun r => r.1.read r.2) =
      (p.insertStatement i x).toOption.map Plan.statements := by
  obtain ⟨h1, h2⟩ := C30_insert_statement zero grow s h hs i x
  unfold Plan.insertStatement
  rw [hp]
  cases he : s.insertStatement zero grow i x h with
  | none =>
    rw [if_pos (by have := h1.mp he; omega)]; rfl
  | some r =>
    have hlen : 0 ≤ i ∧ i ≤ (s.read h).length := by
      by_contra hc
      have := h1.mpr hc
      rw [he] at this; cases this
    rw [if_neg (by omega)]
    obtain ⟨_, b, a, e1, e2, e3⟩ := h2 r.1 r.2 he
    simp only [Option.map_some, Except.toOption, e3, e1]
    have : i.toNat = b.length := by omega
    rw [this]; simp

/-- C30 for the command line: the statements of `--insert-statement` are inserted one after the other into the current
plan, whichever arrays the intermediate plans use -/
theorem C30_insert_statement_nth (p : Plan) (i : Int) (x : Statement) (p' : Plan) (h : p.insertStatement i x = .ok p') :
    p'.currentSchemaHash = p.currentSchemaHash ∧ p'.statements.length = p.statements.length + 1 ∧
    p'.statements[i.toNat]? = some x ∧ (∀ k, k < i.toNat → p'.statements[k]? = p.statements[k]?) ∧
    ∀ k, i.toNat ≤ k → p'.statements[k + 1]? = p.statements[k]? := by
  unfold Plan.insertStatement at h
  split at h
  · cases h
  cases h
  have hlen : (p.statements.take i.toNat).length = i.toNat := by simp; omega
  refine ⟨rfl, by simp; omega, ?_, ?_, ?_⟩
  · show (p.statements.take i.toNat ++ x :: p.statements.drop i.toNat)[i.toNat]? = _
    rw [List.getElem?_append_right (by omega), hlen]; simp
  · intro k hk
    show (p.statements.take i.toNat ++ x :: p.statements.drop i.toNat)[k]? = _
    rw [List.getElem?_append_left (by omega), List.getElem?_take_of_lt hk]
  · intro k hk
    show (p.statements.take i.toNat ++ x :: p.statements.drop i.toNat)[k + 1]? = _
    rw [List.getElem?_append_right (by omega), hlen, Nat.add_sub_assoc (by omega) 1 |> fun _ => (show k + 1 - i.toNat = (k - i.toNat) + 1 by omega)]
    simp only [List.getElem?_cons_succ, List.getElem?_drop]
    congr 1; omega

/-- C31: inserting at the end, or into a plan whose array has no spare capacity, leaves the receiver as it was.

The full property asks this for every plan; with spare capacity an insertion in the middle shifts the elements of
the receiver in place (`C31_insert_statement_violated`). -/
theorem C31_insert_statement_partial {α : Type} (zero : α) (grow : Nat) (s : Slice) (h : Heap α) (hs : s.Ok h) (i : Int)
    (x : α) (hcond : i = s.len ∨ s.len = s.cap) :
    ∀ s' h', s.insertStatement zero grow i x h = some (s', h') → s.read h' = s.read h := by
  intro s' h' he
  have hc := hs.cap; have hl := hs.len
  have hfresh : ∀ a : List α, s.read (h ++ [a]) = s.read h := by
    intro a
    simp only [Slice.read, array, List.getD_eq_getElem?_getD]
    rw [List.getElem?_append_left hs.arr]
  unfold insertStatement at he
  split at he
  · cases he
  rename_i hr
  obtain ⟨n, rfl⟩ : ∃ n : Nat, i = n := ⟨i.toNat, by omega⟩
  split at he
  · simp only [Option.some.injEq] at he
    unfold append at he
    split at he
    · rename_i hcap
      simp only [List.length_singleton] at hcap
      cases he
      simp only [Slice.read, array_set_self hs.arr]
      rw [overwrite_eq _ _ _ (by simp only [List.length_singleton]; omega), List.append_assoc,
        List.drop_append_of_le_length (by simp; omega), List.take_append_of_le_length (by simp; omega), List.drop_take,
        List.take_take]
      congr 1; omega
    · cases he; exact hfresh _
  · rename_i hne
    simp only [Option.some.injEq, Prod.mk.injEq, Int.toNat_natCast] at he
    obtain ⟨rfl, rfl⟩ := he
    have hlen : (List.length ((s.from_ n).read h)) = s.len - n := by rw [from_read]; simp [read_length hs]
    have : ¬ ((s.upTo (n + 1)).len + ((s.from_ n).read h).length ≤ (s.upTo (n + 1)).cap) := by
      simp only [upTo, hlen]; omega
    unfold append
    rw [if_neg this]
    simp only [write, Slice.read, array, List.getD_eq_getElem?_getD]
    rw [List.getElem?_set_ne (by have := hs.arr; omega), List.getElem?_append_left hs.arr]

/-- the full C31 fails: the plan has the statements 1, 2 in an array of capacity 3; after inserting 9 in front (into
the returned plan) the receiver reads 9, 1. -/
theorem C31_insert_statement_violated : ∃ (s : Slice) (h : Heap Nat), s.Ok h ∧ s.read h = [1, 2] ∧
    ∃ s' h', s.insertStatement 0 0 0 9 h = some (s', h') ∧ s'.read h' = [9, 1, 2] ∧ s.read h' = [9, 1] :=
  ⟨⟨0, 0, 2, 3⟩, [[1, 2, 0]], ⟨by decide, by decide, by decide⟩, rfl, ⟨0, 0, 3, 3⟩, [[9, 1, 2]], by decide, rfl, rfl⟩

/-! ### timeout modifiers -/

/-- the timeout of the last modifier that matches -/
def lastMatch (ms : List ((String → Bool) × Duration)) (ddl : String) : Option Duration :=
  (ms.reverse.find? fun m => m.1 ddl).map (·.2)

theorem lastMatch_cons (m : (String → Bool) × Duration) (ms : List ((String → Bool) × Duration)) (ddl : String)
    (d : Duration) : (lastMatch (m :: ms) ddl).getD d = (lastMatch ms ddl).getD (if m.1 ddl then m.2 else d) := by
  unfold lastMatch
  rw [List.reverse_cons, List.find?_append]
  cases hf : ms.reverse.find? (fun m => m.1 ddl) with
  | some v => simp
  | none => by_cases hm : m.1 ddl = true <;> simp [hm]

theorem C32_statement_timeout (p : Plan) (ms : List ((String → Bool) × Duration)) :
    (p.applyStatementTimeoutModifiers ms).currentSchemaHash = p.currentSchemaHash ∧
    (p.applyStatementTimeoutModifiers ms).statements =
      p.statements.map fun s => { s with timeout := (lastMatch ms s.ddl.render).getD s.timeout } := by
  induction ms generalizing p with
  | nil => exact ⟨rfl, (List.map_id _).symm⟩
  | cons m ms ih =>
    obtain ⟨h1, h2⟩ := ih (p.applyStatementTimeoutModifier m.1 m.2)
    refine ⟨h1, h2.trans ?_⟩
    simp only [Plan.applyStatementTimeoutModifier, Plan.applyStatementModifier, List.map_map]
    refine List.map_congr_left fun s _ => ?_
    simp only [Function.comp_apply, lastMatch_cons]
    by_cases hm : m.1 s.ddl.render = true <;> simp [hm]

theorem C32_lock_timeout (p : Plan) (ms : List ((String → Bool) × Duration)) :
    (p.applyLockTimeoutModifiers ms).currentSchemaHash = p.currentSchemaHash ∧
    (p.applyLockTimeoutModifiers ms).statements =
      p.statements.map fun s => { s with lockTimeout := (lastMatch ms s.ddl.render).getD s.lockTimeout } := by
  induction ms generalizing p with
  | nil => exact ⟨rfl, (List.map_id _).symm⟩
  | cons m ms ih =>
    obtain ⟨h1, h2⟩ := ih (p.applyLockTimeoutModifier m.1 m.2)
    refine ⟨h1, h2.trans ?_⟩
    simp only [Plan.applyLockTimeoutModifier, Plan.applyStatementModifier, List.map_map]
    refine List.map_congr_left fun s _ => ?_
    simp only [Function.comp_apply, lastMatch_cons]
    by_cases hm : m.1 s.ddl.render = true <;> simp [hm]

/-- what the last match is: a modifier that matches with none after it that does -/
theorem C32_last_match (ms : List ((String → Bool) × Duration)) (ddl : String) (d : Duration) :
    (lastMatch ms ddl = some d ↔ ∃ (before after : List ((String → Bool) × Duration)) (f : String → Bool), ms = before ++ (f, d) :: after ∧ f ddl = true ∧
      ∀ m ∈ after, m.1 ddl = false) ∧
    (lastMatch ms ddl = none ↔ ∀ m ∈ ms, m.1 ddl = false) := by
  constructor
  · unfold lastMatch
    rw [Option.map_eq_some_iff]
    constructor
    · rintro ⟨⟨f, d'⟩, hf, rfl⟩
      obtain ⟨h1, as, bs, h2, h3⟩ := List.find?_eq_some_iff_append.mp hf
      refine ⟨bs.reverse, as.reverse, f, ?_, h1, ?_⟩
      · have := congrArg List.reverse h2
        simpa using this
      · intro m hm
        simpa using h3 m (List.mem_reverse.mp hm)
    · rintro ⟨b, a, f, rfl, h1, h2⟩
      refine ⟨(f, d), List.find?_eq_some_iff_append.mpr ⟨h1, a.reverse, b.reverse, by simp, ?_⟩, rfl⟩
      intro m hm
      simp [h2 m (List.mem_reverse.mp hm)]
  · unfold lastMatch
    simp

/-! ### non-vacuity -/

/-- a slice in the middle of an array with spare capacity, insertion in the middle -/
example : (⟨0, 1, 2, 3⟩ : Slice).Ok [[7, 1, 2, 3]] ∧
    (⟨0, 1, 2, 3⟩ : Slice).insertStatement 0 5 1 9 [[7, 1, 2, 3]] = some (⟨0, 1, 3, 3⟩, [[7, 1, 9, 2]]) :=
  ⟨⟨by decide, by decide, by decide⟩, by decide⟩

/-- no spare capacity: a new array -/
example : (⟨0, 0, 2, 2⟩ : Slice).Ok [[1, 2]] ∧
    (⟨0, 0, 2, 2⟩ : Slice).insertStatement 0 1 0 9 [[1, 2]] = some (⟨1, 0, 3, 4⟩, [[1, 2], [9, 1, 2, 0]]) :=
  ⟨⟨by decide, by decide, by decide⟩, by decide⟩

/-- two modifiers match the first statement, none the second -/
example : ((⟨[stmt (.raw "CREATE TABLE a"), stmt (.raw "DROP TABLE b")], ""⟩ : Plan).applyStatementTimeoutModifiers
    [(fun s => s.startsWith "CREATE", 5), (fun s => s.endsWith "a", 7), (fun s => s.endsWith "x", 9)]).statements.map
    Statement.timeout = [7, 3000000000] := by decide +kernel

end Verif
