import Verif.Model.Fetch
import Verif.Model.Text
import Verif.Lemmas.GoMap
import Mathlib.Data.List.TakeDrop
import Mathlib.Data.List.Induction

/-!
# C49, C50: storage parameters and definition texts
-/

namespace Verif

/-! ### C49 -/

theorem splitEq_pair {k v : String} (hk : '=' ∉ k.toList) : splitEq (k ++ "=" ++ v) = [k, v] := by
  have h : (k ++ "=" ++ v).toList.span (· ≠ '=') = (k.toList, '=' :: v.toList) := by
    have e : (k ++ "=" ++ v).toList = k.toList ++ '=' :: v.toList := by simp
    rw [e, List.span_eq_takeWhile_dropWhile]
    have hp : ∀ x ∈ k.toList, decide (x ≠ '=') = true := by
      intro x hx
      simp only [ne_eq, decide_not, Bool.not_eq_eq_eq_not, Bool.not_true, decide_eq_false_iff_not]
      rintro rfl
      exact hk hx
    rw [List.takeWhile_append_of_pos hp, List.dropWhile_append_of_pos hp]
    simp
  unfold splitEq
  rw [h]
  simp

theorem splitEq_none {v : String} (hv : '=' ∉ v.toList) : splitEq v = [v] := by
  have h : v.toList.span (· ≠ '=') = (v.toList, []) := by
    rw [List.span_eq_takeWhile_dropWhile]
    have hp : ∀ x ∈ v.toList, decide (x ≠ '=') = true := by
      intro x hx
      simp only [ne_eq, decide_not, Bool.not_eq_eq_eq_not, Bool.not_true, decide_eq_false_iff_not]
      rintro rfl
      exact hv hx
    have h1 := List.takeWhile_append_of_pos (l₂ := []) hp
    have h2 := List.dropWhile_append_of_pos (l₂ := []) hp
    simp only [List.append_nil, List.takeWhile_nil, List.dropWhile_nil] at h1 h2
    rw [h1, h2]
  unfold splitEq
  rw [h]

/-- a text with a `=` is a key without `=`, the `=`, and the rest -/
theorem exists_pair {o : String} (h : '=' ∈ o.toList) : ∃ k v : String, '=' ∉ k.toList ∧ o = k ++ "=" ++ v := by
  obtain ⟨a, b, e, ha⟩ := List.eq_append_cons_of_mem h
  refine ⟨String.ofList a, String.ofList b, by simpa using ha, ?_⟩
  apply String.toList_inj.mp
  simp [e]

/-- one step of the parser -/
def addOption (out : GoMap String String) (v : String) : Except Err (GoMap String String) :=
  match splitEq v with
  | [k, val] => .ok (out.set k val)
  | _ => .error (.other "expected 2 values when splitting by \"=\"")

theorem relOptionsToMap_eq (vals : List String) : relOptionsToMap vals = vals.foldlM addOption [] := rfl

theorem parse_from (opts : List (String × String)) (h : ∀ o ∈ opts, '=' ∉ o.1.toList) (m : GoMap String String) :
    (opts.map fun o => o.1 ++ "=" ++ o.2).foldlM addOption m = .ok (opts.foldl (fun m o => m.set o.1 o.2) m) := by
  induction opts generalizing m with
  | nil => rfl
  | cons o opts ih =>
    rw [List.map_cons, List.foldlM_cons]
    have : addOption m (o.1 ++ "=" ++ o.2) = .ok (m.set o.1 o.2) := by
      unfold addOption
      rw [splitEq_pair (h o List.mem_cons_self)]
    rw [this]
    exact ih (fun o ho => h o (List.mem_cons_of_mem _ ho)) _

/-- **C49**: options `key=value` with distinct keys are parsed to exactly these keys and values; values may contain `=`. -/
theorem C49_parses_exactly (opts : List (String × String)) (h : ∀ o ∈ opts, '=' ∉ o.1.toList)
    (hd : (opts.map Prod.fst).Nodup) : relOptionsToMap (opts.map fun o => o.1 ++ "=" ++ o.2) = .ok opts := by
  rw [relOptionsToMap_eq, parse_from opts h]
  congr 1
  exact GoMap.foldl_set_nil hd

theorem get?_foldl_set (opts : List (String × String)) (m : GoMap String String) (k : String) :
    (opts.foldl (fun m o => m.set o.1 o.2) m).get? k
      = ((opts.reverse.find? fun o => o.1 = k).map Prod.snd).or (m.get? k) := by
  induction opts using List.reverseRecOn with
  | nil => rfl
  | append_singleton opts o ih =>
    rw [List.foldl_append, List.reverse_append]
    simp only [List.foldl_cons, List.foldl_nil, List.reverse_cons, List.reverse_nil, List.nil_append, List.cons_append,
      List.find?_cons, GoMap.get?_set]
    by_cases e : o.1 = k
    · simp [e]
    · simp [e, ih]

/-- **C49**: when a key is repeated its last value counts. -/
theorem C49_last_value_counts (opts : List (String × String)) (h : ∀ o ∈ opts, '=' ∉ o.1.toList) :
    ∃ m, relOptionsToMap (opts.map fun o => o.1 ++ "=" ++ o.2) = .ok m ∧
      ∀ k, m.get? k = (opts.reverse.find? fun o => o.1 = k).map Prod.snd := by
  refine ⟨_, parse_from opts h [], fun k => ?_⟩
  rw [get?_foldl_set]
  simp

theorem parse_error {vals : List String} {o : String} (ho : o ∈ vals) (h : '=' ∉ o.toList) (m : GoMap String String) :
    ∃ e, vals.foldlM addOption m = .error e := by
  induction vals generalizing m with
  | nil => cases ho
  | cons v vals ih =>
    rw [List.foldlM_cons]
    obtain rfl | ho := List.mem_cons.mp ho
    · refine ⟨.other "expected 2 values when splitting by \"=\"", ?_⟩
      have : addOption m o = .error (.other "expected 2 values when splitting by \"=\"") := by
        unfold addOption
        rw [splitEq_none h]
      rw [this]
      rfl
    · cases addOption m v with
      | error e => exact ⟨e, rfl⟩
      | ok m' => exact ih ho m'

/-- **C49**: the parser fails iff some option has no `=`. -/
theorem C49_error_iff (vals : List String) : (∃ e, relOptionsToMap vals = .error e) ↔ ∃ o ∈ vals, '=' ∉ o.toList := by
  constructor
  · intro ⟨e, he⟩
    by_contra hn
    have hc : ∀ o ∈ vals, '=' ∈ o.toList := fun o ho => by_contra fun h => hn ⟨o, ho, h⟩
    have : ∃ opts : List (String × String), (∀ o ∈ opts, '=' ∉ o.1.toList) ∧ vals = opts.map fun o => o.1 ++ "=" ++ o.2 := by
      clear he hn
      induction vals with
      | nil => exact ⟨[], by simp, rfl⟩
      | cons v vals ih =>
        obtain ⟨opts, h1, rfl⟩ := ih fun o ho => hc o (List.mem_cons_of_mem _ ho)
        obtain ⟨k, w, hk, rfl⟩ := exists_pair (hc v List.mem_cons_self)
        refine ⟨(k, w) :: opts, ?_, rfl⟩
        intro o ho
        obtain rfl | ho := List.mem_cons.mp ho
        · exact hk
        · exact h1 o ho
    obtain ⟨opts, h1, rfl⟩ := this
    rw [relOptionsToMap_eq, parse_from opts h1] at he
    cases he
  · intro ⟨o, ho, h⟩
    exact parse_error ho h []

example : relOptionsToMap ["security_barrier=true", "check_option=a=b", "x="] =
    .ok [("security_barrier", "true"), ("check_option", "a=b"), ("x", "")] :=
  C49_parses_exactly [("security_barrier", "true"), ("check_option", "a=b"), ("x", "")] (by decide) (by decide)

/-! ### C50 -/

theorem dropPrefix?_eq_some {p s r : List Char} : dropPrefix? p s = some r ↔ s = p ++ r := by
  induction p generalizing s with
  | nil => simp [dropPrefix?, eq_comm]
  | cons c p ih =>
    cases s with
    | nil => simp [dropPrefix?]
    | cons d s =>
      unfold dropPrefix?
      split
      · rename_i e
        subst e
        rw [ih]; simp
      · rename_i e
        simp [Ne.symm e]

theorem text_eq_append {s : String} {p : String} {r : List Char} : s.toList = p.toList ++ r ↔ s = p ++ String.ofList r := by
  rw [← String.toList_inj]; simp

/-- **C50**: the definition of an index becomes that of a concurrent build iff it begins with `CREATE INDEX ` or
`CREATE UNIQUE INDEX ` and is one line; then `CONCURRENTLY ` is inserted there and nothing else changes. -/
theorem C50_concurrent_index {s t : String} : toCreateIndexConcurrently s = .ok t ↔
    ∃ rest : String, '\n' ∉ rest.toList ∧
      ((s = "CREATE INDEX " ++ rest ∧ t = "CREATE INDEX CONCURRENTLY " ++ rest) ∨
       (s = "CREATE UNIQUE INDEX " ++ rest ∧ t = "CREATE UNIQUE INDEX CONCURRENTLY " ++ rest)) := by
  unfold toCreateIndexConcurrently
  constructor
  · intro h
    split at h
    · rename_i rest hr
      split at h
      · cases h
      · rename_i hn
        cases h
        refine ⟨String.ofList rest, by simpa using hn, .inl ⟨text_eq_append.mp (dropPrefix?_eq_some.mp hr), ?_⟩⟩
        rw [String.ofList_append, String.ofList_toList]
    · split at h
      · rename_i rest hr
        split at h
        · cases h
        · rename_i hn
          cases h
          refine ⟨String.ofList rest, by simpa using hn, .inr ⟨text_eq_append.mp (dropPrefix?_eq_some.mp hr), ?_⟩⟩
          rw [String.ofList_append, String.ofList_toList]
      · cases h
  · rintro ⟨rest, hn, ⟨rfl, rfl⟩ | ⟨rfl, rfl⟩⟩
    · rw [dropPrefix?_eq_some.mpr String.toList_append]
      simp only [if_neg hn, String.ofList_append, String.ofList_toList]
    · have : dropPrefix? "CREATE INDEX ".toList ("CREATE UNIQUE INDEX " ++ rest).toList = none := by
        rw [String.toList_append]
        rfl
      rw [this, dropPrefix?_eq_some.mpr String.toList_append]
      simp only [if_neg hn, String.ofList_append, String.ofList_toList]

/-- **C50**: the definition of a trigger becomes `CREATE OR REPLACE` iff it begins with `CREATE ` and is one line; then
`OR REPLACE ` is inserted there and nothing else changes. -/
theorem C50_replace_trigger {s t : String} : toCreateOrReplace s = .ok t ↔
    ∃ rest : String, '\n' ∉ rest.toList ∧ s = "CREATE " ++ rest ∧ t = "CREATE OR REPLACE " ++ rest := by
  unfold toCreateOrReplace
  constructor
  · intro h
    split at h
    · rename_i rest hr
      split at h
      · cases h
      · rename_i hn
        cases h
        refine ⟨String.ofList rest, by simpa using hn, text_eq_append.mp (dropPrefix?_eq_some.mp hr), ?_⟩
        rw [String.ofList_append, String.ofList_toList]
    · cases h
  · rintro ⟨rest, hn, rfl, rfl⟩
    rw [dropPrefix?_eq_some.mpr String.toList_append]
    simp only [if_neg hn, String.ofList_append, String.ofList_toList]

/-- **C50**: other shapes are errors, for both. -/
theorem C50_other_shapes {s : String} :
    ((∃ e, toCreateIndexConcurrently s = .error e) ↔
      ∀ rest : String, '\n' ∉ rest.toList → s ≠ "CREATE INDEX " ++ rest ∧ s ≠ "CREATE UNIQUE INDEX " ++ rest) ∧
    ((∃ e, toCreateOrReplace s = .error e) ↔ ∀ rest : String, '\n' ∉ rest.toList → s ≠ "CREATE " ++ rest) := by
  refine ⟨⟨?_, ?_⟩, ⟨?_, ?_⟩⟩
  · rintro ⟨e, he⟩ rest hn
    refine ⟨fun h => ?_, fun h => ?_⟩
    · rw [C50_concurrent_index.mpr ⟨rest, hn, .inl ⟨h, rfl⟩⟩] at he; cases he
    · rw [C50_concurrent_index.mpr ⟨rest, hn, .inr ⟨h, rfl⟩⟩] at he; cases he
  · intro h
    cases he : toCreateIndexConcurrently s with
    | error e => exact ⟨e, rfl⟩
    | ok t =>
      obtain ⟨rest, hn, ⟨h1, -⟩ | ⟨h1, -⟩⟩ := C50_concurrent_index.mp he
      · exact absurd h1 (h rest hn).1
      · exact absurd h1 (h rest hn).2
  · rintro ⟨e, he⟩ rest hn h
    rw [C50_replace_trigger.mpr ⟨rest, hn, h, rfl⟩] at he; cases he
  · intro h
    cases he : toCreateOrReplace s with
    | error e => exact ⟨e, rfl⟩
    | ok t =>
      obtain ⟨rest, hn, h1, -⟩ := C50_replace_trigger.mp he
      exact absurd h1 (h rest hn)

example : toCreateIndexConcurrently "CREATE UNIQUE INDEX \"CREATE INDEX \" ON public.t USING btree (x)" =
    .ok "CREATE UNIQUE INDEX CONCURRENTLY \"CREATE INDEX \" ON public.t USING btree (x)" := by decide +kernel

end Verif
