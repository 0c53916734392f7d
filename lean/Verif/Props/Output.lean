import Verif.Model.Output
import Verif.Lemmas.Json
import Verif.Props.Script

/-!
# C83, C84: the output formats of `plan`
-/

namespace Verif

open Cli

/-! ## C83 -/

theorem list_slice (isNil : Bool) (l : List Json) : Spec.Json.list (Json.slice isNil l) = some l := by
  unfold Json.slice
  cases l with
  | nil => cases isNil <;> rfl
  | cons x l => rfl

theorem mapM_map_some {α β γ : Type} (f : β → Option γ) (g : α → β) (k : α → γ) (l : List α)
    (h : ∀ a ∈ l, f (g a) = some (k a)) : (l.map g).mapM f = some (l.map k) := by
  induction l with
  | nil => rfl
  | cons a l ih =>
    rw [List.map_cons, List.mapM_cons, h a List.mem_cons_self, ih fun x hx => h x (List.mem_cons_of_mem _ hx)]
    rfl

theorem read_hazard (h : Hazard) : Spec.Json.hazard (Json.hazard h) = some (h.type, h.message) := rfl

/-- what a consumer sees of a statement -/
def Spec.Json.ofStatement (s : Statement) : Spec.Json.Stmt :=
  ⟨s.ddl.render, Int.tdiv s.timeout 1000000, Int.tdiv s.lockTimeout 1000000, s.hazards.map fun h => (h.type, h.message)⟩

theorem read_statement (isNil : Bool) (s : Statement) :
    Spec.Json.statement (Json.statement isNil s) = some (Spec.Json.ofStatement s) := by
  have e1 : Spec.Json.field "hazards" (Json.statement isNil s) = some (Json.slice isNil (s.hazards.map Json.hazard)) := rfl
  have e2 : Spec.Json.field "ddl" (Json.statement isNil s) = some (.str s.ddl.render) := rfl
  have e3 : Spec.Json.field "timeout_ms" (Json.statement isNil s) = some (.num s.timeout.milliseconds) := rfl
  have e4 : Spec.Json.field "lock_timeout_ms" (Json.statement isNil s) = some (.num s.lockTimeout.milliseconds) := rfl
  unfold Spec.Json.statement
  rw [e1, e2, e3, e4]
  simp only [Option.bind_eq_bind, Option.bind_some, Spec.Json.string, Spec.Json.number, list_slice]
  rw [mapM_map_some Spec.Json.hazard Json.hazard (fun h => (h.type, h.message)) s.hazards fun h _ => read_hazard h]
  rfl

/-- **C83**: the JSON output can be read, whatever characters the plan contains and whichever empty slices are nil; it
contains every statement in order with its text, its timeouts in milliseconds and its hazards, and the hash. -/
theorem C83_json_reads_back_partial (nilStatements : Bool) (nilHazards : Statement → Bool) (p : Plan) :
    ∃ j, Spec.Json.read (planToJson nilStatements nilHazards p) = some j ∧
      Spec.Json.plan j = some (p.statements.map Spec.Json.ofStatement, p.currentSchemaHash) := by
  refine ⟨_, read_write _, ?_⟩
  have e1 : Spec.Json.field "statements" (planJson nilStatements nilHazards p) =
    some (Json.slice nilStatements (p.statements.map fun s => Json.statement (nilHazards s) s)) := rfl
  have e2 : Spec.Json.field "current_schema_hash" (planJson nilStatements nilHazards p) = some (.str p.currentSchemaHash) := rfl
  unfold Spec.Json.plan
  rw [e1, e2]
  simp only [Option.bind_eq_bind, Option.bind_some, Spec.Json.string, list_slice]
  rw [mapM_map_some Spec.Json.statement _ Spec.Json.ofStatement p.statements fun s _ => read_statement _ s]
  rfl

/-- **C83**: so two plans whose timeouts are whole milliseconds and that print the same have the same statement texts,
timeouts, hazards and hash. -/
theorem C83_json_injective_partial {n1 n2 : Bool} {g1 g2 : Statement → Bool} {p q : Plan}
    (h : planToJson n1 g1 p = planToJson n2 g2 q)
    (hp : ∀ s ∈ p.statements, 1000000 ∣ s.timeout ∧ 1000000 ∣ s.lockTimeout)
    (hq : ∀ s ∈ q.statements, 1000000 ∣ s.timeout ∧ 1000000 ∣ s.lockTimeout) :
    p.currentSchemaHash = q.currentSchemaHash ∧
    p.statements.map (fun s => (s.ddl.render, s.timeout, s.lockTimeout, s.hazards)) =
      q.statements.map fun s => (s.ddl.render, s.timeout, s.lockTimeout, s.hazards) := by
  obtain ⟨j, h1, h2⟩ := C83_json_reads_back_partial n1 g1 p
  obtain ⟨k, h3, h4⟩ := C83_json_reads_back_partial n2 g2 q
  rw [h, h3] at h1
  obtain rfl : k = j := by injection h1
  rw [h2] at h4
  simp only [Option.some.injEq, Prod.mk.injEq] at h4
  obtain ⟨h4, h5⟩ := h4
  refine ⟨h5, ?_⟩
  have key : ∀ ps qs : List Statement, (∀ s ∈ ps, 1000000 ∣ s.timeout ∧ 1000000 ∣ s.lockTimeout) →
      (∀ s ∈ qs, 1000000 ∣ s.timeout ∧ 1000000 ∣ s.lockTimeout) →
      ps.map Spec.Json.ofStatement = qs.map Spec.Json.ofStatement →
      ps.map (fun s => (s.ddl.render, s.timeout, s.lockTimeout, s.hazards)) =
        qs.map fun s => (s.ddl.render, s.timeout, s.lockTimeout, s.hazards) := by
    intro ps
    induction ps with
    | nil =>
      intro qs _ _ h
      cases qs with
      | nil => rfl
      | cons _ _ => simp at h
    | cons s ps ih =>
      intro qs h1 h2 h
      cases qs with
      | nil => simp at h
      | cons t qs =>
        simp only [List.map_cons, List.cons.injEq] at h ⊢
        obtain ⟨hs, hr⟩ := h
        refine ⟨?_, ih qs (fun x hx => h1 x (List.mem_cons_of_mem _ hx)) (fun x hx => h2 x (List.mem_cons_of_mem _ hx)) hr⟩
        simp only [Spec.Json.ofStatement, Spec.Json.Stmt.mk.injEq] at hs
        obtain ⟨e1, e2, e3, e4⟩ := hs
        obtain ⟨a1, a2⟩ := h1 s List.mem_cons_self
        obtain ⟨b1, b2⟩ := h2 t List.mem_cons_self
        have q : ∀ a b : Int, 1000000 ∣ a → 1000000 ∣ b → Int.tdiv a 1000000 = Int.tdiv b 1000000 → a = b := by
          intro a b ha hb hab
          rw [← Int.mul_tdiv_cancel' ha, ← Int.mul_tdiv_cancel' hb, hab]
        have e5 : s.hazards = t.hazards := by
          refine List.map_injective_iff.mpr ?_ e4
          rintro ⟨a, b⟩ ⟨c, d⟩ hx
          simpa using hx
        rw [e1, q _ _ a1 b1 e2, q _ _ a2 b2 e3, e5]
  exact key _ _ hp hq h4

/-- the timeouts of a generated plan are whole milliseconds -/
example : ∃ stmts r', generateMigrationStatements Samples.rand Samples.old1 Samples.new1 Samples.opts = .ok (stmts, r') ∧
    stmts.length = 5 ∧ ∀ s ∈ stmts, 1000000 ∣ s.timeout ∧ 1000000 ∣ s.lockTimeout := Samples.exists_plan (by decide +kernel)

/-- a plan with an index expression that needs escapes -/
example : planToJson true (fun _ => true)
    ⟨[{ ddl := .raw "CREATE INDEX i ON t ((a->>'\"x\"'))", timeout := 3 * Duration.second, lockTimeout := 3 * Duration.second,
        hazards := [], skipValidation := false }], "cafe"⟩ =
  "{\n  \"statements\": [\n    {\n      \"ddl\": \"CREATE INDEX i ON t ((a-\\u003e\\u003e'\\\"x\\\"'))\",\n      \"timeout_ms\": 3000,\n      \"lock_timeout_ms\": 3000,\n      \"hazards\": null\n    }\n  ],\n  \"current_schema_hash\": \"cafe\"\n}" := by
  decide +kernel

theorem tdiv_small {d : Int} (h1 : 0 < d) (h2 : d < 1000000) : Int.tdiv d 1000000 = 0 := by
  rw [Int.tdiv_eq_ediv_of_nonneg (by omega)]
  omega

/-- **C83** does not hold for timeouts below a millisecond, which the timeout modifiers and inserted statements may ask for:
in the JSON output such a timeout is 0, which Postgres understands as no timeout at all, and so it is in the script and in
`apply`.  Plans with such a timeout and without a timeout print the same. -/
theorem C83_short_timeout_violated (n : Bool) (g : Statement → Bool) (pre post : List Statement) (hash : String)
    (s : Statement) (h1 : 0 < s.timeout) (h2 : s.timeout < 1000000) (hg : g { s with timeout := 0 } = g s) :
    planToJson n g ⟨pre ++ s :: post, hash⟩ = planToJson n g ⟨pre ++ { s with timeout := 0 } :: post, hash⟩ ∧
    planToSql ⟨[s], hash⟩ = planToSql ⟨[{ s with timeout := 0 }], hash⟩ ∧
    s.timeout.milliseconds = 0 := by
  have hm : s.timeout.milliseconds = 0 := tdiv_small h1 h2
  refine ⟨?_, ?_, hm⟩
  · have : Json.statement (g s) s = Json.statement (g { s with timeout := 0 }) { s with timeout := 0 } := by
      rw [hg]
      unfold Json.statement
      rw [hm]
      rfl
    unfold planToJson planJson
    simp only [List.map_append, List.map_cons, this]
  · obtain ⟨ddl, t, lt, hz, sk⟩ := s
    dsimp only at hm
    have h0 : Duration.milliseconds t = Duration.milliseconds 0 := hm
    have : sqlBlock 0 ⟨ddl, t, lt, hz, sk⟩ = sqlBlock 0 ⟨ddl, 0, lt, hz, sk⟩ := by
      unfold sqlBlock
      dsimp only
      rw [h0]
    exact this

/-- such a modifier is accepted -/
example (ps : Parsers) (hd : ps.duration "500us" = some 500000) (re : String → Bool) (hr : ps.regexp ".*" = some re) :
    parseTimeoutModifier ps [("pattern", ".*"), ("timeout", "500us")] false = .ok ⟨re, 500000⟩ := by
  have h1 : logFmtToMap [("pattern", ".*"), ("timeout", "500us")] false = .ok [("pattern", ".*"), ("timeout", "500us")] := by rfl
  unfold parseTimeoutModifier
  rw [h1]
  have h2 : mustGetAndDeleteKey [("pattern", ".*"), ("timeout", "500us")] "pattern" = .ok (".*", [("timeout", "500us")]) := by rfl
  have h3 : mustGetAndDeleteKey [("timeout", "500us")] "timeout" = .ok ("500us", []) := by rfl
  simp only [bind, Except.bind, h2, h3, hd, hr, orErr, noMoreKeys]
  rfl

/-! ## C84 -/

theorem toString_toList (n : Nat) : (toString n).toList = Nat.toDigits 10 n := Nat.toList_repr

theorem toString_length (n : Nat) : (toString n).length = (Nat.toDigits 10 n).length := by
  rw [← String.length_toList, toString_toList]

theorem zeroPadded_spec {n m : Nat} (h : m ≤ n) :
    (zeroPadded (toString n).length m).length = (toString n).length ∧
    Nat.ofDigitChars 10 (zeroPadded (toString n).length m).toList 0 = m := by
  have hl : (toString m).length ≤ (toString n).length := by
    rw [toString_length, toString_length]
    have hpos := Nat.length_toDigits_pos (b := 10) (n := n)
    rw [Nat.length_toDigits_le_iff (by decide) hpos]
    exact lt_of_le_of_lt h ((Nat.length_toDigits_le_iff (by decide) hpos).mp (le_refl _))
  unfold zeroPadded
  constructor
  · rw [String.length_append, String.length_ofList, List.length_replicate]
    omega
  · rw [String.toList_append, String.toList_ofList, Nat.ofDigitChars_append, Nat.ofDigitChars_replicate_zero, toString_toList,
      Nat.mul_zero, Nat.ofDigitChars_ten_toDigits]

/-- **C84**: the pretty output has, after a header, every statement in order: its number, padded with zeros so that all
numbers have the same width, its text, its statement timeout, its lock timeout where that is set and shorter, and all its
hazards. -/
theorem C84_pretty_partial (show_ : Duration → String) (p : Plan) (hne : p.statements ≠ []) :
    ∃ (head : String) (num : Nat → String) (width : Nat),
      planToPretty show_ p = some (head ++ "\n" ++ "\n\n".intercalate (p.statements.zipIdx.map fun x =>
        num x.2 ++ ". " ++ (x.1.ddl.render ++ ";" ++ "\n\t-- Statement Timeout: " ++ show_ x.1.timeout ++
          (if x.1.lockTimeout > 0 ∧ x.1.lockTimeout < x.1.timeout then "\n\t-- Lock Timeout: " ++ show_ x.1.lockTimeout else "") ++
          String.join (x.1.hazards.map fun h => "\n\t-- Hazard " ++ (if h.message = "" then h.type else h.type ++ ": " ++ h.message))))) ∧
      ∀ i < p.statements.length, (num i).length = width ∧ Nat.ofDigitChars 10 (num i).toList 0 = i + 1 := by
  have hlen : p.statements.length ≠ 0 := by
    intro h; exact hne (List.length_eq_zero_iff.mp h)
  have hh : header "Generated plan" = some "################################ Generated plan ################################" := by
    decide +kernel
  have hz : ∀ h : Hazard, hazardToPretty h = if h.message = "" then h.type else h.type ++ ": " ++ h.message := by
    intro h
    unfold hazardToPretty
    by_cases e : h.message = ""
    · rw [if_pos e, if_neg (by rw [e]; decide)]
    · rw [if_neg e, if_pos (Nat.pos_of_ne_zero fun h0 => e (String.length_eq_zero_iff.mp h0))]
  refine ⟨"################################ Generated plan ################################", fun i => zeroPadded (toString p.statements.length).length (i + 1), (toString p.statements.length).length, ?_,
    fun i hi => zeroPadded_spec hi⟩
  unfold planToPretty
  rw [if_neg hlen, hh]
  simp only [Option.bind_eq_bind, Option.bind_some, getDisplayableStmtIdx, statementToPretty, hz]
  rfl

/-- **C84**: an empty plan is reported as such, and a plan with statements never prints that text. -/
theorem C84_pretty_empty (show_ : Duration → String) (p : Plan) :
    planToPretty show_ p = some "Schema matches expected. No plan generated" ↔ p.statements = [] := by
  constructor
  · intro h
    by_contra hne
    obtain ⟨_, -, -⟩ := C84_pretty_partial show_ p hne
    have hlen : p.statements.length ≠ 0 := fun h => hne (List.length_eq_zero_iff.mp h)
    have hh : header "Generated plan" = some "################################ Generated plan ################################" := by
      decide +kernel
    unfold planToPretty at h
    rw [if_neg hlen, hh] at h
    simp only [Option.bind_eq_bind, Option.bind_some] at h
    have h2 := congrArg (fun o => o.map fun s : String => s.toList.head?) h
    have e1 : ∀ t : String, ("################################ Generated plan ################################" ++ "\n" ++ t).toList.head? = some '#' := by
      intro t; rw [String.append_assoc, String.toList_append]; rfl
    simp only [pure, Option.map_some, e1] at h2
    revert h2
    decide
  · intro h
    unfold planToPretty
    rw [if_pos (by rw [h]; rfl)]

/-- **C84** does not hold for the script: there the same statement has the number before, in every plan.  (In the pretty
output, in the message about hazards and while applying, the first statement is number 1.) -/
theorem C84_script_numbers_violated (p : Plan) : ∃ rest : Statement → String,
    planToSql p = "\n\n".intercalate (p.statements.zipIdx.map fun x =>
      "/*\nStatement " ++ toString x.2 ++ "\n" ++ rest x.1) := by
  refine ⟨fun s => String.join (s.hazards.map fun h => "  - " ++ hazardToPretty h ++ "\n") ++ "*/\n" ++
    "SET SESSION statement_timeout = " ++ toString s.timeout.milliseconds ++ ";\n" ++
    "SET SESSION lock_timeout = " ++ toString s.lockTimeout.milliseconds ++ ";\n" ++ s.ddl.render ++ ";", ?_⟩
  unfold planToSql
  rw [sqlLoop_eq]
  refine congrArg (String.intercalate "\n\n") (List.map_congr_left fun x _ => ?_)
  have : "/*\nStatement " = "/*\n" ++ "Statement " := by decide
  unfold sqlBlock
  rw [this]
  simp only [String.append_assoc]

/-- a statement with a hazard -/
def Samples.hazardous : Statement :=
  { ddl := .raw "SELECT 1", timeout := 3 * Duration.second, lockTimeout := Duration.second, hazards := [⟨"H", "m"⟩], skipValidation := false }

/-- the two outputs of a plan with one statement -/
example : planToPretty (fun d => if d = Duration.second then "1s" else "3s") ⟨[Samples.hazardous], ""⟩ =
      some ("################################ Generated plan ################################\n" ++
        "1. SELECT 1;\n\t-- Statement Timeout: 3s\n\t-- Lock Timeout: 1s\n\t-- Hazard H: m") ∧
    planToSql ⟨[Samples.hazardous], ""⟩ =
      "/*\nStatement 0\n  - H: m\n*/\nSET SESSION statement_timeout = 3000;\nSET SESSION lock_timeout = 1000;\nSELECT 1;" := by
  decide +kernel

end Verif
