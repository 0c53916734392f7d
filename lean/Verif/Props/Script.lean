import Verif.Model.Cli
import Verif.Spec.Script
import Verif.Samples.Basic

/-!
# C36: the SQL script printed for a plan
-/

namespace Verif

open Spec.Script Cli

theorem run_append (s : Reader) (a b : List Char) : run s (a ++ b) = run (run s a) b := List.foldl_append

theorem run_cons (s : Reader) (c : Char) (l : List Char) : run s (c :: l) = run (step s c) l := rfl

theorem run_nil (s : Reader) : run s [] = s := rfl

/-! ### the statements read so far do not matter -/

/-- the same reader with more statements before -/
def Spec.Script.Reader.after (r : Reader) (o : List (List Char)) : Reader := ⟨r.mode, r.cur, o ++ r.out⟩

theorem step_after (r : Reader) (o : List (List Char)) (c : Char) : step (r.after o) c = (step r c).after o := by
  obtain ⟨m, cur, out⟩ := r
  have hn : ∀ m p2 p, normalStep ((⟨m, cur, out⟩ : Reader).after o) p2 p c = (normalStep ⟨m, cur, out⟩ p2 p c).after o := by
    intro m p2 p
    unfold normalStep openComment push Reader.after
    dsimp only
    repeat' split
    all_goals simp_all
  cases m with
  | normal p2 p => exact hn _ p2 p
  | line =>
    simp only [step, Reader.after, pushComment, push]
    by_cases hc : cur = [] <;> simp [hc]
  | block d p =>
    simp only [step, Reader.after, pushComment, push]
    repeat' split
    all_goals first | rfl | simp_all
  | quoted q => simp only [step, Reader.after, push]
  | escaped b => cases b <;> simp only [step, Reader.after, push]
  | tag t =>
    simp only [step]
    have := hn (.tag t) ' ' '$'
    simp only [Reader.after] at this ⊢
    split
    · rfl
    · split
      · rfl
      · exact this
  | dollar d b => simp only [step, Reader.after, push]

theorem run_after (l : List Char) (r : Reader) (o : List (List Char)) : run (r.after o) l = (run r l).after o := by
  induction l generalizing r with
  | nil => rfl
  | cons c l ih => rw [run_cons, run_cons, step_after, ih]

/-- two texts one after the other -/
theorem readsAs_append {a b : String} {as bs : List String} (ha : ReadsAs a as) (hb : ReadsAs b bs) :
    ReadsAs (a ++ b) (as ++ bs) := by
  unfold ReadsAs at *
  rw [String.toList_append, run_append, ha]
  have : (⟨start.mode, [], as.map String.toList⟩ : Reader) = start.after (as.map String.toList) := by
    simp [Reader.after, start]
  rw [this, run_after, hb]
  simp [Reader.after]

/-! ### the pieces of a block -/

/-- in the leading comment after some character -/
def inComment (r : Reader) : Prop := ∃ p, r = ⟨.block 1 p, [], []⟩

theorem comment_char {r : Reader} (h : inComment r) {c : Char} (h1 : c ≠ '*') (h2 : c ≠ '/') :
    step r c = ⟨.block 1 c, [], []⟩ := by
  obtain ⟨p, rfl⟩ := h
  simp [step, pushComment, h1, h2]

theorem comment_safe {l : List Char} {p : Char} (h1 : ¬ ['*', '/'] <:+: p :: l) (h2 : ¬ ['/', '*'] <:+: p :: l) :
    inComment (run ⟨.block 1 p, [], []⟩ l) := by
  induction l generalizing p with
  | nil => exact ⟨p, rfl⟩
  | cons c l ih =>
    have n1 : ¬ (p = '*' ∧ c = '/') := by
      rintro ⟨rfl, rfl⟩; exact h1 ⟨[], l, rfl⟩
    have n2 : ¬ (p = '/' ∧ c = '*') := by
      rintro ⟨rfl, rfl⟩; exact h2 ⟨[], l, rfl⟩
    rw [run_cons]
    have : step ⟨.block 1 p, [], []⟩ c = ⟨.block 1 c, [], []⟩ := by simp [step, pushComment, n1, n2]
    rw [this]
    exact ih (fun h => h1 (h.trans (List.suffix_cons _ _).isInfix)) (fun h => h2 (h.trans (List.suffix_cons _ _).isInfix))

theorem infix_cons_of_ne {a b c : Char} {l : List Char} (hc : c ≠ a) (h : [a, b] <:+: c :: l) : [a, b] <:+: l := by
  rw [List.infix_cons_iff] at h
  rcases h with h | h
  · rw [List.cons_prefix_cons] at h
    exact absurd h.1.symm hc
  · exact h

/-- a safe text after a harmless character -/
theorem comment_text {c : Char} (h1 : c ≠ '*') (h2 : c ≠ '/') {t : String} (ht : CommentSafe t) :
    inComment (run ⟨.block 1 c, [], []⟩ t.toList) :=
  comment_safe (fun h => ht.1 (infix_cons_of_ne h1 h)) (fun h => ht.2 (infix_cons_of_ne h2 h))

/-- characters without a meaning for the reader -/
def plainChar (c : Char) : Prop := c ≠ '*' ∧ c ≠ '/' ∧ c ≠ ';' ∧ c ≠ '\'' ∧ c ≠ '"' ∧ c ≠ '-' ∧ c ≠ '$'

instance (c : Char) : Decidable (plainChar c) := inferInstanceAs (Decidable (_ ∧ _))

theorem comment_plain {r : Reader} (h : inComment r) {l : List Char} (hl : ∀ c ∈ l, plainChar c) : inComment (run r l) := by
  induction l generalizing r with
  | nil => exact h
  | cons c l ih =>
    rw [run_cons]
    obtain ⟨h1, h2, -⟩ := hl c List.mem_cons_self
    exact ih ⟨c, comment_char h h1 h2⟩ fun d hd => hl d (List.mem_cons_of_mem _ hd)

theorem plain_digits {c : Char} (h : c.isDigit = true) : plainChar c := by
  refine ⟨?_, ?_, ?_, ?_, ?_, ?_, ?_⟩ <;> rintro rfl <;> revert h <;> decide

theorem toString_nat_plain (n : Nat) : ∀ c ∈ (toString n).toList, plainChar c := by
  intro c hc
  have : c ∈ Nat.toDigits 10 n := by
    simpa [ToString.toString, Nat.repr] using hc
  exact plain_digits (Nat.isDigit_of_mem_toDigits (by decide) (by decide) this)

/-- plain characters within a statement are kept -/
theorem normal_plain {a b : Char} {cur l : List Char} (hc : cur ≠ []) (hl : ∀ c ∈ l, plainChar c) :
    ∃ a' b', run ⟨.normal a b, cur, []⟩ l = ⟨.normal a' b', l.reverse ++ cur, []⟩ := by
  induction l generalizing a b cur with
  | nil => exact ⟨a, b, rfl⟩
  | cons c l ih =>
    obtain ⟨h1, h2, h3, h4, h5, h6, h7⟩ := hl c List.mem_cons_self
    have : step ⟨.normal a b, cur, []⟩ c = ⟨.normal b c, c :: cur, []⟩ := by
      simp [step, normalStep, push, h1, h3, h4, h5, h6, h7, hc]
    rw [run_cons, this]
    obtain ⟨a', b', e⟩ := ih (a := b) (b := c) (cur := c :: cur) (by simp) fun d hd => hl d (List.mem_cons_of_mem _ hd)
    exact ⟨a', b', by rw [e]; simp⟩

/-- a number after a space -/
theorem normal_int {a : Char} {cur : List Char} (hc : cur ≠ []) (n : Int) :
    ∃ a' b', run ⟨.normal a ' ', cur, []⟩ (toString n).toList = ⟨.normal a' b', (toString n).toList.reverse ++ cur, []⟩ := by
  cases n with
  | ofNat n => exact normal_plain hc (toString_nat_plain n)
  | negSucc n =>
    have : (toString (Int.negSucc n)).toList = '-' :: (toString (n + 1)).toList := by
      show ("-" ++ (toString (n + 1))).toList = _
      rw [String.toList_append]; rfl
    rw [this, run_cons]
    have : step ⟨.normal a ' ', cur, []⟩ '-' = ⟨.normal ' ' '-', '-' :: cur, []⟩ := by
      simp [step, normalStep, push, space]
    rw [this]
    obtain ⟨a', b', e⟩ := normal_plain (a := ' ') (b := '-') (cur := '-' :: cur) (by simp) (toString_nat_plain (n + 1))
    exact ⟨a', b', by rw [e]; simp⟩

/-- a setting, after a line break -/
theorem readsAs_set (ws name : String) (n : Int)
    (hname : ∃ a cur, cur ≠ [] ∧ run start (ws ++ name).toList = ⟨.normal a ' ', cur, []⟩ ∧ cur.reverse = name.toList) :
    ReadsAs (ws ++ name ++ toString n ++ ";") [name ++ toString n] := by
  obtain ⟨a, cur, hc, e, hr⟩ := hname
  obtain ⟨a', b', e'⟩ := normal_int (a := a) hc n
  unfold ReadsAs
  rw [String.toList_append, String.toList_append, run_append, run_append, e, e']
  have : ";".toList = [';'] := by decide
  rw [this, run_cons, run_nil]
  simp [step, normalStep, start, hr]

theorem readsAs_statementTimeout (n : Int) :
    ReadsAs ("\n" ++ "SET SESSION statement_timeout = " ++ toString n ++ ";") ["SET SESSION statement_timeout = " ++ toString n] :=
  readsAs_set _ _ n ⟨'=', "SET SESSION statement_timeout = ".toList.reverse, by decide +kernel, by decide +kernel, by decide +kernel⟩

theorem readsAs_lockTimeout (n : Int) :
    ReadsAs ("\n" ++ "SET SESSION lock_timeout = " ++ toString n ++ ";") ["SET SESSION lock_timeout = " ++ toString n] :=
  readsAs_set _ _ n ⟨'=', "SET SESSION lock_timeout = ".toList.reverse, by decide +kernel, by decide +kernel, by decide +kernel⟩

theorem hazard_comment {p : Char} {x : Hazard} (hx : CommentSafe x.type ∧ CommentSafe x.message) :
    run ⟨.block 1 p, [], []⟩ ("  - " ++ hazardToPretty x ++ "\n").toList = ⟨.block 1 '\n', [], []⟩ := by
  have e0 : run ⟨.block 1 p, [], []⟩ "  - ".toList = ⟨.block 1 ' ', [], []⟩ := by
    have : "  - ".toList = [' ', ' ', '-', ' '] := by decide
    rw [this]
    simp [run, step, pushComment]
  have e1 : inComment (run ⟨.block 1 ' ', [], []⟩ (hazardToPretty x).toList) := by
    unfold hazardToPretty
    split
    · have : ": ".toList = [':', ' '] := by decide
      rw [String.toList_append, String.toList_append, run_append, run_append, this, run_cons, run_cons, run_nil,
        comment_char (comment_text (by decide) (by decide) hx.1) (by decide) (by decide),
        comment_char ⟨_, rfl⟩ (by decide) (by decide)]
      exact comment_text (by decide) (by decide) hx.2
    · exact comment_text (by decide) (by decide) hx.1
  have e2 : "\n".toList = ['\n'] := by decide
  rw [String.toList_append, String.toList_append, run_append, run_append, e0, e2, run_cons, run_nil]
  exact comment_char e1 (by decide) (by decide)

theorem hazards_comment (hs : List Hazard) (hsafe : ∀ x ∈ hs, CommentSafe x.type ∧ CommentSafe x.message) :
    run ⟨.block 1 '\n', [], []⟩ (String.join (hs.map fun h => "  - " ++ hazardToPretty h ++ "\n")).toList =
      ⟨.block 1 '\n', [], []⟩ := by
  induction hs with
  | nil => rfl
  | cons x hs ih =>
    rw [List.map_cons, String.join_cons, String.toList_append, run_append, hazard_comment (hsafe x List.mem_cons_self)]
    exact ih fun y hy => hsafe y (List.mem_cons_of_mem _ hy)

/-- the comment before a statement -/
theorem comment_reads (i : Nat) (s : Statement) (hsafe : ∀ x ∈ s.hazards, CommentSafe x.type ∧ CommentSafe x.message)
    {ws : String} (hws : run start (ws ++ "/*\n" ++ "Statement ").toList = ⟨.block 1 ' ', [], []⟩) :
    ReadsAs (ws ++ "/*\n" ++ "Statement " ++ toString i ++ "\n" ++
      String.join (s.hazards.map fun h => "  - " ++ hazardToPretty h ++ "\n") ++ "*/") [] := by
  unfold ReadsAs
  have e2 : "\n".toList = ['\n'] := by decide
  have e3 : "*/".toList = ['*', '/'] := by decide
  rw [String.toList_append, String.toList_append, String.toList_append, String.toList_append, run_append, run_append,
    run_append, run_append, hws, e2, run_cons, run_nil,
    comment_char (comment_plain ⟨_, rfl⟩ (toString_nat_plain i)) (by decide) (by decide), hazards_comment _ hsafe, e3]
  simp [run, step, pushComment, start]

theorem readsAs_newline {a : String} {as : List String} (h : ReadsAs a as) : ReadsAs ("\n" ++ a) as :=
  readsAs_append (as := []) (by decide +kernel) h

theorem sqlBlock_reads (i : Nat) (s : Statement) (hsafe : ∀ x ∈ s.hazards, CommentSafe x.type ∧ CommentSafe x.message)
    {ds : List String} (hd : ReadsAs (s.ddl.render ++ ";") ds)
    {ws : String} (hws : run start (ws ++ "/*\n" ++ "Statement ").toList = ⟨.block 1 ' ', [], []⟩) :
    ReadsAs (ws ++ sqlBlock i s) (["SET SESSION statement_timeout = " ++ toString s.timeout.milliseconds,
      "SET SESSION lock_timeout = " ++ toString s.lockTimeout.milliseconds] ++ ds) := by
  have := readsAs_append (readsAs_append (comment_reads i s hsafe hws) (readsAs_statementTimeout s.timeout.milliseconds))
    (readsAs_append (readsAs_lockTimeout s.lockTimeout.milliseconds) (readsAs_newline hd))
  have e1 : "*/\n" = "*/" ++ "\n" := by decide
  have e2 : ";\n" = ";" ++ "\n" := by decide
  unfold sqlBlock
  rw [e1, e2]
  simpa only [String.append_assoc, List.nil_append, List.cons_append] using this

/-- **C36**: read as a script, the printed plan is, for every statement in order, the setting of its statement timeout,
the setting of its lock timeout, both in milliseconds, and its DDL, and nothing else.  The DDL of a statement must be
readable by itself (all quotes and comments closed), and the texts of hazards must not contain comment delimiters. -/
theorem C36_script (p : Plan) (parts : Statement → List String)
    (hd : ∀ s ∈ p.statements, ReadsAs (s.ddl.render ++ ";") (parts s))
    (hsafe : ∀ s ∈ p.statements, ∀ x ∈ s.hazards, CommentSafe x.type ∧ CommentSafe x.message) :
    ReadsAs (planToSql p) (p.statements.flatMap fun s =>
      ["SET SESSION statement_timeout = " ++ toString s.timeout.milliseconds,
        "SET SESSION lock_timeout = " ++ toString s.lockTimeout.milliseconds] ++ parts s) := by
  have key : ∀ (ss : List Statement) (i : Nat) (ws : String), (∀ s ∈ ss, s ∈ p.statements) →
      run start (ws ++ "/*\n" ++ "Statement ").toList = ⟨.block 1 ' ', [], []⟩ →
      ss ≠ [] → ReadsAs (ws ++ sqlLoop i ss) (ss.flatMap fun s =>
      ["SET SESSION statement_timeout = " ++ toString s.timeout.milliseconds,
        "SET SESSION lock_timeout = " ++ toString s.lockTimeout.milliseconds] ++ parts s) := by
    intro ss
    induction ss with
    | nil => intro _ _ _ _ h; exact absurd rfl h
    | cons s ss ih =>
      intro i ws hm hws _
      have hs := hm s List.mem_cons_self
      have hb := sqlBlock_reads i s (hsafe s hs) (hd s hs) hws
      cases ss with
      | nil => simpa [sqlLoop] using hb
      | cons t ss =>
        have := ih (i + 1) "\n\n" (fun x hx => hm x (List.mem_cons_of_mem _ hx)) (by decide +kernel) (by simp)
        have := readsAs_append hb this
        rw [List.flatMap_cons]
        simpa only [sqlLoop, String.append_assoc] using this
  unfold planToSql
  by_cases hne : p.statements = []
  · rw [hne, List.flatMap_nil]; decide +kernel
  · have := key p.statements 0 "" (fun _ h => h) (by decide +kernel) hne
    simpa using this

theorem sqlLoop_eq (i : Nat) (ss : List Statement) :
    sqlLoop i ss = "\n\n".intercalate ((ss.zipIdx i).map fun x => sqlBlock x.2 x.1) := by
  induction ss generalizing i with
  | nil => rw [sqlLoop, List.zipIdx_nil, List.map_nil, String.intercalate_nil]
  | cons s ss ih =>
    rw [List.zipIdx_cons, List.map_cons]
    cases ss with
    | nil => rw [sqlLoop, List.zipIdx_nil, List.map_nil, String.intercalate_singleton]
    | cons t ss =>
      have := ih (i + 1)
      rw [List.zipIdx_cons, List.map_cons] at this ⊢
      rw [sqlLoop, String.intercalate_cons_cons, this]
      exact fun h => by cases h

/-- **C36**: whatever the statements are, the printed text is, separated by empty lines, for every statement in order a
comment, the settings of its statement timeout and of its lock timeout and its DDL. -/
theorem C36_text (p : Plan) : ∃ comment : Nat → Statement → String,
    planToSql p = "\n\n".intercalate (p.statements.zipIdx.map fun x => comment x.2 x.1 ++
      ("SET SESSION statement_timeout = " ++ toString x.1.timeout.milliseconds ++ ";\n" ++
        "SET SESSION lock_timeout = " ++ toString x.1.lockTimeout.milliseconds ++ ";\n" ++ x.1.ddl.render ++ ";")) := by
  refine ⟨fun i s => "/*\n" ++ "Statement " ++ toString i ++ "\n" ++
    String.join (s.hazards.map fun h => "  - " ++ hazardToPretty h ++ "\n") ++ "*/\n", ?_⟩
  unfold planToSql
  rw [sqlLoop_eq]
  refine congrArg (String.intercalate "\n\n") (List.map_congr_left fun x _ => ?_)
  unfold sqlBlock
  simp only [String.append_assoc]

/-- the statements of a generated plan can be read by themselves, and so can the script -/
example : ∃ stmts r', generateMigrationStatements Samples.rand Samples.old1 Samples.new1 Samples.opts = .ok (stmts, r') ∧
    stmts.length = 5 ∧ (∀ s ∈ stmts, ReadsAs (s.ddl.render ++ ";") [s.ddl.render]) ∧
    (∀ s ∈ stmts, ∀ x ∈ s.hazards, CommentSafe x.type ∧ CommentSafe x.message) := Samples.exists_plan (by decide +kernel)

/-- a function body with semicolons, a string and an identifier with one -/
example : ReadsAs "CREATE FUNCTION f() RETURNS int LANGUAGE sql AS $body$ SELECT 1; SELECT ';' $body$;"
      ["CREATE FUNCTION f() RETURNS int LANGUAGE sql AS $body$ SELECT 1; SELECT ';' $body$"] ∧
    ReadsAs "COMMENT ON TABLE \"a;b\" IS 'it''s; /* no comment'; -- end\nSELECT 1;"
      ["COMMENT ON TABLE \"a;b\" IS 'it''s; /* no comment'", "SELECT 1"] := by decide +kernel

end Verif
