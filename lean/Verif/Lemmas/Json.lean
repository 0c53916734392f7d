import Verif.Spec.Json

/-!
# What is written as JSON can be read back
-/

namespace Verif

open Spec.Json

theorem hexValue_hexDigit : ∀ k < 16, hexValue (Json.hexDigit k) = some k := by decide

theorem unicode_hex {n : Nat} (h : n < 0xd800) :
    unicode (Json.hexDigit (n / 4096 % 16)) (Json.hexDigit (n / 256 % 16)) (Json.hexDigit (n / 16 % 16))
      (Json.hexDigit (n % 16)) = some (Char.ofNat n) := by
  unfold unicode
  rw [hexValue_hexDigit _ (by omega), hexValue_hexDigit _ (by omega), hexValue_hexDigit _ (by omega),
    hexValue_hexDigit _ (by omega)]
  have e : 4096 * (n / 4096 % 16) + 256 * (n / 256 % 16) + 16 * (n / 16 % 16) + n % 16 = n := by omega
  simp only [Option.bind_eq_bind, Option.bind_some, e]
  rw [if_pos (Or.inl h)]

theorem readString_simple {e x : Char} {l r : List Char} {rest : List Char} (hu : e ≠ 'u') (he : simpleEscape e = some x)
    (hr : readString l = some (r, rest)) : readString ('\\' :: e :: l) = some (x :: r, rest) := by
  rw [readString]
  · rw [he, hr]; rfl
  · intro a b c d l' h _
    exact hu h

theorem readString_unicode {n : Nat} {l r rest : List Char} (h : n < 0xd800) (hr : readString l = some (r, rest)) :
    readString (Json.hexEscape n ++ l) = some (Char.ofNat n :: r, rest) := by
  show readString ('\\' :: 'u' :: _ :: _ :: _ :: _ :: l) = _
  rw [readString, unicode_hex h, hr]
  rfl

theorem readString_plain {c : Char} {l r rest : List Char} (hq : c ≠ '"') (hb : c ≠ '\\') (h : 32 ≤ c.toNat)
    (hr : readString l = some (r, rest)) : readString (c :: l) = some (c :: r, rest) := by
  rw [readString]
  · rw [if_neg (by omega), hr]; rfl
  · exact hq
  · intro a b c' d l' h _
    exact hb h
  · intro e l' h _
    exact hb h

theorem readString_escape (c : Char) {l r rest : List Char} (hr : readString l = some (r, rest)) :
    readString (Json.escapeChar c ++ l) = some (c :: r, rest) := by
  unfold Json.escapeChar
  split_ifs with h1 h2 h3 h4 h5 h6 h7 h8
  · subst h1; exact readString_simple (by decide) rfl hr
  · subst h2; exact readString_simple (by decide) rfl hr
  · subst h3; exact readString_simple (by decide) rfl hr
  · subst h4; exact readString_simple (by decide) rfl hr
  · subst h5; exact readString_simple (by decide) rfl hr
  · subst h6; exact readString_simple (by decide) rfl hr
  · subst h7; exact readString_simple (by decide) rfl hr
  · have hn : c.toNat < 0xd800 := by
      rcases h8 with h | h | h | h | h | h
      · omega
      · rw [h]; decide
      · rw [h]; decide
      · rw [h]; decide
      · omega
      · omega
    have := readString_unicode hn hr
    rwa [Char.ofNat_toNat] at this
  · exact readString_plain h1 h2 (by by_contra hc; exact h8 (Or.inl (by omega))) hr

theorem readString_quote (s : List Char) (rest : List Char) :
    readString (s.flatMap Json.escapeChar ++ '"' :: rest) = some (s, rest) := by
  induction s with
  | nil => rw [List.flatMap_nil, List.nil_append, readString]
  | cons c s ih =>
    rw [List.flatMap_cons, List.append_assoc]
    exact readString_escape c ih

/-! ## numbers -/

/-- no digit comes next -/
def NoDigit (l : List Char) : Prop := ∀ c, l.head? = some c → Spec.Json.isDigit c = false

theorem isDigit_of_char {c : Char} (h : c.isDigit = true) : Spec.Json.isDigit c = true := by
  unfold Spec.Json.isDigit
  simp only [Char.isDigit, Bool.and_eq_true, decide_eq_true_eq, ge_iff_le] at h ⊢
  obtain ⟨h1, h2⟩ := h
  exact ⟨h1, h2⟩

theorem takeWhile_all {p : Char → Bool} {l r : List Char} (hl : ∀ c ∈ l, p c = true) (hr : ∀ c, r.head? = some c → p c = false) :
    (l ++ r).takeWhile p = l ∧ (l ++ r).dropWhile p = r := by
  induction l with
  | nil =>
    cases r with
    | nil => exact ⟨rfl, rfl⟩
    | cons c r =>
      have := hr c rfl
      simp [this]
  | cons c l ih =>
    have hc := hl c List.mem_cons_self
    obtain ⟨h1, h2⟩ := ih fun x hx => hl x (List.mem_cons_of_mem _ hx)
    simp [hc, h1, h2]

theorem digits_toDigits (n : Nat) : digits (Nat.toDigits 10 n) = n := by
  have := Nat.ofDigitChars_ten_toDigits (n := n)
  rw [Nat.ofDigitChars_eq_foldl] at this
  exact this

theorem toDigits_head (n : Nat) : (Nat.toDigits 10 n).head? = some '0' → n = 0 := by
  induction n using Nat.strongRecOn with
  | _ n ih =>
    intro h
    by_cases hn : n < 10
    · rw [Nat.toDigits_of_lt_base hn] at h
      have key : ∀ n < 10, [Nat.digitChar n].head? = some '0' → n = 0 := by decide
      exact key n hn h
    · rw [Nat.toDigits_of_base_le (by decide) (by omega)] at h
      have hne := Nat.toDigits_ne_nil (n := n / 10) (b := 10)
      cases hd : Nat.toDigits 10 (n / 10) with
      | nil => exact absurd hd hne
      | cons c l =>
        rw [hd] at h
        have := ih (n / 10) (by omega) (by rw [hd]; exact h)
        omega

theorem readNat_toDigits (n : Nat) {rest : List Char} (hr : NoDigit rest) :
    readNat (Nat.toDigits 10 n ++ rest) = some (n, rest) := by
  obtain ⟨h1, h2⟩ := takeWhile_all (p := Spec.Json.isDigit) (l := Nat.toDigits 10 n) (r := rest)
    (fun c hc => isDigit_of_char (Nat.isDigit_of_mem_toDigits (by decide) (by decide) hc)) hr
  unfold readNat
  simp only [h1, h2, digits_toDigits]
  rw [if_neg]
  rintro (h | ⟨h, h3⟩)
  · exact Nat.toDigits_ne_nil h
  · have := toDigits_head n h
    subst this
    revert h3
    decide

theorem toDigits_first (n : Nat) : ∃ c l, Nat.toDigits 10 n = c :: l ∧ Spec.Json.isDigit c = true := by
  cases hd : Nat.toDigits 10 n with
  | nil => exact absurd hd Nat.toDigits_ne_nil
  | cons c l =>
    exact ⟨c, l, rfl, isDigit_of_char (Nat.isDigit_of_mem_toDigits (b := 10) (n := n) (by decide) (by decide)
      (by rw [hd]; exact List.mem_cons_self))⟩

theorem readValue_nat (fuel n : Nat) {rest : List Char} (hr : NoDigit rest) :
    readValue (fuel + 1) (Nat.toDigits 10 n ++ rest) = some (.num n, rest) := by
  obtain ⟨c, l, hd, hc⟩ := toDigits_first n
  have hn := readNat_toDigits n hr
  rw [hd] at hn ⊢
  rw [List.cons_append] at hn ⊢
  have key : ∀ x : Char, Spec.Json.isDigit x = false → c ≠ x := by
    rintro x hx rfl
    rw [hx] at hc; cases hc
  rw [readValue]
  · rw [hn]; rfl
  · rintro l' h; exact key 'n' (by decide) (by injection h)
  · rintro l' h; exact key '"' (by decide) (by injection h)
  · rintro l' h; exact key '[' (by decide) (by injection h)
  · rintro l' h; exact key '{' (by decide) (by injection h)
  · rintro l' h; exact key '-' (by decide) (by injection h)

theorem readValue_int (fuel : Nat) (n : Int) {rest : List Char} (hr : NoDigit rest) :
    readValue (fuel + 1) ((toString n).toList ++ rest) = some (.num n, rest) := by
  cases n with
  | ofNat n =>
    have : (toString (Int.ofNat n)).toList = Nat.toDigits 10 n := Nat.toList_repr
    rw [this]
    exact readValue_nat fuel n hr
  | negSucc n =>
    have : (toString (Int.negSucc n)).toList = '-' :: Nat.toDigits 10 (n + 1) := by
      show (("-" : String) ++ Nat.repr (n + 1)).toList = _
      rw [String.toList_append, Nat.toList_repr]; rfl
    rw [this, List.cons_append, readValue, readNat_toDigits _ hr]
    rfl

/-! ## values -/

theorem skip_newline (d : Nat) (l : List Char) (h : ∀ c, l.head? = some c → isSpace c = false) :
    skip (Json.newline d ++ l) = l := by
  have hall : ∀ c ∈ Json.newline d, isSpace c = true := by
    intro c hc
    rcases List.mem_cons.mp hc with h | h
    · subst h; rfl
    · rw [List.eq_of_mem_replicate h]; rfl
  exact (takeWhile_all hall h).2

theorem digit_not_space {c : Char} (h : Spec.Json.isDigit c = true) : isSpace c = false ∧ c ≠ ']' ∧ c ≠ '}' := by
  have hd : 48 ≤ c.toNat ∧ c.toNat ≤ 57 := by simpa [Spec.Json.isDigit] using h
  have key : ∀ x : Char, (x.toNat < 48 ∨ 57 < x.toNat) → c ≠ x := by rintro x hx rfl; omega
  refine ⟨?_, key _ (by decide), key _ (by decide)⟩
  simp only [isSpace, Bool.or_eq_false_iff, beq_eq_false_iff_ne]
  exact ⟨⟨⟨key _ (by decide), key _ (by decide)⟩, key _ (by decide)⟩, key _ (by decide)⟩

/-- a written value begins with a character that is neither white space nor a closing bracket -/
theorem write_first (d : Nat) (j : Json) : ∃ c l, Json.write d j = c :: l ∧ isSpace c = false ∧ c ≠ ']' ∧ c ≠ '}' := by
  cases j with
  | null => exact ⟨'n', "ull".toList, by simp only [Json.write]; rfl, by decide, by decide, by decide⟩
  | num n =>
    simp only [Json.write]
    cases n with
    | ofNat n =>
      have : (toString (Int.ofNat n)).toList = Nat.toDigits 10 n := Nat.toList_repr
      obtain ⟨c, l, h1, h2⟩ := toDigits_first n
      exact ⟨c, l, this.trans h1, digit_not_space h2⟩
    | negSucc n =>
      exact ⟨'-', Nat.toDigits 10 (n + 1), by
        show (("-" : String) ++ Nat.repr (n + 1)).toList = _
        rw [String.toList_append, Nat.toList_repr]; rfl, by decide, by decide, by decide⟩
  | str s => exact ⟨'"', _, by simp only [Json.write]; rfl, by decide, by decide, by decide⟩
  | arr l => cases l <;> exact ⟨'[', _, by simp only [Json.write]; rfl, by decide, by decide, by decide⟩
  | obj l => cases l <;> exact ⟨'{', _, by simp only [Json.write]; rfl, by decide, by decide, by decide⟩

theorem newline_length (d : Nat) : 1 ≤ (Json.newline d).length := by simp [Json.newline]

theorem noDigit_newline (d : Nat) (l : List Char) : NoDigit (Json.newline d ++ l) := by
  intro c hc
  have : c = '\n' := by simpa [Json.newline] using hc.symm
  subst this; rfl

theorem noDigit_comma (l : List Char) : NoDigit (',' :: l) := by
  intro c hc
  have : c = ',' := by simpa using hc.symm
  subst this; rfl

/-- further elements or the end of an array: no digit comes next -/
theorem noDigit_elems (d : Nat) (l : List Json) (d' : Nat) (r : List Char) :
    NoDigit (Json.writeElems d l ++ (Json.newline d' ++ r)) := by
  cases l with
  | nil => simp only [Json.writeElems, List.nil_append]; exact noDigit_newline _ _
  | cons x l => simp only [Json.writeElems, List.cons_append]; exact noDigit_comma _

theorem noDigit_fields (d : Nat) (l : List (String × Json)) (d' : Nat) (r : List Char) :
    NoDigit (Json.writeFields d l ++ (Json.newline d' ++ r)) := by
  cases l with
  | nil => simp only [Json.writeFields, List.nil_append]; exact noDigit_newline _ _
  | cons x l => simp only [Json.writeFields, List.cons_append]; exact noDigit_comma _

theorem skip_first {c : Char} (l : List Char) (h : isSpace c = false) (d : Nat) :
    skip (Json.newline d ++ c :: l) = c :: l := skip_newline d _ (by
  intro x hx
  have : x = c := by simpa using hx.symm
  rwa [this])

mutual
theorem readValue_write (j : Json) (d fuel : Nat) (rest : List Char) (hr : NoDigit rest)
    (hf : (Json.write d j).length ≤ fuel) : readValue fuel (Json.write d j ++ rest) = some (j, rest) := by
  match j with
  | .null =>
    match fuel with
    | 0 => simp [Json.write] at hf
    | n + 1 => simp only [Json.write]; show readValue (n + 1) ('n' :: 'u' :: 'l' :: 'l' :: rest) = _; rw [readValue]
  | .num n =>
    match fuel with
    | 0 =>
      obtain ⟨c, l, h, -⟩ := write_first d (.num n)
      rw [h] at hf; simp at hf
    | k + 1 => simp only [Json.write]; exact readValue_int k n hr
  | .str s =>
    match fuel with
    | 0 => simp [Json.write, Json.quote] at hf
    | n + 1 =>
      have e : Json.write d (.str s) ++ rest = '"' :: (s.toList.flatMap Json.escapeChar ++ '"' :: rest) := by
        simp [Json.write, Json.quote]
      rw [e, readValue, readString_quote]
      simp [String.ofList_toList]
  | .arr [] =>
    match fuel with
    | 0 => simp [Json.write] at hf
    | n + 1 =>
      simp only [Json.write]
      show readValue (n + 1) ('[' :: ']' :: rest) = _
      rw [readValue]
      rfl
  | .arr (x :: l) =>
    match fuel with
    | 0 => simp [Json.write] at hf
    | n + 1 =>
      have e : Json.write d (.arr (x :: l)) ++ rest = '[' :: (Json.newline (d + 1) ++
          (Json.write (d + 1) x ++ (Json.writeElems (d + 1) l ++ (Json.newline d ++ ']' :: rest)))) := by
        simp [Json.write]
      have hlen : 1 + (Json.write (d + 1) x).length + (Json.writeElems (d + 1) l).length ≤ n := by
        have := newline_length d
        have := newline_length (d + 1)
        simp only [Json.write, List.length_cons, List.length_append, List.length_nil] at hf
        omega
      have ih := readElems_write x l (d + 1) n d rest hlen
      obtain ⟨c, cs, h1, h2, h3, -⟩ := write_first (d + 1) x
      rw [e, readValue]
      rw [h1] at ih ⊢
      rw [List.cons_append] at ih ⊢
      rw [skip_first _ h2]
      split
      · rename_i heq
        injection heq with heq _
        exact absurd heq h3
      · rw [ih]; rfl
  | .obj [] =>
    match fuel with
    | 0 => simp [Json.write] at hf
    | n + 1 =>
      simp only [Json.write]
      show readValue (n + 1) ('{' :: '}' :: rest) = _
      rw [readValue]
      rfl
  | .obj ((k, x) :: l) =>
    match fuel with
    | 0 => simp [Json.write] at hf
    | n + 1 =>
      have e : Json.write d (.obj ((k, x) :: l)) ++ rest = '{' :: (Json.newline (d + 1) ++
          '"' :: (k.toList.flatMap Json.escapeChar ++ '"' :: ':' :: ' ' :: (Json.write (d + 1) x ++
            (Json.writeFields (d + 1) l ++ (Json.newline d ++ '}' :: rest))))) := by
        simp [Json.write, Json.quote]
      have hlen : 1 + (Json.write (d + 1) x).length + (Json.writeFields (d + 1) l).length ≤ n := by
        have := newline_length d
        have := newline_length (d + 1)
        simp only [Json.write, List.length_cons, List.length_append, List.length_nil] at hf
        omega
      have ih := readFields_write k x l (d + 1) n d rest hlen
      rw [e, readValue, skip_first _ (by decide)]
      split
      · rename_i heq
        injection heq with heq _
        exact absurd heq (by decide)
      · rw [ih]; rfl
termination_by structural fuel

theorem readElems_write (x : Json) (l : List Json) (d fuel d' : Nat) (rest : List Char)
    (hf : 1 + (Json.write d x).length + (Json.writeElems d l).length ≤ fuel) :
    readElems fuel (Json.write d x ++ (Json.writeElems d l ++ (Json.newline d' ++ ']' :: rest))) = some (x :: l, rest) := by
  match fuel with
  | 0 => omega
  | n + 1 =>
    have ihx := readValue_write x d n (Json.writeElems d l ++ (Json.newline d' ++ ']' :: rest))
      (noDigit_elems d l d' _) (by omega)
    rw [readElems, ihx]
    match l with
    | [] =>
      simp only [Json.writeElems, List.nil_append, Option.bind_eq_bind, Option.bind_some]
      rw [skip_first _ (by decide)]
      rfl
    | y :: l =>
      have hlen : 1 + (Json.write d y).length + (Json.writeElems d l).length ≤ n := by
        have := newline_length d
        simp only [Json.writeElems, List.length_cons, List.length_append] at hf
        omega
      have ih := readElems_write y l d n d' rest hlen
      have e : Json.writeElems d (y :: l) ++ (Json.newline d' ++ ']' :: rest) = ',' :: (Json.newline d ++
          (Json.write d y ++ (Json.writeElems d l ++ (Json.newline d' ++ ']' :: rest)))) := by simp [Json.writeElems]
      have hs : skip (',' :: (Json.newline d ++ (Json.write d y ++ (Json.writeElems d l ++ (Json.newline d' ++ ']' :: rest))))) =
        ',' :: (Json.newline d ++ (Json.write d y ++ (Json.writeElems d l ++ (Json.newline d' ++ ']' :: rest)))) := rfl
      obtain ⟨c, cs, h1, h2, -, -⟩ := write_first d y
      have hs2 : skip (Json.newline d ++ (Json.write d y ++ (Json.writeElems d l ++ (Json.newline d' ++ ']' :: rest)))) =
          Json.write d y ++ (Json.writeElems d l ++ (Json.newline d' ++ ']' :: rest)) := by
        rw [h1, List.cons_append]; exact skip_first _ h2 d
      simp only [Option.bind_eq_bind, Option.bind_some]
      rw [e, hs]
      simp only [hs2, ih, Option.bind_some]
      rfl
termination_by structural fuel

theorem readFields_write (k : String) (x : Json) (l : List (String × Json)) (d fuel d' : Nat) (rest : List Char)
    (hf : 1 + (Json.write d x).length + (Json.writeFields d l).length ≤ fuel) :
    readFields fuel ('"' :: (k.toList.flatMap Json.escapeChar ++ '"' :: ':' :: ' ' :: (Json.write d x ++
      (Json.writeFields d l ++ (Json.newline d' ++ '}' :: rest))))) = some ((k, x) :: l, rest) := by
  match fuel with
  | 0 => omega
  | n + 1 =>
    have ihx := readValue_write x d n (Json.writeFields d l ++ (Json.newline d' ++ '}' :: rest))
      (noDigit_fields d l d' _) (by omega)
    have hsx : skip (' ' :: (Json.write d x ++ (Json.writeFields d l ++ (Json.newline d' ++ '}' :: rest)))) =
        Json.write d x ++ (Json.writeFields d l ++ (Json.newline d' ++ '}' :: rest)) := by
      obtain ⟨c, cs, h1, h2, -, -⟩ := write_first d x
      rw [h1, List.cons_append]
      show List.dropWhile isSpace (' ' :: c :: _) = _
      rw [List.dropWhile_cons_of_pos (by decide), List.dropWhile_cons_of_neg (by simp [h2])]
    have hc : ∀ t, skip (':' :: t) = ':' :: t := fun t => rfl
    rw [readFields, readString_quote]
    simp only [Option.bind_eq_bind, Option.bind_some, hc, hsx, ihx]
    match l with
    | [] =>
      simp only [Json.writeFields, List.nil_append]
      rw [skip_first _ (by decide)]
      simp [String.ofList_toList]
    | (k2, y) :: l =>
      have hlen : 1 + (Json.write d y).length + (Json.writeFields d l).length ≤ n := by
        have := newline_length d
        simp only [Json.writeFields, List.length_cons, List.length_append] at hf
        omega
      have ih := readFields_write k2 y l d n d' rest hlen
      have e : Json.writeFields d ((k2, y) :: l) ++ (Json.newline d' ++ '}' :: rest) = ',' :: (Json.newline d ++
          ('"' :: (k2.toList.flatMap Json.escapeChar ++ '"' :: ':' :: ' ' :: (Json.write d y ++
            (Json.writeFields d l ++ (Json.newline d' ++ '}' :: rest)))))) := by simp [Json.writeFields, Json.quote]
      have hs : ∀ t, skip (',' :: t) = ',' :: t := fun t => rfl
      have hs2 := fun t => skip_first (c := '"') t (by decide) d
      rw [e, hs]
      simp only [hs2, ih, Option.bind_some]
      simp [String.ofList_toList]
termination_by structural fuel
end

theorem read_write (j : Json) : Spec.Json.read (String.ofList (Json.write 0 j)) = some j := by
  obtain ⟨c, l, h1, h2, -, -⟩ := write_first 0 j
  have hs : skip (Json.write 0 j) = Json.write 0 j := by
    rw [h1]; exact List.dropWhile_cons_of_neg (by simp [h2])
  have := readValue_write j 0 ((String.ofList (Json.write 0 j)).length + 1) [] (by intro c hc; cases hc) (by simp)
  rw [List.append_nil] at this
  unfold Spec.Json.read
  rw [String.toList_ofList, hs, this]
  rfl

end Verif
