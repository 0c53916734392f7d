import Verif.Model.RandomId
import Verif.Model.TempDb

/-!
# C59: random identifiers
-/

namespace Verif

theorem alphabet_nodup : identifierAlphabet.Nodup := by decide +kernel
theorem alphabet_length : identifierAlphabet.length = 64 := by decide +kernel

theorem encodeSextet_eq (v : Nat) : encodeSextet v = identifierAlphabet[v % 64]'(by rw [alphabet_length]; omega) := by
  unfold encodeSextet
  exact (List.getElem_eq_getD _).symm

theorem encodeSextet_mem (v : Nat) : encodeSextet v ∈ identifierAlphabet := by
  rw [encodeSextet_eq]; exact List.getElem_mem _

theorem encodeSextet_inj {v w : Nat} (h : encodeSextet v = encodeSextet w) : v % 64 = w % 64 := by
  rw [encodeSextet_eq, encodeSextet_eq] at h
  exact (alphabet_nodup.getElem_inj_iff).mp h

theorem encodeBase64_length : ∀ l : List UInt8, (encodeBase64 l).length = (l.length * 4 + 2) / 3
  | [] => rfl
  | [_] => by simp [encodeBase64]
  | [_, _] => by simp [encodeBase64]
  | a :: b :: c :: rest => by
    have := encodeBase64_length rest
    simp only [encodeBase64, List.length_cons, this]
    omega

theorem encodeBase64_mem : ∀ (l : List UInt8), ∀ c ∈ encodeBase64 l, c ∈ identifierAlphabet
  | [], c, h => by cases h
  | [_], c, h => by
    simp only [encodeBase64, List.mem_cons, List.not_mem_nil, or_false] at h
    obtain h | h := h <;> exact h ▸ encodeSextet_mem _
  | [_, _], c, h => by
    simp only [encodeBase64, List.mem_cons, List.not_mem_nil, or_false] at h
    obtain h | h | h := h <;> exact h ▸ encodeSextet_mem _
  | a :: b :: c :: rest, x, h => by
    simp only [encodeBase64, List.mem_cons] at h
    obtain h | h | h | h | h := h
    · exact h ▸ encodeSextet_mem _
    · exact h ▸ encodeSextet_mem _
    · exact h ▸ encodeSextet_mem _
    · exact h ▸ encodeSextet_mem _
    · exact encodeBase64_mem rest x h

theorem encodeBase64_inj : ∀ (l l' : List UInt8), l.length = l'.length → encodeBase64 l = encodeBase64 l' → l = l'
  | [], [], _, _ => rfl
  | [a], [a'], _, h => by
    simp only [encodeBase64, List.cons.injEq, and_true] at h
    have h1 := encodeSextet_inj h.1
    have h2 := encodeSextet_inj h.2
    have := a.toNat_lt
    have := a'.toNat_lt
    have e : a.toNat = a'.toNat := by omega
    rw [UInt8.toNat_inj.mp e]
  | [a, b], [a', b'], _, h => by
    simp only [encodeBase64, List.cons.injEq, and_true] at h
    have h1 := encodeSextet_inj h.1
    have h2 := encodeSextet_inj h.2.1
    have h3 := encodeSextet_inj h.2.2
    have := a.toNat_lt
    have := a'.toNat_lt
    have := b.toNat_lt
    have := b'.toNat_lt
    have e : a.toNat = a'.toNat := by omega
    have e' : b.toNat = b'.toNat := by omega
    rw [UInt8.toNat_inj.mp e, UInt8.toNat_inj.mp e']
  | a :: b :: c :: rest, a' :: b' :: c' :: rest', hl, h => by
    simp only [encodeBase64, List.cons.injEq] at h
    have h1 := encodeSextet_inj h.1
    have h2 := encodeSextet_inj h.2.1
    have h3 := encodeSextet_inj h.2.2.1
    have h4 := encodeSextet_inj h.2.2.2.1
    have := a.toNat_lt
    have := a'.toNat_lt
    have := b.toNat_lt
    have := b'.toNat_lt
    have := c.toNat_lt
    have := c'.toNat_lt
    have e : a.toNat = a'.toNat := by omega
    have e' : b.toNat = b'.toNat := by omega
    have e'' : c.toNat = c'.toNat := by omega
    rw [UInt8.toNat_inj.mp e, UInt8.toNat_inj.mp e', UInt8.toNat_inj.mp e'',
      encodeBase64_inj rest rest' (by simpa using hl) h.2.2.2.2]

/-- **C59**: the text of a random id is 22 characters of the identifier alphabet, for every reader. -/
theorem C59_text_is_legal {reader rest : List UInt8} {id : String} (h : readRandomUUID reader = .ok (id, rest)) :
    id.length = 22 ∧ ∀ c ∈ id.toList, ('A' ≤ c ∧ c ≤ 'Z') ∨ ('a' ≤ c ∧ c ≤ 'z') ∨ ('0' ≤ c ∧ c ≤ '9') ∨ c = '$' ∨ c = '_' := by
  unfold readRandomUUID at h
  split at h
  · cases h
  rename_i hl
  cases h
  constructor
  · rw [String.length_ofList, encodeBase64_length]
    simp only [setVersion, List.length_modify, List.length_take]
    omega
  · intro c hc
    rw [String.toList_ofList] at hc
    have : ∀ c ∈ identifierAlphabet, ('A' ≤ c ∧ c ≤ 'Z') ∨ ('a' ≤ c ∧ c ≤ 'z') ∨ ('0' ≤ c ∧ c ≤ '9') ∨ c = '$' ∨ c = '_' := by
      decide +kernel
    exact this c (encodeBase64_mem _ c hc)

/-- **C59**: with a prefix that starts with a letter it is an identifier for Postgres: letters, digits, `$` and `_`, the first not
a digit; and it needs no escaping inside quotes. -/
theorem C59_no_quotes {reader rest : List UInt8} {id : String} (h : readRandomUUID reader = .ok (id, rest)) :
    '"' ∉ id.toList ∧ '\'' ∉ id.toList ∧ '\x00' ∉ id.toList ∧ '\n' ∉ id.toList := by
  have := (C59_text_is_legal h).2
  refine ⟨fun hc => ?_, fun hc => ?_, fun hc => ?_, fun hc => ?_⟩ <;>
    (have := this _ hc; revert this; decide)

/-- **C59**: two different ids (16 byte values) never have the same text. -/
theorem C59_text_injective {l l' : List UInt8} (hl : l.length = 16) (hl' : l'.length = 16)
    (h : String.ofList (encodeBase64 l) = String.ofList (encodeBase64 l')) : l = l' :=
  encodeBase64_inj l l' (hl.trans hl'.symm) (by simpa using congrArg String.toList h)

/-- the bits of a random uuid that are random: all but the upper four of byte 6 and the upper two of byte 8 -/
def SameRandomBits (l l' : List UInt8) : Prop := ∀ i, i < 16 →
  if i = 6 then (l.getD i 0) % 16 = (l'.getD i 0) % 16
  else if i = 8 then (l.getD i 0) % 64 = (l'.getD i 0) % 64
  else l.getD i 0 = l'.getD i 0

theorem mask6 (a : UInt8) : ((a &&& 0x0f) ||| 0x40).toNat = a.toNat % 16 + 64 := by
  have : ∀ n : Fin 256, (((UInt8.ofNat n) &&& 0x0f) ||| 0x40).toNat = n.val % 16 + 64 := by decide +kernel
  have := this ⟨a.toNat, a.toNat_lt⟩
  simpa using this

theorem mask8 (a : UInt8) : ((a &&& 0x3f) ||| 0x80).toNat = a.toNat % 64 + 128 := by
  have : ∀ n : Fin 256, (((UInt8.ofNat n) &&& 0x3f) ||| 0x80).toNat = n.val % 64 + 128 := by decide +kernel
  have := this ⟨a.toNat, a.toNat_lt⟩
  simpa using this

theorem mask6_inj {a b : UInt8} : (a &&& 0x0f) ||| 0x40 = (b &&& 0x0f) ||| 0x40 ↔ a % 16 = b % 16 := by
  rw [← UInt8.toNat_inj, ← UInt8.toNat_inj, mask6, mask6, UInt8.toNat_mod, UInt8.toNat_mod]
  show _ ↔ a.toNat % 16 = b.toNat % 16
  omega

theorem mask8_inj {a b : UInt8} : (a &&& 0x3f) ||| 0x80 = (b &&& 0x3f) ||| 0x80 ↔ a % 64 = b % 64 := by
  rw [← UInt8.toNat_inj, ← UInt8.toNat_inj, mask8, mask8, UInt8.toNat_mod, UInt8.toNat_mod]
  show _ ↔ a.toNat % 64 = b.toNat % 64
  omega

theorem getD_setVersion {l : List UInt8} (hl : l.length = 16) {i : Nat} (hi : i < 16) : (setVersion l).getD i 0 =
    if i = 6 then (l.getD i 0 &&& 0x0f) ||| 0x40 else if i = 8 then (l.getD i 0 &&& 0x3f) ||| 0x80 else l.getD i 0 := by
  unfold setVersion
  simp only [List.getD_eq_getElem?_getD, List.getElem?_modify]
  rw [List.getElem?_eq_getElem (by omega)]
  by_cases h6 : i = 6
  · subst h6; simp
  · by_cases h8 : i = 8
    · subst h8; simp
    · simp [h6, h8, Ne.symm h6, Ne.symm h8]

theorem setVersion_eq_iff {l l' : List UInt8} (hl : l.length = 16) (hl' : l'.length = 16) :
    setVersion l = setVersion l' ↔ SameRandomBits l l' := by
  have e : setVersion l = setVersion l' ↔ ∀ i, i < 16 → (setVersion l).getD i 0 = (setVersion l').getD i 0 := by
    constructor
    · intro h i _; rw [h]
    · intro h
      refine List.ext_getElem (by simp [setVersion, hl, hl']) fun i h1 h2 => ?_
      have hi : i < 16 := by simpa [setVersion, hl] using h1
      have := h i hi
      rwa [← List.getElem_eq_getD (h := h1), ← List.getElem_eq_getD (h := h2)] at this
  rw [e]
  refine forall₂_congr fun i hi => ?_
  rw [getD_setVersion hl hi, getD_setVersion hl' hi]
  by_cases h6 : i = 6
  · simp only [h6, if_true]; exact mask6_inj
  · by_cases h8 : i = 8
    · subst h8; simp only [if_neg h6, if_true]; exact mask8_inj
    · simp only [if_neg h6, if_neg h8]

/-- **C59**: two draws have the same text only if all their 122 random bits agree. -/
theorem C59_draws_differ {reader reader' rest rest' : List UInt8} {id : String} (h : readRandomUUID reader = .ok (id, rest))
    (h' : readRandomUUID reader' = .ok (id, rest')) : SameRandomBits (reader.take 16) (reader'.take 16) := by
  unfold readRandomUUID at h h'
  split at h
  · cases h
  split at h'
  · cases h'
  rename_i hl hl'
  simp only [Except.ok.injEq, Prod.mk.injEq] at h h'
  have l1 : (reader.take 16).length = 16 := by rw [List.length_take]; omega
  have l2 : (reader'.take 16).length = 16 := by rw [List.length_take]; omega
  refine (setVersion_eq_iff l1 l2).mp (C59_text_injective ?_ ?_ (h.1.trans h'.1.symm)) <;> simp [setVersion, l1, l2]

/-- **C59**: an id is returned iff the reader has 16 bytes, and exactly those are read. -/
theorem C59_reads_16_bytes (reader : List UInt8) : (∃ id, readRandomUUID reader = .ok (id, reader.drop 16)) ↔ 16 ≤ reader.length := by
  unfold readRandomUUID
  split
  · rename_i h
    exact ⟨fun ⟨_, h⟩ => (nomatch h), fun h' => by omega⟩
  · rename_i h
    exact ⟨fun _ => by omega, fun _ => ⟨_, rfl⟩⟩

example : readRandomUUID [0, 1, 2, 3, 4, 5, 6, 7, 8, 9, 10, 11, 12, 13, 14, 255, 42] = .ok ("AAECAwQFRgeICQoLDA0O_w", [42]) := by
  decide +kernel

/-- the same with other bits in byte 6 and another byte 15 -/
example : (readRandomUUID [0, 1, 2, 3, 4, 5, 0xa6, 7, 8, 9, 10, 11, 12, 13, 14, 255]).toOption =
    some ("AAECAwQFRgeICQoLDA0O_w", []) ∧
    (readRandomUUID [0, 1, 2, 3, 4, 5, 6, 7, 8, 9, 10, 11, 12, 13, 14, 254]).toOption ≠ some ("AAECAwQFRgeICQoLDA0O_w", []) := by
  decide +kernel

/-- **C59**: a name made of a simple identifier and the lower case letters, digits, `$` and `_` is simple -/
theorem C59_simple_identifier_append {a b : String} (ha : isSimpleIdentifier a = true)
    (hb : ∀ c ∈ b.toList, ('a' ≤ c ∧ c ≤ 'z') ∨ ('0' ≤ c ∧ c ≤ '9') ∨ c = '_' ∨ c = '$') : isSimpleIdentifier (a ++ b) = true := by
  unfold isSimpleIdentifier at *
  rw [String.toList_append]
  cases h : a.toList with
  | nil => rw [h] at ha; cases ha
  | cons c rest =>
    rw [h] at ha
    simp only [List.cons_append, Bool.and_eq_true, List.all_append] at ha ⊢
    refine ⟨ha.1, ha.2, ?_⟩
    rw [List.all_eq_true]
    intro c hc
    have := hb c hc
    simp only [Bool.or_eq_true, Bool.and_eq_true, decide_eq_true_eq, beq_iff_eq, or_assoc]
    exact this

end Verif
