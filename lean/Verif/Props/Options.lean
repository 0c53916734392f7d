import Verif.Model.Cli
import Verif.Lemmas.GoMap
import Verif.Lemmas.Gen

/-!
# C37, C38: command line options
-/

namespace Verif

open Cli

/-! ### maps of options -/

theorem collectKeys_ok {m : GoMap String String} (hm : m.keys.Nodup) {pairs : List (String × String)} {m' : GoMap String String} :
    collectKeys m pairs = .ok m' ↔ ((m ++ pairs).map Prod.fst).Nodup ∧ m' = m ++ pairs := by
  induction pairs generalizing m with
  | nil => simp only [collectKeys, List.append_nil, Except.ok.injEq]; exact ⟨fun h => ⟨hm, h.symm⟩, fun h => h.2.symm⟩
  | cons p l ih =>
    obtain ⟨k, v⟩ := p
    rw [collectKeys]
    by_cases hk : m.has k = true
    · rw [if_pos hk]
      refine ⟨fun h => (by cases h), fun h => ?_⟩
      have h := h.1
      rw [List.map_append, List.nodup_append] at h
      exact absurd rfl (h.2.2 k (GoMap.has_iff.mp hk) k (by simp))
    · rw [if_neg hk]
      have hk' : k ∉ m.keys := fun h => hk (GoMap.has_iff.mpr h)
      have hn := GoMap.nodup_set hm k v
      rw [ih hn, GoMap.set_of_not_mem hk', List.append_assoc]
      simp

theorem delete_perm {m : GoMap String String} (hm : m.keys.Nodup) {k v : String} (h : (k, v) ∈ m) :
    m.Perm ((k, v) :: m.delete k) := by
  induction m with
  | nil => cases h
  | cons p m ih =>
    rw [GoMap.keys_cons, List.nodup_cons] at hm
    rcases List.mem_cons.mp h with rfl | h
    · have : GoMap.delete ((k, v) :: m) k = m := by
        unfold GoMap.delete
        rw [List.filter_cons_of_neg (by simp), List.filter_eq_self]
        intro q hq
        have := GoMap.mem_keys_of_mem hq
        simp only [ne_eq, decide_not, Bool.not_eq_true', decide_eq_false_iff_not]
        intro e; rw [e] at this; exact hm.1 this
      rw [this]
    · have hne : p.1 ≠ k := by
        intro e
        have := GoMap.mem_keys_of_mem h
        rw [← e] at this
        exact hm.1 this
      have : GoMap.delete (p :: m) k = p :: GoMap.delete m k := by
        unfold GoMap.delete
        rw [List.filter_cons_of_pos (by simpa using hne)]
      rw [this]
      exact ((ih hm.2 h).cons p).trans (List.Perm.swap _ _ _)

theorem must_ok {m : GoMap String String} (hm : m.keys.Nodup) {k v : String} {m' : GoMap String String}
    (h : mustGetAndDeleteKey m k = .ok (v, m')) : m.Perm ((k, v) :: m') ∧ m'.keys.Nodup := by
  unfold mustGetAndDeleteKey at h
  split at h
  · cases h
  · rename_i w hw
    cases h
    exact ⟨delete_perm hm (GoMap.mem_of_get? hw), GoMap.nodup_delete hm k⟩

theorem must_of_perm {m rest : GoMap String String} (hm : m.keys.Nodup) {k v : String} (hp : m.Perm ((k, v) :: rest)) :
    ∃ m', mustGetAndDeleteKey m k = .ok (v, m') ∧ m'.Perm rest ∧ m'.keys.Nodup := by
  have hmem : (k, v) ∈ m := hp.mem_iff.mpr List.mem_cons_self
  refine ⟨m.delete k, ?_, ?_, GoMap.nodup_delete hm k⟩
  · unfold mustGetAndDeleteKey
    rw [GoMap.get?_of_mem hm hmem]
  · exact List.Perm.cons_inv ((delete_perm hm hmem).symm.trans hp)

theorem orErr_ok {α : Type} {o : Option α} {w : String} {a : α} : orErr o w = .ok a ↔ o = some a := by
  cases o <;> simp [orErr]

theorem noMoreKeys_ok {m : GoMap String String} : noMoreKeys m = .ok () ↔ m = [] := by
  unfold noMoreKeys
  cases m <;> simp

theorem logFmtToMap_ok {pairs : List (String × String)} {e : Bool} {m : GoMap String String} :
    logFmtToMap pairs e = .ok m ↔ (pairs.map Prod.fst).Nodup ∧ m = pairs ∧ e = false := by
  unfold logFmtToMap
  rw [except_bind_ok]
  constructor
  · rintro ⟨m', h1, h2⟩
    obtain ⟨h3, rfl⟩ := (collectKeys_ok (m := []) List.nodup_nil).mp h1
    cases e with
    | true => cases h2
    | false => cases h2; exact ⟨h3, rfl, rfl⟩
  · rintro ⟨h1, rfl, rfl⟩
    exact ⟨m, (collectKeys_ok (m := []) List.nodup_nil).mpr ⟨h1, rfl⟩, rfl⟩

/-- **C37**: a timeout modifier parses iff the text decodes, its keys are `pattern` and `timeout`, each once and nothing
else, and their values are a valid pattern and a valid duration; these are what it is parsed to. -/
theorem C37_timeout_modifier (ps : Parsers) (pairs : List (String × String)) (decodeErr : Bool) (r : TimeoutModifier) :
    parseTimeoutModifier ps pairs decodeErr = .ok r ↔
      decodeErr = false ∧ ∃ a b, pairs.Perm [("pattern", a), ("timeout", b)] ∧
        ps.regexp a = some r.regex ∧ ps.duration b = some r.timeout := by
  unfold parseTimeoutModifier
  simp only [except_bind_ok]
  constructor
  · rintro ⟨fm, h1, ⟨a, m1⟩, h2, ⟨b, m2⟩, h3, u, h4, d, h5, re, h6, h7⟩
    obtain ⟨hn, rfl, he⟩ := logFmtToMap_ok.mp h1
    obtain ⟨p1, n1⟩ := must_ok (m := fm) hn h2
    obtain ⟨p2, n2⟩ := must_ok n1 h3
    have : m2 = [] := noMoreKeys_ok.mp h4
    subst this
    cases h7
    exact ⟨he, a, b, p1.trans (p2.cons _), orErr_ok.mp h6, orErr_ok.mp h5⟩
  · rintro ⟨rfl, a, b, hp, h1, h2⟩
    have hn : (pairs.map Prod.fst).Nodup := (hp.map Prod.fst).nodup_iff.mpr (by simp)
    obtain ⟨m1, e1, p1, n1⟩ := must_of_perm (m := pairs) hn hp
    obtain ⟨m2, e2, p2, -⟩ := must_of_perm n1 p1
    have : m2 = [] := p2.eq_nil
    subst this
    refine ⟨pairs, logFmtToMap_ok.mpr ⟨hn, rfl, rfl⟩, _, e1, _, e2, (), rfl, r.timeout, orErr_ok.mpr h2, r.regex,
      orErr_ok.mpr h1, rfl⟩

/-- **C37**: an inserted statement parses iff the text decodes, its keys are `index`, `statement`, `timeout` and
`lock_timeout`, each once and nothing else, and their values are valid; these are what it is parsed to. -/
theorem C37_insert_statement (ps : Parsers) (pairs : List (String × String)) (decodeErr : Bool) (r : InsertStatement) :
    parseInsertStatement ps pairs decodeErr = .ok r ↔
      decodeErr = false ∧ ∃ a b c, pairs.Perm [("index", a), ("statement", r.ddl), ("timeout", b), ("lock_timeout", c)] ∧
        ps.atoi a = some r.index ∧ ps.duration b = some r.timeout ∧ ps.duration c = some r.lockTimeout := by
  unfold parseInsertStatement
  simp only [except_bind_ok]
  constructor
  · rintro ⟨fm, h1, ⟨a, m1⟩, h2, ⟨b, m2⟩, h3, ⟨c, m3⟩, h4, ⟨d, m4⟩, h5, u, h6, i, h7, t, h8, l, h9, h10⟩
    obtain ⟨hn, rfl, he⟩ := logFmtToMap_ok.mp h1
    obtain ⟨p1, n1⟩ := must_ok (m := fm) hn h2
    obtain ⟨p2, n2⟩ := must_ok n1 h3
    obtain ⟨p3, n3⟩ := must_ok n2 h4
    obtain ⟨p4, n4⟩ := must_ok n3 h5
    have : m4 = [] := noMoreKeys_ok.mp h6
    subst this
    cases h10
    exact ⟨he, a, c, d, p1.trans ((p2.trans ((p3.trans (p4.cons _)).cons _)).cons _), orErr_ok.mp h7, orErr_ok.mp h8,
      orErr_ok.mp h9⟩
  · rintro ⟨rfl, a, b, c, hp, h1, h2, h3⟩
    have hn : (pairs.map Prod.fst).Nodup := (hp.map Prod.fst).nodup_iff.mpr (by simp)
    obtain ⟨m1, e1, p1, n1⟩ := must_of_perm (m := pairs) hn hp
    obtain ⟨m2, e2, p2, n2⟩ := must_of_perm n1 p1
    obtain ⟨m3, e3, p3, n3⟩ := must_of_perm n2 p2
    obtain ⟨m4, e4, p4, -⟩ := must_of_perm n3 p3
    have : m4 = [] := p4.eq_nil
    subst this
    exact ⟨pairs, logFmtToMap_ok.mpr ⟨hn, rfl, rfl⟩, _, e1, _, e2, _, e3, _, e4, (), rfl, _, orErr_ok.mpr h1, _,
      orErr_ok.mpr h2, _, orErr_ok.mpr h3, rfl⟩

/-- **C38**: a schema source is accepted iff exactly one of the two is given: directories (then these are used), or a
connection (a connection string or the flag for an empty one) that parses (then that is used). -/
theorem C38_exactly_one_source (parseConfig : String → Option String) (dirs : List String) (conn : ConnectionFlags)
    (src : Source) :
    parseSchemaSource parseConfig dirs conn = .ok src ↔
      (dirs ≠ [] ∧ ¬ (conn.dsn ≠ "" ∨ conn.isEmptyDsnUsingPq = true) ∧ src = .dirs dirs) ∨
      (dirs = [] ∧ (conn.dsn ≠ "" ∨ conn.isEmptyDsnUsingPq = true) ∧ ∃ db, parseConfig conn.dsn = some db ∧ src = .dsn db) := by
  have hset : conn.isSet = true ↔ (conn.dsn ≠ "" ∨ conn.isEmptyDsnUsingPq = true) := by
    simp [ConnectionFlags.isSet]
  unfold parseSchemaSource
  rw [← hset]
  dsimp only
  by_cases hs : conn.isSet = true
  · rw [if_pos hs]
    by_cases hd : dirs = []
    · subst hd
      have hne : (!conn.isEmptyDsnUsingPq && decide (conn.dsn = "")) = false := by
        have := hset.mp hs
        rcases this with h | h <;> simp [h]
      unfold parseConnectionFlags
      simp only [hne, Bool.false_eq_true, if_false]
      cases e : parseConfig conn.dsn <;> simp [orErr, Except.map, hs, eq_comm]
    · have : dirs.length > 0 := List.length_pos_iff.mpr hd
      simp [hs, hd, this]
  · rw [if_neg hs]
    by_cases hd : dirs = []
    · simp [hd, hs]
    · have : dirs.length > 0 := List.length_pos_iff.mpr hd
      simp [hs, hd, this, eq_comm]

/-- the keys may come in any order -/
example : parseInsertStatement ⟨fun s => if s = "1m" then some 60000000000 else none, fun s => if s = "0" then some 0 else none, fun _ => none⟩
    [("timeout", "1m"), ("statement", "SELECT 1"), ("lock_timeout", "1m"), ("index", "0")] false =
      .ok ⟨"SELECT 1", 0, 60000000000, 60000000000⟩ := by decide +kernel

/-- a repeated key and an unknown one -/
example : parseTimeoutModifier ⟨fun _ => some 1, fun _ => none, fun _ => some fun _ => true⟩
      [("pattern", "a"), ("timeout", "b"), ("pattern", "a")] false = .error (.other "duplicate key in logfmt") ∧
    parseTimeoutModifier ⟨fun _ => some 1, fun _ => none, fun _ => some fun _ => true⟩
      [("pattern", "a"), ("timeout", "b"), ("x", "a")] false = .error (.other "unknown keys") := by
  exact ⟨rfl, rfl⟩

example : parseSchemaSource some ["dir"] ⟨"", false⟩ = .ok (.dirs ["dir"]) ∧
    parseSchemaSource some [] ⟨"postgres://", false⟩ = .ok (.dsn "postgres://") ∧
    parseSchemaSource some [] ⟨"", true⟩ = .ok (.dsn "") := by decide +kernel

end Verif
