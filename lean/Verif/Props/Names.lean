import Verif.Model.Identifier
import Verif.Props.RandomId
import Verif.Lemmas.State
import Verif.Props.ForeignKey

/-!
# C29: names that the planner makes up
-/

namespace Verif

theorem utf8EncodeChar_length (c : Char) : (String.utf8EncodeChar c).length = c.utf8Size := by
  simp

theorem bytesOf_append (a b : String) : bytesOf (a ++ b) = bytesOf a ++ bytesOf b := by
  simp [bytesOf]

theorem bytesOf_length (s : String) : (bytesOf s).length = s.utf8ByteSize := by
  have h : ∀ l : List Char, (l.flatMap String.utf8EncodeChar).length = (String.ofList l).utf8ByteSize := by
    intro l
    induction l with
    | nil => rfl
    | cons c l ih =>
      rw [List.flatMap_cons, List.length_append, ih, utf8EncodeChar_length, String.ofList_cons, String.utf8ByteSize_append,
        String.utf8ByteSize_singleton]
  rw [bytesOf, h, String.ofList_toList]

theorem takeBytes_prefix : ∀ (n : Nat) (l : List Char), takeBytes n l <+: l
  | _, [] => by simp [takeBytes]
  | n, c :: l => by
    unfold takeBytes
    split
    · obtain ⟨t, ht⟩ := takeBytes_prefix (n - c.utf8Size) l
      exact ⟨t, by rw [List.cons_append, ht]⟩
    · exact List.nil_prefix

theorem takeBytes_size : ∀ (n : Nat) (l : List Char), ((takeBytes n l).flatMap String.utf8EncodeChar).length ≤ n
  | _, [] => by simp [takeBytes]
  | n, c :: l => by
    unfold takeBytes
    split
    · have := takeBytes_size (n - c.utf8Size) l
      rw [List.flatMap_cons, List.length_append, utf8EncodeChar_length]
      omega
    · simp


theorem takeBytes_all : ∀ (n : Nat) (l : List Char), (l.flatMap String.utf8EncodeChar).length ≤ n → takeBytes n l = l
  | _, [], _ => by simp [takeBytes]
  | n, c :: l, h => by
    rw [List.flatMap_cons, List.length_append, utf8EncodeChar_length] at h
    unfold takeBytes
    rw [if_pos (by omega), takeBytes_all _ _ (by omega)]

/-- the text of a random id takes 22 bytes -/
theorem uuid_bytes {reader rest : List UInt8} {id : String} (h : readRandomUUID reader = .ok (id, rest)) :
    id.utf8ByteSize = 22 := by
  obtain ⟨hl, hc⟩ := C59_text_is_legal h
  have key : ∀ l : List Char, (∀ c ∈ l, c.utf8Size = 1) → (l.flatMap String.utf8EncodeChar).length = l.length := by
    intro l
    induction l with
    | nil => simp
    | cons c l ih =>
      intro hl
      rw [List.flatMap_cons, List.length_append, utf8EncodeChar_length, ih fun c hc => hl c (List.mem_cons_of_mem _ hc),
        hl c List.mem_cons_self, List.length_cons]
      omega
  have hascii : ∀ c ∈ identifierAlphabet, c.utf8Size = 1 := by decide +kernel
  rw [← bytesOf_length, bytesOf, key, ← String.length_toList] at *
  · exact hl
  · intro c hc'
    unfold readRandomUUID at h
    split at h
    · cases h
    · cases h
      rw [String.toList_ofList] at hc'
      exact hascii c (encodeBase64_mem _ c hc')


theorem nonConflictingName_eq {name id : String} (hid : id.utf8ByteSize = 22) : ∃ p : String,
    p.toList <+: name.toList ∧ nonConflictingName name id = "pgschemadiff_tmpidx_" ++ p ++ "_" ++ id ∧ p.utf8ByteSize ≤ 20 ∧
      (name.utf8ByteSize ≤ 20 → p = name) := by
  have hpre : (tmpObjNamePrefix ++ "idx_").utf8ByteSize = 20 := by decide
  have hsuf : ("_" ++ id).utf8ByteSize = 23 := by
    rw [String.utf8ByteSize_append, hid]; decide
  have hpe : tmpObjNamePrefix ++ "idx_" = "pgschemadiff_tmpidx_" := by decide
  unfold nonConflictingName
  simp only [hpre, hsuf, maxPostgresIdentifierSize]
  split
  · rename_i h
    refine ⟨String.ofList (takeBytes 20 name.toList), ?_, ?_, ?_, fun h' => by omega⟩
    · rw [String.toList_ofList]; exact takeBytes_prefix _ _
    · rw [hpe, ← String.append_assoc]
    · rw [← bytesOf_length, bytesOf, String.toList_ofList]; exact takeBytes_size _ _
  · rename_i h
    refine ⟨name, List.prefix_refl _, ?_, by omega, fun _ => rfl⟩
    rw [hpe, ← String.append_assoc]

/-- **C29**: the name of a renamed index fits into 63 bytes, for every index name and random value. -/
theorem C29_renamed_index_fits (name : String) {reader rest : List UInt8} {id : String}
    (h : readRandomUUID reader = .ok (id, rest)) : (nonConflictingName name id).utf8ByteSize ≤ 63 := by
  obtain ⟨p, _, he, hp, _⟩ := nonConflictingName_eq (name := name) (uuid_bytes h)
  have hpe : "pgschemadiff_tmpidx_".utf8ByteSize = 20 := by decide
  have hu : "_".utf8ByteSize = 1 := by decide
  rw [he, String.utf8ByteSize_append, String.utf8ByteSize_append, String.utf8ByteSize_append, uuid_bytes h, hpe, hu]
  omega

/-- **C29**: it keeps a prefix of the name of the index (all of it, if it is at most 20 bytes long), between a fixed
prefix and the random value. -/
theorem C29_renamed_index_keeps_prefix (name : String) {reader rest : List UInt8} {id : String}
    (h : readRandomUUID reader = .ok (id, rest)) : ∃ p : String, p.toList <+: name.toList ∧
      nonConflictingName name id = "pgschemadiff_tmpidx_" ++ p ++ "_" ++ id ∧ (name.utf8ByteSize ≤ 20 → p = name) := by
  obtain ⟨p, h1, h2, _, h3⟩ := nonConflictingName_eq (name := name) (uuid_bytes h)
  exact ⟨p, h1, h2, h3⟩

theorem append_id_inj {a b id id' : String} (hl : id.length = id'.length) (h : a ++ id = b ++ id') : id = id' := by
  have h := congrArg String.toList h
  rw [String.toList_append, String.toList_append] at h
  have := List.append_inj_right' h (by rw [String.length_toList, String.length_toList]; exact hl)
  exact String.toList_inj.mp this

/-- **C29**: names made with different random values are different, whatever the indexes are called. -/
theorem C29_renamed_indexes_differ {name name' : String} {reader rest reader' rest' : List UInt8} {id id' : String}
    (h : readRandomUUID reader = .ok (id, rest)) (h' : readRandomUUID reader' = .ok (id', rest'))
    (e : nonConflictingName name id = nonConflictingName name' id') : id = id' := by
  obtain ⟨p, _, he, _⟩ := nonConflictingName_eq (name := name) (uuid_bytes h)
  obtain ⟨p', _, he', _⟩ := nonConflictingName_eq (name := name') (uuid_bytes h')
  rw [he, he'] at e
  exact append_id_inj ((C59_text_is_legal h).1.trans (C59_text_is_legal h').1.symm) e

/-- the generator of the temporary NOT NULL constraints draws one random value -/
theorem buildTempNotNullConstraint_ok {d : ColumnDiff} {s s' : GenState} {cc : CheckConstraint}
    (h : buildTempNotNullConstraint d s = .ok (cc, s')) : ∃ id, s.rand.uuids s.rand.pos = some id ∧
      cc.name = "pgschemadiff_tmpnn_" ++ id ∧ s' = { s with rand := { s.rand with pos := s.rand.pos + 1 } } := by
  unfold buildTempNotNullConstraint at h
  obtain ⟨u, s1, h1, h⟩ := genM_bind_ok.mp h
  obtain ⟨rfl, rfl⟩ := genM_pure_ok.mp h
  unfold randomUUID at h1
  split at h1
  · rename_i u' hu
    rw [Except.ok.injEq, Prod.mk.injEq] at h1
    refine ⟨u', hu, ?_, h1.2.symm⟩
    rw [← h1.1]
    have : tmpObjNamePrefix ++ "nn_" = "pgschemadiff_tmpnn_" := by decide
    rw [← this]
  · cases h1

/-- the random values of a state come from `RandomUUID` -/
def FromReader (r : Rand) : Prop := ∀ k id, r.uuids k = some id → ∃ reader rest, readRandomUUID reader = .ok (id, rest)

theorem fromReader_ofBytes (bytes : Nat → UInt8) : FromReader (Rand.ofBytes bytes) := by
  intro k id h
  simp only [Rand.ofBytes] at h
  cases hx : readRandomUUID ((List.range 16).map fun i => bytes (16 * k + i)) with
  | error e => rw [hx] at h; cases h
  | ok x =>
    rw [hx] at h
    cases h
    exact ⟨_, _, hx⟩

/-- **C29**: the name of a temporary NOT NULL constraint fits into 63 bytes. -/
theorem C29_temporary_constraint_fits {d : ColumnDiff} {s s' : GenState} {cc : CheckConstraint} (hr : FromReader s.rand)
    (h : buildTempNotNullConstraint d s = .ok (cc, s')) : cc.name.utf8ByteSize ≤ 63 := by
  obtain ⟨id, hid, hn, _⟩ := buildTempNotNullConstraint_ok h
  obtain ⟨reader, rest, hu⟩ := hr _ _ hid
  have : "pgschemadiff_tmpnn_".utf8ByteSize = 19 := by decide
  rw [hn, String.utf8ByteSize_append, uuid_bytes hu, this]
  omega

/-- **C29**: a temporary constraint never gets the name of a renamed index; two made with different values differ. -/
theorem C29_temporary_constraints_differ {d d' : ColumnDiff} {s s1 s' s1' : GenState} {cc cc' : CheckConstraint}
    (hr : FromReader s.rand) (hr' : FromReader s'.rand)
    (h : buildTempNotNullConstraint d s = .ok (cc, s1)) (h' : buildTempNotNullConstraint d' s' = .ok (cc', s1'))
    (hne : s.rand.uuids s.rand.pos ≠ s'.rand.uuids s'.rand.pos) : cc.name ≠ cc'.name := by
  obtain ⟨id, hid, hn, _⟩ := buildTempNotNullConstraint_ok h
  obtain ⟨id', hid', hn', _⟩ := buildTempNotNullConstraint_ok h'
  obtain ⟨reader, rest, hu⟩ := hr _ _ hid
  obtain ⟨reader', rest', hu'⟩ := hr' _ _ hid'
  intro e
  rw [hn, hn'] at e
  have := append_id_inj ((C59_text_is_legal hu).1.trans (C59_text_is_legal hu').1.symm) e
  rw [hid, hid', this] at hne
  exact hne rfl

theorem C29_constraint_is_no_index {d : ColumnDiff} {s s1 : GenState} {cc : CheckConstraint} {name id : String}
    {reader rest : List UInt8} (hu : readRandomUUID reader = .ok (id, rest))
    (h : buildTempNotNullConstraint d s = .ok (cc, s1)) : cc.name ≠ nonConflictingName name id := by
  obtain ⟨id', hid', hn', _⟩ := buildTempNotNullConstraint_ok h
  obtain ⟨p, _, he, _⟩ := nonConflictingName_eq (name := name) (uuid_bytes hu)
  rw [hn', he]
  intro e
  have e := congrArg (fun x : String => x.toList.take 17) e
  simp only [String.toList_append] at e
  have h1 : ("pgschemadiff_tmpnn_".toList ++ id'.toList).take 17 = "pgschemadiff_tmpn".toList := by
    rw [List.take_append_of_le_length (by decide)]; decide
  have h2 : ("pgschemadiff_tmpidx_".toList ++ p.toList ++ "_".toList ++ id.toList).take 17 = "pgschemadiff_tmpi".toList := by
    rw [List.append_assoc, List.append_assoc, List.take_append_of_le_length (by decide)]; decide
  rw [h1, h2] at e
  exact absurd e (by decide)

example : nonConflictingName "my_index" "AAECAwQFRgeICQoLDA0O_w" = "pgschemadiff_tmpidx_my_index_AAECAwQFRgeICQoLDA0O_w" ∧
    nonConflictingName "an_index_with_a_very_long_name" "AAECAwQFRgeICQoLDA0O_w" =
      "pgschemadiff_tmpidx_an_index_with_a_very_AAECAwQFRgeICQoLDA0O_w" ∧
    (∃ reader rest, readRandomUUID reader = .ok ("AAECAwQFRgeICQoLDA0O_w", rest)) :=
  ⟨by decide +kernel, by decide +kernel, [0, 1, 2, 3, 4, 5, 6, 7, 8, 9, 10, 11, 12, 13, 14, 255], [], by decide +kernel⟩

/-! ### on bytes -/

/-- **C29**: on bytes too the name fits, for every byte string as index name. -/
theorem C29_renamed_index_bytes_fit (name : List UInt8) {reader rest : List UInt8} {id : String}
    (h : readRandomUUID reader = .ok (id, rest)) : (nonConflictingNameBytes name (bytesOf id)).length ≤ 63 := by
  have hpre : (bytesOf (tmpObjNamePrefix ++ "idx_")).length = 20 := by decide +kernel
  have hsuf : (bytesOf "_").length = 1 := by decide +kernel
  unfold nonConflictingNameBytes
  simp only [List.length_append, List.length_take, hpre, hsuf, bytesOf_length, uuid_bytes h, maxPostgresIdentifierSize]
  split <;> omega

/-- the cut is at the end of a character -/
def CutAtCharacter (name : String) : Prop := ∃ a b : String, name = a ++ b ∧ (a.utf8ByteSize = 20 ∨ (a.utf8ByteSize ≤ 20 ∧ b = ""))

theorem takeBytes_exact : ∀ (n : Nat) (l m : List Char), (l.flatMap String.utf8EncodeChar).length = n → takeBytes n (l ++ m) = l
  | n, [], m, h => by
    cases m with
    | nil => simp [takeBytes]
    | cons c m =>
      have := Char.utf8Size_pos c
      simp only [List.flatMap_nil, List.length_nil] at h
      simp only [List.nil_append, takeBytes]
      rw [if_neg (by omega)]
  | n, c :: l, m, h => by
    rw [List.flatMap_cons, List.length_append, utf8EncodeChar_length] at h
    rw [List.cons_append, takeBytes, if_pos (by omega), takeBytes_exact _ l m (by omega)]

/-- Where the cut is at the end of a character the model on characters is the function on bytes. -/
theorem nonConflictingNameBytes_eq {name id : String} (hid : id.utf8ByteSize = 22) (hc : CutAtCharacter name) :
    nonConflictingNameBytes (bytesOf name) (bytesOf id) = bytesOf (nonConflictingName name id) := by
  have hpre : (tmpObjNamePrefix ++ "idx_").utf8ByteSize = 20 := by decide
  have hsuf : ("_" ++ id).utf8ByteSize = 23 := by
    rw [String.utf8ByteSize_append, hid]; decide
  have hu : "_".utf8ByteSize = 1 := by decide
  obtain ⟨a, b, rfl, h⟩ := hc
  unfold nonConflictingNameBytes nonConflictingName
  simp only [hpre, hsuf, maxPostgresIdentifierSize, List.length_append, bytesOf_length, hid, hu]
  split
  · rename_i hgt
    rw [bytesOf_append _ ("_" ++ id), 
      bytesOf_append (tmpObjNamePrefix ++ "idx_") (String.ofList _), bytesOf_append "_" id]
    refine congrArg (· ++ (bytesOf "_" ++ bytesOf id)) ?_
    refine congrArg (bytesOf (tmpObjNamePrefix ++ "idx_") ++ ·) ?_
    rcases h with h | ⟨h, rfl⟩
    · have h1 : takeBytes 20 (a ++ b).toList = a.toList := by
        rw [String.toList_append]
        exact takeBytes_exact _ _ _ ((bytesOf_length a).trans h)
      rw [h1, String.ofList_toList, bytesOf_append]
      exact List.take_left' ((bytesOf_length a).trans h)
    · rw [String.append_empty] at hgt
      omega
  · rw [bytesOf_append _ ("_" ++ id), bytesOf_append (tmpObjNamePrefix ++ "idx_") (a ++ b), bytesOf_append "_" id,
      List.take_of_length_le (by rw [bytesOf_length])]

theorem validUTF8_bytesOf (s : String) : (bytesOf s).toByteArray.IsValidUTF8 := by
  exact ByteArray.isValidUTF8_utf8Encode (l := s.toList)

/-- **C62**: the name is valid text if the cut is at the end of a character, for instance for every name of at most 20 bytes. -/
theorem C62_renamed_index_is_text_partial {name : String} {reader rest : List UInt8} {id : String}
    (h : readRandomUUID reader = .ok (id, rest)) (hc : CutAtCharacter name) :
    (nonConflictingNameBytes (bytesOf name) (bytesOf id)).toByteArray.IsValidUTF8 := by
  rw [nonConflictingNameBytes_eq (uuid_bytes h) hc]
  exact validUTF8_bytesOf _

/-- **C62** fails for names that are cut inside a character: the statement is not valid text and Postgres refuses it. -/
theorem C62_renamed_index_is_text_violated : ∃ (name id : String) (reader rest : List UInt8),
    readRandomUUID reader = .ok (id, rest) ∧ name.utf8ByteSize ≤ 63 ∧
      ¬ (nonConflictingNameBytes (bytesOf name) (bytesOf id)).toByteArray.IsValidUTF8 := by
  refine ⟨"index_on_the_columné", "AAECAwQFRgeICQoLDA0O_w", [0, 1, 2, 3, 4, 5, 6, 7, 8, 9, 10, 11, 12, 13, 14, 255], [],
    by decide +kernel, by decide +kernel, ?_⟩
  decide +kernel


/-! ### in plans -/

/-- every remembered name was made with its own random value -/
def RenamesFresh (U : Nat → Option String) (s : GenState) : Prop :=
  s.rand.uuids = U ∧ ∃ pos : String → Nat, (∀ k v, s.renames.get? k = some v → pos k < s.rand.pos ∧
    ∃ u name, U (pos k) = some u ∧ v = nonConflictingName name u) ∧
    ∀ k k' v v', s.renames.get? k = some v → s.renames.get? k' = some v' → pos k = pos k' → k = k'

theorem keeps_rename_fresh {U : Nat → Option String} {old : GoMap String Index} {i : Index} :
    Keeps (RenamesFresh U) (RenameGen.add old i) := by
  unfold RenameGen.add
  split
  · exact keeps_pure
  split
  · exact keeps_pure
  intro s a s' h ⟨hU, pos, hp, hinj⟩
  obtain ⟨u, s1, h1, h⟩ := genM_bind_ok.mp h
  obtain ⟨_, s2, h2, h⟩ := genM_bind_ok.mp h
  obtain ⟨_, rfl⟩ := genM_pure_ok.mp h
  rw [genM_modify_ok] at h2
  unfold randomUUID at h1
  split at h1
  case h_2 => cases h1
  rename_i u' hu
  rw [Except.ok.injEq, Prod.mk.injEq] at h1
  obtain ⟨rfl, rfl⟩ := h1
  subst h2
  refine ⟨hU, fun k => if k = Obj.getName i then s.rand.pos else pos k, ?_, ?_⟩
  · intro k v hk
    dsimp only at hk ⊢
    rw [GoMap.get?_set] at hk
    by_cases e : Obj.getName i = k
    · rw [if_pos e] at hk
      rw [if_pos e.symm]
      cases hk
      exact ⟨by omega, u', i.name, hU ▸ hu, rfl⟩
    · rw [if_neg e] at hk
      rw [if_neg (Ne.symm e)]
      obtain ⟨h1, h2⟩ := hp k v hk
      exact ⟨by omega, h2⟩
  · intro k k' v v' hk hk' e
    dsimp only at hk hk' e
    rw [GoMap.get?_set] at hk hk'
    by_cases c : Obj.getName i = k <;> by_cases c' : Obj.getName i = k'
    · exact c.symm.trans c'
    · rw [if_pos c.symm, if_neg (Ne.symm c')] at e
      rw [if_neg c'] at hk'
      have := (hp k' v' hk').1
      omega
    · rw [if_neg (Ne.symm c), if_pos c'.symm] at e
      rw [if_neg c] at hk
      have := (hp k v hk).1
      omega
    · rw [if_neg c] at hk
      rw [if_neg c'] at hk'
      rw [if_neg (Ne.symm c), if_neg (Ne.symm c')] at e
      exact hinj k k' v v' hk hk' e

section
variable {opts : PlanOptions} {d : SchemaDiff} {r r' : Rand} {stmts : List Statement}

theorem PlanRun.renames_fresh (run : PlanRun opts d r r' stmts) : RenamesFresh r.uuids run.s3 := by
  have h1 : run.s1.rand.uuids = r.uuids ∧ run.s1.renames = [] :=
    keeps_tables (I := fun s => s.rand.uuids = r.uuids ∧ s.renames = []) (fun s p h => h) _ _ _ _ _ run.htables ⟨rfl, rfl⟩
  have h2 : run.s2.rand.uuids = r.uuids ∧ run.s2.renames = [] :=
    keeps_attaches (I := fun s => s.rand.uuids = r.uuids ∧ s.renames = []) (fun s n h => h) _ _ _ _ _ _ run.hattaches h1
  refine keeps_toNew (g := RenameGen.legacy (byName d.old.indexes)) (fun o ho => keeps_rename_fresh) (fun o _ => keeps_pure)
    (fun o _ => keeps_pure) (fun o _ => keeps_pure) (fun o _ => keeps_pure) (fun o _ => keeps_pure) _ _ _ run.hrenames ?_
  refine ⟨h2.1, fun _ => 0, fun k v hk => ?_, fun k k' v v' hk => ?_⟩ <;>
    (rw [h2.2] at hk; cases hk)


/-- a statement that renames an index comes from a vertex of the renames -/
theorem PlanRun.rename_statement (run : PlanRun opts d r r' stmts) (hn : (d.indexDiffs.adds.map Obj.getName).Nodup)
    {s : Statement} (hs : s ∈ stmts) {n : SQName} {m : String} (e : s.ddl = .renameIndex n m) :
    ∃ i ∈ d.indexDiffs.adds, i.sqName = n ∧ run.s3.renames.get? (Obj.getName i) = some m := by
  obtain ⟨a, b, hab⟩ := List.mem_iff_append.mp hs
  obtain ⟨v, hv, a1, a2, b1, b2, _, _, hvs⟩ := run.block hab (by rw [e]; exact id)
  have hsv : s ∈ v.statements := by rw [hvs]; simp
  have htype : v.id.objType = "indexrename" := by
    have h := run.vertex_shape hv hsv
    cases h with
    | renameIndex i h n hid => rw [hid]; rfl
    | newTable t h ccs hc s hs' hid => cases hs' <;> cases e
    | alterTable td h s hs' hid =>
      cases hs' with
      | column cd h s hs' => cases hs' <;> cases e
      | _ => cases e
    | _ => cases e
  have hv' : v ∈ run.renames.vertices := by
    rcases run.vertex_type hv with h' | h' | h' | h' | h' | h' | h' | h' | h' | h' | h' | h' <;>
      (try rcases h'.2 with h2 | h2) <;> simp_all
  obtain ⟨i, hi, m', e1, e2, _⟩ := run.rename_vertex hn hv' hsv
  rw [e1] at e
  simp only [stmt, Ddl.renameIndex.injEq] at e
  exact ⟨i, hi, e.1, e.2 ▸ e2⟩

end

/-- the new names of the indexes of a list -/
theorem indexAdds_nodup {cfg : IndexDiffConfig} {old new : List Index} {r : ListDiff Index (OldNew Index)}
    (h : indexListDiff cfg old new = .ok r) (hn : (new.map Obj.getName).Nodup) : (r.adds.map Obj.getName).Nodup :=
  ((C08_every_object_once h hn).2.2.2.1.map _).nodup hn

/-- **C29** in plans: every index that a plan renames gets a name of at most 63 bytes: the fixed prefix, a prefix of its name
and a random value. -/
theorem C29_plan_renames_fit {rand r' : Rand} {old new : Schema} {opts : PlanOptions} {stmts : List Statement}
    (h : generateMigrationStatements rand old new opts = .ok (stmts, r')) (hr : FromReader rand)
    (hni : (new.indexes.map Obj.getName).Nodup) {s : Statement} (hs : s ∈ stmts) {n : SQName} {m : String}
    (e : s.ddl = .renameIndex n m) : m.utf8ByteSize ≤ 63 ∧ ∃ k id p, rand.uuids k = some id ∧
      m = "pgschemadiff_tmpidx_" ++ p ++ "_" ++ id := by
  obtain ⟨d, ⟨dr⟩, ⟨run⟩⟩ := plan_runs h
  have hn := indexAdds_nodup dr.hindexes ((normalize_indexes_names new).nodup_iff.mpr hni)
  obtain ⟨i, hi, _, hm⟩ := run.rename_statement hn hs e
  obtain ⟨_, pos, hp, _⟩ := run.renames_fresh
  obtain ⟨_, u, name, hu, rfl⟩ := hp _ _ hm
  obtain ⟨reader, rest, hid⟩ := hr _ _ hu
  obtain ⟨p, _, h2, _⟩ := C29_renamed_index_keeps_prefix name hid
  exact ⟨C29_renamed_index_fits name hid, _, u, p, hu, h2⟩

/-- **C29** in plans: two indexes renamed by a plan get different names, if the random values it draws are all different. -/
theorem C29_plan_renames_differ {rand r' : Rand} {old new : Schema} {opts : PlanOptions} {stmts : List Statement}
    (h : generateMigrationStatements rand old new opts = .ok (stmts, r')) (hr : FromReader rand)
    (hinj : ∀ k k' id, k < r'.pos → k' < r'.pos → rand.uuids k = some id → rand.uuids k' = some id → k = k')
    (hni : (new.indexes.map Obj.getName).Nodup) {s s' : Statement} (hs : s ∈ stmts) (hs' : s' ∈ stmts) {n n' : SQName}
    {m : String} (e : s.ddl = .renameIndex n m) (e' : s'.ddl = .renameIndex n' m) : n = n' := by
  obtain ⟨d, ⟨dr⟩, ⟨run⟩⟩ := plan_runs h
  have hn := indexAdds_nodup dr.hindexes ((normalize_indexes_names new).nodup_iff.mpr hni)
  obtain ⟨i, hi, rfl, hm⟩ := run.rename_statement hn hs e
  obtain ⟨i', hi', rfl, hm'⟩ := run.rename_statement hn hs' e'
  obtain ⟨_, pos, hp, hpi⟩ := run.renames_fresh
  obtain ⟨hlt, u, name, hu, rfl⟩ := hp _ _ hm
  obtain ⟨hlt', u', name', hu', hm''⟩ := hp _ _ hm'
  obtain ⟨reader, rest, hid⟩ := hr _ _ hu
  obtain ⟨reader', rest', hid'⟩ := hr _ _ hu'
  have := C29_renamed_indexes_differ hid hid' hm''
  subst this
  have := hpi _ _ _ _ hm hm' (hinj _ _ _ (run.hrand ▸ hlt) (run.hrand ▸ hlt') hu hu')
  rw [List.inj_on_of_nodup_map hn hi hi' this]

namespace Samples

/-- random values as `RandomUUID` makes them, all different -/
def readerRand : Rand := Rand.ofBytes fun k => (k / 16).toUInt8

def oldTwoIdx : Schema := { Schema.empty with
  tables := [table "t" [col "x" "integer", col "y" "integer"]]
  indexes := [index "i" "t" ["x"] "CREATE INDEX i ON public.t USING btree (x)",
    index "j" "t" ["x"] "CREATE INDEX j ON public.t USING btree (x)"] }
def newTwoIdx : Schema := { oldTwoIdx with
  indexes := [index "i" "t" ["y"] "CREATE INDEX i ON public.t USING btree (y)",
    index "j" "t" ["y"] "CREATE INDEX j ON public.t USING btree (y)"] }

end Samples

open Samples in
/-- the hypotheses of C29 can be met: a plan that renames two indexes -/
example : (∃ stmts r', generateMigrationStatements readerRand oldTwoIdx newTwoIdx opts = .ok (stmts, r') ∧
      ((stmts.map (·.ddl)).take 2 = [
        .renameIndex (pub "i") "pgschemadiff_tmpidx_i_AAAAAAAAQACAAAAAAAAAAA",
        .renameIndex (pub "j") "pgschemadiff_tmpidx_j_AQEBAQEBQQGBAQEBAQEBAQ"] ∧ stmts.length = 6)) ∧
    (newTwoIdx.indexes.map Obj.getName).Nodup ∧ FromReader readerRand :=
  ⟨exists_plan (by decide +kernel), by decide, fromReader_ofBytes _⟩

open Samples in
/-- the values the plan of the example draws are different -/
example : ∀ k < 2, ∀ k' < 2, readerRand.uuids k = readerRand.uuids k' → k = k' := by decide +kernel

end Verif
