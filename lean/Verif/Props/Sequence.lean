import Verif.Lemmas.Sequence
import Verif.Props.SqlGraph
import Verif.Props.Views

/-!
# C26: sequences converge
-/

namespace Verif

open Spec

section
variable {opts : PlanOptions} {old new : Schema} {d : SchemaDiff} {r r' : Rand} {stmts : List Statement}

/-- what a plan does about a sequence name -/
inductive SequenceFate (old new : Schema) (d : SchemaDiff) (n : String) (stmts : List Statement) : Prop where
  | absent (ho : ∀ o ∈ old.sequences, o.name.fq ≠ n) (hn : ∀ x ∈ new.sequences, x.name.fq ≠ n)
      (hP : stmts.filter (fun s : Statement => s.ddl.aboutSequence n) = [])
      (hO : stmts.filter (fun s : Statement => s.ddl.ownsSequence n) = [])
  | dropped (o : Sequence) (ho : o ∈ old.sequences) (e : o.name.fq = n) (hn : ∀ x ∈ new.sequences, x.name.fq ≠ n)
      (hd : o ∈ d.sequenceDiffs.deletes) (l : List Statement) (hl : (SchemaGen.sequenceGen d).delete o = .ok l)
      (hP : stmts.filter (fun s : Statement => s.ddl.aboutSequence n) = l)
      (hO : stmts.filter (fun s : Statement => s.ddl.ownsSequence n) = [])
  | added (x : Sequence) (hx : x ∈ new.sequences) (e : x.name.fq = n) (ho : ∀ o ∈ old.sequences, o.name.fq ≠ n)
      (ha : x ∈ d.sequenceDiffs.adds) (s : Statement) (hs : s.ddl = .createSequence x)
      (hP : stmts.filter (fun s : Statement => s.ddl.aboutSequence n) = [s])
      (hO : stmts.filter (fun s : Statement => s.ddl.ownsSequence n) = if x.owner = none then [] else [OwnershipGen.ownershipStmt x])
  | recreated (o x : Sequence) (ho : o ∈ old.sequences) (hx : x ∈ new.sequences) (eo : o.name.fq = n) (ex : x.name.fq = n)
      (w : SequenceOwner) (how : o.owner = some w) (hxw : x.owner = some w)
      (hw : w.tableName.fq ∈ d.tableDiffs.adds.map fun t => t.name.fq)
      (hd : o ∈ d.sequenceDiffs.deletes) (ha : x ∈ d.sequenceDiffs.adds) (s : Statement) (hs : s.ddl = .createSequence x)
      (l : List Statement) (hl : (SchemaGen.sequenceGen d).delete o = .ok l)
      (hP : (stmts.filter (fun s : Statement => s.ddl.aboutSequence n)).Perm (s :: l))
      (hO : stmts.filter (fun s : Statement => s.ddl.ownsSequence n) = [OwnershipGen.ownershipStmt x])
  | altered (o x : Sequence) (ho : o ∈ old.sequences) (hx : x ∈ new.sequences) (eo : o.name.fq = n) (ex : x.name.fq = n)
      (hd : ⟨o, x⟩ ∈ d.sequenceDiffs.alters)
      (hw : ∀ w, x.owner = some w → o.owner = some w → w.tableName.fq ∉ d.tableDiffs.adds.map fun t => t.name.fq)
      (hsame : SequenceGen.differs o x = false → { o with owner := x.owner } = x)
      (hP : stmts.filter (fun s : Statement => s.ddl.aboutSequence n) =
        if SequenceGen.differs o x then [stmt (.alterSequence x)] else [])
      (hO : stmts.filter (fun s : Statement => s.ddl.ownsSequence n) =
        if x.owner = o.owner then [] else [OwnershipGen.ownershipStmt x])

theorem buildSequenceDiff_ok {m : GoMap String Table} {o x : Sequence} {i j : Nat} {sd : OldNew Sequence} {b : Bool}
    (h : buildSequenceDiff m o x i j = .ok (sd, b)) :
    (b = true → ∃ w, o.owner = some w ∧ x.owner = some w ∧ m.has w.tableName.fq = true) ∧
    (b = false → sd = ⟨o, x⟩ ∧ ∀ w, x.owner = some w → o.owner = some w → m.has w.tableName.fq = false) := by
  unfold buildSequenceDiff at h
  split at h
  · rename_i w hw
    split at h
    · rename_i hc
      rw [Bool.and_eq_true, decide_eq_true_eq] at hc
      cases h
      exact ⟨fun _ => ⟨w, hc.1, hw, hc.2⟩, fun e => (by cases e)⟩
    · rename_i hc
      cases h
      refine ⟨fun e => (by cases e), fun _ => ⟨rfl, fun w' hw' ho => ?_⟩⟩
      rw [hw] at hw'; cases hw'
      rw [Bool.and_eq_true, decide_eq_true_eq] at hc
      cases hh : m.has w.tableName.fq with
      | false => rfl
      | true => exact absurd ⟨ho, hh⟩ hc
  · rename_i hw
    cases h
    exact ⟨fun e => (by cases e), fun _ => ⟨rfl, fun w' hw' => by rw [hw] at hw'; cases hw'⟩⟩

theorem sequence_alter_ok {sd : OldNew Sequence} {l : List Statement} (h : SequenceGen.alter sd = .ok l) :
    l = (if SequenceGen.differs sd.old sd.new then [stmt (.alterSequence sd.new)] else []) ∧
    (SequenceGen.differs sd.old sd.new = false → { sd.old with owner := sd.new.owner } = sd.new) := by
  unfold SequenceGen.alter at h
  dsimp only at h
  rw [ite_error_ok] at h
  obtain ⟨hc, h⟩ := h
  refine ⟨(Except.ok.inj h).symm, fun hd => ?_⟩
  rw [hd] at hc
  exact Classical.not_not.mp hc

theorem sequence_delete_ok {g : SequenceGen} {o : Sequence} {l : List Statement} (h : g.delete o = .ok l) :
    (∃ w, o.owner = some w ∧ (g.isDeletedWithOwningTable w = true ∨ g.isDeletedWithColumns w = true) ∧ l = []) ∨
    ((∀ w, o.owner = some w → g.isDeletedWithOwningTable w = false ∧ g.isDeletedWithColumns w = false) ∧
      ∃ s, l = [s] ∧ s.ddl = .dropSequence o.name) := by
  unfold SequenceGen.delete at h
  split at h
  · rename_i w hw
    split at h
    · rename_i hc
      cases h
      exact Or.inl ⟨w, hw, by simpa using hc, rfl⟩
    · rename_i hc
      cases h
      refine Or.inr ⟨fun w' hw' => ?_, _, rfl, rfl⟩
      rw [hw] at hw'; cases hw'
      simpa using hc
  · rename_i hw
    cases h
    refine Or.inr ⟨fun w' hw' => ?_, _, rfl, rfl⟩
    rw [hw] at hw'; cases hw'

theorem sequence_fate (dr : DiffRun opts old new d) (run : PlanRun opts d r r' stmts) (hs : NamesUnique new.sequences) (n : String) :
    SequenceFate old new d n stmts := by
  have hkey : ∀ (o x : Sequence) (j i : Nat) (sd : OldNew Sequence), Obj.getName o = Obj.getName x →
      buildSequenceDiff (byName dr.td0.adds) o x j i = .ok (sd, false) → Obj.getName sd.new = Obj.getName x := by
    intro o x j i sd _ hb
    rw [((buildSequenceDiff_ok hb).2 rfl).1]
  obtain ⟨dec, n1, n2, n3, k1, k2, k3⟩ := diffLists_decision dr.hsequences hs hkey n
  have hnames : ∀ t, t ∈ dr.td0.adds.map Obj.getName ↔ t ∈ d.tableDiffs.adds.map fun t => t.name.fq := by
    intro t
    rw [← dr.addNames]; rfl
  have pP := run.family_perm (f := .sequence) rfl (P := fun s : Statement => s.ddl.aboutSequence n) (by
    intro s hs
    cases hd : s.ddl <;> rw [hd] at hs <;> first | rfl | cases hs)
  have pO := run.family_perm (f := .ownership) rfl (P := fun s : Statement => s.ddl.ownsSequence n) (by
    intro s hs
    cases hd : s.ddl <;> rw [hd] at hs <;> first | rfl | cases hs)
  have ownNil : ∀ x : Sequence, Obj.getName x ≠ n →
      [OwnershipGen.ownershipStmt x].filter (fun s : Statement => s.ddl.ownsSequence n) = [] := by
    intro x hx
    rw [List.filter_cons, if_neg]
    · rfl
    · exact fun h => hx (of_decide_eq_true (p := x.name.fq = n) h)
  have ownKeep : ∀ x : Sequence, Obj.getName x = n →
      [OwnershipGen.ownershipStmt x].filter (fun s : Statement => s.ddl.ownsSequence n) = [OwnershipGen.ownershipStmt x] := by
    intro x hx
    rw [List.filter_cons, if_pos]
    · rfl
    · exact decide_eq_true (p := x.name.fq = n) hx
  obtain ⟨A, B, C, eP, a1, b1, c1, a2, b2, c2⟩ := legacy_focus (m := Except Err) (g := (SchemaGen.sequenceGen d).legacy)
    (key := fun sd : OldNew Sequence => Obj.getName sd.new) run.hsequences n1 n2 n3 (n := n)
    (P := fun s : Statement => s.ddl.aboutSequence n) (by
      intro o _ l hl hne
      cases hl
      rw [List.filter_cons, if_neg]
      · rfl
      · exact fun h => hne (of_decide_eq_true (p := o.name.fq = n) h)) (by
      intro o _ l hl hne
      rcases sequence_delete_ok hl with ⟨_, _, _, rfl⟩ | ⟨_, s, rfl, e⟩
      · rfl
      · rw [List.filter_cons, if_neg]
        · rfl
        · rw [e]; exact fun h => hne (of_decide_eq_true (p := o.name.fq = n) h)) (by
      intro o _ l hl hne
      obtain ⟨rfl, _⟩ := sequence_alter_ok hl
      split
      · rw [List.filter_cons, if_neg]
        · rfl
        · exact fun h => hne (of_decide_eq_true (p := o.new.name.fq = n) h)
      · rfl)
  obtain ⟨A', B', C', eO, a1', b1', c1', a2', b2', c2'⟩ := legacy_focus (m := Except Err) (g := OwnershipGen.legacy)
    (key := fun sd : OldNew Sequence => Obj.getName sd.new) run.hownerships n1 n2 n3 (n := n)
    (P := fun s : Statement => s.ddl.ownsSequence n) (by
      intro o _ l hl hne
      cases hl
      split
      · rfl
      · exact ownNil o hne) (by
      intro o _ l hl hne
      cases hl
      rfl) (by
      intro o _ l hl hne
      cases hl
      split
      · rfl
      · exact ownNil o.new hne)
  have pP : (stmts.filter (fun s : Statement => s.ddl.aboutSequence n)).Perm (A ++ B ++ C) := eP ▸ pP
  have pO : (stmts.filter (fun s : Statement => s.ddl.ownsSequence n)).Perm (A' ++ B' ++ C') := eO ▸ pO
  have addNew : n ∈ d.sequenceDiffs.adds.map Obj.getName → n ∈ new.sequences.map Obj.getName := by
    intro hy
    obtain ⟨z, hz, rfl⟩ := List.mem_map.mp hy
    exact List.mem_map_of_mem (diffLists_adds_mem dr.hsequences hz)
  have delOld : n ∈ d.sequenceDiffs.deletes.map Obj.getName → n ∈ old.sequences.map Obj.getName := by
    intro hy
    obtain ⟨z, hz, rfl⟩ := List.mem_map.mp hy
    exact List.mem_map_of_mem (diffLists_deletes_mem dr.hsequences hz)
  have notIn : ∀ {l : List Sequence}, n ∉ l.map Obj.getName → ∀ x ∈ l, x.name.fq ≠ n := by
    intro l h x hx e
    exact h (List.mem_map.mpr ⟨x, hx, e⟩)
  cases dec with
  | absent ho hn =>
    rw [a1 fun h => hn (addNew h), b1 fun h => ho (delOld h), c1 fun h => ho (k3 h).1] at pP
    rw [a1' fun h => hn (addNew h), b1' fun h => ho (delOld h), c1' fun h => ho (k3 h).1] at pO
    exact .absent (notIn ho) (notIn hn) pP.eq_nil pO.eq_nil
  | dropped o ho e hn hd =>
    obtain ⟨l, hl, eB⟩ := b2 o hd e
    obtain ⟨l', hl', eB'⟩ := b2' o hd e
    cases hl'
    rw [a1 fun h => hn (addNew h), eB, c1 fun h => hn (k3 h).2] at pP
    rw [a1' fun h => hn (addNew h), eB', c1' fun h => hn (k3 h).2] at pO
    refine .dropped o ho e (notIn hn) hd l hl ?_ pO.eq_nil
    rcases sequence_delete_ok hl with ⟨_, _, _, rfl⟩ | ⟨_, s, rfl, es⟩
    · exact pP.eq_nil
    · have ks : [s].filter (fun s : Statement => s.ddl.aboutSequence n) = [s] := by
        rw [List.filter_cons, if_pos]
        · rfl
        · rw [es]; exact decide_eq_true (p := o.name.fq = n) e
      rw [ks, List.nil_append, List.append_nil] at pP
      exact List.perm_singleton.mp pP
  | added x hx e ho ha =>
    obtain ⟨l, hl, eA⟩ := a2 x ha e
    obtain ⟨l', hl', eA'⟩ := a2' x ha e
    cases hl'
    cases hl
    rw [b1 fun h => ho (delOld h), eA, c1 fun h => ho (k3 h).1, List.append_nil, List.append_nil, List.filter_cons, if_pos] at pP
    · rw [b1' fun h => ho (delOld h), eA', c1' fun h => ho (k3 h).1, List.append_nil, List.append_nil] at pO
      refine .added x hx e (notIn ho) ha _ rfl (List.perm_singleton.mp pP) ?_
      split
      · rename_i hc
        rw [if_pos hc] at pO
        exact pO.eq_nil
      · rename_i hc
        rw [if_neg hc, ownKeep x e] at pO
        exact List.perm_singleton.mp pO
    · exact decide_eq_true (p := x.name.fq = n) e
  | recreated o x ho hx eo ex hb hd ha =>
    obtain ⟨i, j, sd, hb⟩ := hb
    obtain ⟨w, w1, w2, w3⟩ := (buildSequenceDiff_ok hb).1 rfl
    obtain ⟨l, hl, eA⟩ := a2 x ha ex
    obtain ⟨l', hl', eA'⟩ := a2' x ha ex
    obtain ⟨m, hm, eB⟩ := b2 o hd eo
    obtain ⟨m', hm', eB'⟩ := b2' o hd eo
    cases hl'
    cases hl
    cases hm'
    have nalt := k2 (eo ▸ List.mem_map_of_mem hd)
    rw [eA, eB, c1 nalt, List.append_nil, List.filter_cons, if_pos] at pP
    · rw [eA', eB', c1' nalt, if_neg (by rw [w2]; simp), ownKeep x ex] at pO
      refine .recreated o x ho hx eo ex w w1 w2 ((hnames _).mp (byName_has.mp w3)) hd ha
        (stmt (.createSequence x) (if x.owner = none then [.hasUntrackableDependencies] else [])) rfl m hm ?_ (List.perm_singleton.mp (by simpa using pO))
      have : m.filter (fun s : Statement => s.ddl.aboutSequence n) = m := by
        rcases sequence_delete_ok hm with ⟨_, _, _, rfl⟩ | ⟨_, s, rfl, es⟩
        · rfl
        · rw [List.filter_cons, if_pos]
          · rfl
          · rw [es]; exact decide_eq_true (p := o.name.fq = n) eo
      rw [this] at pP
      exact pP
    · exact decide_eq_true (p := x.name.fq = n) ex
  | altered o x sd ho hx eo ex hb hd =>
    obtain ⟨i, j, hb⟩ := hb
    obtain ⟨rfl, hw⟩ := (buildSequenceDiff_ok hb).2 rfl
    obtain ⟨l, hl, eC⟩ := c2 _ hd ex
    obtain ⟨l', hl', eC'⟩ := c2' _ hd ex
    cases hl'
    obtain ⟨rfl, hsame⟩ := sequence_alter_ok hl
    have hmem : n ∈ d.sequenceDiffs.alters.map fun sd : OldNew Sequence => Obj.getName sd.new :=
      List.mem_map.mpr ⟨_, hd, ex⟩
    rw [a1 fun h => k1 h hmem, b1 fun h => k2 h hmem, eC] at pP
    rw [a1' fun h => k1 h hmem, b1' fun h => k2 h hmem, eC'] at pO
    refine .altered o x ho hx eo ex hd (fun w h1 h2 h3 => ?_) hsame ?_ ?_
    · have := byName_has.mpr ((hnames _).mpr h3)
      rw [hw w h1 h2] at this
      cases this
    · dsimp only at pP
      split
      · rename_i hc
        rw [if_pos hc, List.nil_append, List.nil_append, List.filter_cons, if_pos] at pP
        · exact List.perm_singleton.mp pP
        · exact decide_eq_true (p := x.name.fq = n) ex
      · rename_i hc
        rw [if_neg hc] at pP
        exact pP.eq_nil
    · dsimp only at pO
      split
      · rename_i hc
        rw [if_pos hc] at pO
        exact pO.eq_nil
      · rename_i hc
        rw [if_neg hc, ownKeep x ex] at pO
        exact List.perm_singleton.mp (by simpa using pO)

/-! ### what happens to owners -/

/-- the column is in every new table of the name -/
def KeepsColumn (new : Schema) (w : SequenceOwner) : Prop :=
  ∀ t ∈ new.tables, t.name.fq = w.tableName.fq → ∃ c ∈ t.columns, c.name = w.columnName

theorem DiffRun.column_deleted (dr : DiffRun opts old new d) {td : TableDiff} (htd : td ∈ d.tableDiffs.alters) {c : Column}
    (hc : c ∈ td.columnsDiff.deletes) : td.new ∈ new.tables ∧ ∀ x ∈ td.new.columns, x.name ≠ c.name := by
  obtain ⟨td0, _, rfl, i, j, h1, h2, _, hb⟩ := dr.altered htd
  refine ⟨List.mem_of_getElem? h1, fun x hx e => ?_⟩
  obtain ⟨_, _, _, _, _, hcols, _⟩ := buildTableDiff_ok hb
  rw [orderIf_columnsDeletes] at hc
  have := (never_deletes (by intro o n i j d h; cases h) hcols).mp hc
  exact this.2 (List.mem_map.mpr ⟨x, hx, e⟩)

/-- when the column stays only the table can take the sequence away -/
theorem DiffRun.takes_table (dr : DiffRun opts old new d) (run : PlanRun opts d r r' stmts) {w : SequenceOwner}
    (hw : KeepsColumn new w) : ∀ s ∈ stmts, s.ddl.takes (some w) = true → ∃ t, s.ddl = .dropTable t := by
  intro s hs h
  rcases run.takes hs h with ⟨t, _, _, _, e⟩ | ⟨td, htd, en, _, c, hc, ec⟩
  · exact ⟨_, e⟩
  · obtain ⟨h1, h2⟩ := dr.column_deleted htd hc
    obtain ⟨c', hc', e'⟩ := hw _ h1 en
    exact absurd (e'.trans ec.symm) (h2 c' hc')

theorem table_key {o x : Table} {j i : Nat} {td : TableDiff} (_ : Obj.getName o = Obj.getName x)
    (h : buildTableDiff o x j i = .ok (td, false)) : Obj.getName td.new = Obj.getName x := by
  rw [(buildTableDiff_ok h).2.1]

/-- a deleted table that is in the new schema is added again -/
theorem DiffRun.deleted_added (dr : DiffRun opts old new d) (ht : NamesUnique new.tables) {t o : Table} (htn : t ∈ new.tables)
    (ho : o ∈ d.tableDiffs.deletes) (e : o.name.fq = t.name.fq) : t.name.fq ∈ d.tableDiffs.adds.map fun t => t.name.fq := by
  obtain ⟨dec, _, _, _, _, k2, _⟩ := diffLists_decision dr.htd0 ht (key := fun td : TableDiff => Obj.getName td.new)
    (fun o x j i td => table_key) t.name.fq
  have ho' : o ∈ dr.td0.deletes := dr.hdeletes ▸ ho
  have hn : t.name.fq ∈ new.tables.map Obj.getName := List.mem_map.mpr ⟨t, htn, rfl⟩
  have hd : t.name.fq ∈ dr.td0.deletes.map Obj.getName := List.mem_map.mpr ⟨o, ho', e⟩
  have hold : t.name.fq ∈ old.tables.map Obj.getName := List.mem_map.mpr ⟨o, diffLists_deletes_mem dr.htd0 ho', e⟩
  cases dec with
  | absent _ h => exact absurd hn h
  | dropped _ _ _ h _ => exact absurd hn h
  | added _ _ _ h _ => exact absurd hold h
  | recreated o' x _ _ _ ex _ _ h' =>
    have : t.name.fq ∈ dr.td0.adds.map Obj.getName := List.mem_map.mpr ⟨x, h', ex⟩
    rw [← dr.addNames] at this
    exact this
  | altered o' x td _ _ _ ex hb h =>
    obtain ⟨i, j, hb⟩ := hb
    refine absurd (List.mem_map.mpr ⟨td, h, ?_⟩) (k2 hd)
    rw [(buildTableDiff_ok hb).2.1]; exact ex

/-- an added table with an old namesake: the namesake is deleted -/
theorem DiffRun.added_deleted (dr : DiffRun opts old new d) (ht : NamesUnique new.tables) {n : String} {o : Table}
    (ho : o ∈ old.tables) (e : o.name.fq = n) (ha : n ∈ d.tableDiffs.adds.map fun t => t.name.fq) : o ∈ d.tableDiffs.deletes := by
  obtain ⟨dec, _, _, _, k1, _, _⟩ := diffLists_decision dr.htd0 ht (key := fun td : TableDiff => Obj.getName td.new)
    (fun o x j i td => table_key) n
  have ha' : n ∈ dr.td0.adds.map Obj.getName := by rw [← dr.addNames]; exact ha
  have hold : n ∈ old.tables.map Obj.getName := List.mem_map.mpr ⟨o, ho, e⟩
  have hn : n ∈ new.tables.map Obj.getName := by
    obtain ⟨z, hz, rfl⟩ := List.mem_map.mp ha'
    exact List.mem_map_of_mem (diffLists_adds_mem dr.htd0 hz)
  cases dec with
  | absent _ h => exact absurd hn h
  | dropped _ _ _ h _ => exact absurd hn h
  | added _ _ _ h _ => exact absurd hold h
  | recreated o' x ho' _ eo _ _ h _ =>
    have : o' = o := List.inj_on_of_nodup_map (diffLists_old_nodup dr.htd0) ho' ho (eo.trans e.symm)
    subst this
    rw [dr.hdeletes]; exact h
  | altered o' x td _ _ _ ex hb h =>
    obtain ⟨i, j, hb⟩ := hb
    refine absurd (List.mem_map.mpr ⟨td, h, ?_⟩) (k1 ha')
    rw [(buildTableDiff_ok hb).2.1]; exact ex

theorem DiffRun.not_taken (dr : DiffRun opts old new d) (run : PlanRun opts d r r' stmts) (ht : NamesUnique new.tables)
    {w : SequenceOwner} (hw : KeepsColumn new w) {t : Table} (htn : t ∈ new.tables) (et : t.name.fq = w.tableName.fq)
    (hna : w.tableName.fq ∉ d.tableDiffs.adds.map fun t => t.name.fq) : ∀ s ∈ stmts, s.ddl.takes (some w) = false := by
  intro s hs
  cases h : s.ddl.takes (some w) with
  | false => rfl
  | true =>
    rcases run.takes hs h with ⟨t', ht', _, e, _⟩ | ⟨td, _, _, e, _⟩
    · exact absurd (et ▸ dr.deleted_added ht htn ht' (e.trans et.symm)) hna
    · obtain ⟨t', e'⟩ := dr.takes_table run hw s hs h
      rw [e] at e'; cases e'

/-- a deleted column is dropped -/
theorem DiffRun.drops_column (dr : DiffRun opts old new d) (run : PlanRun opts d r r' stmts) {td : TableDiff}
    (htd : td ∈ d.tableDiffs.alters) (hp : td.new.isPartition = false) {c : Column} (hc : c ∈ td.columnsDiff.deletes) :
    ∃ s ∈ stmts, s.ddl = .alterTable td.new.name (.dropColumn c.name) := by
  obtain ⟨l, hl, hm⟩ := stmts_of_alter (m := GenM) (g := (SchemaGen.tableGen d).legacy) (yields_of_run run.htables) htd
  obtain ⟨tr⟩ := table_run hl
  obtain ⟨p, hg, hperm⟩ := tr.kind_perm hp (P := fun s => s.ddl.onColumn td.new.name c.name) fun s hs => Ddl.onColumn_kind hs
  obtain ⟨td0, _, rfl, i, j, _, _, _, hb⟩ := dr.altered htd
  obtain ⟨_, _, _, _, _, hcols, _⟩ := buildTableDiff_ok hb
  have hnames : ∀ cd ∈ (orderIf opts td0).columnsDiff.alters, cd.old.name = cd.new.name := by
    intro cd hcd
    obtain ⟨cd0, h0, e1, e2⟩ := orderIf_columns opts td0 hcd
    rw [e1, e2]; exact ((columnsDiff_alters hcols).1 cd0 h0).2.2
  obtain ⟨adds, deletes, alters, e, _, h2, _⟩ := column_graph hg hnames c.name
  obtain ⟨s, hs, es⟩ := forall₂_mem_left h2 c (List.mem_filter.mpr ⟨hc, by simp⟩)
  refine ⟨s, run.mem_of_graph (p := run.tables) (by simp) (hm s ?_), es⟩
  refine (List.mem_filter.mp (hperm.mem_iff.mpr ?_)).1
  rw [e]
  simp [hs]

/-! ### running -/

theorem split_filter {α : Type} {p : α → Bool} {a b : List α} {x : α} {l : List α} (h : (a ++ x :: b).filter p = l)
    (ha : ∀ y ∈ a, p y = false) (hx : p x = false) : b.filter p = l := by
  rw [List.filter_append, List.filter_cons, if_neg (by simp [hx]), List.filter_eq_nil_iff.mpr (by simpa using ha)] at h
  exact h

theorem filter_nil_false {α : Type} {p : α → Bool} {l : List α} (h : l.filter p = []) : ∀ x ∈ l, p x = false := by
  intro x hx
  simpa using List.filter_eq_nil_iff.mp h x hx

/-- a new sequence -/
theorem runSequence_fresh {sc : Schema} {n : String} {x : Sequence} (hr : RootOwner sc x.owner) (e : x.name.fq = n) {l : List Statement} {s : Statement}
    (hs : s.ddl = .createSequence x)
    (hP : l.filter (fun s : Statement => s.ddl.aboutSequence n) = [s])
    (hO : l.filter (fun s : Statement => s.ddl.ownsSequence n) = if x.owner = none then [] else [OwnershipGen.ownershipStmt x])
    (h1 : x.owner ≠ none → AllBefore (fun s : Statement => s.ddl.definesSequence n = true) (fun s => s.ddl.ownsSequence n = true) l)
    (h2 : ∀ w, x.owner = some w → AllBefore (fun s : Statement => s.ddl.takes (some w) = true) (fun s => s.ddl.ownsSequence n = true) l) :
    runSequence sc n none l = some (some x) := by
  obtain ⟨a, b, rfl, hp, ha, hb⟩ := split_once hP
  have sd : s.ddl.definesSequence n = true := by rw [hs]; exact decide_eq_true e
  have so : s.ddl.ownsSequence n = false := by rw [hs]; rfl
  have hcreate : sequenceStep sc n none s.ddl = some (some { x with owner := none }) := by
    rw [hs]; exact if_pos e
  unfold runSequence
  by_cases ho : x.owner = none
  · rw [if_pos ho] at hO
    have hno := filter_nil_false hO
    rw [runWith_at (s' := some { x with owner := none }) _ hcreate]
    · rw [runWith_keeps]
      · rw [← ho]
      · intro y hy
        refine sequenceStep_some (fun _ h => by cases h) ?_ ?_
        · rw [namesSequence_eq, hb y hy, hno y (by simp [hy])]; rfl
        · cases hd : y.ddl <;> rfl
    · intro y hy
      refine sequenceStep_none ?_
      rw [namesSequence_eq, ha y hy, hno y (by simp [hy])]; rfl
  · rw [if_neg ho] at hO
    have haO : ∀ y ∈ a, y.ddl.ownsSequence n = false := by
      intro y hy
      have := (h1 ho).not_before sd y hy
      simpa using this
    have hO' := split_filter hO haO so
    obtain ⟨b1, c, rfl, hO1, hb1, hc⟩ := split_once hO'
    rw [runWith_at (s' := some { x with owner := none }) _ hcreate, runWith_at (s' := some x)]
    · refine runWith_keeps fun y hy => sequenceStep_some hr ?_ ?_
      · rw [namesSequence_eq, hb y (by simp [hy]), hc y hy]; rfl
      · obtain ⟨w, hw⟩ := Option.ne_none_iff_exists'.mp ho
        rw [hw]
        have h2 := h2 w hw
        rw [show a ++ s :: (b1 ++ OwnershipGen.ownershipStmt x :: c) = (a ++ s :: b1) ++ OwnershipGen.ownershipStmt x :: c by simp] at h2
        have := h2.not_after hO1 y hy
        simpa using this
    · intro y hy
      refine sequenceStep_some (fun _ h => by cases h) ?_ ?_
      · rw [namesSequence_eq, hb y (by simp [hy]), hb1 y hy]; rfl
      · cases hd : y.ddl <;> rfl
    · show sequenceStep sc n _ (.sequenceOwnedBy x.name x.owner) = _
      exact if_pos e
    · intro y hy
      refine sequenceStep_none ?_
      rw [namesSequence_eq, ha y hy, haO y hy]; rfl

/-- after the sequence was taken away nothing brings it back -/
theorem runSequence_taken {sc : Schema} {n : String} {y : Sequence} (hr : RootOwner sc y.owner) {w : SequenceOwner} (hw : y.owner = some w) {l : List Statement}
    {s : Statement} (hs : s ∈ l) (ht : s.ddl.takes (some w) = true) (hN : ∀ s ∈ l, namesSequence n s.ddl = false) :
    runSequence sc n (some y) l = some none := by
  obtain ⟨a, z, b, rfl, hz, ha⟩ := split_first (p := fun s : Statement => s.ddl.takes (some w)) hs ht
  unfold runSequence
  rw [runWith_at (s' := none), runWith_keeps]
  · exact fun y hy => sequenceStep_none (hN y (by simp [hy]))
  · intro x hx
    exact sequenceStep_some hr (hN x (by simp [hx])) (hw ▸ ha x hx)
  · exact sequenceStep_takes hr (hw ▸ hz)

theorem sequence_converges (dr : DiffRun opts old new d) (run : PlanRun opts d r r' stmts) (hs : NamesUnique new.sequences)
    (ht : NamesUnique new.tables) {sc : Schema} (hro : ∀ o ∈ old.sequences, RootOwner sc o.owner)
    (hrn : ∀ x ∈ new.sequences, RootOwner sc x.owner)
    (hold : ∀ o ∈ old.sequences, ∀ w, o.owner = some w → ∃ t ∈ old.tables, t.name.fq = w.tableName.fq ∧ t.parentTable = none)
    (hnew : ∀ x ∈ new.sequences, ∀ w, x.owner = some w → (∃ t ∈ new.tables, t.name.fq = w.tableName.fq) ∧ KeepsColumn new w)
    (n : String) :
    runSequence sc n (sequenceOf old n) stmts = some (sequenceOf new n) := by
  have hso : NamesUnique old.sequences := diffLists_old_nodup dr.hsequences
  have findNone : ∀ {l : List Sequence}, (∀ x ∈ l, x.name.fq ≠ n) → l.find? (fun x => x.name.fq = n) = none := by
    intro l h
    rw [List.find?_eq_none]
    intro x hx e
    exact h x hx (of_decide_eq_true e)
  have findSome : ∀ {l : List Sequence}, NamesUnique l → ∀ {x}, x ∈ l → x.name.fq = n →
      l.find? (fun x => x.name.fq = n) = some x := by
    intro l hl x hx e
    cases hf : l.find? (fun x => x.name.fq = n) with
    | none => exact absurd (List.find?_eq_none.mp hf x hx) (by simp [e])
    | some y =>
      have hy := List.mem_of_find?_eq_some hf
      have ey : y.name.fq = n := by simpa using List.find?_some hf
      rw [List.inj_on_of_nodup_map hl hy hx (ey.trans e.symm)]
  cases sequence_fate dr run hs n with
  | absent ho hn hP hO =>
    unfold sequenceOf
    rw [findNone ho, findNone hn]
    refine runWith_keeps fun y hy => sequenceStep_none ?_
    rw [namesSequence_eq, filter_nil_false hP y hy, filter_nil_false hO y hy]; rfl
  | dropped o ho e hn hd l hl hP hO =>
    unfold sequenceOf
    rw [findSome hso ho e, findNone hn]
    have hO := filter_nil_false hO
    rcases sequence_delete_ok hl with ⟨w, hw, hc, rfl⟩ | ⟨hc, s, rfl, es⟩
    · have hP := filter_nil_false hP
      have hN : ∀ s ∈ stmts, namesSequence n s.ddl = false := fun s h => by
        rw [namesSequence_eq, hP s h, hO s h]; rfl
      obtain ⟨t0, ht0, et0, hp0⟩ := hold o ho w hw
      rcases hc with hc | hc
      · obtain ⟨t', ht', et'⟩ := List.mem_map.mp (byName_has.mp hc)
        have : t' = t0 := List.inj_on_of_nodup_map (diffLists_old_nodup dr.htd0)
          (diffLists_deletes_mem dr.htd0 (dr.hdeletes ▸ ht')) ht0 (et'.trans et0.symm)
        subst this
        obtain ⟨s, es, hf⟩ := run.drop_table_once dr ht' hp0
        have hmem : s ∈ stmts := (List.mem_filter.mp (by rw [hf]; exact List.mem_cons_self)).1
        refine runSequence_taken (hro o ho) hw hmem ?_ hN
        rw [es]; exact decide_eq_true et0.symm
      · unfold SequenceGen.isDeletedWithColumns SchemaGen.sequenceGen at hc
        obtain ⟨c, hcm, hce⟩ := List.any_eq_true.mp hc
        cases hg : (diffByName d.tableDiffs.alters).get? w.tableName.getName with
        | none => rw [hg] at hcm; cases hcm
        | some td =>
          rw [hg] at hcm
          obtain ⟨htd, en⟩ := diffByName_get?_some hg
          have hnp : td.new.isPartition = false := by
            obtain ⟨td0, _, rfl, i, j, h1, h2, h3, hb⟩ := dr.altered htd
            have : (orderIf opts td0).old = t0 := List.inj_on_of_nodup_map (diffLists_old_nodup dr.htd0)
              (List.mem_of_getElem? h2) ht0 (h3.trans (Eq.trans en et0.symm))
            rw [← this, (buildTableDiff_ok hb).2.2.2.2.1] at hp0
            unfold Table.isPartition
            rw [hp0]; rfl
          obtain ⟨s, hmem, es⟩ := dr.drops_column run htd hnp hcm
          refine runSequence_taken (hro o ho) hw hmem ?_ hN
          rw [es]
          have en : td.new.name.fq = w.tableName.fq := en
          simp [Ddl.takes, en, of_decide_eq_true hce]
    · obtain ⟨a, b, rfl, hp, ha, hb⟩ := split_once hP
      have hnt : ∀ s' ∈ a ++ s :: b, s'.ddl.takes o.owner = false := by
        intro s' hs'
        cases ho' : o.owner with
        | none => cases hd' : s'.ddl <;> rfl
        | some w =>
          cases h : s'.ddl.takes (some w) with
          | false => rfl
          | true =>
            exfalso
            obtain ⟨c1, c2⟩ := hc w ho'
            rcases run.takes hs' h with ⟨t', ht', _, e', _⟩ | ⟨td, htd, e', _, c, hcm, ec⟩
            · have : (SchemaGen.sequenceGen d).isDeletedWithOwningTable w = true :=
                byName_has.mpr (List.mem_map.mpr ⟨t', ht', e'⟩)
              rw [c1] at this; cases this
            · have hg := diffByName_get?_of_mem (l := d.tableDiffs.alters) (by
                have := dr.alters_nodup ht
                obtain ⟨_, _, _, n3, _⟩ := diffLists_decision dr.htd0 ht (key := fun td : TableDiff => Obj.getName td.new)
                  (fun o x j i td => table_key) ""
                rw [dr.halters, List.map_map]
                rw [List.map_congr_left (g := fun td : TableDiff => Obj.getName td.new)]
                · exact n3
                · intro td _
                  show Obj.getName (orderIf opts td).new = _
                  rw [orderIf_new]) htd
              have : (SchemaGen.sequenceGen d).isDeletedWithColumns w = true := by
                unfold SequenceGen.isDeletedWithColumns SchemaGen.sequenceGen
                dsimp only
                rw [show w.tableName.getName = Obj.getName (IsDiff.getNew td : Table) from e'.symm, hg]
                exact List.any_eq_true.mpr ⟨c, hcm, decide_eq_true ec⟩
              rw [c2] at this; cases this
      unfold runSequence
      rw [runWith_at (s' := none), runWith_keeps]
      · intro y hy
        refine sequenceStep_none ?_
        rw [namesSequence_eq, hb y hy, hO y (by simp [hy])]; rfl
      · intro y hy
        refine sequenceStep_some (hro o ho) ?_ (hnt y (by simp [hy]))
        rw [namesSequence_eq, ha y hy, hO y (by simp [hy])]; rfl
      · rw [es]
        exact if_pos e
  | added x hx e ho ha s es hP hO =>
    unfold sequenceOf
    rw [findNone ho, findSome hs hx e]
    obtain ⟨_, d2, d3⟩ := run.sequence_deps_add ha
    refine runSequence_fresh (hrn x hx) e es hP hO (fun h => ?_) (fun w hw => ?_)
    · exact run.defines_before_owned (e ▸ d2 h)
    · obtain ⟨⟨t, htn, et⟩, _⟩ := hnew x hx w hw
      exact dr.takes_before_owned run ht htn et (e ▸ d3 w hw)
  | recreated o x ho hx eo ex w how hxw hw hd ha s es l hl hP hO =>
    unfold sequenceOf
    rw [findSome hso ho eo, findSome hs hx ex]
    obtain ⟨t0, ht0, et0, hp0⟩ := hold o ho w how
    have hdel := dr.added_deleted ht ht0 et0 hw
    have hlnil : l = [] := by
      rcases sequence_delete_ok hl with ⟨_, _, _, h⟩ | ⟨hc, _⟩
      · exact h
      · have : (SchemaGen.sequenceGen d).isDeletedWithOwningTable w = true :=
          byName_has.mpr (List.mem_map.mpr ⟨t0, hdel, et0⟩)
        rw [(hc w how).1] at this; cases this
    rw [hlnil] at hP
    have hP := List.perm_singleton.mp hP
    obtain ⟨s0, es0, hf⟩ := run.drop_table_once dr hdel hp0
    have hmem : s0 ∈ stmts := (List.mem_filter.mp (by rw [hf]; exact List.mem_cons_self)).1
    have htk : s0.ddl.takes (some w) = true := by rw [es0]; exact decide_eq_true et0.symm
    obtain ⟨⟨t, htn, et⟩, hk⟩ := hnew x hx w hxw
    obtain ⟨_, d2, d3⟩ := run.sequence_deps_add ha
    have o1 := run.defines_before_owned (n := n) (ex ▸ d2 (by rw [hxw]; simp))
    have o2 := dr.takes_before_owned run ht (n := n) htn et (ex ▸ d3 w hxw)
    have o3 := run.dropped_before_defines hd ha (eo.trans ex.symm) how (dr.takes_table run hk)
    rw [ex] at o3
    obtain ⟨a, z, b, rfl, hz, haz⟩ := split_first (p := fun s : Statement => s.ddl.takes (some w)) hmem htk
    have sd : s.ddl.definesSequence n = true := by rw [es]; exact decide_eq_true ex
    have haD : ∀ y ∈ a, y.ddl.definesSequence n = false := fun y hy => by simpa using o3.not_before hz y hy
    have haO : ∀ y ∈ a, y.ddl.ownsSequence n = false := fun y hy => by simpa using o2.not_before hz y hy
    have hsP : ∀ y ∈ a ++ z :: b, y.ddl.aboutSequence n = true → y.ddl.definesSequence n = true := by
      intro y hy hyp
      have : y ∈ [s] := hP ▸ List.mem_filter.mpr ⟨hy, hyp⟩
      rw [List.mem_singleton.mp this]; exact sd
    have haP : ∀ y ∈ a, y.ddl.aboutSequence n = false := by
      intro y hy
      cases h : y.ddl.aboutSequence n with
      | false => rfl
      | true => rw [← haD y hy, hsP y (by simp [hy]) h]
    have hzN := namesSequence_takes (n := n) hz
    rw [namesSequence_eq, Bool.or_eq_false_iff] at hzN
    unfold runSequence
    rw [runWith_at (s' := none)]
    · have sub : b.Sublist (a ++ z :: b) := (List.sublist_cons_self z b).trans (List.sublist_append_right a _)
      refine runSequence_fresh (hrn x hx) ex es (split_filter hP haP hzN.1) ?_ (fun _ => o1.sublist sub) (fun w' hw' => ?_)
      · rw [if_neg (by rw [hxw]; simp)]
        exact split_filter hO haO hzN.2
      · rw [hxw] at hw'; cases hw'
        exact o2.sublist sub
    · intro y hy
      refine sequenceStep_some (hro o ho) ?_ (how ▸ haz y hy)
      rw [namesSequence_eq, haP y hy, haO y hy]; rfl
    · exact sequenceStep_takes (hro o ho) (how ▸ hz)
  | altered o x ho hx eo ex hd hw hsame hP hO =>
    unfold sequenceOf
    rw [findSome hso ho eo, findSome hs hx ex]
    have halter : ∀ y : Sequence, sequenceStep sc n (some y) (stmt (.alterSequence x)).ddl = some (some { x with owner := y.owner }) :=
      fun y => if_pos ex
    have hown : ∀ y : Sequence, sequenceStep sc n (some y) (OwnershipGen.ownershipStmt x).ddl = some (some { y with owner := x.owner }) :=
      fun y => if_pos ex
    by_cases hoo : x.owner = o.owner
    · -- the owner stays
      rw [if_pos hoo] at hO
      have hO := filter_nil_false hO
      have hnt : ∀ s ∈ stmts, s.ddl.takes x.owner = false := by
        intro s hs'
        cases hxo : x.owner with
        | none => cases hd' : s.ddl <;> rfl
        | some w =>
          obtain ⟨⟨t, htn, et⟩, hk⟩ := hnew x hx w hxo
          exact dr.not_taken run ht hk htn et (hw w hxo (hoo ▸ hxo)) s hs'
      cases hdf : SequenceGen.differs o x with
      | false =>
        have e := hsame hdf
        rw [hoo] at e
        rw [hdf] at hP
        have hP := filter_nil_false (l := stmts) hP
        have e : o = x := e
        rw [e]
        refine runWith_keeps fun y hy => sequenceStep_some (hrn x hx) ?_ (hnt y hy)
        rw [namesSequence_eq, hP y hy, hO y hy]; rfl
      | true =>
        rw [hdf, if_pos rfl] at hP
        obtain ⟨a, b, rfl, _, ha, hb⟩ := split_once hP
        unfold runSequence
        rw [runWith_at (s' := some x), runWith_keeps]
        · intro y hy
          refine sequenceStep_some (hrn x hx) ?_ (hnt y (by simp [hy]))
          rw [namesSequence_eq, hb y hy, hO y (by simp [hy])]; rfl
        · intro y hy
          refine sequenceStep_some (hro o ho) ?_ (hoo ▸ hnt y (by simp [hy]))
          rw [namesSequence_eq, ha y hy, hO y (by simp [hy])]; rfl
        · rw [halter, ← hoo]
    · rw [if_neg hoo] at hO
      obtain ⟨d1, d2, d3⟩ := run.sequence_deps_alter hd fun e => hoo e.symm
      have o1 := run.defines_before_owned (n := n) (ex ▸ d1)
      have before : AllBefore (fun s : Statement => s.ddl.ownsSequence n = true) (fun s => s.ddl.takes o.owner = true) stmts := by
        cases hoo' : o.owner with
        | none =>
          refine List.pairwise_of_forall_mem_list ?_
          rintro a _ b _ ⟨h, _⟩
          cases hd' : a.ddl <;> rw [hd'] at h <;> cases h
        | some w =>
          exact dr.owned_before_takes run ht (ex ▸ d3 w hoo')
      have after : AllBefore (fun s : Statement => s.ddl.takes x.owner = true) (fun s => s.ddl.ownsSequence n = true) stmts := by
        cases hxo : x.owner with
        | none =>
          refine List.pairwise_of_forall_mem_list ?_
          rintro a _ b _ ⟨_, h⟩
          cases hd' : b.ddl <;> rw [hd'] at h <;> cases h
        | some w =>
          obtain ⟨⟨t, htn, et⟩, _⟩ := hnew x hx w hxo
          exact dr.takes_before_owned run ht htn et (ex ▸ d2 w hxo)
      cases hdf : SequenceGen.differs o x with
      | false =>
        rw [hdf] at hP
        have hP := filter_nil_false (l := stmts) hP
        obtain ⟨a, b, rfl, hq, ha, hb⟩ := split_once hO
        unfold runSequence
        rw [runWith_at (s' := some x), runWith_keeps]
        · intro y hy
          refine sequenceStep_some (hrn x hx) ?_ (by simpa using after.not_after hq y hy)
          rw [namesSequence_eq, hP y (by simp [hy]), hb y hy]; rfl
        · intro y hy
          refine sequenceStep_some (hro o ho) ?_ (by simpa using before.not_before hq y hy)
          rw [namesSequence_eq, hP y (by simp [hy]), ha y hy]; rfl
        · rw [hown, hsame hdf]
      | true =>
        rw [hdf, if_pos rfl] at hP
        obtain ⟨a, b, rfl, hp, ha, hb⟩ := split_once hP
        have sd : (stmt (.alterSequence x)).ddl.definesSequence n = true := decide_eq_true ex
        have haO : ∀ y ∈ a, y.ddl.ownsSequence n = false := fun y hy => by simpa using o1.not_before sd y hy
        obtain ⟨b1, c, rfl, hq, hb1, hc⟩ := split_once (split_filter hO haO rfl)
        rw [show a ++ stmt (.alterSequence x) :: (b1 ++ OwnershipGen.ownershipStmt x :: c) =
          (a ++ stmt (.alterSequence x) :: b1) ++ OwnershipGen.ownershipStmt x :: c by simp] at before after
        unfold runSequence
        rw [runWith_at (s' := some { x with owner := o.owner }), runWith_at (s' := some x), runWith_keeps]
        · intro y hy
          refine sequenceStep_some (hrn x hx) ?_ (by simpa using after.not_after hq y hy)
          rw [namesSequence_eq, hb y (by simp [hy]), hc y hy]; rfl
        · intro y hy
          refine sequenceStep_some (hro o ho) ?_ (by simpa using before.not_before hq y (by simp [hy]))
          rw [namesSequence_eq, hb y (by simp [hy]), hb1 y hy]; rfl
        · rw [hown]
        · intro y hy
          refine sequenceStep_some (hro o ho) ?_ (by simpa using before.not_before hq y (by simp [hy]))
          rw [namesSequence_eq, ha y hy, haO y hy]; rfl
        · exact halter o

/-- **C26** (partial).  Executing the plan turns every sequence into exactly its target: sequences are created, altered, handed
over, dropped or left alone, and a sequence that goes with its table or column is created again when it is still wanted.
Excluded are sequences that belong to a partition, see `C26_partition_owner_violated`. -/
theorem C26_sequences_converge_partial (h : generateMigrationStatements r old new opts = .ok (stmts, r'))
    (hs : NamesUnique new.sequences) (ht : NamesUnique new.tables) (hold : SequenceOwnersExist old) (hnew : SequenceOwnersExist new)
    (hro : SequenceOwnersAreRoots old old) (hrn : SequenceOwnersAreRoots old new) (n : String) :
    runSequence old n (sequenceOf old n) stmts = some (sequenceOf new n) := by
  obtain ⟨d, ⟨dr⟩, ⟨run⟩⟩ := plan_runs h
  have hf : ∀ {s : Schema}, NamesUnique s.sequences → sequenceOf s n = sequenceOf s.normalize n := by
    intro s hu
    have hu' : NamesUnique s.normalize.sequences := namesUnique_sort hu
    unfold sequenceOf
    cases hs : s.sequences.find? fun x => x.name.fq = n with
    | none =>
      rw [List.find?_eq_none] at hs
      exact (List.find?_eq_none.mpr fun x hx => hs x (mem_sort.mp hx)).symm
    | some x =>
      have h1 := List.mem_of_find?_eq_some hs
      have h2 := List.find?_some hs
      cases hs' : s.normalize.sequences.find? fun x => x.name.fq = n with
      | none => exact absurd h2 (List.find?_eq_none.mp hs' x (mem_sort.mpr h1))
      | some y =>
        have h3 := List.mem_of_find?_eq_some hs'
        have h4 := List.find?_some hs'
        rw [List.inj_on_of_nodup_map hu' h3 (mem_sort.mpr h1) ((of_decide_eq_true h4).trans (of_decide_eq_true h2).symm)]
  have hso : NamesUnique old.sequences := ((sortObjs_perm _).map _).nodup_iff.mp (diffLists_old_nodup dr.hsequences)
  rw [hf hso, hf hs]
  refine sequence_converges dr run (namesUnique_sort hs) (normalize_tables_nodup ht) (fun o ho w hw => hro o (mem_sort.mp ho) w hw)
    (fun o ho w hw => hrn o (mem_sort.mp ho) w hw) ?_ ?_ n
  · intro o ho w hw
    obtain ⟨t, ht, et, _⟩ := hold o (mem_sort.mp ho) w hw
    exact ⟨normalizeTable t, mem_normalize_tables_of ht, et, hro o (mem_sort.mp ho) w hw t ht et⟩
  · intro x hx w hw
    obtain ⟨t, htn, et, c, hc, ec⟩ := hnew x (mem_sort.mp hx) w hw
    refine ⟨⟨normalizeTable t, mem_normalize_tables_of htn, et⟩, fun t' ht' et' => ?_⟩
    obtain ⟨t0, ht0, rfl⟩ := mem_normalize_tables ht'
    have : t0 = t := List.inj_on_of_nodup_map ht ht0 htn (Eq.trans et' et.symm)
    rw [this]
    exact ⟨c, hc, ec⟩

/-- a table is recreated only when its kind or its parent changes -/
theorem buildTableDiff_keeps {o n : Table} (e1 : o.isPartitioned = n.isPartitioned) (e2 : o.parentTable = n.parentTable)
    {i j : Nat} {td : TableDiff} : buildTableDiff o n i j ≠ .ok (td, true) := by
  intro h
  unfold buildTableDiff at h
  rw [if_neg (by simp [e1])] at h
  split at h
  · cases h
  rw [if_neg (by simp [e2])] at h
  simp only [except_bind_ok, except_pure_ok] at h
  obtain ⟨_, _, _, _, _, _, _, _, _, _, e⟩ := h
  cases e

/-- **C26**, the other half: a sequence with the same definition in both schemas is not mentioned by the plan unless the table
that owns it is recreated. -/
theorem C26_unchanged_sequence (h : generateMigrationStatements r old new opts = .ok (stmts, r'))
    (hs : NamesUnique new.sequences) (ht : NamesUnique new.tables) {q : Sequence} (ho : q ∈ old.sequences) (hn : q ∈ new.sequences)
    (hkept : ∀ w, q.owner = some w → ∃ o ∈ old.tables, ∃ t ∈ new.tables, o.name.fq = w.tableName.fq ∧ t.name.fq = w.tableName.fq ∧
      o.isPartitioned = t.isPartitioned ∧ o.parentTable = t.parentTable) :
    ∀ s ∈ stmts, namesSequence q.name.fq s.ddl = false := by
  obtain ⟨d, ⟨dr⟩, ⟨run⟩⟩ := plan_runs h
  have hso := diffLists_old_nodup dr.hsequences
  have ho' : q ∈ old.normalize.sequences := mem_sort.mpr ho
  have hn' : q ∈ new.normalize.sequences := mem_sort.mpr hn
  have ht' := normalize_tables_nodup ht
  cases sequence_fate dr run (namesUnique_sort hs) q.name.fq with
  | absent h _ _ _ => exact absurd rfl (h q ho')
  | dropped _ _ _ h _ _ _ _ _ => exact absurd rfl (h q hn')
  | added _ _ _ h _ _ _ _ _ => exact absurd rfl (h q ho')
  | recreated o x h1 h2 eo ex w how hxw hw _ _ _ _ _ _ _ _ =>
    exfalso
    have e : x = q := List.inj_on_of_nodup_map (namesUnique_sort hs) h2 hn' ex
    rw [e] at hxw
    obtain ⟨o0, ho0, t, htn, e1, e2, e3, e4⟩ := hkept w hxw
    have hdel := dr.added_deleted ht' (mem_normalize_tables_of ho0) e1 hw
    have hdel : normalizeTable o0 ∈ dr.td0.deletes := dr.hdeletes ▸ hdel
    obtain ⟨c1, c2, _⟩ := C08_every_object_once dr.htd0 ht'
    obtain ⟨j, hj⟩ := List.mem_iff_getElem?.mp (mem_normalize_tables_of ho0)
    rcases (c2 j _ hj).mp hdel with h3 | ⟨i, x', d', h3, h4, h5⟩
    · exact h3 (List.mem_map.mpr ⟨normalizeTable t, mem_normalize_tables_of htn, e2.trans e1.symm⟩)
    · have : x' = normalizeTable t := List.inj_on_of_nodup_map ht' (List.mem_of_getElem? h3) (mem_normalize_tables_of htn)
        (h4.symm.trans (Eq.trans e1 e2.symm))
      subst this
      have e5 : (normalizeTable o0).isPartitioned = (normalizeTable t).isPartitioned := e3
      have e6 : (normalizeTable o0).parentTable = (normalizeTable t).parentTable := e4
      exact buildTableDiff_keeps e5 e6 h5
  | altered o x h1 h2 eo ex _ _ _ hP hO =>
    have e : x = q := List.inj_on_of_nodup_map (namesUnique_sort hs) h2 hn' ex
    have e' : o = q := List.inj_on_of_nodup_map hso h1 ho' eo
    rw [e, e'] at hP hO
    have hdf : SequenceGen.differs q q = false := by simp [SequenceGen.differs]
    rw [hdf] at hP
    rw [if_pos rfl] at hO
    intro s hs'
    rw [namesSequence_eq, filter_nil_false hP s hs', filter_nil_false hO s hs']; rfl

/-- **C63** is violated: a plan that hands a sequence from one column of a table to another column of the same table can never
be generated. -/
theorem C63_same_table_owner_violated (hs : NamesUnique new.sequences) (ht : NamesUnique new.tables) {o x : Sequence}
    (ho : o ∈ old.sequences) (hx : x ∈ new.sequences) (e : o.name.fq = x.name.fq) {v w : SequenceOwner}
    (hv : o.owner = some v) (hw : x.owner = some w) (hne : v ≠ w) (et : v.tableName.fq = w.tableName.fq)
    (hex : ∃ t ∈ new.tables, t.name.fq = w.tableName.fq) :
    ¬ ∃ stmts r', generateMigrationStatements r old new opts = .ok (stmts, r') := by
  rintro ⟨stmts, r', h⟩
  obtain ⟨d, ⟨dr⟩, ⟨run⟩⟩ := plan_runs h
  have hso := diffLists_old_nodup dr.hsequences
  have ho' : o ∈ old.normalize.sequences := mem_sort.mpr ho
  have hx' : x ∈ new.normalize.sequences := mem_sort.mpr hx
  cases sequence_fate dr run (namesUnique_sort hs) x.name.fq with
  | absent h _ _ _ => exact absurd e (h o ho')
  | dropped _ _ _ h _ _ _ _ _ => exact absurd rfl (h x hx')
  | added _ _ _ h _ _ _ _ _ => exact absurd e (h o ho')
  | recreated o1 x1 h1 h2 eo ex w' how hxw _ _ _ _ _ _ _ _ _ =>
    have e1 : x1 = x := List.inj_on_of_nodup_map (namesUnique_sort hs) h2 hx' ex
    have e2 : o1 = o := List.inj_on_of_nodup_map hso h1 ho' (Eq.trans eo e.symm)
    rw [e1, hw] at hxw
    rw [e2, hv] at how
    cases hxw; cases how
    exact hne rfl
  | altered o1 x1 h1 h2 eo ex hd _ _ _ _ =>
    have e1 : x1 = x := List.inj_on_of_nodup_map (namesUnique_sort hs) h2 hx' ex
    have e2 : o1 = o := List.inj_on_of_nodup_map hso h1 ho' (Eq.trans eo e.symm)
    subst e1 e2
    obtain ⟨_, d2, d3⟩ := run.sequence_deps_alter hd (by
      show o1.owner ≠ x1.owner
      rw [hv, hw]
      simpa using hne)
    obtain ⟨t, htn, en⟩ := hex
    have d1 := dr.declared_rebuild run (normalize_tables_nodup ht) (mem_normalize_tables_of htn)
    have e3 : ∀ k, tableVertexId (normalizeTable t).name k = tableVertexId w.tableName k := fun k => by
      unfold tableVertexId; rw [show (normalizeTable t).name = t.name from rfl, en]
    have e4 : ∀ k, tableVertexId v.tableName k = tableVertexId w.tableName k := fun k => by unfold tableVertexId; rw [et]
    rw [e3, e3] at d1
    have d2 := d2 w hw
    have d3 := d3 v hv
    rw [e4] at d3
    obtain ⟨err, herr⟩ := (C03_order_fails_iff_cyclic run.graph).1.mpr ⟨_, .head d1 (.head d2 (.single d3))⟩
    exact absurd (run.hordered.symm.trans herr) (by simp)

end

namespace Samples

/-- a partitioned table, a plain table and a sequence with an owner -/
def ownedSequence (cols : List Column) (t c : String) : Schema :=
  { Schema.empty with
    tables := [parent "p" cols "LIST (c)", partition "t" "p" cols "FOR VALUES IN (1)", table "z" [col "k" "integer", col "l" "integer"]]
    sequences := [{ seq "s" with owner := some ⟨pub t, c⟩ }] }

end Samples

open Samples

/-- **C26** is violated: the column of a partition that owns a sequence is dropped before the sequence is handed over -/
theorem C26_partition_owner_violated : ∃ stmts r',
    generateMigrationStatements rand (ownedSequence [col "a" "integer", col "c" "integer"] "t" "a")
      (ownedSequence [col "c" "integer"] "z" "k") opts = .ok (stmts, r') ∧
    runSequence (ownedSequence [col "a" "integer", col "c" "integer"] "t" "a") (pub "s").fq
      (sequenceOf (ownedSequence [col "a" "integer", col "c" "integer"] "t" "a") (pub "s").fq) stmts = none :=
  exists_plan (by decide +kernel)

namespace Samples

/-- a sequence that moves, one whose table is recreated, one that is dropped with its column, one that is altered -/
def oldSequences : Schema :=
  { Schema.empty with
    tables := [table "a" [col "x" "integer", col "y" "integer"], table "b" [col "x" "integer"], table "c" [col "x" "integer"]]
    sequences := [{ seq "moves" with owner := some ⟨pub "a", "x"⟩ }, { seq "again" with owner := some ⟨pub "b", "x"⟩ },
      { seq "gone" with owner := some ⟨pub "a", "y"⟩ }, seq "faster"] }

/-- the target of `oldSequences` -/
def newSequences : Schema :=
  { Schema.empty with
    tables := [table "a" [col "x" "integer"], parent "b" [col "x" "integer"] "LIST (x)", table "c" [col "x" "integer"]]
    sequences := [{ seq "moves" with owner := some ⟨pub "c", "x"⟩ }, { seq "again" with owner := some ⟨pub "b", "x"⟩ },
      { seq "faster" with increment := 5 }] }

end Samples

/-- the hypotheses of `C26_sequences_converge_partial` can be met -/
example : ∃ stmts r', generateMigrationStatements rand oldSequences newSequences opts = .ok (stmts, r') ∧
    (stmts.filter fun s => s.ddl.takes (some ⟨pub "b", "x"⟩)).length = 1 ∧
    ∀ n, runSequence oldSequences n (sequenceOf oldSequences n) stmts = some (sequenceOf newSequences n) := by
  obtain ⟨stmts, r', h, e⟩ := exists_plan (r := rand) (old := oldSequences) (new := newSequences) (opts := opts)
    (P := fun stmts => (stmts.filter fun s : Statement => s.ddl.takes (some ⟨pub "b", "x"⟩)).length = 1) (by decide +kernel)
  refine ⟨stmts, r', h, e, C26_sequences_converge_partial h (by unfold NamesUnique; decide +kernel) (by unfold NamesUnique; decide +kernel) ?_ ?_ ?_ ?_⟩
  · unfold SequenceOwnersExist; decide +kernel
  · unfold SequenceOwnersExist; decide +kernel
  · unfold SequenceOwnersAreRoots; decide +kernel
  · unfold SequenceOwnersAreRoots; decide +kernel

/-- the hypotheses of `C63_same_table_owner_violated` can be met -/
example : ¬ ∃ stmts r', generateMigrationStatements rand (ownedSequence [col "c" "integer"] "z" "k")
    (ownedSequence [col "c" "integer"] "z" "l") opts = .ok (stmts, r') :=
  C63_same_table_owner_violated (o := { seq "s" with owner := some ⟨pub "z", "k"⟩ })
    (x := { seq "s" with owner := some ⟨pub "z", "l"⟩ }) (v := ⟨pub "z", "k"⟩) (w := ⟨pub "z", "l"⟩)
    (by unfold NamesUnique; decide +kernel) (by unfold NamesUnique; decide +kernel) (by decide +kernel) (by decide +kernel)
    rfl rfl rfl (by decide +kernel) rfl (by decide +kernel)

/-- the hypotheses of `C26_unchanged_sequence` can be met by a plan that is not empty -/
example : ∃ stmts r', generateMigrationStatements rand (ownedSequence [col "a" "integer", col "c" "integer"] "z" "k")
      (ownedSequence [col "c" "integer"] "z" "k") opts = .ok (stmts, r') ∧ stmts.length = 1 ∧
    ∀ s ∈ stmts, namesSequence (pub "s").fq s.ddl = false := by
  obtain ⟨stmts, r', h, e⟩ := exists_plan (r := rand) (old := ownedSequence [col "a" "integer", col "c" "integer"] "z" "k")
    (new := ownedSequence [col "c" "integer"] "z" "k") (opts := opts) (P := fun stmts => stmts.length = 1) (by decide +kernel)
  refine ⟨stmts, r', h, e, C26_unchanged_sequence (q := { seq "s" with owner := some ⟨pub "z", "k"⟩ }) h
    (by unfold NamesUnique; decide +kernel) (by unfold NamesUnique; decide +kernel) (by decide +kernel) (by decide +kernel) ?_⟩
  intro w hw
  cases hw
  decide +kernel

namespace Samples

/-- a table with the columns `cols`, the views `views` of it and the sequences `seqs` -/
def defaulted (cols : List Column) (seqs : List Sequence) (views : List View) : Schema :=
  { Schema.empty with
    tables := [table "t" cols]
    sequences := seqs
    views := views }

end Samples

/-- **C64** is violated: the sequence is dropped while it is still used by the default of a column, because dropping the sequence
waits only for the table of its owner to be dropped. -/
theorem C64_sequence_in_use_violated : ∃ stmts r',
    generateMigrationStatements rand
      (defaulted [{ col "a" "integer" with default := "nextval('s'::regclass)" }, col "b" "integer"] [seq "s"] [view "v" "t" ["b"]])
      (defaulted [col "a" "integer"] [] []) opts = .ok (stmts, r') ∧
    (stmts.map fun s => s.ddl.render) =
      ["DROP SEQUENCE \"public\".\"s\"", "DROP VIEW \"public\".\"v\"",
        "ALTER TABLE \"public\".\"t\" ALTER COLUMN \"a\" DROP DEFAULT", "ALTER TABLE \"public\".\"t\" DROP COLUMN \"b\""] :=
  exists_plan (by decide +kernel)

end Verif
