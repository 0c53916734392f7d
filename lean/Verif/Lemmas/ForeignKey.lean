import Verif.Spec.ForeignKey
import Verif.Lemmas.IndexFate
import Verif.Lemmas.IndexRun
import Verif.Props.Sequence
import Verif.Props.ForeignKey
import Verif.Props.Check

/-!
# The statements about one foreign key
-/

namespace Verif

open Spec

/-! ### the statements -/

/-- a statement that adds or validates the foreign key `k` of the table `n` -/
def Ddl.makesFk (n k : String) : Ddl → Bool
  | .alterTable t (.addForeignKey q ..) => t.fq = n && readsAs q k
  | .alterTable t (.validateConstraint q) => t.fq = n && readsAs q k
  | _ => false

/-- a statement that gives the name `k` to another constraint of the table `n` -/
def Ddl.clashesFk (n k : String) : Ddl → Bool
  | .alterTable t (.addCheck name ..) => t.fq = n && name = k
  | .alterTable t (.addUsingIndex q ..) => t.fq = n && readsAs q k
  | .addConstraintOnly t q _ => t.fq = n && readsAs q k
  | _ => false

/-- a statement that a foreign key of the table `n` with the definition `x` does not survive, or which fails because of it -/
def Ddl.hurtsFk (tx : FkTexts) (n x : String) : Ddl → Bool
  | .createTable t _ _ => t.fq = n
  | .dropTable t => t.fq = n || t.fq = tx.refTable x
  | .alterTable t (.dropColumn c) => t.fq = n && c ∈ tx.columns x || t.fq = tx.refTable x && c ∈ tx.refColumns x
  | _ => false

section
variable {tx : FkTexts} {n k : String}

set_option maxHeartbeats 4000000 in
theorem fkStep_none {x : Ddl} (h1 : x.makesFk n k = false) (h2 : x.dropsCheck n k = false) (h3 : x.clashesFk n k = false) :
    fkStep tx n k none x = some none := by
  cases x with
  | createTable t c p =>
    by_cases e : t.fq = n
    · exact if_pos e
    · exact if_neg e
  | addConstraintOnly t q c =>
    refine if_neg fun h => ?_
    have h3 : (decide (t.fq = n) && readsAs q k) = false := h3
    rw [h.2, decide_eq_true h.1] at h3
    cases h3
  | alterTable t a =>
    have key : ∀ {q : String}, (decide (t.fq = n) && readsAs q k) = false → t.fq = n → readsAs q k = false := by
      intro q h e
      rw [decide_eq_true e] at h
      exact h
    by_cases e : t.fq = n
    · cases a with
      | addForeignKey q => exact (if_pos e).trans (if_neg (by rw [key h1 e]; simp))
      | validateConstraint q => exact (if_pos e).trans (if_neg (by rw [key h1 e]; simp))
      | dropConstraint q => exact (if_pos e).trans (if_neg (by rw [key h2 e]; simp))
      | addCheck name =>
        refine (if_pos e).trans (if_neg fun h => ?_)
        have h3 : (decide (t.fq = n) && decide (name = k)) = false := h3
        rw [decide_eq_true e, decide_eq_true h] at h3
        cases h3
      | addUsingIndex q => exact (if_pos e).trans (if_neg (by rw [key h3 e]; simp))
      | dropColumn c => rfl
      | _ => exact if_pos e
    · cases a with
      | dropColumn c => rfl
      | _ => exact if_neg e
  | _ => rfl

set_option maxHeartbeats 4000000 in
theorem fkStep_some {x : Ddl} {y : FkState} (h1 : x.makesFk n k = false) (h2 : x.dropsCheck n k = false)
    (h3 : x.clashesFk n k = false) (h4 : x.hurtsFk tx n y.definition = false) : fkStep tx n k (some y) x = some (some y) := by
  cases x with
  | createTable t c p => exact if_neg (of_decide_eq_false h4)
  | dropTable t =>
    obtain ⟨a, b⟩ := Bool.or_eq_false_iff.mp h4
    exact (if_neg (of_decide_eq_false a)).trans (if_neg (of_decide_eq_false b))
  | addConstraintOnly t q c =>
    refine if_neg fun h => ?_
    have h3 : (decide (t.fq = n) && readsAs q k) = false := h3
    rw [h.2, decide_eq_true h.1] at h3
    cases h3
  | alterTable t a =>
    have key : ∀ {q : String}, (decide (t.fq = n) && readsAs q k) = false → t.fq = n → readsAs q k = false := by
      intro q h e
      rw [decide_eq_true e] at h
      exact h
    by_cases hdc : ∃ c, a = .dropColumn c
    · obtain ⟨c, rfl⟩ := hdc
      obtain ⟨a, b⟩ := Bool.or_eq_false_iff.mp h4
      refine (if_neg fun h => ?_).trans (if_neg fun h => ?_)
      · rw [decide_eq_true h.1, decide_eq_true h.2] at a; cases a
      · rw [decide_eq_true h.1, decide_eq_true h.2] at b; cases b
    by_cases e : t.fq = n
    · cases a with
      | addForeignKey q => exact (if_pos e).trans (if_neg (by rw [key h1 e]; simp))
      | validateConstraint q => exact (if_pos e).trans (if_neg (by rw [key h1 e]; simp))
      | dropConstraint q => exact (if_pos e).trans (if_neg (by rw [key h2 e]; simp))
      | addCheck name =>
        refine (if_pos e).trans (if_neg fun h => ?_)
        have h3 : (decide (t.fq = n) && decide (name = k)) = false := h3
        rw [decide_eq_true e, decide_eq_true h] at h3
        cases h3
      | addUsingIndex q => exact (if_pos e).trans (if_neg (by rw [key h3 e]; simp))
      | dropColumn c => exact absurd ⟨c, rfl⟩ hdc
      | _ => exact if_pos e
    · cases a with
      | dropColumn c => exact absurd ⟨c, rfl⟩ hdc
      | _ => exact if_neg e
  | _ => rfl

theorem makesFk_not_outer {x : Ddl} (h : x.makesFk n k = true) : ¬ x.IsOuter := by
  cases x <;> first | (exact id) | cases h

theorem dropsCheck_not_outer {x : Ddl} (h : x.dropsCheck n k = true) : ¬ x.IsOuter := by
  cases x <;> first | (exact id) | cases h

theorem hurtsFk_not_outer {y : String} {x : Ddl} (h : x.hurtsFk tx n y = true) : ¬ x.IsOuter := by
  cases x <;> first | (exact id) | cases h

end

/-! ### texts -/

theorem saysNotValid_iff {s : String} : saysNotValid s = true ↔ ∃ l, s.toList = l ++ " NOT VALID".toList := by
  unfold saysNotValid
  rw [List.isSuffixOf_iff_suffix]
  constructor
  · rintro ⟨l, h⟩; exact ⟨l, h.symm⟩
  · rintro ⟨l, h⟩; exact ⟨l, h.symm⟩

theorem withoutNotValid_append {s : String} {l : List Char} (h : s.toList = l ++ " NOT VALID".toList) :
    withoutNotValid s = String.ofList l := by
  unfold withoutNotValid
  rw [if_pos (saysNotValid_iff.mpr ⟨l, h⟩), h]
  rw [List.length_append, Nat.add_sub_cancel, List.take_left']
  rfl

theorem withoutNotValid_of {s : String} (h : saysNotValid s = false) : withoutNotValid s = s := if_neg (by simp [h])

/-! ### names -/

theorem string_prefix {p s : String} (h : p.toList <+: s.toList) : ∃ a, s = p ++ a := by
  obtain ⟨l, hl⟩ := h
  refine ⟨String.ofList l, String.toList_inj.mp ?_⟩
  rw [String.toList_append, String.toList_ofList, hl]

theorem readsAs_quoted {a k : String} (ha : nameOk a = true) : readsAs (escapeIdentifier a) k = decide (a = k) :=
  readsAs_escape (nameOk_iff.mp ha) k

/-- the name under which a foreign key is compared determines the table and the name -/
theorem fk_name_injective {f : ForeignKeyConstraint} {n : SQName} {k : String} (hf : Quoted f.owningTable)
    (hx : ∃ x, nameOk x = true ∧ f.escapedName = escapeIdentifier x) (hn : Quoted n) (hk : nameOk k = true) :
    Obj.getName f = n.fq ++ "-" ++ escapeIdentifier k ↔ f.owningTable.fq = n.fq ∧ readsAs f.escapedName k = true := by
  obtain ⟨x, x1, x2⟩ := hx
  obtain ⟨a1, a, a2, a3⟩ := hf
  obtain ⟨b1, b, b2, b3⟩ := hn
  constructor
  · intro h
    have h : f.owningTable.fq ++ "-" ++ f.escapedName = n.fq ++ "-" ++ escapeIdentifier k := h
    unfold SQName.fq at h
    simp only [String.append_assoc] at h
    have h1 := C10_identifier_exact f.owningTable.schemaName ("." ++ (f.owningTable.escapedName ++ ("-" ++ f.escapedName)))
      (nameOk_iff.mp a1) (by simp)
    have h2 := C10_identifier_exact n.schemaName ("." ++ (n.escapedName ++ ("-" ++ escapeIdentifier k))) (nameOk_iff.mp b1) (by simp)
    rw [h, h2] at h1
    injection h1 with h1
    injection h1 with e1 e2
    have e1 := String.toList_inj.mp e1
    simp only [String.toList_append] at e2
    have e2 := List.append_cancel_left e2
    simp only [← String.toList_append] at e2
    have e2 := String.toList_inj.mp e2
    rw [a3, b3] at e2
    have h3 := C10_identifier_exact a ("-" ++ f.escapedName) (nameOk_iff.mp a2) (by simp)
    have h4 := C10_identifier_exact b ("-" ++ escapeIdentifier k) (nameOk_iff.mp b2) (by simp)
    rw [← e2, h4] at h3
    injection h3 with h3
    injection h3 with e3 e4
    have e3 := String.toList_inj.mp e3
    simp only [String.toList_append] at e4
    have e4 := String.toList_inj.mp (List.append_cancel_left e4)
    refine ⟨?_, ?_⟩
    · unfold SQName.fq
      rw [← e1, a3, b3, e3]
    · rw [← e4, readsAs_quoted hk]; simp
  · rintro ⟨h1, h2⟩
    rw [x2, readsAs_quoted x1] at h2
    show f.owningTable.fq ++ "-" ++ f.escapedName = _
    rw [h1, x2, of_decide_eq_true h2]

/-! ### the vertices of these statements -/

section
variable {tx : FkTexts} {opts : PlanOptions} {old new : Schema} {d : SchemaDiff} {r r' : Rand} {stmts : List Statement} {n : SQName}
  {k : String}

/-- the name under which the foreign key is compared -/
def fkKey (n : SQName) (k : String) : String := n.fq ++ "-" ++ escapeIdentifier k

theorem fk_new_check (hf : FkNameFree new n.fq k) (dr : DiffRun opts old new d) (ht : ¬ "pgschemadiff_tmpnn_".toList <+: k.toList)
    {td : TableDiff} (htd : td ∈ d.tableDiffs.alters) (e : td.new.name.fq = n.fq) {temps : List CheckConstraint}
    (hy : yields (TableGen.tempConstraints td) temps) {c : CheckConstraint}
    (h : (c ∈ td.checkConstraintDiff.adds ∨ c ∈ temps) ∨ ∃ cd ∈ td.checkConstraintDiff.alters, c = cd.new) :
    readsAs (escapeIdentifier c.name) k = false := by
  obtain ⟨td0, _, rfl, i, j, h1, h2, h3, hb⟩ := dr.altered htd
  obtain ⟨_, _, _, _, _, _, hc, _⟩ := buildTableDiff_ok hb
  have key : ∀ x ∈ (orderIf opts td0).new.checkConstraints, readsAs (escapeIdentifier x.name) k = false :=
    fun x hx => hf.check _ (List.mem_of_getElem? h1) e x hx
  have ec : (orderIf opts td0).checkConstraintDiff = td0.checkConstraintDiff := by unfold orderIf; split <;> rfl
  rw [ec] at h
  rcases h with (h | h) | ⟨cd, h, rfl⟩
  · exact key _ (diffLists_adds_mem hc h)
  · obtain ⟨cd, _, hl, _⟩ := forall₂_right (tempConstraints_ok hy) h
    cases hx : readsAs (escapeIdentifier c.name) k with
    | false => rfl
    | true =>
      obtain ⟨a, e⟩ := string_prefix hl
      rw [e] at hx
      exact absurd (readsAs_prefix (by unfold NoNul; decide) hx) ht
  · obtain ⟨i, x, j, y, h1, h2, h3, h4⟩ := diffLists_alters_mem hc h
    rw [(buildCheckConstraintDiff_ok h4).1]
    exact key _ (List.mem_of_getElem? h1)

theorem fk_old_check (hf : FkNameFree old n.fq k) (dr : DiffRun opts old new d)
    {td : TableDiff} (htd : td ∈ d.tableDiffs.alters) (e : td.new.name.fq = n.fq) {c : CheckConstraint}
    (h : c ∈ td.checkConstraintDiff.deletes) :
    readsAs (escapeIdentifier c.name) k = false := by
  obtain ⟨td0, _, rfl, i, j, h1, h2, h3, hb⟩ := dr.altered htd
  obtain ⟨_, _, _, _, _, _, hc, _⟩ := buildTableDiff_ok hb
  have ec : (orderIf opts td0).checkConstraintDiff = td0.checkConstraintDiff := by unfold orderIf; split <;> rfl
  rw [ec] at h
  exact hf.check _ (List.mem_of_getElem? h2) (h3.trans e) c (diffLists_deletes_mem hc h)

theorem fk_makes_id (hp : FksPlannable tx old new n k) (dr : DiffRun opts old new d) {st : GenState} {id : VertexId}
    {s : Statement} (h : GraphShape opts d st id s) (hs : s.ddl.makesFk n.fq k = true) : id = ⟨"fkconstraint", fkKey n k, .addAlter⟩ := by
  have key : ∀ c ∈ new.foreignKeyConstraints, (decide (c.owningTable.fq = n.fq) && readsAs c.escapedName k) = true →
      FkGen.vertexId c .addAlter = ⟨"fkconstraint", fkKey n k, .addAlter⟩ := by
    intro c hc h
    obtain ⟨h1, h2⟩ := Bool.and_eq_true_iff.mp h
    obtain ⟨q1, q2⟩ := hp.quoted c (Or.inr hc)
    unfold FkGen.vertexId
    rw [(fk_name_injective q1 q2 hp.table hp.name).mpr ⟨of_decide_eq_true h1, h2⟩]
    rfl
  cases h with
  | addForeignKey c h hz nv hid => exact hid.trans (key c (diffLists_adds_mem dr.hfks h) hs)
  | validateForeignKey c h hv hid => exact hid.trans (key c (altered_foreignKey_mem dr h) hs)
  | newTable t h ccs hc s hs' hid => cases hs' <;> cases hs
  | alterTable td h s hs' hid =>
    cases hs' with
    | column cd h s hs' => cases hs' <;> cases hs
    | validateCheck temps ht c hc hv =>
      obtain ⟨h1, h2⟩ := Bool.and_eq_true_iff.mp hs
      rw [fk_new_check hp.newFree dr hp.notTemporary h (of_decide_eq_true h1) ht hc] at h2
      cases h2
    | _ => cases hs
  | _ => cases hs

theorem fk_drops_id (hp : FksPlannable tx old new n k) (dr : DiffRun opts old new d) (run : PlanRun opts d r r' stmts)
    (hr : FromReader r) {id : VertexId} {s : Statement} (h : GraphShape opts d run.s3 id s) (hs : s.ddl.dropsCheck n.fq k = true) :
    id = ⟨"fkconstraint", fkKey n k, .delete⟩ := by
  cases h with
  | dropForeignKey c h hid =>
    obtain ⟨h1, h2⟩ := Bool.and_eq_true_iff.mp hs
    obtain ⟨q1, q2⟩ := hp.quoted c (Or.inl (diffLists_deletes_mem dr.hfks h))
    rw [hid]
    unfold FkGen.vertexId
    rw [(fk_name_injective q1 q2 hp.table hp.name).mpr ⟨of_decide_eq_true h1, h2⟩]
    rfl
  | newTable t h ccs hc s hs' hid => cases hs' <;> cases hs
  | alterTable td h s hs' hid =>
    cases hs' with
    | column cd h s hs' => cases hs' <;> cases hs
    | dropCheck c hc =>
      obtain ⟨h1, h2⟩ := Bool.and_eq_true_iff.mp hs
      rw [fk_old_check hp.oldFree dr h (of_decide_eq_true h1) hc] at h2
      cases h2
    | dropTemp temps ht c hc =>
      obtain ⟨h1, h2⟩ := Bool.and_eq_true_iff.mp hs
      rw [fk_new_check hp.newFree dr hp.notTemporary h (of_decide_eq_true h1) ht (Or.inl (Or.inr hc))] at h2
      cases h2
    | _ => cases hs
  | dropIndexConstraint i h hd c hc m hm hid =>
    obtain ⟨h1, h2⟩ := Bool.and_eq_true_iff.mp hs
    have h1 := of_decide_eq_true (p := i.owningRelName.fq = n.fq) h1
    rcases hm with rfl | ⟨m', hm, rfl⟩
    · obtain ⟨i0, hi, e1, c0, e2, e3⟩ := deleted_index_constraint dr h hc
      rw [← e3, hp.oldFree.index i0 hi (by rw [e1]; exact h1) c0 e2] at h2
      cases h2
    · obtain ⟨_, pos, hpr, _⟩ := run.renames_fresh
      obtain ⟨_, u, name, hu, rfl⟩ := hpr _ _ hm
      obtain ⟨reader, rest, hid⟩ := hr _ _ hu
      obtain ⟨p, _, e, _⟩ := C29_renamed_index_keeps_prefix name hid
      rw [e, String.append_assoc, String.append_assoc] at h2
      exact absurd (readsAs_prefix (by unfold NoNul; decide) h2) hp.notRenamed
  | _ => cases hs

theorem readsAs_self {a : String} (ha : nameOk a = true) : readsAs (escapeIdentifier a) a = true := by
  rw [readsAs_quoted ha]; simp

/-- no other constraint gets the name -/
theorem fk_no_clash (hp : FksPlannable tx old new n k) (dr : DiffRun opts old new d) (run : PlanRun opts d r r' stmts) :
    ∀ s ∈ stmts, s.ddl.clashesFk n.fq k = false := by
  intro s hs
  cases hc : s.ddl.clashesFk n.fq k with
  | false => rfl
  | true =>
    exfalso
    have hidx : ∀ i ∈ new.indexes, ∀ c, i.constraint = some c →
        (decide (i.owningRelName.fq = n.fq) && readsAs c.escapedConstraintName k) = true → False := by
      intro i hi c hc h
      obtain ⟨h1, h2⟩ := Bool.and_eq_true_iff.mp h
      rw [hp.newFree.index i hi (of_decide_eq_true h1) c hc] at h2
      cases h2
    cases run.shape hs with
    | graph s h =>
      cases h with
      | newTable t h ccs hcc s hs' hid =>
        cases hs' with
        | check c hm =>
          obtain ⟨h1, h2⟩ := Bool.and_eq_true_iff.mp hc
          have h1 := of_decide_eq_true (p := t.name.fq = n.fq) h1
          have h2 : c.name = k := of_decide_eq_true h2
          obtain ⟨t0, _, rfl, ht0⟩ := dr.added_mem h
          have e1 : (packIf opts t0).parentTable = t0.parentTable := by unfold packIf; split <;> rfl
          have e2 : (packIf opts t0).checkConstraints = t0.checkConstraints := by unfold packIf; split <;> rfl
          rw [packIf_name] at h1
          unfold TableGen.partitionChecks at hcc
          rw [e1, hp.newFree.roots t0 ht0 h1, e2] at hcc
          cases hcc
          have := hp.newFree.check t0 ht0 h1 c hm
          rw [h2, readsAs_self hp.name] at this
          cases this
        | _ => cases hc
      | alterTable td h s hs' hid =>
        cases hs' with
        | column cd h s hs' => cases hs' <;> cases hc
        | addCheck temps ht c hm =>
          obtain ⟨h1, h2⟩ := Bool.and_eq_true_iff.mp hc
          have h2 : c.name = k := of_decide_eq_true h2
          have := fk_new_check hp.newFree dr hp.notTemporary h (of_decide_eq_true h1) ht (Or.inl hm)
          rw [h2, readsAs_self hp.name] at this
          cases this
        | _ => cases hc
      | addConstraintOnly i h c hcc => exact hidx i (indexDiff_adds_mem dr.hindexes h) c hcc hc
      | addUsingIndex i h c hcc =>
        refine hidx i ?_ c hcc hc
        rcases h with h | ⟨x, h, rfl, _⟩
        · exact indexDiff_adds_mem dr.hindexes h
        · obtain ⟨i, x', j, y, h1, h2, h3, h4⟩ := diffLists_alters_mem (indexListDiff_eq _ _ _ ▸ dr.hindexes) h
          rw [(indexCompare_altered h4).1]
          exact List.mem_of_getElem? h1
      | _ => cases hc
    | _ => cases hc

/-- what hurts a foreign key belongs to one of its tables -/
theorem GraphShape.hurtsFk {st : GenState} {id : VertexId} {s : Statement} {x : String} (h : GraphShape opts d st id s)
    (hs : s.ddl.hurtsFk tx n.fq x = true) :
    ∃ t : SQName, (t.fq = n.fq ∨ t.fq = tx.refTable x) ∧
      ((id = tableVertexId t .delete ∧ ∃ o ∈ d.tableDiffs.deletes, o.name = t) ∨
       (id = tableVertexId t .addAlter ∧ t.fq = n.fq ∧ ∃ o ∈ d.tableDiffs.adds, o.name = t) ∨
       (id = tableVertexId t .addAlter ∧ ∃ td ∈ d.tableDiffs.alters, td.new.name = t ∧ ∃ c ∈ td.columnsDiff.deletes,
          (t.fq = n.fq ∧ c.name ∈ tx.columns x) ∨ (t.fq = tx.refTable x ∧ c.name ∈ tx.refColumns x))) := by
  cases h with
  | dropTable t h hp hid =>
    have hs : (decide (t.name.fq = n.fq) || decide (t.name.fq = tx.refTable x)) = true := hs
    simp only [Bool.or_eq_true, decide_eq_true_eq] at hs
    exact ⟨t.name, hs, Or.inl ⟨hid, t, h, rfl⟩⟩
  | newTable t h ccs hc s hs' hid =>
    cases hs' with
    | create cols hcols =>
      have e := of_decide_eq_true (p := t.name.fq = n.fq) hs
      exact ⟨t.name, Or.inl e, Or.inr (Or.inl ⟨hid, e, t, h, rfl⟩)⟩
    | _ => cases hs
  | alterTable td h s hs' hid =>
    cases hs' with
    | column cd h s hs' => cases hs' <;> cases hs
    | dropColumn c hc =>
      have hs : (decide (td.new.name.fq = n.fq) && decide (c.name ∈ tx.columns x) ||
        decide (td.new.name.fq = tx.refTable x) && decide (c.name ∈ tx.refColumns x)) = true := hs
      simp only [Bool.or_eq_true, Bool.and_eq_true, decide_eq_true_eq] at hs
      exact ⟨td.new.name, hs.imp (·.1) (·.1), Or.inr (Or.inr ⟨hid, td, h, rfl, c, hc, hs⟩)⟩
    | _ => cases hs
  | _ => cases hs

end
end Verif
