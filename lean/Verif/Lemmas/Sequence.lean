import Verif.Spec.Sequence
import Verif.Lemmas.Run
import Verif.Lemmas.DropTable
import Verif.Lemmas.ColumnRun
import Verif.Lemmas.ByName
import Verif.Props.SelfDiff

/-!
# The statements about one sequence
-/

namespace Verif

open Spec

/-- a statement that drops the owner of a sequence -/
def Ddl.takes (o : Option SequenceOwner) (x : Ddl) : Bool :=
  match o, x with
  | some w, .dropTable t => w.tableName.fq = t.fq
  | some w, .alterTable t (.dropColumn c) => w.tableName.fq = t.fq && w.columnName = c
  | _, _ => false

/-- a statement that creates or alters the sequence -/
def Ddl.definesSequence (n : String) : Ddl → Bool
  | .createSequence x => x.name.fq = n
  | .alterSequence x => x.name.fq = n
  | _ => false

/-- a statement of the vertex of the sequence -/
def Ddl.aboutSequence (n : String) : Ddl → Bool
  | .createSequence x => x.name.fq = n
  | .alterSequence x => x.name.fq = n
  | .dropSequence x => x.fq = n
  | _ => false

/-- a statement that sets the owner of the sequence -/
def Ddl.ownsSequence (n : String) : Ddl → Bool
  | .sequenceOwnedBy x _ => x.fq = n
  | _ => false

theorem namesSequence_eq (n : String) (x : Ddl) : namesSequence n x = (x.aboutSequence n || x.ownsSequence n) := by
  cases x <;> simp [namesSequence, Ddl.aboutSequence, Ddl.ownsSequence]

theorem sequenceStep_none {sc : Schema} {n : String} {x : Ddl} (h : namesSequence n x = false) :
    sequenceStep sc n none x = some none := by
  cases x with
  | alterTable t a => cases a <;> rfl
  | _ => simp_all [sequenceStep, namesSequence]

/-- the owner is no partition -/
def RootOwner (sc : Schema) (o : Option SequenceOwner) : Prop :=
  ∀ w, o = some w → ∀ t ∈ sc.tables, t.name.fq = w.tableName.fq → t.parentTable = none

theorem ancestors_root {sc : Schema} {t : String} (h : ∀ x ∈ sc.tables, x.name.fq = t → x.parentTable = none) (k : Nat) :
    ancestors sc k t = [t] := by
  cases k with
  | zero => rfl
  | succ k =>
    unfold ancestors
    split
    · rename_i x hx
      rw [h x (List.mem_of_find?_eq_some hx) (by simpa using List.find?_some hx)]
    · rfl

theorem ownedByTable_takes {sc : Schema} {o : Option SequenceOwner} (h : RootOwner sc o) (t : SQName) :
    ownedByTable sc o t = (Ddl.dropTable t).takes o := by
  unfold ownedByTable Ddl.takes
  cases o with
  | none => rfl
  | some w =>
    dsimp only
    rw [ancestors_root (h w rfl)]
    simp [eq_comm]

theorem ownedByColumn_takes {sc : Schema} {o : Option SequenceOwner} (h : RootOwner sc o) (t : SQName) (c : String) :
    ownedByColumn sc o t c = (Ddl.alterTable t (.dropColumn c)).takes o := by
  unfold ownedByColumn Ddl.takes
  cases o with
  | none => rfl
  | some w =>
    dsimp only
    rw [ancestors_root (h w rfl)]
    simp [eq_comm]

theorem sequenceStep_some {sc : Schema} {n : String} {x : Ddl} {y : Sequence} (hr : RootOwner sc y.owner)
    (h : namesSequence n x = false) (h2 : x.takes y.owner = false) : sequenceStep sc n (some y) x = some (some y) := by
  cases x with
  | alterTable t a =>
    cases a with
    | dropColumn c => simp only [sequenceStep, ownedByColumn_takes hr, h2]; simp
    | _ => rfl
  | dropTable t => simp only [sequenceStep, ownedByTable_takes hr, h2]; simp
  | _ => simp_all [sequenceStep, namesSequence]

theorem sequenceStep_takes {sc : Schema} {n : String} {x : Ddl} {y : Sequence} (hr : RootOwner sc y.owner)
    (h : x.takes y.owner = true) : sequenceStep sc n (some y) x = some none := by
  cases x with
  | alterTable t a =>
    cases a with
    | dropColumn c => simp only [sequenceStep, ownedByColumn_takes hr, h, if_pos]
    | _ => unfold Ddl.takes at h; split at h <;> simp_all
  | dropTable t => simp only [sequenceStep, ownedByTable_takes hr, h, if_pos]
  | _ => unfold Ddl.takes at h; split at h <;> simp_all

theorem namesSequence_takes {n : String} {x : Ddl} {o : Option SequenceOwner} (h : x.takes o = true) :
    namesSequence n x = false := by
  cases o with
  | none => cases x <;> cases h
  | some w =>
    cases x with
    | alterTable | dropTable => rfl
    | _ => cases h

section
variable {opts : PlanOptions} {old new : Schema} {d : SchemaDiff} {r r' : Rand} {stmts : List Statement}

/-! ### the vertices of these statements -/

theorem GraphShape.defines_sequence {st : GenState} {id : VertexId} {s : Statement} {n : String}
    (h : GraphShape opts d st id s) (hs : s.ddl.definesSequence n = true) : id = ⟨"sequence", n, .addAlter⟩ := by
  cases h with
  | createSequence q h hid => simp [Ddl.definesSequence, stmt] at hs; rw [hid, ← hs]; rfl
  | alterSequence qd h hd hid => simp [Ddl.definesSequence, stmt] at hs; rw [hid, ← hs]; rfl
  | newTable t h ccs hc s hs' hid => cases hs' <;> cases hs
  | alterTable td h s hs' hid =>
    cases hs' with
    | column cd h s hs' => cases hs' <;> cases hs
    | _ => cases hs
  | _ => cases hs

theorem GraphShape.owns_sequence {st : GenState} {id : VertexId} {s : Statement} {n : String}
    (h : GraphShape opts d st id s) (hs : s.ddl.ownsSequence n = true) : id = ⟨"sequence_ownership", n, .addAlter⟩ := by
  cases h with
  | ownNewSequence q h ho hid => simp [Ddl.ownsSequence, stmt] at hs; rw [hid, ← hs]; rfl
  | ownSequence qd h hd hid => simp [Ddl.ownsSequence, stmt] at hs; rw [hid, ← hs]; rfl
  | newTable t h ccs hc s hs' hid => cases hs' <;> cases hs
  | alterTable td h s hs' hid =>
    cases hs' with
    | column cd h s hs' => cases hs' <;> cases hs
    | _ => cases hs
  | _ => cases hs

/-- the owner is dropped with its table, which is deleted, or with its column, which is deleted -/
theorem GraphShape.takes {st : GenState} {id : VertexId} {s : Statement} {w : SequenceOwner}
    (h : GraphShape opts d st id s) (hs : s.ddl.takes (some w) = true) :
    (id = tableVertexId w.tableName .delete ∧ ∃ t ∈ d.tableDiffs.deletes, t.parentTable = none ∧
      t.name.fq = w.tableName.fq ∧ s.ddl = .dropTable t.name) ∨
    (id = tableVertexId w.tableName .addAlter ∧ ∃ td ∈ d.tableDiffs.alters, td.new.name.fq = w.tableName.fq ∧
      s.ddl = .alterTable td.new.name (.dropColumn w.columnName) ∧ ∃ c ∈ td.columnsDiff.deletes, c.name = w.columnName) := by
  cases h with
  | dropTable t h hp hid =>
    simp [Ddl.takes, stmt] at hs
    exact Or.inl ⟨by rw [hid]; unfold tableVertexId; rw [hs], t, h, hp, hs.symm, rfl⟩
  | newTable t h ccs hc s hs' hid => cases hs' <;> cases hs
  | alterTable td h s hs' hid =>
    cases hs' with
    | column cd h s hs' => cases hs' <;> cases hs
    | dropColumn c hc =>
      simp [Ddl.takes, stmt] at hs
      exact Or.inr ⟨by rw [hid]; unfold tableVertexId; rw [hs.1], td, h, hs.1.symm, by rw [hs.2]; rfl, c, hc, hs.2.symm⟩
    | _ => cases hs
  | _ => cases hs

theorem takes_not_outer {x : Ddl} {w : SequenceOwner} (h : x.takes (some w) = true) : ¬ x.IsOuter := by
  cases x <;> first | (exact id) | cases h

theorem definesSequence_not_outer {x : Ddl} {n : String} (h : x.definesSequence n = true) : ¬ x.IsOuter := by
  cases x <;> first | (exact id) | cases h

theorem ownsSequence_not_outer {x : Ddl} {n : String} (h : x.ownsSequence n = true) : ¬ x.IsOuter := by
  cases x <;> first | (exact id) | cases h

/-- what drops an owner -/
theorem PlanRun.takes (run : PlanRun opts d r r' stmts) {s : Statement} (hs : s ∈ stmts) {w : SequenceOwner}
    (h : s.ddl.takes (some w) = true) :
    (∃ t ∈ d.tableDiffs.deletes, t.parentTable = none ∧ t.name.fq = w.tableName.fq ∧ s.ddl = .dropTable t.name) ∨
    (∃ td ∈ d.tableDiffs.alters, td.new.name.fq = w.tableName.fq ∧
      s.ddl = .alterTable td.new.name (.dropColumn w.columnName) ∧ ∃ c ∈ td.columnsDiff.deletes, c.name = w.columnName) := by
  cases run.shape hs with
  | graph s hg => exact (hg.takes h).imp (·.2) (·.2)
  | _ => cases h

/-! ### dependencies -/

theorem PlanRun.sequence_deps_add (run : PlanRun opts d r r' stmts) {x : Sequence} (hx : x ∈ d.sequenceDiffs.adds) :
    run.graph.Declared (⟨"sequence", x.name.fq, .delete⟩ : VertexId).text (⟨"sequence", x.name.fq, .addAlter⟩ : VertexId).text ∧
    (x.owner ≠ none → run.graph.Declared (⟨"sequence", x.name.fq, .addAlter⟩ : VertexId).text
      (⟨"sequence_ownership", x.name.fq, .addAlter⟩ : VertexId).text) ∧
    (∀ w, x.owner = some w → run.graph.Declared (tableVertexId w.tableName .addAlter).text
      (⟨"sequence_ownership", x.name.fq, .addAlter⟩ : VertexId).text) := by
  obtain ⟨deps, h1, h2⟩ := deps_of_add (m := Except Err) (g := (SchemaGen.sequenceGen d).legacy) run.hsequences hx
  cases h1
  obtain ⟨deps, h3, h4⟩ := deps_of_add (m := Except Err) (g := OwnershipGen.legacy) run.hownerships hx
  cases h3
  refine ⟨run.declared_after (p := run.sequences) (by simp) (h2 _ List.mem_cons_self), fun ho => ?_, fun w hw => ?_⟩
  · refine run.declared_after (p := run.ownerships) (base := OwnershipGen.vertexId x .addAlter) (by simp) (h4 _ ?_)
    have : ¬ (GoZero.zero : Sequence).owner = x.owner := fun e => ho (e.symm.trans rfl)
    rw [if_neg this]
    exact List.mem_cons_self
  · refine run.declared_after (p := run.ownerships) (base := OwnershipGen.vertexId x .addAlter) (by simp) (h4 _ ?_)
    have : ¬ (GoZero.zero : Sequence).owner = x.owner := by rw [hw]; intro e; cases e
    rw [if_neg this, hw]
    exact List.mem_cons_of_mem _ (List.mem_append_right _ List.mem_cons_self)

theorem PlanRun.sequence_deps_delete (run : PlanRun opts d r r' stmts) {x : Sequence} (hx : x ∈ d.sequenceDiffs.deletes)
    {w : SequenceOwner} (hw : x.owner = some w) :
    run.graph.Declared (tableVertexId w.tableName .delete).text (⟨"sequence", x.name.fq, .delete⟩ : VertexId).text := by
  obtain ⟨deps, h1, h2⟩ := deps_of_delete (m := Except Err) (g := (SchemaGen.sequenceGen d).legacy) run.hsequences hx
  cases h1
  refine run.declared_after (p := run.sequences) (base := sequenceVertexId x.name .delete) (by simp) (h2 _ ?_)
  rw [hw]
  exact List.mem_cons_self

theorem PlanRun.sequence_deps_alter (run : PlanRun opts d r r' stmts) {x : OldNew Sequence} (hx : x ∈ d.sequenceDiffs.alters)
    (ho : x.old.owner ≠ x.new.owner) :
    run.graph.Declared (⟨"sequence", x.new.name.fq, .addAlter⟩ : VertexId).text
      (⟨"sequence_ownership", x.new.name.fq, .addAlter⟩ : VertexId).text ∧
    (∀ w, x.new.owner = some w → run.graph.Declared (tableVertexId w.tableName .addAlter).text
      (⟨"sequence_ownership", x.new.name.fq, .addAlter⟩ : VertexId).text) ∧
    (∀ w, x.old.owner = some w → run.graph.Declared (⟨"sequence_ownership", x.new.name.fq, .addAlter⟩ : VertexId).text
      (tableVertexId w.tableName .delete).text) := by
  obtain ⟨deps, h3, h4⟩ := deps_of_alter (m := Except Err) (g := OwnershipGen.legacy) run.hownerships hx
  cases h3
  rw [if_neg (show ¬ (IsDiff.getOld x : Sequence).owner = (IsDiff.getNew x : Sequence).owner from ho)] at h4
  refine ⟨run.declared_after (p := run.ownerships) (base := OwnershipGen.vertexId x.new .addAlter) (by simp)
    (h4 _ List.mem_cons_self), fun w hw => ?_, fun w hw => ?_⟩
  · refine run.declared_after (p := run.ownerships) (base := OwnershipGen.vertexId x.new .addAlter) (by simp) (h4 _ ?_)
    have hw : (IsDiff.getNew x : Sequence).owner = some w := hw
    rw [hw]
    exact List.mem_cons_of_mem _ (List.mem_append_right _ List.mem_cons_self)
  · refine run.declared_before (p := run.ownerships) (base := OwnershipGen.vertexId x.new .addAlter) (by simp) (h4 _ ?_)
    have hw : (IsDiff.getOld x : Sequence).owner = some w := hw
    rw [hw]
    exact List.mem_cons_of_mem _ (List.mem_append_left _ List.mem_cons_self)

/-! ### orders -/

/-- the definition of the sequence comes before its owner is set -/
theorem PlanRun.defines_before_owned (run : PlanRun opts d r r' stmts) {n : String}
    (h : run.graph.Declared (⟨"sequence", n, .addAlter⟩ : VertexId).text (⟨"sequence_ownership", n, .addAlter⟩ : VertexId).text) :
    AllBefore (fun s : Statement => s.ddl.definesSequence n = true) (fun s => s.ddl.ownsSequence n = true) stmts := by
  refine run.allBefore (fun s => definesSequence_not_outer) (fun s => ownsSequence_not_outer) ?_
  intro u x v y hu hv hx hy
  rw [hu.defines_sequence hx, hv.owns_sequence hy]
  exact .single h

/-- the new owner is dropped before the sequence is given to it -/
theorem DiffRun.takes_before_owned (dr : DiffRun opts old new d) (run : PlanRun opts d r r' stmts) (ht : NamesUnique new.tables)
    {n : String} {w : SequenceOwner} {t : Table} (htn : t ∈ new.tables) (et : t.name.fq = w.tableName.fq)
    (h : run.graph.Declared (tableVertexId w.tableName .addAlter).text (⟨"sequence_ownership", n, .addAlter⟩ : VertexId).text) :
    AllBefore (fun s : Statement => s.ddl.takes (some w) = true) (fun s => s.ddl.ownsSequence n = true) stmts := by
  refine run.allBefore (fun s => takes_not_outer) (fun s => ownsSequence_not_outer) ?_
  intro u x v y hu hv hx hy
  rw [hv.owns_sequence hy]
  rcases hu.takes hx with ⟨rfl, _⟩ | ⟨rfl, _⟩
  · have e : ∀ k, tableVertexId t.name k = tableVertexId w.tableName k := fun k => by unfold tableVertexId; rw [et]
    have hr := dr.declared_rebuild run ht htn
    rw [e, e] at hr
    exact .head hr (.single h)
  · exact .single h

/-- a sequence leaves its old owner before the owner is dropped -/
theorem DiffRun.owned_before_takes (dr : DiffRun opts old new d) (run : PlanRun opts d r r' stmts) (ht : NamesUnique new.tables)
    {n : String} {w : SequenceOwner}
    (h : run.graph.Declared (⟨"sequence_ownership", n, .addAlter⟩ : VertexId).text (tableVertexId w.tableName .delete).text) :
    AllBefore (fun s : Statement => s.ddl.ownsSequence n = true) (fun s => s.ddl.takes (some w) = true) stmts := by
  refine run.allBefore (fun s => ownsSequence_not_outer) (fun s => takes_not_outer) ?_
  intro u x v y hu hv hx hy
  rw [hu.owns_sequence hx]
  rcases hv.takes hy with ⟨rfl, _⟩ | ⟨rfl, td, htd, et, _⟩
  · exact .single h
  · obtain ⟨td0, _, rfl, i, j, h1, _⟩ := dr.altered htd
    have hr := dr.declared_rebuild run ht (List.mem_of_getElem? h1)
    have e : ∀ k, tableVertexId (orderIf opts td0).new.name k = tableVertexId w.tableName k := fun k => by
      unfold tableVertexId; rw [et]
    rw [e, e] at hr
    exact .head h (.single hr)

/-- a sequence that is deleted with its table is created anew after the table was dropped -/
theorem PlanRun.dropped_before_defines (run : PlanRun opts d r r' stmts) {o x : Sequence} (ho : o ∈ d.sequenceDiffs.deletes)
    (hx : x ∈ d.sequenceDiffs.adds) (e : o.name.fq = x.name.fq) {w : SequenceOwner} (hw : o.owner = some w)
    (hno : ∀ s ∈ stmts, s.ddl.takes (some w) = true → ∃ t, s.ddl = .dropTable t) :
    AllBefore (fun s : Statement => s.ddl.takes (some w) = true) (fun s => s.ddl.definesSequence x.name.fq = true) stmts := by
  have := run.allBefore (P := fun s : Statement => s.ddl.takes (some w) = true ∧ ∃ t, s.ddl = .dropTable t)
    (Q := fun s : Statement => s.ddl.definesSequence x.name.fq = true)
    (fun s hs => takes_not_outer hs.1) (fun s => definesSequence_not_outer) (by
      intro u z v y hu hv hz hy
      rw [hv.defines_sequence hy]
      rcases hu.takes hz.1 with ⟨rfl, _⟩ | ⟨rfl, td, _, _, e, _⟩
      · have := run.sequence_deps_delete ho hw
        rw [e] at this
        exact .head this (.single (run.sequence_deps_add hx).1)
      · obtain ⟨t, e'⟩ := hz.2
        rw [e] at e'; cases e')
  refine List.Pairwise.imp_of_mem ?_ this
  intro a b ha hb hab hh
  exact hab ⟨hh.1, hh.2, hno b hb hh.2⟩

end
end Verif
