import Verif.Lemmas.Family
import Verif.Lemmas.Fate
import Verif.Lemmas.Inner

/-!
# How often a plan drops a table
-/

namespace Verif

section
variable {opts : PlanOptions} {old new : Schema} {d : SchemaDiff} {r r' : Rand} {stmts : List Statement}

theorem DiffRun.deletes_nodup (dr : DiffRun opts old new d) : (d.tableDiffs.deletes.map fun t => t.name).Nodup := by
  have h1 := diffLists_deletes_nodup dr.htd0
  rw [← dr.hdeletes] at h1
  exact List.Nodup.of_map SQName.getName (by rw [List.map_map]; exact h1)

/-- only deleted root tables are dropped -/
theorem PlanRun.drop_table_nil (run : PlanRun opts d r r' stmts) {n : SQName}
    (h : ∀ o ∈ d.tableDiffs.deletes, o.parentTable = none → o.name ≠ n) :
    stmts.filter (fun s : Statement => decide (s.ddl = .dropTable n)) = [] := by
  rw [List.filter_eq_nil_iff]
  intro s hs he
  have he := of_decide_eq_true he
  cases run.shape hs with
  | graph s hg =>
    cases hg with
    | newTable x h ccs hc s hs => cases hs <;> cases he
    | dropTable x hx hp hid => exact h x hx hp (by simpa [stmt] using he)
    | alterTable td h s hs =>
      cases hs with
      | column cd h s hs => cases hs <;> cases he
      | _ => cases he
    | _ => cases he
  | _ => cases he

/-- a deleted root table is dropped once -/
theorem PlanRun.drop_table_once (dr : DiffRun opts old new d) (run : PlanRun opts d r r' stmts) {o : Table}
    (ho : o ∈ d.tableDiffs.deletes) (hp : o.parentTable = none) :
    ∃ s : Statement, s.ddl = .dropTable o.name ∧ stmts.filter (fun s : Statement => decide (s.ddl = .dropTable o.name)) = [s] := by
  have h1 := run.family_perm (f := .table) rfl (P := fun s : Statement => decide (s.ddl = .dropTable o.name)) (by
    intro s hs; rw [of_decide_eq_true hs]; rfl)
  have h2 : (run.part .table).statements.filter (fun s : Statement => decide (s.ddl = .dropTable o.name)) =
      [stmt (.dropTable o.name) [.deletesData] statementTimeoutTableDrop] := by
    show run.tables.statements.filter _ = _
    obtain ⟨adds, deletes, alters, k1, k2, k3, e⟩ := yields_generatePartialGraph (m := GenM) (g := (SchemaGen.tableGen d).gen)
      (yields_of_run run.htables)
    have hb : ∀ (l : List Statement), (∀ s ∈ l, ∃ n, s.ddl.tableBody n = true) ∨ (∀ s ∈ l, s.ddl.family = .shared) →
        l.filter (fun s : Statement => decide (s.ddl = .dropTable o.name)) = [] := by
      intro l hl
      rw [List.filter_eq_nil_iff]
      intro s hs he
      have he := of_decide_eq_true he
      rcases hl with hl | hl
      · obtain ⟨n, hn⟩ := hl s hs
        rw [he] at hn; cases hn
      · have := hl s hs
        rw [he] at this; cases this
    obtain ⟨p, hy, hf⟩ := forall₂_focus (f := fun p : PartialGraph Statement =>
        p.statements.filter (fun s : Statement => decide (s.ddl = .dropTable o.name))) (key := fun t : Table => t.name) k2 dr.deletes_nodup ho (by
      intro x hx b hb hne
      obtain ⟨l, deps, hl, _, rfl⟩ := toNew_delete (m := GenM) (g := (SchemaGen.tableGen d).legacy) hb
      rw [single_statements]
      have hl := yields_lift hl
      unfold TableGen.delete at hl
      split at hl
      · split at hl
        · cases hl; rfl
        · cases hl
      · cases hl
        rw [List.filter_cons, if_neg]
        · rfl
        · simpa [stmt] using hne)
    rw [e, PartialGraph.statements_concat, List.flatMap_append, List.flatMap_append, List.filter_append, List.filter_append,
      filter_flatMap, filter_flatMap, filter_flatMap, hf, forall₂_flatMap_nil k1, forall₂_flatMap_nil k3]
    · obtain ⟨l, deps, hl, _, rfl⟩ := toNew_delete (m := GenM) (g := (SchemaGen.tableGen d).legacy) hy
      have hl := yields_lift hl
      unfold TableGen.delete at hl
      rw [hp] at hl
      cases hl
      rw [single_statements]
      simp [stmt]
    · intro td _ b hb
      obtain ⟨l, deps, hl, _, rfl⟩ := toNew_alter (m := GenM) (g := (SchemaGen.tableGen d).legacy) hb
      rw [single_statements, List.filter_eq_nil_iff]
      intro s hs he
      have he := of_decide_eq_true he
      have := (table_alter_origin hl hs).shape
      cases this with
      | column cd h s hs => cases hs <;> cases he
      | _ => cases he
    · intro t _ b hb
      obtain ⟨l, deps, hl, _, rfl⟩ := toNew_add (m := GenM) (g := (SchemaGen.tableGen d).legacy) hb
      rw [single_statements, List.filter_eq_nil_iff]
      intro s hs he
      have he := of_decide_eq_true he
      obtain ⟨ccs, _, h2⟩ := TableGen.add_shape (yields_lift hl) hs
      cases h2 <;> cases he
  rw [h2] at h1
  exact ⟨_, rfl, List.perm_singleton.mp h1⟩

end
end Verif
