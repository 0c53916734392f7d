import Verif.Lemmas.IndexCases

/-!
# What becomes of an old index
-/

namespace Verif

open Spec

section
variable {tx : IndexTexts} {q : String}

/-- as long as nothing moves it, an index is what is found under its name, or it is gone -/
theorem runObject_of_runName {l : List Statement} (hl : ∀ y ∈ l, ∀ x p, indexEffect tx q x y.ddl = some (some p) → p.1 = q)
    {x : IndexState} {s : Option IndexState} (h : runName tx q (some x) l = some s) :
    runObject tx (some (q, x)) l = some none ∨ ∃ y, s = some y ∧ runObject tx (some (q, x)) l = some (some (q, y)) := by
  unfold runName at h
  unfold runObject
  induction l generalizing x with
  | nil => cases h; exact Or.inr ⟨x, rfl, rfl⟩
  | cons y l ih =>
    have hy := hl y List.mem_cons_self x
    have ih := @ih (fun z hz => hl z (List.mem_cons_of_mem _ hz))
    unfold runWith at h ⊢
    have e1 : nameStep tx q (some x) y.ddl =
      (indexEffect tx q x y.ddl).map fun r => r.bind fun p => if p.1 = q then some p.2 else none := rfl
    have e2 : objectStep tx (some (q, x)) y.ddl = indexEffect tx q x y.ddl := rfl
    rw [e1] at h
    rw [e2]
    cases he : indexEffect tx q x y.ddl with
    | none => rw [he] at h; cases h
    | some r =>
      rw [he] at h
      cases r with
      | none =>
        refine Or.inl ?_
        exact runWith_keeps fun z _ => rfl
      | some p =>
        have hp := hy p he
        obtain ⟨p1, p2⟩ := p
        simp only at hp
        subst hp
        have h : runWith (nameStep tx p1) (if p1 = p1 then some p2 else none) l = some s := h
        rw [if_pos rfl] at h
        exact ih h

/-- only a rename moves an index, or a constraint with another name -/
theorem indexEffect_stays {y : Ddl} (h1 : y.renamesIndex q = false)
    (h2 : ∀ t c ty i, y = .alterTable t (.addUsingIndex c ty i) → beside t i = q → beside t c = q) (x : IndexState)
    (p : String × IndexState) (h : indexEffect tx q x y = some (some p)) : p.1 = q := by
  cases y with
  | createIndex i c t =>
    have h : (if beside i.owningRelName (escapeIdentifier i.name) = q then none else some (some (q, x))) = some (some p) := h
    split at h
    · cases h
    · cases h; rfl
  | addConstraintOnly t c d =>
    have h : (if beside t c = q then none else some (some (q, x))) = some (some p) := h
    split at h
    · cases h
    · cases h; rfl
  | renameIndex a m =>
    have h := (if_neg (of_decide_eq_false h1)).symm.trans h
    split at h
    · cases h
    · cases h; rfl
  | dropIndex a c =>
    have h : (if a.fq = q then (match x.constraint with | none => some none | some _ => none) else some (some (q, x))) = some (some p) := h
    split at h
    · split at h <;> cases h
    · cases h; rfl
  | dropTable t =>
    have h : some (if x.onView = false ∧ x.owner = t.fq then none else some (q, x)) = some (some p) := h
    split at h
    · cases h
    · cases h; rfl
  | dropMaterializedView t =>
    have h : some (if x.onView = true ∧ x.owner = t.fq then none else some (q, x)) = some (some p) := h
    split at h
    · cases h
    · cases h; rfl
  | alterTable t a =>
    cases a with
    | addUsingIndex c ty i =>
      have h : (if beside t i = q then
        match constraintKind ty with
        | some k =>
          if x.onView = false ∧ x.owner = t.fq ∧ x.constraint = none then some (some (beside t c, { x with constraint := some k }))
          else none
        | none => none
        else if beside t c = q then none
        else some (some (q, x))) = some (some p) := h
      split at h
      · rename_i e
        split at h
        · split at h
          · cases h; exact h2 t c ty i rfl e
          · cases h
        · cases h
      · split at h
        · cases h
        · cases h; rfl
    | dropConstraint c =>
      have h : (if beside t c = q then
        (if x.onView = false ∧ x.owner = t.fq ∧ x.constraint ≠ none then some none else none)
        else some (some (q, x))) = some (some p) := h
      split at h
      · split at h <;> cases h
      · cases h; rfl
    | dropColumn c =>
      have h : some (if x.onView = false ∧ x.owner = t.fq ∧ c ∈ tx.uses x.definition then none else some (q, x)) = some (some p) := h
      split at h
      · cases h
      · cases h; rfl
    | _ => cases h; rfl
  | _ => cases h; rfl

end

theorem filter_prefix {p a : String} (hp : NoNul p) :
    (p ++ a).toList.filter (fun c => decide (c ≠ '\x00')) = p.toList ++ a.toList.filter (fun c => decide (c ≠ '\x00')) := by
  rw [String.toList_append, List.filter_append]
  congr 1
  rw [List.filter_eq_self]
  intro c hc
  exact decide_eq_true fun e => hp (e ▸ hc)

theorem escape_filter {a b : String} (h : escapeIdentifier a = escapeIdentifier b) :
    a.toList.filter (fun c => decide (c ≠ '\x00')) = b.toList.filter (fun c => decide (c ≠ '\x00')) := by
  have h1 := C10_identifier_read_back a "" (by simp)
  have h2 := C10_identifier_read_back b "" (by simp)
  rw [h, h2] at h1
  injection h1 with h1
  injection h1 with h1 _
  exact h1.symm

/-- names that begin differently are written differently -/
theorem escape_prefixes {p q a b : String} (hp : NoNul p) (hq : NoNul q) (hl : p.toList.length ≤ q.toList.length)
    (h : escapeIdentifier (p ++ a) = escapeIdentifier (q ++ b)) : p.toList <+: q.toList := by
  have := escape_filter h
  rw [filter_prefix hp, filter_prefix hq] at this
  exact List.prefix_of_prefix_length_le (l₃ := p.toList ++ a.toList.filter (fun c => decide (c ≠ '\x00')))
    (List.prefix_append _ _) (this ▸ List.prefix_append _ _) hl

theorem uuid_noNul {reader rest : List UInt8} {id : String} (h : readRandomUUID reader = .ok (id, rest)) : NoNul id := by
  intro hc
  rcases (C59_text_is_legal h).2 _ hc with h | h | h | h | h
  · exact absurd h.1 (by decide)
  · exact absurd h.1 (by decide)
  · exact absurd h.1 (by decide)
  · exact absurd h (by decide)
  · exact absurd h (by decide)

/-- temporary names that are written alike have the same random part -/
theorem temporary_uuid {name name' u u' : String} {reader rest reader' rest' : List UInt8}
    (h : readRandomUUID reader = .ok (u, rest)) (h' : readRandomUUID reader' = .ok (u', rest'))
    (e : escapeIdentifier (nonConflictingName name u) = escapeIdentifier (nonConflictingName name' u')) : u = u' := by
  obtain ⟨p, _, he, _⟩ := nonConflictingName_eq (name := name) (uuid_bytes h)
  obtain ⟨p', _, he', _⟩ := nonConflictingName_eq (name := name') (uuid_bytes h')
  rw [he, he'] at e
  have := escape_filter e
  have app : ∀ x y : String, (x ++ y).toList.filter (fun c => decide (c ≠ '\x00')) =
      x.toList.filter (fun c => decide (c ≠ '\x00')) ++ y.toList.filter (fun c => decide (c ≠ '\x00')) := fun x y => by
    rw [String.toList_append, List.filter_append]
  rw [app _ u, app _ u'] at this
  have k : ∀ {x : String}, NoNul x → x.toList.filter (fun c => decide (c ≠ '\x00')) = x.toList := fun hx => by
    rw [List.filter_eq_self]
    intro c hc
    exact decide_eq_true fun e => hx (e ▸ hc)
  rw [k (uuid_noNul h), k (uuid_noNul h')] at this
  have := List.append_inj_right' this (by
    rw [String.length_toList, String.length_toList, (C59_text_is_legal h).1, (C59_text_is_legal h').1])
  exact String.toList_inj.mp this

section
variable {opts : PlanOptions} {old new : Schema} {d : SchemaDiff} {r r' : Rand} {stmts : List Statement} {sch n : String}
  {tx : IndexTexts}

/-- a name of a schema is no temporary one -/
theorem notMadeUp_apart {i : String} (hn : NoNul i) (hm : ¬ madeUp i) {t : SQName} {sch a : String} :
    beside t (escapeIdentifier i) ≠ indexName sch ("pgschemadiff_tmpidx_" ++ a) := fun e =>
  hm (Or.inl (beside_prefix (t := ⟨sch, ""⟩) (u := t) (by unfold NoNul; decide) hn e.symm))

/-- temporary constraints are no temporary indexes -/
theorem temp_not_index {td : TableDiff} {temps : List CheckConstraint} (ht : yields (TableGen.tempConstraints td) temps)
    {c : CheckConstraint} (hc : c ∈ temps) {t : SQName} {sch a : String} :
    beside t (escapeIdentifier c.name) ≠ indexName sch ("pgschemadiff_tmpidx_" ++ a) := by
  intro e
  obtain ⟨_, _, h, _⟩ := forall₂_right (tempConstraints_ok ht) hc
  obtain ⟨b, hb⟩ := h
  have : c.name = "pgschemadiff_tmpnn_" ++ String.ofList b := by
    rw [← String.toList_inj, String.toList_append, ← hb]; simp
  rw [this] at e
  have := escape_prefixes (by unfold NoNul; decide) (by unfold NoNul; decide) (by decide) (fq_parts e).2
  exact absurd this (by decide)

/-- different indexes are renamed to different names -/
theorem PlanRun.renamed_unique (run : PlanRun opts d r r' stmts) (hr : FromReader r)
    (hinj : ∀ k k' id, k < r'.pos → k' < r'.pos → r.uuids k = some id → r.uuids k' = some id → k = k') {k k' m m' : String}
    (hm : run.s3.renames.get? k = some m) (hm' : run.s3.renames.get? k' = some m')
    (e : escapeIdentifier m = escapeIdentifier m') : k = k' := by
  obtain ⟨_, pos, hp, hpi⟩ := run.renames_fresh
  obtain ⟨hlt, u, name, hu, rfl⟩ := hp _ _ hm
  obtain ⟨hlt', u', name', hu', rfl⟩ := hp _ _ hm'
  obtain ⟨reader, rest, hid⟩ := hr _ _ hu
  obtain ⟨reader', rest', hid'⟩ := hr _ _ hu'
  have := temporary_uuid hid hid' e
  subst this
  exact hpi _ _ _ _ hm hm' (hinj _ _ _ (run.hrand ▸ hlt) (run.hrand ▸ hlt') hu hu')

/-- the statement that drops an index under its temporary name -/
theorem PlanRun.drops_temporary_id (dr : DiffRun opts old new d) (run : PlanRun opts d r r' stmts) (hU : NamesNotMadeUp old new)
    (hC : ∀ i ∈ old.indexes, ConstraintNamed i) (hr : FromReader r)
    (hinj : ∀ k k' id, k < r'.pos → k' < r'.pos → r.uuids k = some id → r.uuids k' = some id → k = k') {o : Index}
    (ho : o ∈ d.indexDiffs.deletes) {sch m : String} (hm : run.s3.renames.get? (Obj.getName o) = some m)
    {id : VertexId} {s : Statement} (h : GraphShape opts d run.s3 id s) (hs : s.ddl.dropsIndexNamed (indexName sch m) = true) :
    id = indexVertexId o.sqName .delete ∧ (SchemaGen.indexGen opts d run.s3).wasOwningRelationDeleted o = false := by
  obtain ⟨a, ha⟩ : ∃ a, m = "pgschemadiff_tmpidx_" ++ a := by
    obtain ⟨_, pos, hp, _⟩ := run.renames_fresh
    obtain ⟨_, u, name, hu, rfl⟩ := hp _ _ hm
    exact nonConflictingName_prefix name u
  have hmade : madeUp m := by
    rw [ha]
    refine Or.inl ?_
    rw [String.toList_append]
    exact List.prefix_append _ _
  have other : ∀ i ∈ d.indexDiffs.deletes, ∀ {t : SQName} {c : String}, beside t c = indexName sch m →
      (c = escapeIdentifier i.name ∨ ∃ m', run.s3.renames.get? (Obj.getName i) = some m' ∧ c = escapeIdentifier m') → i = o := by
    rintro i hi t c e (rfl | ⟨m', hm', rfl⟩)
    · obtain ⟨i0, h0, ei, c', hc'⟩ := indexDiff_deletes_mem dr.hindexes hi
      have hn : i.name = i0.name := by rw [hc']
      rw [ha, hn] at e
      exact absurd e (notMadeUp_apart (hU.oldIndexes i0 h0).1 (hU.oldIndexes i0 h0).2)
    · exact deleted_unique dr hi ho (run.renamed_unique hr hinj hm' hm (fq_parts e).2)
  have cur : ∀ i ∈ d.indexDiffs.deletes, ((SchemaGen.indexGen opts d run.s3).currentName i).fq = indexName sch m → i = o := by
    intro i hi e
    unfold IndexGen.currentName at e
    split at e
    · rename_i m' hm'
      exact other i hi (t := i.owningRelName) e (Or.inr ⟨m', hm', rfl⟩)
    · exact other i hi (t := i.owningRelName) e (Or.inl rfl)
  cases h with
  | dropIndexConstraint i h hd c hc m' hm' hid =>
    have e : beside i.owningRelName m' = indexName sch m := of_decide_eq_true hs
    have : i = o := by
      refine other i h e ?_
      rcases hm' with rfl | hm'
      · obtain ⟨i0, h0, ei, _⟩ := indexDiff_deletes_mem dr.hindexes h
        exact Or.inl ((ei ▸ constraintNamed_effective (hC i0 h0) : ConstraintNamed i) c hc)
      · exact Or.inr hm'
    subst this
    exact ⟨hid, hd⟩
  | dropIndex i h hd hn part hp hc hid =>
    obtain rfl := cur i h (of_decide_eq_true hs)
    exact ⟨hid, hd⟩
  | dropIndexConcurrently i h hd hn hp hc hid =>
    obtain rfl := cur i h (of_decide_eq_true hs)
    exact ⟨hid, hd⟩
  | dropForeignKey c h hid =>
    exact absurd (of_decide_eq_true hs) ((hU.constraints sch m hmade).foreignKey c (diffLists_deletes_mem dr.hfks h))
  | newTable t h ccs hc s hs' hid => cases hs' <;> cases hs
  | alterTable td h s hs' hid =>
    cases hs' with
    | column cd h s hs' => cases hs' <;> cases hs
    | dropCheck c hc =>
      have e : beside td.new.name (escapeIdentifier c.name) = indexName sch m := of_decide_eq_true hs
      obtain ⟨td0, _, rfl, i, j, h1, h2, h3, hb⟩ := dr.altered h
      have hcc := (buildTableDiff_ok hb).2.2.2.2.2.2.1
      have hc' : c ∈ td0.checkConstraintDiff.deletes := by
        unfold orderIf at hc; split at hc <;> exact hc
      rw [← beside_congr h3] at e
      exact absurd e ((hU.constraints sch m hmade).check _ (List.mem_of_getElem? h2) c (diffLists_deletes_mem hcc hc'))
    | dropTemp temps ht c hc =>
      have e : beside td.new.name (escapeIdentifier c.name) = indexName sch m := of_decide_eq_true hs
      rw [ha] at e
      exact absurd e (temp_not_index ht hc)
    | _ => cases hs
  | _ => cases hs

/-- no index is built under a temporary name -/
theorem PlanRun.no_makes_temporary (dr : DiffRun opts old new d) (run : PlanRun opts d r r' stmts) (hU : NamesNotMadeUp old new)
    (hC : ∀ i ∈ new.indexes, ConstraintNamed i) {sch a : String} {s : Statement} (hs : s ∈ stmts) :
    s.ddl.makesIndex (indexName sch ("pgschemadiff_tmpidx_" ++ a)) = false ∧
      s.ddl.renamesIndex (indexName sch ("pgschemadiff_tmpidx_" ++ a)) = false := by
  have new_apart : ∀ i ∈ new.indexes, ∀ t : SQName,
      beside t (escapeIdentifier i.name) ≠ indexName sch ("pgschemadiff_tmpidx_" ++ a) := fun i hi t =>
    notMadeUp_apart (hU.newIndexes i hi).1 (hU.newIndexes i hi).2
  constructor
  · cases hm : s.ddl.makesIndex (indexName sch ("pgschemadiff_tmpidx_" ++ a)) with
    | false => rfl
    | true =>
      exfalso
      obtain ⟨id, h⟩ := run.mem_shape hs (makesIndex_not_outer hm)
      cases h with
      | createIndex i h part hp hc hid => exact new_apart i (indexDiff_adds_mem dr.hindexes h) _ (of_decide_eq_true hm)
      | createIndexConcurrently i h hp hc text ht hid =>
        exact new_apart i (indexDiff_adds_mem dr.hindexes h) _ (of_decide_eq_true hm)
      | addConstraintOnly i h c hc hp hid =>
        have hi := indexDiff_adds_mem dr.hindexes h
        have e : beside i.owningRelName c.escapedConstraintName = _ := of_decide_eq_true hm
        rw [hC i hi c hc] at e
        exact new_apart i hi _ e
      | addUsingIndex i h c hc ty hty hid =>
        have hi : i ∈ new.indexes := by
          rcases h with h | ⟨x, h, rfl, _⟩
          · exact indexDiff_adds_mem dr.hindexes h
          · exact indexDiff_alters_new dr.hindexes h
        rcases Bool.or_eq_true_iff.mp hm with e | e
        · exact new_apart i hi _ (of_decide_eq_true e)
        · have e := of_decide_eq_true e
          rw [hC i hi c hc] at e
          exact new_apart i hi _ e
      | newTable t h ccs hc s hs' hid => cases hs' <;> cases hm
      | alterTable td h s hs' hid =>
        cases hs' with
        | column cd h s hs' => cases hs' <;> cases hm
        | _ => cases hm
      | _ => cases hm
  · cases hm : s.ddl.renamesIndex (indexName sch ("pgschemadiff_tmpidx_" ++ a)) with
    | false => rfl
    | true =>
      exfalso
      obtain ⟨id, h⟩ := run.mem_shape hs (renamesIndex_not_outer hm)
      obtain ⟨_, i, hi, e⟩ := h.renamesIndex_id hm
      exact new_apart i (indexDiff_adds_mem dr.hindexes hi) i.owningRelName e

set_option maxHeartbeats 1000000 in
/-- an index that is renamed is gone at the end -/
theorem PlanRun.renamed_index_goes (dr : DiffRun opts old new d) (run : PlanRun opts d r r' stmts) (hk : IndexNameOk old new sch n)
    (hU : NamesNotMadeUp old new) (hr : FromReader r)
    (hinj : ∀ k k' id, k < r'.pos → k' < r'.pos → r.uuids k = some id → r.uuids k' = some id → k = k')
    (hT : (new.tables.map Obj.getName).Nodup) (hI : (new.indexes.map Obj.getName).Nodup) {o i : Index}
    (ho : o ∈ d.indexDiffs.deletes) (eo : Obj.getName o = indexName sch n) (hc : ConstraintNamed o) (hp : IndexPlannable tx old o)
    (ei : Obj.getName i = indexName sch n) {m : String}
    (hren : stmts.filter (fun s : Statement => s.ddl.renamesIndex (indexName sch n)) = [stmt (.renameIndex i.sqName m)])
    (hg : run.s3.renames.get? (indexName sch n) = some m) :
    runObject tx (some (indexName sch n, indexState o)) stmts = some none := by
  obtain ⟨ar, ha⟩ : ∃ a, m = "pgschemadiff_tmpidx_" ++ a := by
    obtain ⟨_, pos, hp, _⟩ := run.renames_fresh
    obtain ⟨_, u, name, hu, rfl⟩ := hp _ _ hg
    exact nonConflictingName_prefix name u
  have hgo : run.s3.renames.get? (Obj.getName o) = some m := by rw [eo]; exact hg
  have hplace : beside i.sqName (escapeIdentifier m) = indexName o.owningRelName.schemaName m := by
    have e : i.sqName.fq = o.sqName.fq := Eq.trans ei eo.symm
    exact beside_congr e _
  generalize hsch : o.owningRelName.schemaName = osch at hplace
  have hnd := indexAdds_nodup dr.hindexes hI
  -- the prefix
  have hrt := run.renames_before_takes (tx := tx) dr hT ho eo hp.columns
  have hrm := run.renames_before_makes dr hk
  obtain ⟨l, hl, hD⟩ := (run.drops_focus dr hk hI).2 o ho eo
  have hcalled : (SchemaGen.indexGen opts d run.s3).calledNow o = m := by
    unfold IndexGen.calledNow
    have : (SchemaGen.indexGen opts d run.s3).renames.get? (Obj.getName o) = some m := hgo
    rw [this]; rfl
  have hapart := run.renamed_apart hk hg
  have hcases := IndexGen.delete_cases hl hp.whole hc
  rw [hcalled] at hcases
  have hD : ∀ y ∈ stmts, y.ddl.dropsIndexNamed (indexName sch n) = false := by
    refine bool_filter (hD.trans ?_)
    rcases hcases with ⟨hd, rfl⟩ | ⟨hd, e, rfl, hcase⟩
    · rfl
    · have : e.ddl.dropsIndexNamed (indexName sch n) = false := by
        rcases hcase with ⟨_, b, e'⟩ | ⟨_, e'⟩
        · rw [e']; exact decide_eq_false (hapart o.owningRelName)
        · rw [e']; exact decide_eq_false (hapart o.owningRelName)
      rw [List.filter_cons, if_neg (by rw [this]; simp)]; rfl
  have hno := fun y (hy : y ∈ stmts) => run.no_onto dr hI hk hy
  have hout := fun y (hy : y ∈ stmts) => run.no_makes_temporary dr hU hk.newCon (sch := osch) (a := ar) hy
  rw [← ha] at hout
  have honto : ∀ y ∈ stmts, y.ddl.renamesOnto (indexName osch m) = true → y.ddl.renamesIndex (indexName sch n) = true := by
    intro y hy h
    cases hyd : y.ddl with
    | renameIndex q m' =>
      rw [hyd] at h
      obtain ⟨i', _, ei', hm'⟩ := run.rename_statement hnd hy hyd
      have h : beside q (escapeIdentifier m') = indexName osch m := of_decide_eq_true h
      have := run.renamed_unique hr hinj hm' hg (fq_parts h).2
      refine decide_eq_true ?_
      rw [← ei']
      exact this
    | _ => rw [hyd] at h; cases h
  have hDid := fun id s => run.drops_temporary_id dr hU hk.oldCon hr hinj ho (sch := osch) hgo (id := id) (s := s)
  have hdt := run.drop_vertex_before_takes (tx := tx) dr hT ho hp.columns
    (P := fun s : Statement => s.ddl.dropsIndexNamed (indexName osch m) = true)
    (fun s hs => dropsIndexNamed_not_outer hs) hDid
  have hrd : AllBefore (fun s : Statement => s.ddl.renamesIndex (indexName sch n) = true)
      (fun s : Statement => s.ddl.dropsIndexNamed (indexName osch m) = true) stmts := by
    refine run.allBefore (fun s hs => renamesIndex_not_outer hs) (fun s hs => dropsIndexNamed_not_outer hs) ?_
    intro u x w y hx hy hp hq
    obtain ⟨rfl, _⟩ := hx.renamesIndex_id hp
    obtain ⟨rfl, _⟩ := hDid _ _ hy hq
    have := (run.declared_drop_index ho).1
    rw [← eo]
    exact .single this
  obtain ⟨A, B, C, eF, _, _, _, _, b2, _, _, hAC⟩ := run.index_focus dr hI (q := indexName sch n) (k := .delete)
    (P := fun s : Statement => s.ddl.dropsIndexNamed (indexName osch m)) (fun id s h hs => by
      rw [(hDid _ _ h hs).1, ← eo]; rfl)
    (fun s hs => by
      cases h : s.ddl.dropsIndexNamed (indexName osch m) with
      | false => rfl
      | true => exact absurd hs (dropsIndexNamed_not_outer h))
  rw [(hAC rfl).1, (hAC rfl).2, List.append_nil, List.nil_append] at eF
  obtain ⟨l', hl', hB⟩ := b2 o ho eo
  rw [hl] at hl'
  cases hl'
  have htk := fun hd => run.taken (tx := tx) (o := o) dr hd fun hm => by
    obtain ⟨t, ht, e, hpar, _⟩ := hp.table hm
    exact ⟨t, ht, e, hpar⟩
  obtain ⟨a, b, e, _, ha0, hb0⟩ := split_once hren
  have hR : stmt (.renameIndex i.sqName m) ∈ stmts := by rw [e]; simp
  have hRN : (Ddl.renameIndex i.sqName m).renamesIndex (indexName sch n) = true :=
    decide_eq_true (p := i.sqName.fq = indexName sch n) ei
  have hstep : indexEffect tx (indexName sch n) (indexState o) (.renameIndex i.sqName m) =
      some (some (indexName osch m, indexState o)) := by
    refine (if_pos ei).trans ?_
    rw [hplace]
  rw [e] at hrt hrm hrd
  have pre : ∀ y ∈ a, objectStep tx (some (indexName sch n, indexState o)) y.ddl = some (some (indexName sch n, indexState o)) := by
    intro y hy
    have hy' : y ∈ stmts := by rw [e]; exact List.mem_append_left _ hy
    have h1 : y.ddl.makesIndex (indexName sch n) = false := by
      cases h : y.ddl.makesIndex (indexName sch n) with
      | false => rfl
      | true => exact absurd h (hrm.not_before hRN y hy)
    have h2 : y.ddl.takesIndex tx (indexState o) = false := by
      cases h : y.ddl.takesIndex tx (indexState o) with
      | false => rfl
      | true => exact absurd h (hrt.not_before hRN y hy)
    exact indexEffect_keeps (run.names_index dr hk hI hy' (ha0 y hy) h1 (hD y hy')) h2
  have hbm : ∀ y ∈ b, y ∈ stmts := fun y hy => by
    rw [e]; exact List.mem_append_right _ (List.mem_cons_of_mem _ hy)
  have hb1 : ∀ y ∈ b, y.ddl.renamesOnto (indexName osch m) = false := by
    intro y hy
    cases h : y.ddl.renamesOnto (indexName osch m) with
    | false => rfl
    | true =>
      have := honto y (hbm y hy) h
      rw [hb0 y hy] at this; cases this
  have hbD : b.filter (fun s : Statement => s.ddl.dropsIndexNamed (indexName osch m)) =
      l.filter (fun s : Statement => s.ddl.dropsIndexNamed (indexName osch m)) := by
    have h1 : a.filter (fun s : Statement => s.ddl.dropsIndexNamed (indexName osch m)) = [] := by
      rw [List.filter_eq_nil_iff]
      intro y hy h
      exact hrd.not_before hRN y hy h
    rw [e, List.filter_append, h1, List.nil_append, List.filter_cons,
      if_neg (show ¬ (stmt (Ddl.renameIndex i.sqName m)).ddl.dropsIndexNamed (indexName osch m) = true from fun h => by cases h), hB] at eF
    exact eF
  have stays : ∀ y ∈ b, ∀ x p, indexEffect tx (indexName osch m) x y.ddl = some (some p) → p.1 = indexName osch m := by
    intro y hy
    obtain ⟨g1, g2⟩ := hout y (hbm y hy)
    refine indexEffect_stays g2 fun t c ty i' e' e'' => ?_
    rw [e'] at g1
    have : decide (beside t i' = indexName osch m) = false := (Bool.or_eq_false_iff.mp g1).1
    exact absurd e'' (of_decide_eq_false this)
  have nm : ∀ y ∈ b, ¬ y.ddl.makesIndex (indexName osch m) = true := fun y hy h => by
    rw [(hout y (hbm y hy)).1] at h; cases h
  have post : ∃ b1 b2, b = b1 ++ b2 ∧ runName tx (indexName osch m) (some (indexState o)) b1 = some none := by
    rcases hcases with ⟨hd, rfl⟩ | ⟨hd, x, rfl, hcase⟩
    · obtain ⟨k, hks, hkt⟩ := htk hd
      have hkb : k ∈ b := by
        rw [e] at hks
        rcases List.mem_append.mp hks with h | h
        · exact absurd hkt (hrt.not_before hRN k h)
        · rcases List.mem_cons.mp h with rfl | h
          · cases hkt
          · exact h
      obtain ⟨b1, b2, e1, h1, _⟩ := runName_taken (n := indexName osch m) (tx := tx) (x := indexState o)
        (fun y hy h => by
          unfold Ddl.namesIndex
          rw [(hout y (hbm y hy)).2, h, hb1 y hy, bool_filter hbD y hy]; rfl) hkb hkt (allBefore_none_right nm)
      exact ⟨b1, b2, e1, h1⟩
    · have hDe : x.ddl.dropsIndexNamed (indexName osch m) = true := by
        rw [hsch] at hcase
        rcases hcase with ⟨_, c, e'⟩ | ⟨_, e'⟩
        · rw [e']; exact decide_eq_true rfl
        · rw [e']
          refine decide_eq_true ?_
          show SQName.fq ⟨o.owningRelName.schemaName, _⟩ = _
          rw [hsch]; rfl
      have hstep : nameStep tx (indexName osch m) (some (indexState o)) x.ddl = some none := by
        show (indexEffect tx (indexName osch m) (indexState o) x.ddl).map _ = _
        have : indexEffect tx (indexName osch m) (indexState o) x.ddl = some none := by
          rcases hcase with ⟨hcc, c, e'⟩ | ⟨hcc, e'⟩
          · rw [e'] at hDe ⊢
            have : indexEffect tx (indexName osch m) (indexState o)
                (.dropIndex ⟨o.owningRelName.schemaName, escapeIdentifier m⟩ c) =
              match (indexState o).constraint with
              | none => some none
              | some _ => none := if_pos (of_decide_eq_true hDe)
            rw [this]
            unfold indexState
            rw [hcc]; rfl
          · rw [e'] at hDe ⊢
            refine (if_pos (of_decide_eq_true hDe)).trans (if_pos ⟨?_, rfl, ?_⟩)
            · refine decide_eq_false fun hm => hcc (hp.view hm).2
            · unfold indexState
              simpa using hcc
        rw [this]; rfl
      rw [List.filter_cons, if_pos hDe] at hbD
      have hdt' : AllBefore (fun s : Statement => s.ddl.dropsIndexNamed (indexName osch m) = true)
          (fun s : Statement => s.ddl.takesIndex tx (indexState o) = true) b := by
        rw [e] at hdt
        exact hdt.sublist ((List.sublist_cons_self _ b).trans (List.sublist_append_right _ _))
      obtain ⟨b1, b2, e1, h1, _⟩ := runName_leaves (tx := tx) (x := indexState o) hbD
        (fun y hy h => by
          rcases h with h | h
          · rw [(hout y (hbm y hy)).2] at h; cases h
          · exact h)
        hb1 hstep hdt' (allBefore_none_right nm)
      exact ⟨b1, b2, e1, h1⟩
  obtain ⟨b1, b2, rfl, hb⟩ := post
  have := runObject_of_runName (fun y hy => stays y (List.mem_append_left _ hy)) hb
  have hb : runObject tx (some (indexName osch m, indexState o)) b1 = some none := by
    rcases this with h | ⟨_, h, _⟩
    · exact h
    · cases h
  rw [e]
  unfold runObject at hb ⊢
  rw [runWith_append, runWith_keeps pre]
  refine Eq.trans (b := (objectStep tx (some (indexName sch n, indexState o)) (Ddl.renameIndex i.sqName m)).bind
    fun s' => runWith (objectStep tx) s' (b1 ++ b2)) rfl ?_
  have hs : objectStep tx (some (indexName sch n, indexState o)) (Ddl.renameIndex i.sqName m) =
    some (some (indexName osch m, indexState o)) := hstep
  rw [hs]
  refine Eq.trans (b := runWith (objectStep tx) (some (indexName osch m, indexState o)) (b1 ++ b2)) rfl ?_
  rw [runWith_append, hb]
  exact runWith_keeps fun z _ => rfl

/-- a constraint that is put on an index has its name -/
theorem PlanRun.using_same_name (dr : DiffRun opts old new d) (run : PlanRun opts d r r' stmts)
    (hC : ∀ i ∈ new.indexes, ConstraintNamed i) {s : Statement} (hs : s ∈ stmts) {t : SQName} {c ty i : String}
    (e : s.ddl = .alterTable t (.addUsingIndex c ty i)) : c = i := by
  obtain ⟨id, h⟩ := run.mem_shape hs (by rw [e]; exact id)
  cases h with
  | addUsingIndex i h c hc ty hty hid =>
    cases e
    refine hC i ?_ c hc
    rcases h with h | ⟨x, h, rfl, _⟩
    · exact indexDiff_adds_mem dr.hindexes h
    · exact indexDiff_alters_new dr.hindexes h
  | newTable t h ccs hc s hs' hid => cases hs' <;> cases e
  | alterTable td h s hs' hid =>
    cases hs' with
    | column cd h s hs' => cases hs' <;> cases e
    | _ => cases e
  | _ => cases e

/-- an old index is gone at the end, or it is the one that the new schema has under its name -/
theorem PlanRun.index_goes (dr : DiffRun opts old new d) (run : PlanRun opts d r r' stmts) (hk : IndexNameOk old new sch n)
    (hU : NamesNotMadeUp old new) (hr : FromReader r)
    (hinj : ∀ k k' id, k < r'.pos → k' < r'.pos → r.uuids k = some id → r.uuids k' = some id → k = k')
    (hT : (new.tables.map Obj.getName).Nodup) (hI : (new.indexes.map Obj.getName).Nodup)
    {o : Index} (h0 : o ∈ old.indexes) (e0 : o.sqName.fq = indexName sch n) (hp : IndexPlannable tx old o)
    (hrun : runName tx (indexName sch n) (some (indexState o)) stmts = some (indexOf new (indexName sch n))) :
    runObject tx (some (indexName sch n, indexState o)) stmts = some none ∨ ∃ y, indexOf new (indexName sch n) = some y ∧
      runObject tx (some (indexName sch n, indexState o)) stmts = some (some (indexName sch n, y)) := by
  obtain ⟨dec, n1, n2, n3, d1, d2, d3⟩ := dr.index_decision hI (indexName sch n)
  have hR := run.rename_focus dr hI (indexName sch n)
  have stay : stmts.filter (fun s : Statement => s.ddl.renamesIndex (indexName sch n)) = [] →
      runObject tx (some (indexName sch n, indexState o)) stmts = some none ∨ ∃ y, indexOf new (indexName sch n) = some y ∧
        runObject tx (some (indexName sch n, indexState o)) stmts = some (some (indexName sch n, y)) := by
    intro hr0
    refine runObject_of_runName (fun y hy => indexEffect_stays (bool_filter hr0 y hy) fun t c ty i e e' => ?_) hrun
    rw [run.using_same_name dr hk.newCon hy e]
    exact e'
  have hnone : indexName sch n ∉ d.indexDiffs.adds.map Obj.getName → _ := fun g => stay (hR.1 g)
  have hold := diffLists_old_nodup dr.hindexes
  have heff : effectiveOldIndex (indexDiffConfig old new dr.td0.adds) new.indexes o ∈
      old.indexes.map (effectiveOldIndex (indexDiffConfig old new dr.td0.adds) new.indexes) := List.mem_map_of_mem h0
  have hname : Obj.getName (effectiveOldIndex (indexDiffConfig old new dr.td0.adds) new.indexes o) = indexName sch n :=
    (effectiveOldIndex_name _ _ _).trans e0
  cases dec with
  | absent ho' hn' => exact absurd (List.mem_map.mpr ⟨_, heff, hname⟩) ho'
  | dropped o' ho' e hn' h =>
    refine hnone fun h => ?_
    obtain ⟨x, hx, e⟩ := List.mem_map.mp h
    exact hn' (List.mem_map.mpr ⟨x, indexDiff_adds_mem dr.hindexes hx, e⟩)
  | added x hx ex ho' h => exact absurd (List.mem_map.mpr ⟨_, heff, hname⟩) ho'
  | altered o' x y ho' hx eo ex hb h =>
    obtain ⟨i, j, hb⟩ := hb
    obtain ⟨hyn, hb⟩ := indexCompare_altered hb
    exact hnone fun hq => d1 hq (List.mem_map.mpr ⟨y, h, by rw [hyn]; exact ex⟩)
  | recreated o' x ho' hx eo ex hb h h' =>
    have : o' = effectiveOldIndex (indexDiffConfig old new dr.td0.adds) new.indexes o :=
      List.inj_on_of_nodup_map hold ho' heff (eo.trans hname.symm)
    subst this
    have hget : (byName d.old.indexes).get? (indexName sch n) = some o := by
      have hN : (old.indexes.map Obj.getName).Nodup := by
        have := hold
        rw [List.map_map] at this
        have e : (Obj.getName ∘ effectiveOldIndex (indexDiffConfig old new dr.td0.adds) new.indexes : Index → String) =
            Obj.getName := by
          funext i
          exact effectiveOldIndex_name _ _ _
        rw [e] at this
        exact this
      rw [dr.hold, ← e0]
      exact byName_get?_of_mem hN h0
    obtain ⟨r1, r2⟩ := (hR.2 x h' ex).2 o hget
    cases hboth : (o.isPk && x.isPk) with
    | true => exact stay (r1 hboth)
    | false =>
      obtain ⟨m, hren, hg⟩ := r2 hboth
      refine Or.inl ?_
      rw [← indexState_effective (indexDiffConfig old new dr.td0.adds) new.indexes o]
      exact run.renamed_index_goes dr hk hU hr hinj hT hI h hname (constraintNamed_effective (hk.oldCon o h0))
        (plannable_effective hp) ex hren hg

end
end Verif
