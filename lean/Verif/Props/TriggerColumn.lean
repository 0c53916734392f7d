import Verif.Spec.TriggerColumn
import Verif.Props.Trigger
import Verif.Props.ViewColumn
import Verif.Props.PartColumns

/-!
# C99: triggers and the columns they name
-/

namespace Verif

open Spec

/-! ### the machine -/

section
variable {pg : Pg} {cols : String → List String} {sc : Schema} {n k c : String}

/-- if no trigger is made too early and no column is struck while a trigger names it, the plan runs -/
theorem runTriggerColumn_of : ∀ {l : List Statement} {s s' : Slot} {t t' : TriggerSlot}, runSlot pg n c s l = some s' →
    runTrigger sc n k t l = some t' →
    (∀ pre x post, l = pre ++ x :: post → ∀ q u, runSlot pg n c s pre = some q → runTrigger sc n k t pre = some u →
      (makesTrigger cols n k c x.ddl = true → (q.bind id).isSome = true) ∧
      (strikes n c x.ddl = true → u.names cols c = false)) →
    runTriggerColumn pg cols sc n k c (s, t) l = some (s', t') := by
  intro l
  induction l with
  | nil => intro s s' t t' hs ht _; cases hs; cases ht; rfl
  | cons x l ih =>
    intro s s' t t' hs ht hg
    unfold runSlot at hs
    rw [runWith] at hs
    obtain ⟨s1, h1, h2⟩ := Option.bind_eq_some_iff.mp hs
    unfold runTrigger at ht
    rw [runWith] at ht
    obtain ⟨t1, h3, h4⟩ := Option.bind_eq_some_iff.mp ht
    obtain ⟨g1, g2⟩ := hg [] x l rfl s t rfl rfl
    have hstep : triggerColumnStep pg cols sc n k c (s, t) x.ddl = some (s1, t1) := by
      unfold triggerColumnStep
      rw [if_neg, if_neg]
      · simp only [h1, h3, Option.bind_some, Option.map_some]
      · rintro ⟨e1, e2⟩; rw [g2 e1] at e2; cases e2
      · rintro ⟨e1, e2⟩; rw [g1 e1] at e2; cases e2
    unfold runTriggerColumn
    rw [runWith_cons hstep]
    refine ih h2 h4 fun pre y post e q u hq hu => ?_
    refine hg (x :: pre) y post (by rw [e]; rfl) q u ?_ ?_
    · unfold runSlot
      rw [runWith_cons h1]; exact hq
    · unfold runTrigger
      rw [runWith_cons h3]; exact hu

/-- a trigger that names the column was there before, or the statement made it -/
theorem triggerStep_names {x : Ddl} {s s' : TriggerSlot} (h : triggerStep sc n k s x = some s') (hn : s'.names cols c = true) :
    makesTrigger cols n k c x = true ∨ (s.names cols c = true ∧ x.dropsTrigger n k = false ∧ s' = s) := by
  have keep : ∀ {p : Prop} [Decidable p] {a : Option TriggerSlot}, (if p then a else some s) = some s' →
      (∀ z, a = some z → z.names cols c = false) → s.names cols c = true ∧ s' = s := by
    intro p _ a e ha
    split at e
    · rw [ha _ e] at hn; cases hn
    · cases e; exact ⟨hn, rfl⟩
  cases x with
  | createTable y _ _ =>
    obtain ⟨h1, h2⟩ := keep h fun z hz => by cases s <;> cases hz; rfl
    exact Or.inr ⟨h1, rfl, h2⟩
  | createView v =>
    obtain ⟨h1, h2⟩ := keep h fun z hz => by cases s <;> cases hz; rfl
    exact Or.inr ⟨h1, rfl, h2⟩
  | dropTable y =>
    by_cases e : y.fq = n
    · have h := (if_pos e).symm.trans h
      cases s <;> cases h <;> cases hn
    · have h : (if y.fq ∈ ancestors sc sc.tables.length n then some .noRelation else some s) = some s' := (if_neg e).symm.trans h
      obtain ⟨h1, h2⟩ := keep h fun z hz => by cases hz; rfl
      exact Or.inr ⟨h1, rfl, h2⟩
  | dropView v =>
    obtain ⟨h1, h2⟩ := keep h fun z hz => by cases s <;> cases hz <;> rfl
    exact Or.inr ⟨h1, rfl, h2⟩
  | createTrigger t b text =>
    by_cases e : t.owningTable.fq = n ∧ t.escapedName = k
    · left
      have h' : s' = .trigger (withoutOrReplace text) := by
        have h := (if_pos e).symm.trans h
        cases s with
        | noRelation => cases h
        | noTrigger => exact (Option.some.inj h).symm
        | trigger d =>
          dsimp only at h
          split at h
          · exact (Option.some.inj h).symm
          · cases h
      rw [h'] at hn
      exact Bool.and_eq_true_iff.mpr ⟨decide_eq_true e, hn⟩
    · have h : some s = some s' := (if_neg e).symm.trans h
      cases h; exact Or.inr ⟨hn, rfl, rfl⟩
  | dropTrigger y t =>
    by_cases e : t.fq = n ∧ y = k
    · have h := (if_pos e).symm.trans h
      cases s <;> cases h
      cases hn
    · have h : some s = some s' := (if_neg e).symm.trans h
      cases h; exact Or.inr ⟨hn, decide_eq_false e, rfl⟩
  | _ => cases h; exact Or.inr ⟨hn, rfl, rfl⟩

theorem trigger_origin : ∀ {l : List Statement} {t u : TriggerSlot}, runTrigger sc n k t l = some u → u.names cols c = true →
    (∃ s ∈ l, makesTrigger cols n k c s.ddl = true) ∨ (t.names cols c = true ∧ ∀ s ∈ l, s.ddl.dropsTrigger n k = false) := by
  intro l
  induction l with
  | nil => intro t u h hn; cases h; exact Or.inr ⟨hn, by simp⟩
  | cons x l ih =>
    intro t u h hn
    unfold runTrigger at h
    rw [runWith] at h
    obtain ⟨t1, h1, h2⟩ := Option.bind_eq_some_iff.mp h
    rcases ih h2 hn with ⟨s, hs, e⟩ | ⟨ht, hd⟩
    · exact Or.inl ⟨s, List.mem_cons_of_mem _ hs, e⟩
    · rcases triggerStep_names h1 ht with e | ⟨e1, e2, _⟩
      · exact Or.inl ⟨x, List.mem_cons_self, e⟩
      · refine Or.inr ⟨e1, fun s hs => ?_⟩
        rcases List.mem_cons.mp hs with rfl | hs
        · exact e2
        · exact hd s hs

theorem strikes_cases {x : Ddl} (h : strikes n c x = true) :
    (∃ y, x = .alterTable y (.dropColumn c) ∧ y.fq = n) ∨
    ∃ y a, x = .alterTable y (.alterColumn c a) ∧ y.fq = n ∧ changesType a = true := by
  unfold strikes at h
  split at h
  · simp only [Bool.and_eq_true, decide_eq_true_eq] at h
    obtain ⟨h1, rfl⟩ := h
    exact Or.inl ⟨_, rfl, h1⟩
  · simp only [Bool.and_eq_true, decide_eq_true_eq] at h
    obtain ⟨⟨h1, rfl⟩, h3⟩ := h
    exact Or.inr ⟨_, _, rfl, h1, h3⟩
  · cases h

theorem strikes_onTableColumns {x : Ddl} (h : strikes n c x = true) : x.onTableColumns n = true := by
  rcases strikes_cases h with ⟨y, rfl, e⟩ | ⟨y, a, rfl, e, _⟩ <;> exact Bool.and_eq_true_iff.mpr ⟨decide_eq_true e, rfl⟩

theorem makesTrigger_creates {x : Ddl} (h : makesTrigger cols n k c x = true) : x.createsTrigger n k = true := by
  cases x with
  | createTrigger t b text => exact (Bool.and_eq_true_iff.mp h).1
  | _ => cases h

end

/-! ### the order of the statements -/

section
variable {opts : PlanOptions} {old new : Schema} {d : SchemaDiff} {r r' : Rand} {stmts : List Statement} {n k c : String}
  {cols : String → List String}

/-- a statement that strikes a column: the table stays, and the column goes or changes its type -/
theorem strikes_struck (dr : DiffRun opts old new d) (run : PlanRun opts d r r' stmts) {s : Statement} (hs : s ∈ stmts)
    (h : strikes n c s.ddl = true) : Struck old new n c := by
  obtain ⟨id, hg⟩ := run.mem_shape hs (onTableColumns_not_outer (strikes_onTableColumns h))
  cases hg with
  | alterTable td hm s hs' hid =>
    obtain ⟨td0, h0, hor, i, j, h2, h3, h4, h5⟩ := dr.altered hm
    obtain ⟨_, _, _, hk, hp, hcols, _⟩ := buildTableDiff_ok h5
    have ec : td.columnsDiff.deletes = td0.columnsDiff.deletes := by rw [hor]; unfold orderIf; split <;> rfl
    have key : ∀ cd ∈ td.columnsDiff.alters, cd.new.name = c → td.new.name.fq = n → TypeChange cd.old cd.new →
        Struck old new n c := by
      intro cd hcd ec ex ht
      obtain ⟨cd0, g0, x1, x2⟩ : ∃ cd0 ∈ td0.columnsDiff.alters, cd.old = cd0.old ∧ cd.new = cd0.new := by
        rw [hor] at hcd
        exact orderIf_columns opts td0 hcd
      obtain ⟨k1, k2, k3⟩ := (columnsDiff_alters hcols).1 cd0 g0
      have eo : cd.old.name = c := by rw [← ec, x1, x2]; exact k3
      refine ⟨td.old, List.mem_of_getElem? h3, td.new, List.mem_of_getElem? h2, ?_, ex, hk, hp,
        List.mem_map.mpr ⟨cd.old, by rw [x1]; exact k1, eo⟩, Or.inr ⟨cd.old, ?_, cd.new, ?_, eo, ec, ht⟩⟩
      · rw [← ex]; exact h4
      · rw [x1]; exact k1
      · rw [x2]; exact k2
    cases hs' with
    | column cd hcd s hs' =>
      rcases strikes_cases h with ⟨y, e, ey⟩ | ⟨y, a, e, ey, ha⟩
      · cases hs' <;> cases e
      cases hs' with
      | setTypeFromMillis hm =>
        cases e
        refine key cd hcd rfl ey (Or.inl fun e => ?_)
        rw [e] at hm
        have h1 := of_decide_eq_true (p := _ = _) hm.1
        have h2 := of_decide_eq_true (p := _ = _) hm.2
        rw [h1] at h2
        exact absurd h2 (by decide)
      | setType hm =>
        cases e
        refine key cd hcd rfl ey ?_
        rcases hm with hm | hm
        · exact Or.inl fun e => by rw [e, equalFold_refl] at hm; cases hm
        · exact Or.inr fun e => by rw [e, equalFold_refl] at hm; cases hm
      | _ => cases e <;> cases ha
    | dropColumn c' hc' =>
      rcases strikes_cases h with ⟨y, e, ey⟩ | ⟨y, a, e, ey, ha⟩
      · cases e
        rw [ec] at hc'
        obtain ⟨g1, g2⟩ := (never_deletes (by intro o n i j d h; cases h) hcols).mp hc'
        refine ⟨td.old, List.mem_of_getElem? h3, td.new, List.mem_of_getElem? h2, ?_, ey, hk, hp, List.mem_map_of_mem g1, Or.inl g2⟩
        rw [← ey]; exact h4
      · cases e
    | partDropNotNull =>
      rcases strikes_cases h with ⟨y, e, ey⟩ | ⟨y, a, e, ey, ha⟩
      · cases e
      · cases e; cases ha
    | partSetNotNull =>
      rcases strikes_cases h with ⟨y, e, ey⟩ | ⟨y, a, e, ey, ha⟩
      · cases e
      · cases e; cases ha
    | _ =>
      rcases strikes_cases h with ⟨y, e, ey⟩ | ⟨y, a, e, ey, ha⟩ <;> cases e
  | newTable t h' ccs hc s hs' hid =>
    rcases strikes_cases h with ⟨y, e, ey⟩ | ⟨y, a, e, ey, ha⟩ <;> cases hs' <;> cases e
  | _ => rcases strikes_cases h with ⟨y, e, ey⟩ | ⟨y, a, e, ey, ha⟩ <;> cases e

theorem strikes_onSlots {x : Ddl} (h : strikes n c x = true) : x.onSlots n = true := by
  rcases strikes_cases h with ⟨y, rfl, e⟩ | ⟨y, a, rfl, e, _⟩ <;> exact Bool.and_eq_true_iff.mpr ⟨decide_eq_true e, rfl⟩

/-- a trigger is made when its table is done -/
theorem trigger_made_last (run : PlanRun opts d r r' stmts) :
    AllBefore (fun s => strikes n c s.ddl = true) (fun s => s.ddl.createsTrigger n k = true) stmts := by
  refine run.allBefore (fun s hs => onTableColumns_not_outer (strikes_onTableColumns hs))
    (fun s hs => Ddl.createsTrigger_not_outer hs) fun u x v y hx hy hp hq => ?_
  rw [slot_id hx (strikes_onSlots hp)]
  exact .single (create_trigger_path run hy hq)

/-- the columns of a table are done when a trigger is made -/
theorem trigger_after_columns (dr : DiffRun opts old new d) (run : PlanRun opts d r r' stmts)
    (hn : (new.tables.map Obj.getName).Nodup) (ht : n ∈ new.tables.map (·.name.fq)) :
    AllBefore (fun s => s.ddl.onTableColumns n = true) (fun s => s.ddl.createsTrigger n k = true) stmts := by
  refine run.allBefore (fun s hs => onTableColumns_not_outer hs)
    (fun s hs => Ddl.createsTrigger_not_outer hs) fun u x v y hx hy hp hq => ?_
  obtain ⟨t, ht, rfl⟩ := List.mem_map.mp ht
  rcases onTableColumns_id hx hp with rfl | rfl
  · exact .single (create_trigger_path run hy hq)
  · exact .head (dr.declared_rebuild run hn ‹t ∈ new.tables›) (.single (create_trigger_path run hy hq))

/-- a trigger that goes is dropped before the columns of its table are touched -/
theorem trigger_dropped_first (dr : DiffRun opts old new d) (run : PlanRun opts d r r' stmts)
    (hn : (new.tables.map Obj.getName).Nodup) (ha : NotAltered d n k) :
    AllBefore (fun s => s.ddl.dropsTrigger n k = true) (fun s => strikes n c s.ddl = true) stmts := by
  refine run.allBefore (fun s hs => Ddl.dropsTrigger_not_outer hs)
    (fun s hs => onTableColumns_not_outer (strikes_onTableColumns hs)) fun u x v y hx hy hp hq => ?_
  have hid := slot_id hy (strikes_onSlots hq)
  subst hid
  have hr : run.graph.Declared (VertexId.text ⟨"table", n, .delete⟩) (VertexId.text ⟨"table", n, .addAlter⟩) := by
    obtain ⟨t, ht, e⟩ : ∃ t ∈ new.tables, t.name.fq = n := by
      cases hy with
      | alterTable td hm s hs' hid =>
        obtain ⟨td0, h0, hor, i, j, h2, h3, h4, h5⟩ := dr.altered hm
        refine ⟨td.new, List.mem_of_getElem? h2, ?_⟩
        have : td.new.name.fq = n := by
          have h := congrArg VertexId.objId hid
          exact h.symm
        exact this
      | newTable t h' ccs hc s hs' hid =>
        rcases strikes_cases hq with ⟨y, e, ey⟩ | ⟨y, a, e, ey, ha⟩ <;> cases hs' <;> cases e
      | _ => rcases strikes_cases hq with ⟨y, e, ey⟩ | ⟨y, a, e, ey, ha⟩ <;> cases e
    rw [← e]; exact dr.declared_rebuild run hn ht
  exact .head (drop_trigger_path run ha hx hp) (.single hr)

theorem triggerOf_names {s : Schema} (h : (triggerOf s n k).names cols c = true) :
    ∃ o ∈ s.triggers, (o.owningTable.fq = n ∧ o.escapedName = k) ∧ c ∈ cols o.getTriggerDefStmt := by
  unfold triggerOf at h
  split at h
  · split at h
    · rename_i x hx
      have := List.find?_some hx
      exact ⟨x, List.mem_of_find?_eq_some hx, of_decide_eq_true this, of_decide_eq_true h⟩
    · cases h
  · cases h

/-- while a trigger names a column, nothing strikes the column -/
theorem trigger_settled (dr : DiffRun opts old new d) (run : PlanRun opts d r r' stmts)
    (hn : (new.tables.map Obj.getName).Nodup) (hu : NamesUnique new.triggers)
    (io : ∀ o ∈ old.triggers, Obj.getName o = triggerKey n k → o.owningTable.fq = n ∧ o.escapedName = k)
    (ix : ∀ o ∈ new.triggers, Obj.getName o = triggerKey n k → o.owningTable.fq = n ∧ o.escapedName = k)
    (hkeep : Struck old new n c → ¬ KeepsTrigger cols old new n k c) {sc : Schema}
    {pre post : List Statement} {x : Statement} (e : stmts = pre ++ x :: post) (hx : strikes n c x.ddl = true) {u : TriggerSlot}
    (hrun : runTrigger sc n k (triggerOf old n k) pre = some u) : u.names cols c = false := by
  rw [← Bool.not_eq_true]
  intro hb
  have hmem : x ∈ stmts := by rw [e]; simp
  have struck := strikes_struck dr run hmem hx
  rcases trigger_origin hrun hb with ⟨s, hs, hmk⟩ | ⟨hold, hnd⟩
  · have h := trigger_made_last (n := n) (c := c) (k := k) run
    rw [e, allBefore_append] at h
    exact h.2.2 s hs x List.mem_cons_self ⟨makesTrigger_creates hmk, hx⟩
  · obtain ⟨o, ho, eo, hc⟩ := triggerOf_names hold
    cases trigger_fate dr run hu io ix with
    | absent h1 _ _ => exact h1 o ho eo
    | added _ _ _ h1 _ _ _ => exact h1 o ho eo
    | dropped o' ho' eo' hnew s hd hs =>
      have ha : NotAltered d n k := by
        intro td htd e'
        obtain ⟨i, y, j, z, hy, hz, en, hb'⟩ := diffLists_alters_mem dr.htriggers htd
        unfold buildTriggerDiff at hb'
        split at hb'
        · cases hb'
        · cases hb'
          refine hnew y (List.mem_of_getElem? hy) (ix y (List.mem_of_getElem? hy) ?_)
          rw [← en, ← e'.1, ← e'.2]; rfl
      have hin : s ∈ stmts.filter fun s : Statement => s.ddl.onTrigger n k := by rw [hs]; exact List.mem_singleton_self s
      have hsd : s.ddl.dropsTrigger n k = true := (dropsTrigger_of eo' hd).1
      have h := trigger_dropped_first (c := c) dr run hn ha
      have hs' := (List.mem_filter.mp hin).1
      rw [e, List.mem_append, List.mem_cons] at hs'
      rcases hs' with hs' | rfl | hs'
      · rw [hnd s hs'] at hsd; cases hsd
      · rw [hd] at hx; cases hx
      · rw [e, allBefore_append] at h
        exact (List.pairwise_cons.mp h.2.1).1 s hs' ⟨hx, hsd⟩
    | recreated o' y ho' hy eo' ey => exact hkeep struck ⟨o, ho, y, hy, eo, ey, hc⟩
    | same o' ho' hy ey => exact hkeep struck ⟨o, ho, o', hy, eo, ey, hc⟩
    | replaced o' y _ ho' hy eo' ey => exact hkeep struck ⟨o, ho, y, hy, eo, ey, hc⟩
    | swapped o' y _ ho' hy eo' ey => exact hkeep struck ⟨o, ho, y, hy, eo, ey, hc⟩

/-- what a statement that makes a trigger says is what the new schema says -/
theorem makesTrigger_known (dr : DiffRun opts old new d) (run : PlanRun opts d r r' stmts)
    (px : TriggersPlannable new n k) {s : Statement} (hs : s ∈ stmts)
    (h : makesTrigger cols n k c s.ddl = true) : ∃ x ∈ new.triggers, (x.owningTable.fq = n ∧ x.escapedName = k) ∧
      c ∈ cols x.getTriggerDefStmt := by
  have hcr := makesTrigger_creates h
  obtain ⟨id, hg⟩ := run.mem_shape hs (Ddl.createsTrigger_not_outer hcr)
  have altered : ∀ td ∈ d.triggerDiffs.alters, td.new ∈ new.triggers := by
    intro td htd
    obtain ⟨i, y, j, z, hy, hz, en, hb'⟩ := diffLists_alters_mem dr.htriggers htd
    unfold buildTriggerDiff at hb'
    split at hb'
    · cases hb'
    · cases hb'; exact List.mem_of_getElem? hy
  cases hg with
  | createTrigger t ht hid =>
    obtain ⟨h1, h2⟩ := Bool.and_eq_true_iff.mp h
    have h1 := of_decide_eq_true h1
    have hin : t ∈ new.triggers := by
      rcases ht with ht | ⟨td, htd, rfl, _⟩
      · exact diffLists_adds_mem dr.htriggers ht
      · exact altered td htd
    refine ⟨t, hin, h1, ?_⟩
    have h2 := of_decide_eq_true h2
    rwa [withoutOrReplace_plain (px.plain t hin h1.1 h1.2)] at h2
  | replaceTrigger td ht hd hc text htx hid =>
    obtain ⟨h1, h2⟩ := Bool.and_eq_true_iff.mp h
    have h1 := of_decide_eq_true h1
    have h2 := of_decide_eq_true h2
    rw [(toCreateOrReplace_says htx).2] at h2
    exact ⟨td.new, altered td ht, h1, h2⟩
  | newTable t h ccs hc s hs' hid => cases hs' <;> cases hcr
  | alterTable td h s hs' hid =>
    cases hs' with
    | column cd h s hs' => cases hs' <;> cases hcr
    | _ => cases hcr
  | _ => cases hcr

theorem struck_normalize (h : Struck old.normalize new.normalize n c) : Struck old new n c := by
  obtain ⟨a, ha, b, hb, e1, e2, e3, e4, e5, h⟩ := h
  obtain ⟨a0, ha0, rfl⟩ := mem_normalize_tables ha
  obtain ⟨b0, hb0, rfl⟩ := mem_normalize_tables hb
  exact ⟨a0, ha0, b0, hb0, e1, e2, e3, e4, e5, h⟩

/-- **C99** (partial): triggers and the columns they name, in `UPDATE OF` and in `WHEN`.  Whatever trigger and whatever column of
its table: a plan makes no trigger before the columns it names are there, drops no column that a trigger names, and changes the
type of none; at the end the column and the trigger are those of the target.  Left out are partitions that are there before, and
columns that go or change their type while the table has a trigger of the same name before and after, the one before naming the
column: then the plan is rejected (`C99_kept_trigger_violated`). -/
theorem C99_triggers_and_columns_partial (h : generateMigrationStatements r old new opts = .ok (stmts, r'))
    (hn : NamesUnique new.tables) (hu : NamesUnique new.triggers) {pg : Pg} {n : SQName} {k : String} (hq : Quoted n)
    (hk : nameOk k = true) (hp : ColumnsPlannable pg old new n.fq)
    (po : TriggersPlannable old n.fq (escapeIdentifier k)) (px : TriggersPlannable new n.fq (escapeIdentifier k))
    (hv : ∀ v ∈ old.views ++ new.views, v.name.fq ≠ n.fq)
    (hcols : ∀ x ∈ new.triggers, x.owningTable.fq = n.fq → x.escapedName = escapeIdentifier k → c ∈ cols x.getTriggerDefStmt →
      ((slotOf new n.fq c).bind id).isSome = true)
    (hkeep : Struck old new n.fq c → ¬ KeepsTrigger cols old new n.fq (escapeIdentifier k) c) :
    runTriggerColumn pg cols old n.fq (escapeIdentifier k) c (slotOf old n.fq c, triggerOf old n.fq (escapeIdentifier k)) stmts =
      some (slotOf new n.fq c, triggerOf new n.fq (escapeIdentifier k)) := by
  have hslot := C71_tables_and_columns_converge_partial h hn hp c
  have htrig := C74_triggers_converge_partial h hn hu hq hk hp.oldRoot po px (Or.inl hv)
  obtain ⟨d, ⟨dr⟩, ⟨run⟩⟩ := plan_runs h
  have uo : NamesUnique old.triggers := by
    have : NamesUnique old.normalize.triggers := diffLists_old_nodup dr.htriggers
    exact ((sortObjs_perm old.triggers).map _).nodup_iff.mp this
  have hn' := normalize_tables_nodup hn
  refine runTriggerColumn_of hslot htrig fun pre x post e q u hq' hu' => ⟨fun hx => ?_, fun hx => ?_⟩
  · -- the table is done
    have hmem : x ∈ stmts := by rw [e]; simp
    obtain ⟨y, hy, ey, hc⟩ := makesTrigger_known dr run (triggersPlannable_normalize px) hmem hx
    have there := hcols y (mem_normalize_triggers.mp hy) ey.1 ey.2 hc
    have hin : n.fq ∈ new.normalize.tables.map (·.name.fq) := by
      by_contra hno
      rw [slotOf_none fun hm => hno (normalize_table_names_iff.mpr hm)] at there
      cases there
    have hlast := trigger_after_columns (k := escapeIdentifier k) dr run hn' hin
    rw [e, allBefore_append] at hlast
    have hcr := makesTrigger_creates hx
    have hpost : ∀ s, runSlot pg n.fq c s (x :: post) = some s := by
      intro s
      refine runWith_keeps fun y hy => slotStep_off pg ?_ s
      rcases List.mem_cons.mp hy with rfl | hy
      · cases e : y.ddl <;> rw [e] at hx <;> first | rfl | cases hx
      · rw [← Bool.not_eq_true]
        intro h'
        exact (List.pairwise_cons.mp hlast.2.1).1 y hy ⟨hcr, h'⟩
    have : q = slotOf new n.fq c := by
      have hslot : runWith (slotStep pg n.fq c) (slotOf old n.fq c) stmts = some (slotOf new n.fq c) := hslot
      rw [e, runWith_append, show runWith (slotStep pg n.fq c) (slotOf old n.fq c) pre = some q from hq', Option.bind_some,
        show runWith (slotStep pg n.fq c) q (x :: post) = some q from hpost q] at hslot
      exact Option.some.inj hslot
    rw [this]
    exact there
  · rw [← triggerOf_normalize uo] at hu'
    refine trigger_settled dr run hn' (namesUnique_sort hu)
      (fun o ho e => (trigger_name (po.quoted o (mem_normalize_triggers.mp ho)) hq hk).mp e)
      (fun o ho e => (trigger_name (px.quoted o (mem_normalize_triggers.mp ho)) hq hk).mp e) (fun h1 h2 => ?_) e hx hu'
    obtain ⟨o, ho, y, hy, h3⟩ := h2
    exact hkeep (struck_normalize h1) ⟨o, mem_normalize_triggers.mp ho, y, mem_normalize_triggers.mp hy, h3⟩

/-! ### columns that go under a trigger -/

/-- a column that is not struck is there with its type -/
theorem slotStep_unstruck {pg : Pg} {x : Ddl} (h : strikes n c x = false) (hd : x.dropsTable n = false) {q : ColState} {s : Slot}
    (e : slotStep pg n c (some (some q)) x = some s) :
    ∃ q', s = some (some q') ∧ q'.type = q.type ∧ q'.collation = q.collation := by
  cases x with
  | createTable t defs p =>
    by_cases ht : t.fq = n
    · have e := (if_pos ht).symm.trans e; cases e
    · have e := (if_neg ht).symm.trans e; cases e; exact ⟨q, rfl, rfl, rfl⟩
  | dropTable t =>
    have e := (if_neg (of_decide_eq_false (p := t.fq = n) hd)).symm.trans e
    cases e; exact ⟨q, rfl, rfl, rfl⟩
  | alterTable t a =>
    by_cases ht : (decide (t.fq = n) && onColumns a) = true
    · have e := (if_pos ht).symm.trans e
      have htn := of_decide_eq_true (Bool.and_eq_true_iff.mp ht).1
      cases a with
      | addColumn d =>
        simp only [slotAction] at e
        split at e
        · cases e
        · cases e; exact ⟨q, rfl, rfl, rfl⟩
      | dropColumn c' =>
        simp only [slotAction] at e
        split at e
        · rename_i hc
          simp [strikes, htn, hc] at h
        · cases e; exact ⟨q, rfl, rfl, rfl⟩
      | alterColumn c' a =>
        simp only [slotAction] at e
        split at e
        · rename_i hc
          obtain ⟨y, hy, rfl⟩ := Option.map_eq_some_iff.mp e
          obtain ⟨z, hz, rfl⟩ := Option.map_eq_some_iff.mp hy
          refine ⟨z, rfl, ?_⟩
          have hz : alterColumn pg q a = some z := hz
          cases a with
          | setNotNull => cases hz; exact ⟨rfl, rfl⟩
          | dropNotNull => simp only [alterColumn] at hz; split at hz <;> cases hz; exact ⟨rfl, rfl⟩
          | dropDefault => simp only [alterColumn] at hz; split at hz <;> cases hz; exact ⟨rfl, rfl⟩
          | setDefault x => simp only [alterColumn] at hz; split at hz <;> cases hz; exact ⟨rfl, rfl⟩
          | setTypeFromMillis x => simp [strikes, htn, hc, changesType] at h
          | setType x y => simp [strikes, htn, hc, changesType] at h
          | dropIdentity => simp only [alterColumn] at hz; split at hz <;> cases hz; exact ⟨rfl, rfl⟩
          | addIdentity x =>
            simp only [alterColumn] at hz
            split at hz
            · cases hz
            · split at hz <;> cases hz; exact ⟨rfl, rfl⟩
          | alterIdentity x =>
            simp only [alterColumn] at hz
            split at hz
            · cases hz
            · split at hz
              · cases hz
              · split at hz <;> cases hz; exact ⟨rfl, rfl⟩
        · cases e; exact ⟨q, rfl, rfl, rfl⟩
      | _ => cases e; exact ⟨q, rfl, rfl, rfl⟩
    · have e := (if_neg ht).symm.trans e; cases e; exact ⟨q, rfl, rfl, rfl⟩
  | _ => cases e; exact ⟨q, rfl, rfl, rfl⟩

theorem slot_unstruck {pg : Pg} : ∀ {l : List Statement} {q : ColState} {s : Slot}, (∀ x ∈ l, strikes n c x.ddl = false) →
    (∀ x ∈ l, x.ddl.dropsTable n = false) → runSlot pg n c (some (some q)) l = some s →
    ∃ q', s = some (some q') ∧ q'.type = q.type ∧ q'.collation = q.collation := by
  intro l
  induction l with
  | nil => intro q s _ _ e; cases e; exact ⟨q, rfl, rfl, rfl⟩
  | cons x l ih =>
    intro q s h hd e
    unfold runSlot at e
    rw [runWith] at e
    obtain ⟨s1, h1, h2⟩ := Option.bind_eq_some_iff.mp e
    obtain ⟨q1, rfl, t1, c1⟩ := slotStep_unstruck (h x List.mem_cons_self) (hd x List.mem_cons_self) h1
    obtain ⟨q2, e2, t2, c2⟩ := ih (fun y hy => h y (List.mem_cons_of_mem _ hy)) (fun y hy => hd y (List.mem_cons_of_mem _ hy)) h2
    exact ⟨q2, e2, t2.trans t1, c2.trans c1⟩

/-- a column that goes or changes its type is struck -/
theorem struck_strikes (h : generateMigrationStatements r old new opts = .ok (stmts, r')) (hn : NamesUnique new.tables) {pg : Pg}
    (hp : ColumnsPlannable pg old new n) (hs : Struck old new n c) : ∃ s ∈ stmts, strikes n c s.ddl = true := by
  have hslot := C71_tables_and_columns_converge_partial h hn hp c
  obtain ⟨d, ⟨dr⟩, ⟨run⟩⟩ := plan_runs h
  have hn' := normalize_tables_nodup hn
  obtain ⟨a, ha, b, hb, ea, eb, e1, e2, hca, hor⟩ := hs
  have uno : (old.tables.map Obj.getName).Nodup := by
    have h0 : ((sortObjs old.tables).map normalizeTable |>.map Obj.getName).Nodup := diffLists_old_nodup dr.htd0
    rw [List.map_map] at h0
    exact ((sortObjs_perm old.tables).map _).nodup_iff.mp h0
  obtain ⟨td, ⟨i, j, hbt⟩, _, _, _, _, hdrop⟩ := slots_kept dr run hn' (mem_normalize_tables_of ha) (mem_normalize_tables_of hb)
    (n := n) ea eb e1 e2
  have nodrop : ∀ y ∈ stmts, y.ddl.dropsTable n = false := filter_nil_false hdrop
  by_contra hno
  have hno : ∀ y ∈ stmts, strikes n c y.ddl = false := fun y hy => Bool.eq_false_iff.mpr fun h' => hno ⟨y, hy, h'⟩
  have hcn : (a.columns.map Obj.getName).Nodup := diffLists_old_nodup (buildTableDiff_ok hbt).2.2.2.2.2.1
  have find : ∀ {l : List Column}, (l.map (·.name)).Nodup → ∀ {y : Column}, y ∈ l → y.name = c →
      l.find? (fun z => z.name = c) = some y := by
    intro l hl y hy ey
    cases hf : l.find? (fun z => z.name = c) with
    | none => exact absurd (decide_eq_true ey) (List.find?_eq_none.mp hf y hy)
    | some z =>
      rw [List.inj_on_of_nodup_map hl (List.mem_of_find?_eq_some hf) hy
        ((of_decide_eq_true (List.find?_some (p := fun z : Column => z.name = c) hf) : z.name = c).trans ey.symm)]
  have olds : ∀ {y : Column}, y ∈ a.columns → y.name = c → slotOf old n c = some (some (.of y)) := by
    intro y hy ey
    rw [slotOf_some uno ha ea, columnOf, find hcn hy ey]; rfl
  have news : ∀ {y : Column}, y ∈ b.columns → y.name = c → slotOf new n c = some (some (.of y)) := by
    intro y hy ey
    rw [slotOf_some hn hb eb, columnOf, find (hp.names b hb eb) hy ey]; rfl
  rcases hor with hor | ⟨y, hy, z, hz, ey, ez, hne⟩
  · obtain ⟨y, hy, ey⟩ := List.mem_map.mp hca
    rw [olds hy ey] at hslot
    obtain ⟨q, e, _⟩ := slot_unstruck hno nodrop hslot
    rw [slotOf_some hn hb eb, columnOf, List.find?_eq_none.mpr fun z hz ez =>
      hor (List.mem_map.mpr ⟨z, hz, of_decide_eq_true ez⟩)] at e
    cases e
  · rw [olds hy ey, news hz ez] at hslot
    obtain ⟨q, e, et, ec⟩ := slot_unstruck hno nodrop hslot
    cases e
    exact hne.elim (fun hne => hne et.symm) (fun hne => hne ec.symm)

/-- a plan that runs on both runs on the trigger -/
theorem runTriggerColumn_trigger {pg : Pg} {sc : Schema} : ∀ {l : List Statement} {s s' : Slot × TriggerSlot},
    runTriggerColumn pg cols sc n k c s l = some s' → runTrigger sc n k s.2 l = some s'.2 := by
  intro l
  induction l with
  | nil => intro s s' e; cases e; rfl
  | cons x l ih =>
    intro s s' e
    unfold runTriggerColumn at e
    rw [runWith] at e
    obtain ⟨s1, h1, h2⟩ := Option.bind_eq_some_iff.mp e
    have : triggerStep sc n k s.2 x.ddl = some s1.2 := by
      unfold triggerColumnStep at h1
      split at h1
      · cases h1
      · split at h1
        · cases h1
        · obtain ⟨y, _, h1⟩ := Option.bind_eq_some_iff.mp h1
          obtain ⟨z, hz, rfl⟩ := Option.map_eq_some_iff.mp h1
          exact hz
    unfold runTrigger
    rw [runWith_cons this]
    exact ih h2

/-- a table that stays is not added -/
theorem struck_not_added (dr : DiffRun opts old new d) (hn : (new.tables.map Obj.getName).Nodup) {o t : Table} (ho : o ∈ old.tables)
    (ht : t ∈ new.tables) (eo : o.name.fq = n) (e : t.name.fq = n) (hk : o.partitionKeyDef = t.partitionKeyDef)
    (hp : o.parentTable = t.parentTable) : (byName dr.td0.adds).has n = false := by
  rw [← Bool.not_eq_true, byName_has]
  intro h
  obtain ⟨a, ha, ea⟩ := List.mem_map.mp h
  have : a = t := List.inj_on_of_nodup_map hn (diffLists_adds_mem dr.htd0 ha) ht ((show Obj.getName a = n from ea).trans e.symm)
  subst this
  obtain ⟨i, hi⟩ := List.mem_iff_getElem?.mp ht
  rcases ((C08_every_object_once dr.htd0 hn).1 i a hi).mp ha with h1 | ⟨j, o', td, h1, h2, hb⟩
  · exact h1 (List.mem_map.mpr ⟨o, ho, eo.trans e.symm⟩)
  · have : o' = o := List.inj_on_of_nodup_map (diffLists_old_nodup dr.htd0) (List.mem_of_getElem? h1) ho
      (h2.trans (e.trans eo.symm))
    subst this
    unfold buildTableDiff at hb
    rw [if_neg (by simp [Table.isPartitioned, hk]), if_neg (by simp [hk]), if_neg (by simp [hp])] at hb
    simp only [except_bind_ok, except_pure_ok] at hb
    obtain ⟨_, _, _, _, _, _, _, _, _, _, hb⟩ := hb
    cases hb

/-- a trigger that stays is not touched before the columns of its table -/
theorem kept_trigger_late (dr : DiffRun opts old new d) (run : PlanRun opts d r r' stmts) (hu : NamesUnique new.triggers)
    (ix : ∀ o ∈ new.triggers, Obj.getName o = triggerKey n k → o.owningTable.fq = n ∧ o.escapedName = k)
    (hb : (byName dr.td0.adds).has n = false) (hx : ∃ x ∈ new.triggers, x.owningTable.fq = n ∧ x.escapedName = k) :
    AllBefore (fun s => strikes n c s.ddl = true) (fun s => s.ddl.dropsTrigger n k = true) stmts := by
  refine run.allBefore (fun s hs => onTableColumns_not_outer (strikes_onTableColumns hs))
    (fun s hs => Ddl.dropsTrigger_not_outer hs) fun u x v y hx' hy hp hq => ?_
  rw [slot_id hx' (strikes_onSlots hp)]
  have key : ∀ {t : Trigger}, t.owningTable.fq = n ∧ t.escapedName = k → Obj.getName t = triggerKey n k := by
    rintro t ⟨rfl, rfl⟩; rfl
  obtain ⟨t, e, ⟨hm, rfl⟩ | ⟨td, htd, rfl, rfl⟩⟩ := hy.dropTrigger_vertex hq
  · exfalso
    obtain ⟨x, hx, ex⟩ := hx
    obtain ⟨j, hj⟩ := List.mem_iff_getElem?.mp (diffLists_deletes_mem dr.htriggers hm)
    rcases ((C08_every_object_once dr.htriggers hu).2.1 j t hj).mp hm with h1 | ⟨i, x', _, hi, en, h1⟩
    · exact h1 (List.mem_map.mpr ⟨x, hx, (key ex).trans (key e).symm⟩)
    · have ex' := ix x' (List.mem_of_getElem? hi) (en.symm.trans (key e))
      unfold buildTriggerDiff at h1
      rw [show x'.owningTable.getName = n from ex'.1, hb] at h1
      cases h1
  · obtain ⟨i, y, j, z, hy', hz, en, hb'⟩ := diffLists_alters_mem dr.htriggers htd
    unfold buildTriggerDiff at hb'
    split at hb'
    · cases hb'
    · cases hb'
      have ey := ix y (List.mem_of_getElem? hy') (en.symm.trans (key e))
      have := (run.declared_add_trigger (t := y) (Or.inr ⟨_, htd, rfl⟩)).2
      rw [← ey.1]; exact .single this

theorem runTrigger_stays {sc : Schema} {t : TriggerSlot} : ∀ {l : List Statement},
    (∀ y ∈ l, ∀ u, triggerStep sc n k t y.ddl = some u → u = t) → ∀ {w}, runTrigger sc n k t l = some w → w = t := by
  intro l
  induction l with
  | nil => intro _ w e; exact (Option.some.inj e).symm
  | cons y l ih =>
    intro h w e
    unfold runTrigger at e
    rw [runWith] at e
    obtain ⟨u, h1, h2⟩ := Option.bind_eq_some_iff.mp e
    rw [h y List.mem_cons_self u h1] at h2
    exact ih (fun z hz => h z (List.mem_cons_of_mem _ hz)) h2

/-- **C99** (violated): whenever a column goes or changes its type while its table stays, and a trigger that names it has a
namesake in the target, Postgres rejects the plan: the trigger is left in place, or replaced after the columns are done. -/
theorem C99_kept_trigger_violated (h : generateMigrationStatements r old new opts = .ok (stmts, r'))
    (hn : NamesUnique new.tables) (hu : NamesUnique new.triggers) {pg : Pg} {n : SQName} {k : String} (hq : Quoted n)
    (hk : nameOk k = true) (hp : ColumnsPlannable pg old new n.fq)
    (px : TriggersPlannable new n.fq (escapeIdentifier k)) (hv : ∀ v ∈ old.views ++ new.views, v.name.fq ≠ n.fq)
    (hs : Struck old new n.fq c) (hkeep : KeepsTrigger cols old new n.fq (escapeIdentifier k) c) :
    runTriggerColumn pg cols old n.fq (escapeIdentifier k) c (slotOf old n.fq c, triggerOf old n.fq (escapeIdentifier k)) stmts =
      none := by
  obtain ⟨d, ⟨dr⟩, ⟨run⟩⟩ := plan_runs h
  have uo : NamesUnique old.triggers := by
    have : NamesUnique old.normalize.triggers := diffLists_old_nodup dr.htriggers
    exact ((sortObjs_perm old.triggers).map _).nodup_iff.mp this
  have hn' := normalize_tables_nodup hn
  have struck := hs
  obtain ⟨a, ha, b, hb, ea, eb, e1, e2, _⟩ := hs
  obtain ⟨o, ho, x, hx, eo, ex, hc⟩ := hkeep
  obtain ⟨td, ⟨i, j, hbt⟩, _, _, _, _, hdrop⟩ := slots_kept dr run hn' (mem_normalize_tables_of ha) (mem_normalize_tables_of hb)
    (n := n.fq) ea eb e1 e2
  have nodrop : ∀ y ∈ stmts, y.ddl.dropsTable n.fq = false := fun y hy =>
    Bool.eq_false_iff.mpr fun h' => by
      have : y ∈ stmts.filter (fun s : Statement => s.ddl.dropsTable n.fq) := List.mem_filter.mpr ⟨hy, h'⟩
      rw [hdrop] at this; cases this
  obtain ⟨s, hs, hst⟩ := struck_strikes h hn hp struck
  obtain ⟨pre, post, rfl⟩ := List.append_of_mem hs
  unfold runTriggerColumn
  rw [runWith_append]
  cases hpre : runWith (triggerColumnStep pg cols old n.fq (escapeIdentifier k) c)
      (slotOf old n.fq c, triggerOf old n.fq (escapeIdentifier k)) pre with
  | none => rfl
  | some w =>
    rw [Option.bind_some, runWith]
    have hin : n.fq ∈ old.tables.map (·.name.fq) := List.mem_map.mpr ⟨a, ha, ea⟩
    have hruns : runTrigger old n.fq (escapeIdentifier k) (triggerOf old n.fq (escapeIdentifier k)) pre = some w.2 :=
      runTriggerColumn_trigger hpre
    rw [triggerOf_some (Or.inl hin) uo ho eo] at hruns
    have hadd := struck_not_added dr hn' (mem_normalize_tables_of ha) (mem_normalize_tables_of hb) (n := n.fq) ea eb e1 e2
    have hlate := kept_trigger_late (c := c) dr run (namesUnique_sort hu)
      (fun o ho e => (trigger_name (px.quoted o (mem_normalize_triggers.mp ho)) hq hk).mp e) hadd
      ⟨x, mem_normalize_triggers.mpr hx, ex⟩
    have hmade := trigger_made_last (n := n.fq) (c := c) (k := escapeIdentifier k) run
    rw [allBefore_append] at hlate hmade
    have hviews := views_left_alone (n := n.fq) dr run fun v hv' => by
      rcases List.mem_append.mp hv' with hv' | hv'
      · obtain ⟨v0, h0, e0⟩ := List.mem_map.mp (normalize_view_names_iff.mp (List.mem_map_of_mem (f := (·.name.fq)) hv'))
        rw [← e0]; exact hv v0 (List.mem_append_left _ h0)
      · obtain ⟨v0, h0, e0⟩ := List.mem_map.mp (normalize_view_names_iff.mp (List.mem_map_of_mem (f := (·.name.fq)) hv'))
        rw [← e0]; exact hv v0 (List.mem_append_right _ h0)
    have hkept : ∀ y ∈ pre, ∀ u, triggerStep old n.fq (escapeIdentifier k) (.trigger o.getTriggerDefStmt) y.ddl = some u →
        u = .trigger o.getTriggerDefStmt := by
      intro y hy u hu
      by_cases hct : y.ddl.createsTable n.fq = true
      · cases e : y.ddl with
        | createTable t defs p =>
          rw [e] at hct hu
          have hu := (if_pos (of_decide_eq_true (p := t.fq = n.fq) hct)).symm.trans hu
          cases hu
        | _ => rw [e] at hct; cases hct
      · have hy' : y ∈ pre ++ s :: post := List.mem_append_left _ hy
        rw [triggerStep_skip hp.oldRoot
          (Bool.eq_false_iff.mpr fun h' => hlate.2.2 y hy s List.mem_cons_self ⟨h', hst⟩) (nodrop y hy')
          (Bool.eq_false_iff.mpr hct)
          (Bool.eq_false_iff.mpr fun h' => hmade.2.2 y hy s List.mem_cons_self ⟨h', hst⟩) (hviews y hy')] at hu
        exact (Option.some.inj hu).symm
    have hw := runTrigger_stays hkept hruns
    have : triggerColumnStep pg cols old n.fq (escapeIdentifier k) c w s.ddl = none := by
      unfold triggerColumnStep
      split
      · rfl
      · rw [if_pos ⟨hst, by rw [hw]; exact decide_eq_true hc⟩]
    rw [this]; rfl

end

namespace Samples

/-- a trigger on updates of one column of `t` -/
def updateOf (k c : String) : String :=
  "CREATE TRIGGER " ++ k ++ " BEFORE UPDATE OF " ++ c ++ " ON public.t EXECUTE FUNCTION public.f()"

/-- the columns these triggers name -/
def updateCols (d : String) : List String :=
  ["a", "b", "c"].filter fun c => ["x", "y", "z"].any fun k => decide (d = updateOf k c)

/-- a table with a trigger for each of its columns -/
def oldTriggerColumns : Schema := { Schema.empty with
  tables := [table "t" [col "a" "integer", col "b" "integer"]]
  triggers := [trigger "x" "t" (updateOf "x" "b"), trigger "z" "t" (updateOf "z" "a")] }

/-- one column goes with its trigger, another comes with one -/
def newTriggerColumns : Schema := { Schema.empty with
  tables := [table "t" [col "a" "integer", col "c" "integer"]]
  triggers := [trigger "y" "t" (updateOf "y" "c"), trigger "z" "t" (updateOf "z" "a")] }

/-- the column changes its type, the trigger stays -/
def typeTriggerColumns : Schema := { Schema.empty with
  tables := [table "t" [col "a" "bigint", col "b" "integer"]]
  triggers := [trigger "x" "t" (updateOf "x" "a"), trigger "z" "t" (updateOf "z" "a")] }

theorem plannable_triggerColumns {s : Schema} (hs : s = oldTriggerColumns ∨ s = newTriggerColumns ∨ s = typeTriggerColumns)
    {n k : String} (h : ∀ x ∈ s.triggers, triggerChecked s n k x) : TriggersPlannable s n k := by
  refine triggersPlannable_of (fun x hx => ?_) h
  rcases hs with rfl | rfl | rfl
  · simp only [oldTriggerColumns, List.mem_cons, List.not_mem_nil, or_false] at hx
    rcases hx with rfl | rfl <;> exact ⟨_, _, _, _, by decide, by decide, rfl⟩
  · simp only [newTriggerColumns, List.mem_cons, List.not_mem_nil, or_false] at hx
    rcases hx with rfl | rfl <;> exact ⟨_, _, _, _, by decide, by decide, rfl⟩
  · simp only [typeTriggerColumns, List.mem_cons, List.not_mem_nil, or_false] at hx
    rcases hx with rfl | rfl <;> exact ⟨_, _, _, _, by decide, by decide, rfl⟩

instance (old new : Schema) (t c : String) : Decidable (Struck old new t c) := by
  unfold Struck; infer_instance

instance (cols : String → List String) (old new : Schema) (n k c : String) : Decidable (KeepsTrigger cols old new n k c) := by
  unfold KeepsTrigger; infer_instance

end Samples

open Samples in
/-- `C99_triggers_and_columns_partial` is not vacuous: a trigger goes with its column, one comes with its column, one stays -/
example : ∃ stmts r', generateMigrationStatements Samples.rand oldTriggerColumns newTriggerColumns opts = .ok (stmts, r') ∧
    stmts.length = 4 ∧ ∀ p ∈ [("x", "b"), ("y", "c"), ("z", "a")],
      runTriggerColumn pg updateCols oldTriggerColumns (pub "t").fq (escapeIdentifier p.1) p.2
          (slotOf oldTriggerColumns (pub "t").fq p.2, triggerOf oldTriggerColumns (pub "t").fq (escapeIdentifier p.1)) stmts =
        some (slotOf newTriggerColumns (pub "t").fq p.2, triggerOf newTriggerColumns (pub "t").fq (escapeIdentifier p.1)) := by
  obtain ⟨stmts, r', h, hl⟩ := exists_plan (r := Samples.rand) (old := oldTriggerColumns)
    (new := newTriggerColumns) (opts := opts) (P := fun stmts => stmts.length = 4) (by decide +kernel)
  refine ⟨stmts, r', h, hl, fun p hp => ?_⟩
  have name : nameOk p.1 = true := by revert p; decide
  refine C99_triggers_and_columns_partial h (by unfold NamesUnique; decide +kernel) (by unfold NamesUnique; decide +kernel)
    (quoted_pub (by decide)) name (columnsPlannable_of (by decide +kernel) _) (plannable_triggerColumns (Or.inl rfl) ?_)
    (plannable_triggerColumns (Or.inr (Or.inl rfl)) ?_) (by simp [oldTriggerColumns, newTriggerColumns, Schema.empty]) ?_ ?_
  · clear name; revert p; decide +kernel
  · clear name; revert p; decide +kernel
  · clear name; revert p; decide +kernel
  · clear name; revert p; decide +kernel

open Samples in
/-- `C99_kept_trigger_violated` is not vacuous: a column changes its type, and the trigger stays as it is -/
example : ∃ stmts r', generateMigrationStatements Samples.rand oldTriggerColumns typeTriggerColumns opts = .ok (stmts, r') ∧
    runTriggerColumn pg updateCols oldTriggerColumns (pub "t").fq (escapeIdentifier "z") "a"
      (slotOf oldTriggerColumns (pub "t").fq "a", triggerOf oldTriggerColumns (pub "t").fq (escapeIdentifier "z")) stmts = none := by
  obtain ⟨stmts, r', h, hl⟩ := exists_plan (r := Samples.rand) (old := oldTriggerColumns)
    (new := typeTriggerColumns) (opts := opts) (P := fun stmts => 2 ≤ stmts.length) (by decide +kernel)
  exact ⟨stmts, r', h, C99_kept_trigger_violated h (by unfold NamesUnique; decide +kernel) (by unfold NamesUnique; decide +kernel)
    (quoted_pub (by decide)) (by decide) (columnsPlannable_of (by decide +kernel) _)
    (plannable_triggerColumns (Or.inr (Or.inr rfl)) (by decide +kernel))
    (by simp [oldTriggerColumns, typeTriggerColumns, Schema.empty]) (by decide +kernel) (by decide +kernel)⟩

end Verif
