import Verif.Spec.GeneratedColumn
import Verif.Props.TriggerColumn

/-!
# C100: generated columns and the columns they are computed from
-/

namespace Verif

open Spec

/-! ### the machine -/

section
variable {pg : Pg} {cols : String → List String} {n g b : String}

/-- whether `g` is there after the statements -/
def generatedAfter (cols : String → List String) (n g b : String) (u : Bool) (l : List Statement) : Bool :=
  l.foldl (fun u s => generatedStep cols n g b u s.ddl) u

/-- the statement makes `g`, computed from `b` -/
def Ddl.makesFrom (cols : String → List String) (n g b : String) : Ddl → Bool
  | .createTable t defs _ => decide (t.fq = n) && defs.any (defFrom cols g b)
  | .alterTable t (.addColumn d) => decide (t.fq = n) && defFrom cols g b d
  | _ => false

/-- drops the column `c` of the table `n` -/
def Ddl.dropsColumn (n c : String) : Ddl → Bool
  | .alterTable t (.dropColumn c') => decide (t.fq = n) && decide (c' = c)
  | _ => false

theorem runGeneratedColumn_of : ∀ {l : List Statement} {s s' : Slot} {u : Bool}, runSlot pg n b s l = some s' →
    (∀ pre x post, l = pre ++ x :: post → ∀ q, runSlot pg n b s pre = some q →
      lacksBase cols n g b q x.ddl = false ∧ (strikes n b x.ddl = true → generatedAfter cols n g b u pre = false)) →
    runGeneratedColumn pg cols n g b (s, u) l = some (s', generatedAfter cols n g b u l) := by
  intro l
  induction l with
  | nil => intro s s' u hs _; cases hs; rfl
  | cons x l ih =>
    intro s s' u hs hg
    unfold runSlot at hs
    rw [runWith] at hs
    obtain ⟨s1, h1, h2⟩ := Option.bind_eq_some_iff.mp hs
    obtain ⟨g1, g2⟩ := hg [] x l rfl s rfl
    have hstep : generatedColumnStep pg cols n g b (s, u) x.ddl = some (s1, generatedStep cols n g b u x.ddl) := by
      unfold generatedColumnStep
      rw [if_neg (by rw [g1]; simp), if_neg]
      · simp only [h1, Option.map_some]
      · rintro ⟨e1, e2⟩
        have : u = false := g2 e1
        rw [show u = true from e2] at this; cases this
    unfold runGeneratedColumn
    rw [runWith_cons hstep]
    refine (ih h2 fun pre y post e q hq => ?_).trans rfl
    refine hg (x :: pre) y post (by rw [e]; rfl) q ?_
    unfold runSlot
    rw [runWith_cons h1]; exact hq

/-- `g` was there before, or the statement made it -/
theorem generatedStep_origin {x : Ddl} {u : Bool} (h : generatedStep cols n g b u x = true) :
    x.makesFrom cols n g b = true ∨ (u = true ∧ x.dropsColumn n g = false) := by
  cases x with
  | createTable t defs p =>
    by_cases e : t.fq = n
    · have h := (if_pos e).symm.trans h
      exact Or.inl (Bool.and_eq_true_iff.mpr ⟨decide_eq_true e, h⟩)
    · exact Or.inr ⟨(if_neg e).symm.trans h, rfl⟩
  | dropTable t =>
    by_cases e : t.fq = n
    · have h := (if_pos e).symm.trans h; cases h
    · exact Or.inr ⟨(if_neg e).symm.trans h, rfl⟩
  | alterTable t a =>
    cases a with
    | addColumn d =>
      by_cases e : t.fq = n ∧ d.name = g
      · have h := (if_pos e).symm.trans h
        exact Or.inl (Bool.and_eq_true_iff.mpr ⟨decide_eq_true e.1, h⟩)
      · exact Or.inr ⟨(if_neg e).symm.trans h, rfl⟩
    | dropColumn c =>
      by_cases e : t.fq = n ∧ c = g
      · have h := (if_pos e).symm.trans h; cases h
      · exact Or.inr ⟨(if_neg e).symm.trans h, by simpa [Ddl.dropsColumn] using e⟩
    | _ => exact Or.inr ⟨h, rfl⟩
  | _ => exact Or.inr ⟨h, rfl⟩

theorem generated_origin : ∀ {l : List Statement} {u : Bool}, generatedAfter cols n g b u l = true →
    (∃ s ∈ l, s.ddl.makesFrom cols n g b = true) ∨ u = true := by
  intro l
  induction l with
  | nil => intro u h; exact Or.inr h
  | cons x l ih =>
    intro u h
    rcases ih (u := generatedStep cols n g b u x.ddl) h with ⟨s, hs, e⟩ | h
    · exact Or.inl ⟨s, List.mem_cons_of_mem _ hs, e⟩
    · rcases generatedStep_origin h with e | ⟨e, _⟩
      · exact Or.inl ⟨x, List.mem_cons_self, e⟩
      · exact Or.inr e

/-- what is known of `g`: without the column it is not there, and with it, it is as the target says -/
def GeneratedAt (m : Option Bool) (q : Slot) (u : Bool) : Prop :=
  ((q.bind id) = none → u = false) ∧ ((q.bind id).isSome = true → ∀ v, m = some v → u = v)

/-- what a statement says of `g` is what the target says -/
def SaysOf (cols : String → List String) (n g b : String) (m : Option Bool) : Ddl → Prop
  | .createTable t defs _ => t.fq = n → ((g ∉ defs.map (·.name)) ∨ m = some (defs.any (defFrom cols g b)))
  | .alterTable t (.addColumn d) => t.fq = n → d.name = g → m = some (defFrom cols g b d)
  | _ => True

theorem defs_unnamed {defs : List ColumnDef} (h : g ∉ defs.map (·.name)) : defs.any (defFrom cols g b) = false := by
  rw [← Bool.not_eq_true, List.any_eq_true]
  rintro ⟨d, hd, e⟩
  exact h (List.mem_map.mpr ⟨d, hd, of_decide_eq_true (Bool.and_eq_true_iff.mp e).1⟩)

theorem generatedAt_step {m : Option Bool} {x : Ddl} {q q' : Slot} {u : Bool} (hs : SaysOf cols n g b m x)
    (hq : slotStep pg n g q x = some q') (h : GeneratedAt m q u) : GeneratedAt m q' (generatedStep cols n g b u x) := by
  cases x with
  | createTable t defs p =>
    by_cases e : t.fq = n
    · have hq := (if_pos e).symm.trans hq
      rw [show generatedStep cols n g b u (.createTable t defs p) = defs.any (defFrom cols g b) from if_pos e]
      cases q with
      | some _ => cases hq
      | none =>
        dsimp only at hq
        split at hq
        · cases hq
          constructor
          · intro hno
            refine defs_unnamed fun hm => ?_
            obtain ⟨d, hd, ed⟩ := List.mem_map.mp hm
            have hno : (defs.find? fun d => d.name = g).map (ColState.created pg) = none := hno
            exact List.find?_eq_none.mp (Option.map_eq_none_iff.mp hno) d hd (decide_eq_true ed)
          · intro hi v hv
            rcases hs e with h1 | h1
            · exfalso
              have hi : ((defs.find? fun d => d.name = g).map (ColState.created pg)).isSome = true := hi
              rw [List.find?_eq_none.mpr fun d hd ed => h1 (List.mem_map.mpr ⟨d, hd, of_decide_eq_true ed⟩)] at hi
              cases hi
            · rw [h1] at hv; cases hv; rfl
        · cases hq
    · have hq := (if_neg e).symm.trans hq
      cases hq
      rw [show generatedStep cols n g b u (.createTable t defs p) = u from if_neg e]
      exact h
  | dropTable t =>
    by_cases e : t.fq = n
    · rw [show generatedStep cols n g b u (.dropTable t) = false from if_pos e]
      have hq := (if_pos e).symm.trans hq
      cases q <;> cases hq
      exact ⟨fun _ => rfl, fun h => by cases h⟩
    · have hq := (if_neg e).symm.trans hq
      cases hq
      rw [show generatedStep cols n g b u (.dropTable t) = u from if_neg e]
      exact h
  | alterTable t a =>
    by_cases e : (decide (t.fq = n) && onColumns a) = true
    · have hq := (if_pos e).symm.trans hq
      have htn := of_decide_eq_true (Bool.and_eq_true_iff.mp e).1
      cases q with
      | none => cases hq
      | some y =>
        obtain ⟨z, hz, rfl⟩ := Option.map_eq_some_iff.mp hq
        cases a with
        | addColumn d =>
          by_cases ed : d.name = g
          · rw [show generatedStep cols n g b u (.alterTable t (.addColumn d)) = defFrom cols g b d from if_pos ⟨htn, ed⟩]
            have hz := (if_pos ed).symm.trans hz
            cases y with
            | some _ => cases hz
            | none =>
              split at hz
              · cases hz
                refine ⟨fun h => (by cases h), fun _ v hv => ?_⟩
                rw [hs htn ed] at hv; cases hv; rfl
              · cases hz
          · rw [show generatedStep cols n g b u (.alterTable t (.addColumn d)) = u from if_neg fun h => ed h.2]
            have hz := (if_neg ed).symm.trans hz
            cases hz; exact h
        | dropColumn c =>
          by_cases ed : c = g
          · rw [show generatedStep cols n g b u (.alterTable t (.dropColumn c)) = false from if_pos ⟨htn, ed⟩]
            have hz := (if_pos ed).symm.trans hz
            refine ⟨fun _ => rfl, fun h => ?_⟩
            cases y <;> cases hz; cases h
          · rw [show generatedStep cols n g b u (.alterTable t (.dropColumn c)) = u from if_neg fun h => ed h.2]
            have hz := (if_neg ed).symm.trans hz
            cases hz; exact h
        | alterColumn c a =>
          by_cases ed : c = g
          · have hz := (if_pos ed).symm.trans hz
            obtain ⟨z, hz, rfl⟩ := Option.map_eq_some_iff.mp hz
            cases y with
            | none => cases hz
            | some y => exact ⟨fun h => (by cases h), fun _ => h.2 rfl⟩
          · have hz := (if_neg ed).symm.trans hz
            cases hz; exact h
        | _ => cases hz; exact h
    · have hq := (if_neg e).symm.trans hq
      cases hq
      have keep : generatedStep cols n g b u (.alterTable t a) = u := by
        cases a with
        | addColumn d => exact if_neg fun h => e (by simp [h.1, onColumns])
        | dropColumn d => exact if_neg fun h => e (by simp [h.1, onColumns])
        | _ => rfl
      rw [keep]; exact h
  | _ => cases hq; exact h

theorem generatedAt_run {m : Option Bool} : ∀ {l : List Statement} {q q' : Slot} {u : Bool},
    (∀ s ∈ l, SaysOf cols n g b m s.ddl) → runSlot pg n g q l = some q' → GeneratedAt m q u →
    GeneratedAt m q' (generatedAfter cols n g b u l) := by
  intro l
  induction l with
  | nil => intro q q' u _ e h; cases e; exact h
  | cons x l ih =>
    intro q q' u hs e h
    unfold runSlot at e
    rw [runWith] at e
    obtain ⟨q1, h1, h2⟩ := Option.bind_eq_some_iff.mp e
    exact ih (fun y hy => hs y (List.mem_cons_of_mem _ hy)) h2 (generatedAt_step (hs x List.mem_cons_self) h1 h)

/-- after `DROP TABLE` there is nothing -/
theorem generated_drop {a l : List Statement} {s : Statement} {x : SQName} {q q' : Slot} {u : Bool} (e : x.fq = n)
    (hs : s.ddl = .dropTable x) (h : runSlot pg n g q (a ++ s :: l) = some q') :
    runSlot pg n g none l = some q' ∧ generatedAfter cols n g b u (a ++ s :: l) = generatedAfter cols n g b false l := by
  unfold runSlot at h
  rw [runWith_append] at h
  obtain ⟨q1, _, h⟩ := Option.bind_eq_some_iff.mp h
  rw [runWith, hs] at h
  obtain ⟨q2, h3, h4⟩ := Option.bind_eq_some_iff.mp h
  have h3 := (if_pos e).symm.trans h3
  have : q2 = none := by cases q1 <;> cases h3; rfl
  subst this
  refine ⟨h4, ?_⟩
  unfold generatedAfter
  rw [List.foldl_append, List.foldl_cons, hs]
  have hstep : ∀ v, generatedStep cols n g b v (.dropTable x) = false := fun v => if_pos e
  rw [hstep]

/-- a column that is not dropped stays -/
theorem slot_undropped {c : String} : ∀ {l : List Statement} {q : ColState} {s : Slot},
    (∀ x ∈ l, x.ddl.dropsColumn n c = false) → (∀ x ∈ l, x.ddl.dropsTable n = false) →
    runSlot pg n c (some (some q)) l = some s → (s.bind id).isSome = true := by
  intro l
  induction l with
  | nil => intro q s _ _ e; cases e; rfl
  | cons x l ih =>
    intro q s h hd e
    unfold runSlot at e
    rw [runWith] at e
    obtain ⟨s1, h1, h2⟩ := Option.bind_eq_some_iff.mp e
    obtain ⟨q1, rfl⟩ : ∃ q1, s1 = some (some q1) := by
      by_cases hx : strikes n c x.ddl = true
      · rcases strikes_cases hx with ⟨y, e, ey⟩ | ⟨y, a, e, ey, _⟩
        · have := h x List.mem_cons_self
          rw [e] at this
          simp [Ddl.dropsColumn, ey] at this
        · rw [e] at h1
          have h1 := (if_pos (by simp [ey, onColumns])).symm.trans h1
          obtain ⟨z, hz, rfl⟩ := Option.map_eq_some_iff.mp h1
          have hz := (if_pos rfl).symm.trans hz
          obtain ⟨w, hw, rfl⟩ := Option.map_eq_some_iff.mp hz
          exact ⟨w, rfl⟩
      · obtain ⟨q1, h3, _⟩ := slotStep_unstruck (Bool.eq_false_iff.mpr hx) (hd x List.mem_cons_self) h1
        exact ⟨q1, h3⟩
    exact ih (fun y hy => h y (List.mem_cons_of_mem _ hy)) (fun y hy => hd y (List.mem_cons_of_mem _ hy)) h2

end

/-! ### the plan -/

theorem defFrom_eq {cols : String → List String} {g b : String} {c : Column} {d : ColumnDef} (h : buildColumnDefinition c = .ok d) :
    defFrom cols g b d = columnFrom cols g b c := by
  obtain ⟨i, _, h⟩ := except_bind_ok.mp h
  cases h
  unfold defFrom columnFrom
  dsimp only
  cases c.isGenerated <;> simp

theorem defsFrom_eq {cols : String → List String} {g b : String} {l : List Column} {defs : List ColumnDef}
    (h : List.Forall₂ (fun c d => buildColumnDefinition c = .ok d) l defs) :
    defs.any (defFrom cols g b) = l.any (columnFrom cols g b) ∧ defs.map (·.name) = l.map (·.name) := by
  induction h with
  | nil => exact ⟨rfl, rfl⟩
  | cons hd _ ih =>
    rw [List.any_cons, List.any_cons, List.map_cons, List.map_cons, ih.1, ih.2, defFrom_eq hd, buildColumnDefinition_name hd]
    exact ⟨rfl, rfl⟩

section
variable {opts : PlanOptions} {old new : Schema} {d : SchemaDiff} {r r' : Rand} {stmts : List Statement} {n g b : String}
  {cols : String → List String}

theorem generatedOf_some {s : Schema} (hn : (s.tables.map Obj.getName).Nodup) {t : Table} (ht : t ∈ s.tables)
    (e : t.name.fq = n) : generatedOf cols s n g b = t.columns.any (columnFrom cols g b) := by
  unfold generatedOf
  rw [Bool.eq_iff_iff, List.any_eq_true]
  constructor
  · rintro ⟨x, hx, h⟩
    obtain ⟨h1, h2⟩ := Bool.and_eq_true_iff.mp h
    have : x = t := List.inj_on_of_nodup_map hn hx ht ((of_decide_eq_true h1).trans e.symm)
    rw [← this]; exact h2
  · intro h
    exact ⟨t, ht, Bool.and_eq_true_iff.mpr ⟨decide_eq_true e, h⟩⟩

theorem generatedOf_none {s : Schema} (h : n ∉ s.tables.map Obj.getName) : generatedOf cols s n g b = false := by
  unfold generatedOf
  rw [← Bool.not_eq_true, List.any_eq_true]
  rintro ⟨x, hx, h'⟩
  exact h (List.mem_map.mpr ⟨x, hx, of_decide_eq_true (Bool.and_eq_true_iff.mp h').1⟩)

theorem from_named {l : List Column} (h : l.any (columnFrom cols g b) = true) : g ∈ l.map (·.name) := by
  obtain ⟨x, hx, e⟩ := List.any_eq_true.mp h
  refine List.mem_map.mpr ⟨x, hx, ?_⟩
  unfold columnFrom at e
  rw [Bool.and_assoc] at e
  exact of_decide_eq_true (Bool.and_eq_true_iff.mp e).1

theorem columnOf_isSome {t : Table} {c : String} : (columnOf t c).isSome = true ↔ c ∈ t.columns.map (·.name) := by
  unfold columnOf
  rw [Option.isSome_map, List.find?_isSome, List.mem_map]
  simp

/-- a column that is added is new, and the table stays -/
theorem addColumn_known (dr : DiffRun opts old new d) (run : PlanRun opts d r r' stmts) {s : Statement} (hs : s ∈ stmts)
    {x : SQName} {def_ : ColumnDef} (e : s.ddl = .alterTable x (.addColumn def_)) (ex : x.fq = n)
    (hu : ∀ t ∈ new.tables, t.name.fq = n → (t.columns.map (·.name)).Nodup) :
    ∃ o t, TableStays old new n o t ∧ ∃ c ∈ t.columns, c.name ∉ o.columns.map (·.name) ∧ buildColumnDefinition c = .ok def_ := by
  obtain ⟨id, hg⟩ := run.mem_shape hs (onTableColumns_not_outer (t := n) (by
    rw [e]; exact Bool.and_eq_true_iff.mpr ⟨decide_eq_true ex, rfl⟩))
  cases hg with
  | alterTable td hm s hs' hid =>
    obtain ⟨td0, h0, hor, i, j, h2, h3, h4, h5⟩ := dr.altered hm
    obtain ⟨_, _, _, hk, hp, hcols, _⟩ := buildTableDiff_ok h5
    have ec : td.columnsDiff.adds = td0.columnsDiff.adds := by rw [hor]; unfold orderIf; split <;> rfl
    cases hs' with
    | addColumn c hc def' hd =>
      cases e
      rw [ec] at hc
      have hu := hu _ (List.mem_of_getElem? h2) ex
      obtain ⟨g1, g2⟩ := (never_adds (by intro o n i j d h; cases h) hcols hu).mp hc
      exact ⟨td.old, td.new, ⟨List.mem_of_getElem? h3, List.mem_of_getElem? h2, (show td.old.name.fq = td.new.name.fq from h4).trans ex,
        ex, hk, hp⟩, c, g1, g2, hd⟩
    | column cd hcd s hs' => cases hs' <;> cases e
    | _ => cases e
  | newTable t h' ccs hc s hs' hid => cases hs' <;> cases e
  | _ => cases e

/-- a column that is dropped is gone, and the table stays -/
theorem dropColumn_known (dr : DiffRun opts old new d) (run : PlanRun opts d r r' stmts) {s : Statement} (hs : s ∈ stmts)
    {c : String} (h : s.ddl.dropsColumn n c = true) :
    ∃ o t, TableStays old new n o t ∧ c ∈ o.columns.map (·.name) ∧ c ∉ t.columns.map (·.name) := by
  obtain ⟨x, e, ex⟩ : ∃ x, s.ddl = .alterTable x (.dropColumn c) ∧ x.fq = n := by
    unfold Ddl.dropsColumn at h
    split at h
    · rename_i x c' e
      simp only [Bool.and_eq_true, decide_eq_true_eq] at h
      exact ⟨x, by rw [e, h.2], h.1⟩
    · cases h
  obtain ⟨id, hg⟩ := run.mem_shape hs (onTableColumns_not_outer (t := n) (by
    rw [e]; exact Bool.and_eq_true_iff.mpr ⟨decide_eq_true ex, rfl⟩))
  cases hg with
  | alterTable td hm s hs' hid =>
    obtain ⟨td0, h0, hor, i, j, h2, h3, h4, h5⟩ := dr.altered hm
    obtain ⟨_, _, _, hk, hp, hcols, _⟩ := buildTableDiff_ok h5
    have ec : td.columnsDiff.deletes = td0.columnsDiff.deletes := by rw [hor]; unfold orderIf; split <;> rfl
    cases hs' with
    | dropColumn c hc =>
      cases e
      rw [ec] at hc
      obtain ⟨g1, g2⟩ := (never_deletes (by intro o n i j d h; cases h) hcols).mp hc
      exact ⟨td.old, td.new, ⟨List.mem_of_getElem? h3, List.mem_of_getElem? h2, (show td.old.name.fq = td.new.name.fq from h4).trans ex,
        ex, hk, hp⟩, List.mem_map_of_mem g1, g2⟩
    | column cd hcd s hs' => cases hs' <;> cases e
    | _ => cases e
  | newTable t h' ccs hc s hs' hid => cases hs' <;> cases e
  | _ => cases e

/-- a table is made with the columns of the target -/
theorem createTable_known (dr : DiffRun opts old new d) (run : PlanRun opts d r r' stmts) {s : Statement} (hs : s ∈ stmts)
    {x : SQName} {defs : List ColumnDef} {p : Option String} (e : s.ddl = .createTable x defs p) (ex : x.fq = n) :
    ∃ t ∈ new.tables, t.name.fq = n ∧ defs.any (defFrom cols g b) = t.columns.any (columnFrom cols g b) ∧
      ∀ c, c ∈ defs.map (·.name) ↔ c ∈ t.columns.map (·.name) := by
  obtain ⟨id, hg⟩ := run.mem_shape hs (by rw [e]; intro h; cases h)
  cases hg with
  | newTable t h' ccs hc s hs' hid =>
    cases hs' with
    | create defs' h =>
      cases e
      rw [dr.hadds] at h'
      obtain ⟨t0, h0, rfl⟩ := List.mem_map.mp h'
      have hperm := packIf_columns opts t0
      obtain ⟨h1, h2⟩ := defsFrom_eq (cols := cols) (g := g) (b := b) h
      refine ⟨t0, diffLists_adds_mem dr.htd0 h0, by rw [packIf_name] at ex; exact ex, h1.trans hperm.any_eq, fun c => ?_⟩
      rw [h2]; exact (hperm.map _).mem_iff
    | _ => cases e
  | alterTable td hm s hs' hid =>
    cases hs' with
    | column cd hcd s hs' => cases hs' <;> cases e
    | _ => cases e
  | _ => cases e

/-- what the target says of `g`, if it is there -/
def targetSays (cols : String → List String) (new : Schema) (n g b : String) : Option Bool :=
  ((slotOf new n g).bind id).map fun _ => generatedOf cols new n g b

theorem targetSays_of (hn : (new.tables.map Obj.getName).Nodup) {t : Table} (ht : t ∈ new.tables) (e : t.name.fq = n)
    (hg : g ∈ t.columns.map (·.name)) : targetSays cols new n g b = some (t.columns.any (columnFrom cols g b)) := by
  unfold targetSays
  rw [slotOf_some hn ht e, generatedOf_some hn ht e]
  obtain ⟨y, hy⟩ := Option.isSome_iff_exists.mp (columnOf_isSome.mpr hg)
  simp [hy]

theorem says_target (dr : DiffRun opts old new d) (run : PlanRun opts d r r' stmts)
    (hn : (new.tables.map Obj.getName).Nodup) (hu : ∀ t ∈ new.tables, t.name.fq = n → (t.columns.map (·.name)).Nodup)
    {s : Statement} (hs : s ∈ stmts) : SaysOf cols n g b (targetSays cols new n g b) s.ddl := by
  cases e : s.ddl with
  | createTable x defs p =>
    intro ex
    obtain ⟨t, ht, et, h1, h2⟩ := createTable_known (cols := cols) (g := g) (b := b) dr run hs e ex
    by_cases hg : g ∈ defs.map (·.name)
    · right; rw [h1]; exact targetSays_of hn ht et ((h2 g).mp hg)
    · exact Or.inl hg
  | alterTable x a =>
    cases a with
    | addColumn def_ =>
      intro ex ed
      obtain ⟨o, t, ⟨_, ht, _, et, _⟩, c, hc, hno, hd⟩ := addColumn_known dr run hs e ex hu
      have hname : c.name = g := (buildColumnDefinition_name hd).symm.trans ed
      rw [targetSays_of hn ht et (List.mem_map.mpr ⟨c, hc, hname⟩), defFrom_eq hd]
      congr 1
      rw [Bool.eq_iff_iff, List.any_eq_true]
      constructor
      · rintro ⟨y, hy, h⟩
        have : y.name = g := of_decide_eq_true (by
          unfold columnFrom at h
          rw [Bool.and_assoc] at h
          exact (Bool.and_eq_true_iff.mp h).1)
        rw [List.inj_on_of_nodup_map (hu t ht et) hc hy (hname.trans this.symm)]
        exact h
      · exact fun h => ⟨c, hc, h⟩
    | _ => trivial
  | _ => trivial

/-- at the end `g` is there, computed from `b`, if and only if it is so in the target -/
theorem generated_converges (dr : DiffRun opts old new d) (run : PlanRun opts d r r' stmts)
    (hn : (new.tables.map Obj.getName).Nodup) {pg : Pg} (hp : ColumnsPlannable pg old new n)
    (hc : GeneratedChange cols old new n g b) :
    generatedAfter cols n g b (generatedOf cols old n g b) stmts = generatedOf cols new n g b := by
  have hno := diffLists_old_nodup dr.htd0
  have hrun := slots_converge dr run hn hp g
  have hsays : ∀ s ∈ stmts, SaysOf cols n g b (targetSays cols new n g b) s.ddl := fun s hs => says_target dr run hn hp.names hs
  have key : ∀ {l : List Statement} {q : Slot} {u : Bool}, (∀ s ∈ l, s ∈ stmts) → runSlot pg n g q l = some (slotOf new n g) →
      GeneratedAt (targetSays cols new n g b) q u → generatedAfter cols n g b u l = generatedOf cols new n g b := by
    intro l q u hl hr h
    obtain ⟨h1, h2⟩ := generatedAt_run (fun s hs => hsays s (hl s hs)) hr h
    cases hq : (slotOf new n g).bind id with
    | none =>
      rw [h1 hq]
      symm
      rw [← Bool.not_eq_true]
      intro h
      unfold generatedOf at h
      obtain ⟨t, ht, h⟩ := List.any_eq_true.mp h
      obtain ⟨h3, h4⟩ := Bool.and_eq_true_iff.mp h
      rw [slotOf_some hn ht (of_decide_eq_true h3)] at hq
      have := columnOf_isSome.mpr (from_named h4)
      have hq : columnOf t g = none := hq
      rw [hq] at this; cases this
    | some y =>
      refine h2 (by rw [hq]; rfl) _ ?_
      unfold targetSays; rw [hq]; rfl
  have gone : ∀ {u : Bool}, u = false → GeneratedAt (targetSays cols new n g b) none u := fun hu => ⟨fun _ => hu, fun h => by cases h⟩
  cases slot_fate dr run hn n with
  | absent ho hn' h hd =>
    rw [slotOf_none ho] at hrun
    exact key (fun _ h => h) hrun (gone (generatedOf_none ho))
  | added t ht e ho hm l hl h hd =>
    rw [slotOf_none ho] at hrun
    exact key (fun _ h => h) hrun (gone (generatedOf_none ho))
  | dropped o ho e hn' h hd =>
    refine key (fun _ h => h) hrun ⟨fun hq => ?_, fun _ v hv => ?_⟩
    · rw [slotOf_some hno ho e] at hq
      rw [generatedOf_some hno ho e, ← Bool.not_eq_true]
      intro h
      have := columnOf_isSome.mpr (from_named h)
      rw [show columnOf o g = none from hq] at this; cases this
    · unfold targetSays at hv
      rw [slotOf_none hn'] at hv; cases hv
  | recreated o t ho ht eo e hb hm l hl h hd hbefore =>
    have hd := hd (hp.oldRoot o ho eo)
    obtain ⟨a, c, rfl, hx, ha, hb⟩ := split_once hd
    obtain ⟨h1, h2⟩ := generated_drop (cols := cols) (b := b) (u := generatedOf cols old n g b) eo rfl hrun
    rw [h2]
    exact key (fun s hs => List.mem_append_right _ (List.mem_cons_of_mem _ hs)) h1 (gone rfl)
  | altered o t ho ht eo e td hb hm l hl h hd =>
    obtain ⟨i, j, hb⟩ := hb
    obtain ⟨_, _, _, hk, hpt, _⟩ := buildTableDiff_ok hb
    refine key (fun _ h => h) hrun ⟨fun hq => ?_, fun hq v hv => ?_⟩
    · rw [slotOf_some hno ho eo] at hq
      rw [generatedOf_some hno ho eo, ← Bool.not_eq_true]
      intro h
      have := columnOf_isSome.mpr (from_named h)
      rw [show columnOf o g = none from hq] at this; cases this
    · rw [slotOf_some hno ho eo] at hq
      have hgo := columnOf_isSome.mp hq
      have hgt : g ∈ t.columns.map (·.name) := by
        unfold targetSays at hv
        rw [slotOf_some hn ht e] at hv
        obtain ⟨y, hy, _⟩ := Option.map_eq_some_iff.mp hv
        exact columnOf_isSome.mp (by rw [show columnOf t g = some y from hy]; rfl)
      rw [targetSays_of hn ht e hgt] at hv
      cases hv
      rw [generatedOf_some hno ho eo]
      exact hc.same o t ⟨ho, ht, eo, e, hk, hpt⟩ hgo hgt

theorem makesFrom_target (dr : DiffRun opts old new d) (run : PlanRun opts d r r' stmts)
    (hn : (new.tables.map Obj.getName).Nodup) (hu : ∀ t ∈ new.tables, t.name.fq = n → (t.columns.map (·.name)).Nodup)
    {s : Statement} (hs : s ∈ stmts) (h : s.ddl.makesFrom cols n g b = true) : generatedOf cols new n g b = true := by
  cases e : s.ddl with
  | createTable x defs p =>
    rw [e] at h
    obtain ⟨h1, h2⟩ := Bool.and_eq_true_iff.mp h
    obtain ⟨t, ht, et, h3, _⟩ := createTable_known (cols := cols) (g := g) (b := b) dr run hs e (of_decide_eq_true h1)
    rw [generatedOf_some hn ht et, ← h3]; exact h2
  | alterTable x a =>
    cases a with
    | addColumn def_ =>
      rw [e] at h
      obtain ⟨h1, h2⟩ := Bool.and_eq_true_iff.mp h
      obtain ⟨o, t, ⟨_, ht, _, et, _⟩, c, hc, hno, hd⟩ := addColumn_known dr run hs e (of_decide_eq_true h1) hu
      rw [generatedOf_some hn ht et]
      exact List.any_eq_true.mpr ⟨c, hc, by rw [← defFrom_eq hd]; exact h2⟩
    | _ => rw [e] at h; cases h
  | _ => rw [e] at h; cases h

theorem generatedOf_normalize (s : Schema) : generatedOf cols s.normalize n g b = generatedOf cols s n g b := by
  unfold generatedOf
  rw [Bool.eq_iff_iff, List.any_eq_true, List.any_eq_true]
  constructor
  · rintro ⟨t, ht, h⟩
    obtain ⟨t0, h0, rfl⟩ := mem_normalize_tables ht
    exact ⟨t0, h0, h⟩
  · rintro ⟨t, ht, h⟩
    exact ⟨_, mem_normalize_tables_of ht, h⟩

theorem tableStays_normalize {o t : Table} (h : TableStays old.normalize new.normalize n o t) :
    ∃ o0 t0, TableStays old new n o0 t0 ∧ o.columns = o0.columns ∧ t.columns = t0.columns := by
  obtain ⟨ho, ht, h⟩ := h
  obtain ⟨o0, ho0, rfl⟩ := mem_normalize_tables ho
  obtain ⟨t0, ht0, rfl⟩ := mem_normalize_tables ht
  exact ⟨o0, t0, ⟨ho0, ht0, h⟩, rfl, rfl⟩

theorem generatedChange_normalize (h : GeneratedChange cols old new n g b) :
    GeneratedChange cols old.normalize new.normalize n g b := by
  refine ⟨fun t ht e => ?_, fun o t hs => ?_, fun o t hs => ?_, fun hs => ?_⟩
  · obtain ⟨t0, h0, rfl⟩ := mem_normalize_tables ht
    exact h.base t0 h0 e
  · obtain ⟨o0, t0, hs, e1, e2⟩ := tableStays_normalize hs
    rw [e1, e2]; exact h.same o0 t0 hs
  · obtain ⟨o0, t0, hs, e1, e2⟩ := tableStays_normalize hs
    rw [e1, e2]; exact h.added o0 t0 hs
  · rw [generatedOf_normalize, generatedOf_normalize]
    exact h.struck (struck_normalize hs)

/-- **C100** (partial): generated columns and the columns they are computed from.  Whatever two columns `g` and `b` of a table: a plan
makes no table and adds no column so that `g` is computed from a `b` that is not there, and it neither drops nor retypes `b` while
`g` is computed from it; at the end `b` is that of the target, and `g` is computed from it if and only if it is so in the target.
Left out are partitions that are there before and the changes that `GeneratedChange` excludes: both columns coming to or leaving a
table that stays, and a change of the type of `b` while `g` is computed from it.  There the plan may be rejected
(`C100_added_together_violated`, `C100_dropped_together_violated`, `C100_kept_generated_violated`). -/
theorem C100_generated_columns_partial (h : generateMigrationStatements r old new opts = .ok (stmts, r'))
    (hn : NamesUnique new.tables) {pg : Pg} (hp : ColumnsPlannable pg old new n) (hc : GeneratedChange cols old new n g b) :
    runGeneratedColumn pg cols n g b (slotOf old n b, generatedOf cols old n g b) stmts =
      some (slotOf new n b, generatedOf cols new n g b) := by
  have hslot := C71_tables_and_columns_converge_partial h hn hp b
  obtain ⟨d, ⟨dr⟩, ⟨run⟩⟩ := plan_runs h
  have hn' := normalize_tables_nodup hn
  have hp' := columnsPlannable_normalize hp
  have hc' := generatedChange_normalize hc
  have uno : NamesUnique old.tables := (normalize_tables_names old).nodup_iff.mp (diffLists_old_nodup dr.htd0)
  have hend := generated_converges dr run hn' hp' hc'
  rw [generatedOf_normalize, generatedOf_normalize] at hend
  rw [← hend]
  refine runGeneratedColumn_of hslot fun pre x post e q hq => ⟨?_, fun hx => ?_⟩
  · have hmem : x ∈ stmts := by rw [e]; simp
    cases ex : x.ddl with
    | createTable y defs p =>
      rw [← Bool.not_eq_true]
      intro hl
      obtain ⟨h1, h3⟩ := Bool.and_eq_true_iff.mp hl
      obtain ⟨h1, h2⟩ := Bool.and_eq_true_iff.mp h1
      obtain ⟨t, ht, et, h4, h5⟩ := createTable_known (cols := cols) (g := g) (b := b) dr run hmem ex (of_decide_eq_true h1)
      obtain ⟨z, hz, ez⟩ := List.mem_map.mp ((h5 b).mpr (hc'.base t ht et (by rw [← h4]; exact h2)))
      rw [List.any_eq_true.mpr ⟨z, hz, decide_eq_true ez⟩] at h3
      cases h3
    | alterTable y a =>
      cases a with
      | addColumn def_ =>
        rw [← Bool.not_eq_true]
        intro hl
        obtain ⟨h1, h3⟩ := Bool.and_eq_true_iff.mp hl
        obtain ⟨h1, h2⟩ := Bool.and_eq_true_iff.mp h1
        obtain ⟨o, t, hst, c, hcm, hno, hd⟩ := addColumn_known dr run hmem ex (of_decide_eq_true h1) hp'.names
        have hfrom : t.columns.any (columnFrom cols g b) = true :=
          List.any_eq_true.mpr ⟨c, hcm, by rw [← defFrom_eq hd]; exact h2⟩
        have hname : c.name = g :=
          (buildColumnDefinition_name hd).symm.trans (of_decide_eq_true (Bool.and_eq_true_iff.mp h2).1)
        have hbo := hc'.added o t hst (by rw [← hname]; exact hno) hfrom
        obtain ⟨ho, ht, eo, et, hk, hpt⟩ := hst
        have hbt := hc'.base t ht et hfrom
        obtain ⟨_, _, _, _, _, _, hdrop⟩ := slots_kept dr run hn' ho ht (n := n) eo et hk hpt
        rw [← find_normalize uno n b old rfl, slotOf_some (diffLists_old_nodup dr.htd0) ho eo] at hq
        obtain ⟨w, hw⟩ := Option.isSome_iff_exists.mp (columnOf_isSome.mpr hbo)
        rw [hw] at hq
        have := slot_undropped (fun z hz => ?_) (fun z hz => filter_nil_false hdrop z (by rw [e]; simp [hz])) hq
        · rw [this] at h3; cases h3
        · rw [← Bool.not_eq_true]
          intro hz'
          obtain ⟨o', t', ⟨_, ht', _, et', _⟩, _, hnot⟩ := dropColumn_known dr run (by rw [e]; simp [hz]) hz'
          have : t' = t := List.inj_on_of_nodup_map hn' ht' ht (et'.trans et.symm)
          rw [this] at hnot
          exact hnot hbt
      | _ => rfl
    | _ => rfl
  · have hmem : x ∈ stmts := by rw [e]; simp
    obtain ⟨s1, s2⟩ := hc.struck (struck_normalize (strikes_struck dr run hmem hx))
    rw [← Bool.not_eq_true]
    intro hb
    rcases generated_origin hb with ⟨s, hs, hm⟩ | hold
    · have := makesFrom_target dr run hn' hp'.names (by rw [e]; simp [hs]) hm
      rw [generatedOf_normalize, s2] at this; cases this
    · rw [s1] at hold; cases hold

/-! ### columns that generated columns stand in the way of -/

/-- while `g` is neither dropped nor added, and the table stays, `g` stays -/
theorem generated_stays {pg : Pg} : ∀ {l : List Statement} {s s' : Slot × Bool}, (∀ x ∈ l, x.ddl.dropsTable n = false) →
    (∀ x ∈ l, x.ddl.dropsColumn n g = false) →
    (∀ x ∈ l, ∀ y def_, x.ddl = .alterTable y (.addColumn def_) → y.fq = n → def_.name ≠ g) →
    s.1.isSome = true → s.2 = true → runGeneratedColumn pg cols n g b s l = some s' → s'.2 = true := by
  intro l
  induction l with
  | nil => intro s s' _ _ _ _ h e; cases e; exact h
  | cons x l ih =>
    intro s s' hd hc ha h1 h2 e
    unfold runGeneratedColumn at e
    rw [runWith] at e
    obtain ⟨s1, h3, h4⟩ := Option.bind_eq_some_iff.mp e
    have step : ∃ q, slotStep pg n b s.1 x.ddl = some q ∧ s1 = (q, generatedStep cols n g b s.2 x.ddl) := by
      unfold generatedColumnStep at h3
      split at h3
      · cases h3
      · split at h3
        · cases h3
        · obtain ⟨q, hq, rfl⟩ := Option.map_eq_some_iff.mp h3
          exact ⟨q, hq, rfl⟩
    obtain ⟨q, hq, rfl⟩ := step
    refine ih (fun y hy => hd y (List.mem_cons_of_mem _ hy)) (fun y hy => hc y (List.mem_cons_of_mem _ hy))
      (fun y hy => ha y (List.mem_cons_of_mem _ hy)) (slotStep_isSome (hd x List.mem_cons_self) h1 hq) ?_ h4
    have hd := hd x List.mem_cons_self
    have hc := hc x List.mem_cons_self
    have ha := ha x List.mem_cons_self
    show generatedStep cols n g b s.2 x.ddl = true
    rw [h2]
    cases ex : x.ddl with
    | createTable t defs p =>
      by_cases et : t.fq = n
      · rw [ex] at hq
        have hq := (if_pos et).symm.trans hq
        obtain ⟨y, hy⟩ := Option.isSome_iff_exists.mp h1
        rw [hy] at hq; cases hq
      · exact if_neg et
    | dropTable t =>
      rw [ex] at hd
      exact if_neg (of_decide_eq_false hd)
    | alterTable t a =>
      cases a with
      | addColumn d => exact if_neg fun h => ha t d ex h.1 h.2
      | dropColumn c =>
        rw [ex] at hc
        refine if_neg fun h => ?_
        simp [Ddl.dropsColumn, h.1, h.2] at hc
      | _ => rfl
    | _ => rfl

/-- **C100** (violated): whenever a column goes or changes its type while a generated column is computed from it, before and
after there being a column of that name, Postgres rejects the plan: nothing drops the generated column first. -/
theorem C100_kept_generated_violated (h : generateMigrationStatements r old new opts = .ok (stmts, r'))
    (hn : NamesUnique new.tables) {pg : Pg} (hp : ColumnsPlannable pg old new n) (hs : Struck old new n b)
    (hg : generatedOf cols old n g b = true) (hg' : ((slotOf new n g).bind id).isSome = true) :
    runGeneratedColumn pg cols n g b (slotOf old n b, generatedOf cols old n g b) stmts = none := by
  obtain ⟨s, hmem, hst⟩ := struck_strikes h hn hp hs
  obtain ⟨d, ⟨dr⟩, ⟨run⟩⟩ := plan_runs h
  have hn' := normalize_tables_nodup hn
  have hp' := columnsPlannable_normalize hp
  have uno := diffLists_old_nodup dr.htd0
  have uno' : NamesUnique old.tables := (normalize_tables_names old).nodup_iff.mp uno
  obtain ⟨o, ho, t, ht, eo, et, e1, e2, _⟩ := hs
  have ho := mem_normalize_tables_of ho
  have ht := mem_normalize_tables_of ht
  obtain ⟨_, _, _, _, _, _, hdrop⟩ := slots_kept dr run hn' ho ht (n := n) eo et e1 e2
  have hold : g ∈ (normalizeTable o).columns.map (·.name) := by
    rw [← generatedOf_normalize, generatedOf_some uno ho eo] at hg
    exact from_named hg
  have hnew : g ∈ (normalizeTable t).columns.map (·.name) := by
    rw [← find_normalize hn n g new rfl, slotOf_some hn' ht et] at hg'
    exact columnOf_isSome.mp hg'
  have hdropc : ∀ x ∈ stmts, x.ddl.dropsColumn n g = false := by
    intro x hx
    rw [← Bool.not_eq_true]
    intro hd
    obtain ⟨o', t', ⟨_, ht', _, et', _⟩, _, hnot⟩ := dropColumn_known dr run hx hd
    rw [List.inj_on_of_nodup_map hn' ht' ht (et'.trans et.symm)] at hnot
    exact hnot hnew
  have hadd : ∀ x ∈ stmts, ∀ y def_, x.ddl = .alterTable y (.addColumn def_) → y.fq = n → def_.name ≠ g := by
    intro x hx y def_ ex ey en
    obtain ⟨o', t', ⟨ho', _, eo', _⟩, c, _, hno, hd⟩ := addColumn_known dr run hx ex ey hp'.names
    rw [List.inj_on_of_nodup_map uno ho' ho (eo'.trans eo.symm)] at hno
    rw [buildColumnDefinition_name hd] at en
    rw [en] at hno
    exact hno hold
  have hslot : (slotOf old n b).isSome = true := by
    rw [← find_normalize uno' n b old rfl, slotOf_some uno ho eo]; rfl
  obtain ⟨pre, post, rfl⟩ := List.append_of_mem hmem
  unfold runGeneratedColumn
  rw [runWith_append]
  cases hpre : runWith (generatedColumnStep pg cols n g b) (slotOf old n b, generatedOf cols old n g b) pre with
  | none => rfl
  | some w =>
    have hw := generated_stays (fun x hx => filter_nil_false hdrop x (List.mem_append_left _ hx))
      (fun x hx => hdropc x (List.mem_append_left _ hx)) (fun x hx => hadd x (List.mem_append_left _ hx)) hslot hg hpre
    rw [Option.bind_some, runWith]
    have : generatedColumnStep pg cols n g b w s.ddl = none := by
      unfold generatedColumnStep
      split
      · rfl
      · rw [if_pos ⟨hst, hw⟩]
    rw [this]; rfl

end

namespace Samples

/-- a column computed from another one -/
def computed (g b : String) : Column := { col g "integer" with isGenerated := true, generationExpression := b ++ " + 1" }

/-- the columns these expressions mention -/
def computedCols (e : String) : List String := ["a", "b", "k"].filter fun c => decide (e = c ++ " + 1")

/-- a table with a generated column -/
def oldGenerated : Schema := { Schema.empty with
  tables := [table "t" [col "a" "integer", col "b" "integer", computed "x" "b"]] }

/-- one generated column goes, another comes, a column that nothing is computed from changes its type; and a new table -/
def newGenerated : Schema := { Schema.empty with
  tables := [table "t" [col "a" "bigint", col "b" "integer", computed "y" "b"],
    table "v" [computed "a" "k", col "k" "integer"]] }

/-- the column `x` is computed from changes its type -/
def typeGenerated : Schema := { Schema.empty with
  tables := [table "t" [col "a" "integer", col "b" "bigint", computed "x" "b"]] }

/-- a table, and the same table with a column `b` and a column computed from it, which comes before it in the alphabet -/
def plainTable : Schema := { Schema.empty with tables := [table "t" [col "k" "integer"]] }
def withComputed : Schema := { Schema.empty with
  tables := [table "t" [col "k" "integer", col "b" "integer", computed "a" "b"]] }

/-- here the column that the other one is computed from comes first -/
def withComputedLast : Schema := { Schema.empty with
  tables := [table "t" [col "k" "integer", col "b" "integer", computed "x" "b"]] }

/-- checks `GeneratedChange` -/
def generatedChecked (cols : String → List String) (old new : Schema) (n g b : String) : Bool :=
  decide (∀ t ∈ new.tables, t.name.fq = n → t.columns.any (columnFrom cols g b) = true → b ∈ t.columns.map Column.name) &&
  decide (∀ o ∈ old.tables, ∀ t ∈ new.tables, o.name.fq = n ∧ t.name.fq = n →
    (g ∈ o.columns.map Column.name ∧ g ∈ t.columns.map Column.name →
      o.columns.any (columnFrom cols g b) = t.columns.any (columnFrom cols g b)) ∧
    (g ∉ o.columns.map Column.name ∧ t.columns.any (columnFrom cols g b) = true → b ∈ o.columns.map Column.name)) &&
  decide (Struck old new n b → generatedOf cols old n g b = false ∧ generatedOf cols new n g b = false)

theorem generatedChange_of {cols : String → List String} {old new : Schema} {n g b : String}
    (h : generatedChecked cols old new n g b = true) : GeneratedChange cols old new n g b := by
  obtain ⟨h, h3⟩ := Bool.and_eq_true_iff.mp h
  obtain ⟨h1, h2⟩ := Bool.and_eq_true_iff.mp h
  have h2 := of_decide_eq_true h2
  exact ⟨of_decide_eq_true h1, fun o t hs h4 h5 => (h2 o hs.1 t hs.2.1 ⟨hs.2.2.1, hs.2.2.2.1⟩).1 ⟨h4, h5⟩,
    fun o t hs h4 h5 => (h2 o hs.1 t hs.2.1 ⟨hs.2.2.1, hs.2.2.2.1⟩).2 ⟨h4, h5⟩, of_decide_eq_true h3⟩

end Samples

open Samples in
/-- `C100_generated_columns_partial` is not vacuous: a generated column goes, another comes, another column of the table changes its
type, and a table comes with a generated column -/
example : ∃ stmts r', generateMigrationStatements Samples.rand oldGenerated newGenerated opts = .ok (stmts, r') ∧
    stmts.length = 5 ∧ ∀ p ∈ [("t", "x", "b"), ("t", "y", "b"), ("v", "a", "k"), ("t", "x", "a")],
      runGeneratedColumn pg computedCols (pub p.1).fq p.2.1 p.2.2
          (slotOf oldGenerated (pub p.1).fq p.2.2, generatedOf computedCols oldGenerated (pub p.1).fq p.2.1 p.2.2) stmts =
        some (slotOf newGenerated (pub p.1).fq p.2.2, generatedOf computedCols newGenerated (pub p.1).fq p.2.1 p.2.2) := by
  obtain ⟨stmts, r', h, hl⟩ := exists_plan (r := Samples.rand) (old := oldGenerated)
    (new := newGenerated) (opts := opts) (P := fun stmts => stmts.length = 5) (by decide +kernel)
  refine ⟨stmts, r', h, hl, fun p hp => ?_⟩
  refine C100_generated_columns_partial h (by unfold NamesUnique; decide +kernel) (columnsPlannable_of (by decide +kernel) _)
    (generatedChange_of ?_)
  revert p; decide +kernel

open Samples in
/-- `C100_kept_generated_violated` is not vacuous: a column changes its type, and the column computed from it stays -/
example : ∃ stmts r', generateMigrationStatements Samples.rand oldGenerated typeGenerated opts = .ok (stmts, r') ∧
    runGeneratedColumn pg computedCols (pub "t").fq "x" "b"
      (slotOf oldGenerated (pub "t").fq "b", generatedOf computedCols oldGenerated (pub "t").fq "x" "b") stmts = none := by
  obtain ⟨stmts, r', h, hl⟩ := exists_plan (r := Samples.rand) (old := oldGenerated)
    (new := typeGenerated) (opts := opts) (P := fun stmts => stmts.length = 2) (by decide +kernel)
  exact ⟨stmts, r', h, C100_kept_generated_violated h (by unfold NamesUnique; decide +kernel)
    (columnsPlannable_of (by decide +kernel) _) (by decide +kernel) (by decide +kernel) (by decide +kernel)⟩

open Samples in
/-- **C100** (violated): a generated column that comes together with the column it is computed from is added first if its name comes
first: the plan is rejected.  Both schemas are as Postgres can have them. -/
theorem C100_added_together_violated : ∃ stmts r', generateMigrationStatements Samples.rand plainTable withComputed opts =
      .ok (stmts, r') ∧ (∀ n, ColumnsPlannable pg plainTable withComputed n) ∧
    runGeneratedColumn pg computedCols (pub "t").fq "a" "b" (slotOf plainTable (pub "t").fq "b", false) stmts = none := by
  obtain ⟨stmts, r', h, hl⟩ := exists_plan (r := Samples.rand) (old := plainTable) (new := withComputed) (opts := opts)
    (P := fun stmts => runGeneratedColumn pg computedCols (pub "t").fq "a" "b" (slotOf plainTable (pub "t").fq "b", false) stmts =
      none) (by decide +kernel)
  exact ⟨stmts, r', h, columnsPlannable_of (by decide +kernel), hl⟩

open Samples in
/-- **C100** (violated): a generated column that goes together with the column it is computed from is dropped last if its name comes
last: the plan is rejected.  Both schemas are as Postgres can have them. -/
theorem C100_dropped_together_violated : ∃ stmts r', generateMigrationStatements Samples.rand withComputedLast plainTable opts =
      .ok (stmts, r') ∧ (∀ n, ColumnsPlannable pg withComputedLast plainTable n) ∧
    runGeneratedColumn pg computedCols (pub "t").fq "x" "b" (slotOf withComputedLast (pub "t").fq "b", true) stmts = none := by
  obtain ⟨stmts, r', h, hl⟩ := exists_plan (r := Samples.rand) (old := withComputedLast) (new := plainTable) (opts := opts)
    (P := fun stmts => runGeneratedColumn pg computedCols (pub "t").fq "x" "b" (slotOf withComputedLast (pub "t").fq "b", true)
      stmts = none) (by decide +kernel)
  exact ⟨stmts, r', h, columnsPlannable_of (by decide +kernel), hl⟩

end Verif
