import Verif.Spec.Enum
import Verif.Props.Phases
import Mathlib.Data.List.Nodup
import Mathlib.Data.List.Perm.Basic

/-!
# C12, C13: enums
-/

namespace Verif

theorem runEnums_append (k : String) (a b : List Statement) (st : Option (List String)) :
    runEnums k st (a ++ b) = (runEnums k st a).bind fun st => runEnums k st b := by
  induction a generalizing st with
  | nil => rfl
  | cons s a ih =>
    simp only [List.cons_append, runEnums, Option.bind_assoc, ih]

theorem runEnums_skip {k : String} {l : List Statement} (h : ∀ s ∈ l, ∀ st, s.ddl.runEnum k st = some st)
    (st : Option (List String)) : runEnums k st l = some st := by
  induction l with
  | nil => rfl
  | cons s l ih =>
    rw [runEnums, h s List.mem_cons_self]
    exact ih fun s hs => h s (List.mem_cons_of_mem _ hs)

/-! ### one enum -/

theorem insertBefore_append {l b : String} {pre rest : List String} (h : b ∉ pre) :
    insertBefore l b (pre ++ b :: rest) = some (pre ++ l :: b :: rest) := by
  induction pre with
  | nil => simp [insertBefore]
  | cons x pre ih =>
    simp only [List.mem_cons, not_or] at h
    simp only [List.cons_append, insertBefore]
    rw [if_neg (fun e => h.1 e.symm), ih h.2]; rfl

/-- inserting keeps the labels in their order and adds one -/
theorem insertBefore_of_mem {l b : String} {ls : List String} (h : b ∈ ls) :
    ∃ ls', insertBefore l b ls = some ls' ∧ ls.Sublist ls' ∧ ls'.Perm (l :: ls) := by
  induction ls with
  | nil => cases h
  | cons x ls ih =>
    simp only [insertBefore]
    split
    · exact ⟨_, rfl, List.sublist_cons_self _ _, List.Perm.refl _⟩
    · rename_i hx
      have hb : b ∈ ls := by
        rcases List.mem_cons.mp h with rfl | h
        · exact absurd rfl hx
        · exact h
      obtain ⟨ls', h1, h2, h3⟩ := ih hb
      exact ⟨x :: ls', by rw [h1]; rfl, h2.cons_cons x, (h3.cons x).trans (List.Perm.swap _ _ _)⟩

theorem EnumGen.addValues_own {n : SQName} {o ls : List String} : ∀ s ∈ EnumGen.addValues n o ls, ∃ l b,
    s.ddl = .addEnumValue n l b := by
  intro s hs
  obtain ⟨l, b, _, _, rfl⟩ := EnumGen.mem_addValues hs
  exact ⟨l, b, rfl⟩

/-- executing one ADD VALUE -/
theorem runEnums_add {n : SQName} {l : String} {b : Option String} {ls ls' : List String} (h : addValue l b ls = some ls') :
    runEnums n.getName (some ls) [stmt (.addEnumValue n l b)] = some (some ls') := by
  simp [runEnums, stmt, Ddl.runEnum, h]

/-- in general: nothing fails, the old labels stay in order, and the result is a rearrangement of the target -/
theorem EnumGen.addValues_perm {n : SQName} {o : List String} : ∀ {ls : List String}, ls.Nodup →
    ∃ out, runEnums n.getName (some o) (EnumGen.addValues n o ls) = some (some out) ∧ o.Sublist out ∧
      out.Perm (ls.filter (· ∉ o) ++ o) := by
  intro ls
  induction ls with
  | nil => intro _; exact ⟨o, rfl, List.Sublist.refl _, by simp⟩
  | cons l ls ih =>
    intro hnd
    obtain ⟨hl, hnd⟩ := List.nodup_cons.mp hnd
    obtain ⟨out, h1, h2, h3⟩ := ih hnd
    simp only [EnumGen.addValues, runEnums_append, h1, Option.bind_some]
    by_cases hmem : l ∈ o
    · rw [if_pos hmem]
      exact ⟨out, rfl, h2, by simpa [hmem] using h3⟩
    · rw [if_neg hmem]
      have hlo : l ∉ out := by
        intro hh
        have := h3.mem_iff.mp hh
        simp only [List.mem_append, List.mem_filter, decide_eq_true_eq] at this
        rcases this with ⟨h, _⟩ | h
        · exact hl h
        · exact hmem h
      have hfil : (l :: ls).filter (· ∉ o) = l :: ls.filter (· ∉ o) := by simp [hmem]
      cases ls with
      | nil =>
        refine ⟨out ++ [l], runEnums_add (by simp [addValue, hlo]), h2.trans (List.sublist_append_left _ _), ?_⟩
        rw [hfil]
        exact (List.perm_append_singleton l out).trans (h3.cons l)
      | cons b ls =>
        have hb : b ∈ out := by
          refine h3.mem_iff.mpr ?_
          by_cases hbo : b ∈ o <;> simp [hbo]
        obtain ⟨out', h4, h5, h6⟩ := insertBefore_of_mem (l := l) hb
        refine ⟨out', runEnums_add (by simpa [addValue, hlo] using h4), h2.trans h5, ?_⟩
        rw [hfil]
        exact h6.trans (h3.cons l)

/-- if the old labels keep their order, the result is exactly the target -/
theorem EnumGen.addValues_exact {n : SQName} {o : List String} : ∀ {pre ls : List String}, (pre ++ ls).Nodup →
    o = (pre ++ ls).filter (· ∈ o) →
    runEnums n.getName (some o) (EnumGen.addValues n o ls) = some (some (pre.filter (· ∈ o) ++ ls)) := by
  intro pre ls
  induction ls generalizing pre with
  | nil => intro _ h; simp only [List.append_nil] at h ⊢; rw [← h]; rfl
  | cons l ls ih =>
    intro hnd ho
    have e : pre ++ l :: ls = (pre ++ [l]) ++ ls := by simp
    have h1 := ih (pre := pre ++ [l]) (by rw [← e]; exact hnd) (by rw [← e]; exact ho)
    simp only [EnumGen.addValues, runEnums_append, h1, Option.bind_some]
    by_cases hmem : l ∈ o
    · rw [if_pos hmem, List.filter_append]
      simp [hmem, runEnums]
    · rw [if_neg hmem, List.filter_append]
      have hnil : [l].filter (· ∈ o) = [] := by simp [hmem]
      rw [hnil, List.append_nil]
      have hdis := List.nodup_append.mp hnd
      have hl : l ∉ List.filter (· ∈ o) pre ++ ls := by
        rw [List.mem_append, not_or]
        refine ⟨fun h => hmem (by simpa using (List.mem_filter.mp h).2), ?_⟩
        exact (List.nodup_cons.mp hdis.2.1).1
      cases ls with
      | nil => exact runEnums_add (by simpa [addValue] using hl)
      | cons b ls =>
        refine runEnums_add ?_
        unfold addValue
        rw [if_neg hl]
        refine insertBefore_append fun h => ?_
        exact hdis.2.2 b (List.mem_filter.mp h).1 b (by simp) rfl

/-- a sublist of a list without repetitions is picked out by membership -/
theorem sublist_eq_filter {o l : List String} (h : o.Sublist l) (hl : l.Nodup) : o = l.filter (· ∈ o) := by
  induction h with
  | slnil => rfl
  | cons a h ih =>
    obtain ⟨ha, hl⟩ := List.nodup_cons.mp hl
    have : a ∉ _ := fun hh => ha (h.subset hh)
    rw [List.filter_cons_of_neg (by simpa using this)]
    exact ih hl
  | cons_cons a h ih =>
    rename_i l₁ l₂
    obtain ⟨ha, hl⟩ := List.nodup_cons.mp hl
    rw [List.filter_cons_of_pos (by simp)]
    congr 1
    rw [List.filter_congr (q := (· ∈ l₁))]
    · exact ih hl
    · intro x hx
      have : x ≠ a := fun e => ha (e ▸ hx)
      simp [this]

theorem EnumGen.alter_ok {d : OldNew Enum} {l : List Statement} (h : EnumGen.alter d = .ok l) :
    ((∃ x ∈ d.old.labels, x ∉ d.new.labels) ∧ l = [stmt (.dropType d.old.name), stmt (.createEnum d.new.name d.new.labels)]) ∨
    ((∀ x ∈ d.old.labels, x ∈ d.new.labels) ∧ d.old.name = d.new.name ∧
      l = EnumGen.addValues d.new.name d.old.labels d.new.labels) := by
  unfold EnumGen.alter at h
  split at h
  · rename_i hr
    cases h
    refine Or.inl ⟨?_, rfl⟩
    simpa using hr
  · rename_i hr
    right
    refine ⟨by simpa using hr, ?_⟩
    split at h
    · cases h
    · rename_i he
      cases h
      refine ⟨?_, rfl⟩
      have := not_not.mp he
      have h2 := congrArg (fun e : Enum => e.name) this
      exact h2

/-- everything about one altered enum -/
theorem EnumGen.alter_run {d : OldNew Enum} {l : List Statement} (h : EnumGen.alter d = .ok l)
    (hname : d.old.name.getName = d.new.name.getName) (ho : d.old.labels.Nodup) (hn : d.new.labels.Nodup) :
    ∃ out, runEnums d.new.name.getName (some d.old.labels) l = some (some out) ∧ out.Perm d.new.labels ∧
      (out = d.new.labels ↔ (∃ x ∈ d.old.labels, x ∉ d.new.labels) ∨ d.old.labels.Sublist d.new.labels) := by
  rcases EnumGen.alter_ok h with ⟨hr, rfl⟩ | ⟨hr, e, rfl⟩
  · refine ⟨d.new.labels, ?_, List.Perm.refl _, iff_of_true rfl (Or.inl hr)⟩
    simp [runEnums, stmt, Ddl.runEnum, hname]
  · obtain ⟨out, h1, h2, h3⟩ := EnumGen.addValues_perm (n := d.new.name) (o := d.old.labels) hn
    refine ⟨out, h1, h3.trans ?_, ?_⟩
    · have hp := List.filter_append_perm (· ∉ d.old.labels) d.new.labels
      refine (List.Perm.append_left _ ?_).trans hp
      rw [List.perm_ext_iff_of_nodup ho (hn.filter _)]
      intro a
      simp only [List.mem_filter, decide_not, Bool.not_not, decide_eq_true_eq]
      exact ⟨fun h => ⟨hr a h, h⟩, fun h => h.2⟩
    · constructor
      · rintro rfl; exact Or.inr h2
      · rintro (⟨x, hx, hx'⟩ | hs)
        · exact absurd (hr x hx) hx'
        · have := EnumGen.addValues_exact (n := d.new.name) (pre := []) (ls := d.new.labels) hn (sublist_eq_filter hs hn)
          rw [h1] at this
          simpa using this

/-! ### the whole plan -/

theorem runEnum_of_not_outer {k : String} {s : Statement} (h : ¬ s.ddl.IsOuter) (st : Option (List String)) :
    s.ddl.runEnum k st = some st := by
  unfold Ddl.IsOuter at h
  unfold Ddl.runEnum
  split <;> simp_all

/-- statements of a list of objects with distinct names: only those of the namesake of `k` matter -/
theorem runEnums_concat_mem {S : Type} {key : S → String} {f : S → Except Err (List Statement)} {k : String} :
    ∀ {l : List S} {out : List Statement},
    (∀ a ∈ l, ∀ b, f a = .ok b → key a ≠ k → ∀ s ∈ b, ∀ st, s.ddl.runEnum k st = some st) →
    (l.map key).Nodup → concatMapM f l = .ok out →
    ∀ st, (k ∉ l.map key → runEnums k st out = some st) ∧
      (∀ a ∈ l, key a = k → ∃ b, f a = .ok b ∧ runEnums k st out = runEnums k st b) := by
  intro l
  induction l with
  | nil =>
    intro out _ _ h st
    cases h
    exact ⟨fun _ => rfl, fun a ha => by cases ha⟩
  | cons x l ih =>
    intro out hf hn h st
    simp only [concatMapM, except_bind_ok, except_pure_ok] at h
    obtain ⟨b, hb, y, hy, rfl⟩ := h
    obtain ⟨hx, hn'⟩ := List.nodup_cons.mp hn
    clear hn
    constructor
    · intro hk
      simp only [List.map_cons, List.mem_cons, not_or] at hk
      rw [runEnums_append, runEnums_skip (hf x List.mem_cons_self b hb fun e => hk.1 e.symm)]
      exact (ih (fun a ha => hf a (List.mem_cons_of_mem _ ha)) hn' hy st).1 hk.2
    · intro a ha hka
      rcases List.mem_cons.mp ha with rfl | ha
      · refine ⟨b, hb, ?_⟩
        rw [runEnums_append]
        cases hr : runEnums k st b with
        | none => rfl
        | some st' => exact (ih (fun a ha => hf a (List.mem_cons_of_mem _ ha)) hn' hy st').1 (by rw [← hka]; exact hx)
      · have hkx : key x ≠ k := fun e => hx (List.mem_map.mpr ⟨a, ha, hka.trans e.symm⟩)
        rw [runEnums_append, runEnums_skip (hf x List.mem_cons_self b hb hkx)]
        exact (ih (fun a ha => hf a (List.mem_cons_of_mem _ ha)) hn' hy st).2 a ha hka

theorem runEnums_concat {S : Type} {key : S → String} {f : S → Except Err (List Statement)} {k : String}
    (hf : ∀ a b, f a = .ok b → key a ≠ k → ∀ s ∈ b, ∀ st, s.ddl.runEnum k st = some st)
    {l : List S} {out : List Statement} (hn : (l.map key).Nodup) (h : concatMapM f l = .ok out) (st : Option (List String)) :
    (k ∉ l.map key → runEnums k st out = some st) ∧
      (∀ a ∈ l, key a = k → ∃ b, f a = .ok b ∧ runEnums k st out = runEnums k st b) :=
  runEnums_concat_mem (fun a _ b hb => hf a b hb) hn h st

/-- the type as the old schema has it -/
def enumIn (s : Schema) (k : String) : Option (List String) :=
  (s.enums.find? fun e => e.name.getName = k).map (·.labels)

theorem enumIn_some {s : Schema} (hn : (names s.enums).Nodup) {e : Enum} (he : e ∈ s.enums) :
    enumIn s e.name.getName = some e.labels := by
  unfold enumIn
  cases hf : s.enums.find? fun x => x.name.getName = e.name.getName with
  | none => exact absurd (List.find?_eq_none.mp hf e he) (by simp)
  | some x =>
    have h1 := List.mem_of_find?_eq_some hf
    have h2 : x.name.getName = e.name.getName := by simpa using List.find?_some hf
    rw [List.inj_on_of_nodup_map hn h1 he h2]; rfl

theorem enumIn_none {s : Schema} {k : String} (h : k ∉ names s.enums) : enumIn s k = none := by
  unfold enumIn
  rw [List.find?_eq_none.mpr, Option.map_none]
  intro e he hk
  exact h (List.mem_map.mpr ⟨e, he, of_decide_eq_true hk⟩)

/-- running a plan on one type: only the enum phases matter -/
theorem plan_runEnums {r r' : Rand} {old new : Schema} {opts : PlanOptions} {stmts : List Statement}
    (h : generateMigrationStatements r old new opts = .ok (stmts, r')) (hn : (names new.enums).Nodup) :
    (names old.enums).Nodup ∧
    (∀ e ∈ new.enums, e.name.getName ∉ names old.enums →
      runEnums e.name.getName none stmts = some (some e.labels)) ∧
    (∀ e ∈ old.enums, e.name.getName ∉ names new.enums →
      runEnums e.name.getName (some e.labels) stmts = some none) ∧
    (∀ o ∈ old.enums, ∀ e ∈ new.enums, o.name.getName = e.name.getName → ∃ l, EnumGen.alter ⟨o, e⟩ = .ok l ∧
      ∀ st, runEnums e.name.getName st stmts = runEnums e.name.getName st l) ∧
    (∀ k, k ∉ names old.enums → k ∉ names new.enums → ∀ st, runEnums k st stmts = some st) := by
  obtain ⟨d, ⟨dr⟩, ⟨run⟩⟩ := plan_runs h
  obtain ⟨n1, n2, n3⟩ := resolveToSQL_spec.mp run.henums
  obtain ⟨s1, s2, s3⟩ := resolveToSQL_spec.mp run.hschemas
  obtain ⟨e1, e2, e3⟩ := resolveToSQL_spec.mp run.hextensions
  have hnd : ((sortObjs new.enums).map Obj.getName).Nodup := ((sortObjs_perm _).map _).nodup_iff.mpr hn
  have hod : (names old.enums).Nodup := ((sortObjs_perm old.enums).map _).nodup_iff.mp (diffLists_old_nodup dr.henums)
  have hadds : (d.enumDiffs.adds.map fun e => e.name.getName).Nodup :=
    ((C08_every_object_once dr.henums hnd).2.2.2.1.map Obj.getName).nodup hnd
  have hdels : (d.enumDiffs.deletes.map fun e => e.name.getName).Nodup := diffLists_deletes_nodup dr.henums
  have halts : (d.enumDiffs.alters.map fun e => e.new.name.getName).Nodup := pairDiff_alters_nodup dr.henums hnd
  have mAdds : ∀ e, e ∈ d.enumDiffs.adds ↔ e ∈ new.enums ∧ Obj.getName e ∉ names old.enums := by
    intro e
    simp only [pairDiff_adds dr.henums hnd, Schema.normalize, names_sort, (sortObjs_perm _).mem_iff]
  have mDels : ∀ e, e ∈ d.enumDiffs.deletes ↔ e ∈ old.enums ∧ Obj.getName e ∉ names new.enums := by
    intro e
    simp only [pairDiff_deletes dr.henums, Schema.normalize, names_sort, (sortObjs_perm _).mem_iff]
  have mAlts : ∀ e, e ∈ d.enumDiffs.alters ↔ e.old ∈ old.enums ∧ e.new ∈ new.enums ∧ Obj.getName e.old = Obj.getName e.new := by
    intro e
    simp only [pairDiff_alters dr.henums hnd, Schema.normalize, (sortObjs_perm _).mem_iff]
  -- everything outside the enum phases is skipped
  have main : ∀ k st, runEnums k st stmts = (runEnums k st run.enums.adds).bind fun st =>
      (runEnums k st run.enums.alters).bind fun st => runEnums k st run.enums.deletes := by
    intro k st
    have skipS : ∀ {l : List Statement}, (∀ s ∈ l, (∃ n, s.ddl = .createSchema n) ∨ (∃ n, s.ddl = .dropSchema n) ∨
        (∃ a b c, s.ddl = .createExtension a b c) ∨ (∃ a, s.ddl = .dropExtension a) ∨ (∃ a b, s.ddl = .updateExtension a b)) →
        ∀ st, runEnums k st l = some st := by
      intro l hl st
      refine runEnums_skip (fun s hs st => ?_) st
      rcases hl s hs with ⟨n, e⟩ | ⟨n, e⟩ | ⟨a, b, c, e⟩ | ⟨a, e⟩ | ⟨a, b, e⟩ <;> rw [e] <;> rfl
    have a1 := skipS (l := run.schemas.adds) fun s hs => by
      obtain ⟨a, _, b, hb, hs⟩ := mem_concatMapM s1 hs
      cases hb; rw [List.mem_singleton.mp hs]; exact Or.inl ⟨_, rfl⟩
    have a2 := skipS (l := run.schemas.alters) fun s hs => by
      obtain ⟨a, _, b, hb, hs⟩ := mem_concatMapM s3 hs
      cases hb; cases hs
    have a3 := skipS (l := run.extensions.adds) fun s hs => by
      obtain ⟨a, _, b, hb, hs⟩ := mem_concatMapM e1 hs
      cases hb; rw [List.mem_singleton.mp hs]; exact Or.inr (Or.inr (Or.inl ⟨_, _, _, rfl⟩))
    have a4 := skipS (l := run.extensions.alters) fun s hs => by
      obtain ⟨a, _, b, hb, hs⟩ := mem_concatMapM e3 hs
      cases hb
      split at hs
      · rw [List.mem_singleton.mp hs]; exact Or.inr (Or.inr (Or.inr (Or.inr ⟨_, _, rfl⟩)))
      · cases hs
    have a5 : ∀ st, runEnums k st run.ordered = some st :=
      runEnums_skip fun s hs => let ⟨_, h⟩ := run.graph_shape hs; runEnum_of_not_outer h.not_outer
    have a6 := skipS (l := run.extensions.deletes) fun s hs => by
      obtain ⟨a, _, b, hb, hs⟩ := mem_concatMapM e2 hs
      cases hb; rw [List.mem_singleton.mp hs]; exact Or.inr (Or.inr (Or.inr (Or.inl ⟨_, rfl⟩)))
    have a7 := skipS (l := run.schemas.deletes) fun s hs => by
      obtain ⟨a, _, b, hb, hs⟩ := mem_concatMapM s2 hs
      cases hb; rw [List.mem_singleton.mp hs]; exact Or.inr (Or.inl ⟨_, rfl⟩)
    have e := congrArg (runEnums k st) run.hstmts
    rw [e]
    simp only [SchemaGen.assemble, runEnums_append, a1, a2, a3, a4, a5, a6, a7, Option.bind_some, Option.bind_assoc,
      Option.bind_fun_some]
  have cAdd := fun k => runEnums_concat (key := fun e : Enum => e.name.getName) (k := k)
    (fun a b hb hk s hs st => by
      cases hb; rw [List.mem_singleton.mp hs]; simp only [stmt, Ddl.runEnum]; exact if_neg hk) hadds n1
  have cDel := fun k => runEnums_concat (key := fun e : Enum => e.name.getName) (k := k)
    (fun a b hb hk s hs st => by
      cases hb; rw [List.mem_singleton.mp hs]; simp only [stmt, Ddl.runEnum]; exact if_neg hk) hdels n2
  have cAlt : ∀ k st, (k ∉ d.enumDiffs.alters.map (fun e => e.new.name.getName) →
        runEnums k st run.enums.alters = some st) ∧
      (∀ a ∈ d.enumDiffs.alters, a.new.name.getName = k → ∃ b, EnumGen.alter a = .ok b ∧
        runEnums k st run.enums.alters = runEnums k st b) := by
    intro k st
    -- an altered enum has one name, so that its statements concern no other
    have hs : ∀ a ∈ d.enumDiffs.alters, ∀ b, EnumGen.alter a = .ok b → a.new.name.getName ≠ k →
        ∀ s ∈ b, ∀ st, s.ddl.runEnum k st = some st := by
      intro a ha b hb hk s hs st
      have hnm : a.old.name.getName = a.new.name.getName := ((mAlts a).mp ha).2.2
      rcases EnumGen.alter_ok hb with ⟨_, rfl⟩ | ⟨_, _, rfl⟩
      · simp only [List.mem_cons, List.not_mem_nil, or_false] at hs
        rcases hs with rfl | rfl
        · simp only [stmt, Ddl.runEnum]; exact if_neg (by rw [hnm]; exact hk)
        · simp only [stmt, Ddl.runEnum]; exact if_neg hk
      · obtain ⟨l, b, _, _, rfl⟩ := EnumGen.mem_addValues hs
        simp only [stmt, Ddl.runEnum]; exact if_neg hk
    exact runEnums_concat_mem hs halts n3 st
  refine ⟨hod, ?_, ?_, ?_, ?_⟩
  · intro e he hne
    rw [main]
    obtain ⟨b, hb, hr⟩ := (cAdd _ none).2 e ((mAdds e).mpr ⟨he, hne⟩) rfl
    cases hb
    have h1 : runEnums e.name.getName none run.enums.adds = some (some e.labels) := by
      rw [hr]; simp [runEnums, stmt, Ddl.runEnum]
    have h2 := (cAlt e.name.getName (some e.labels)).1 fun hm => by
      obtain ⟨a, ha, e'⟩ := List.mem_map.mp hm
      have := (mAlts a).mp ha
      exact hne (List.mem_map.mpr ⟨a.old, this.1, this.2.2.trans e'⟩)
    have h3 := (cDel e.name.getName (some e.labels)).1 fun hm => by
      obtain ⟨a, ha, e'⟩ := List.mem_map.mp hm
      exact hne (List.mem_map.mpr ⟨a, ((mDels a).mp ha).1, e'⟩)
    rw [h1, Option.bind_some, h2, Option.bind_some, h3]
  · intro e he hne
    rw [main]
    have h1 := (cAdd e.name.getName (some e.labels)).1 fun hm => by
      obtain ⟨a, ha, e'⟩ := List.mem_map.mp hm
      exact hne (List.mem_map.mpr ⟨a, ((mAdds a).mp ha).1, e'⟩)
    have h2 := (cAlt e.name.getName (some e.labels)).1 fun hm => by
      obtain ⟨a, ha, e'⟩ := List.mem_map.mp hm
      exact hne (List.mem_map.mpr ⟨a.new, ((mAlts a).mp ha).2.1, e'⟩)
    obtain ⟨b, hb, hr⟩ := (cDel _ (some e.labels)).2 e ((mDels e).mpr ⟨he, hne⟩) rfl
    cases hb
    rw [h1, Option.bind_some, h2, Option.bind_some, hr]
    simp [runEnums, stmt, Ddl.runEnum]
  · intro o ho e he hname
    have hmem : (⟨o, e⟩ : OldNew Enum) ∈ d.enumDiffs.alters := (mAlts _).mpr ⟨ho, he, hname⟩
    obtain ⟨l, hl, _⟩ := (cAlt e.name.getName none).2 _ hmem rfl
    refine ⟨l, hl, fun st => ?_⟩
    rw [main]
    have h1 := (cAdd e.name.getName st).1 fun hm => by
      obtain ⟨a, ha, e'⟩ := List.mem_map.mp hm
      exact ((mAdds a).mp ha).2 (List.mem_map.mpr ⟨o, ho, hname.trans e'.symm⟩)
    obtain ⟨l', hl', h2⟩ := (cAlt e.name.getName st).2 _ hmem rfl
    rw [hl] at hl'; cases hl'
    have h3 := fun st => (cDel e.name.getName st).1 fun hm => by
      obtain ⟨a, ha, e'⟩ := List.mem_map.mp hm
      exact ((mDels a).mp ha).2 (List.mem_map.mpr ⟨e, he, e'.symm⟩)
    rw [h1, Option.bind_some, h2]
    simp only [h3, Option.bind_fun_some]
  · intro k ho hn st
    rw [main]
    have h1 := (cAdd k st).1 fun hm => by
      obtain ⟨a, ha, e'⟩ := List.mem_map.mp hm
      exact hn (List.mem_map.mpr ⟨a, ((mAdds a).mp ha).1, e'⟩)
    have h2 := (cAlt k st).1 fun hm => by
      obtain ⟨a, ha, e'⟩ := List.mem_map.mp hm
      exact hn (List.mem_map.mpr ⟨a.new, ((mAlts a).mp ha).2.1, e'⟩)
    have h3 := (cDel k st).1 fun hm => by
      obtain ⟨a, ha, e'⟩ := List.mem_map.mp hm
      exact ho (List.mem_map.mpr ⟨a, ((mDels a).mp ha).1, e'⟩)
    rw [h1, Option.bind_some, h2, Option.bind_some, h3]

/-- C12.  Executing a plan leaves every enum type that the target has with exactly the target's labels (in some order)
and drops every type that the target does not have; PostgreSQL rejects none of the enum statements.  The labels come out
in the target's order if the type is new, if a label is removed, or if the labels that stay keep their relative order. -/
theorem C12_enum_migration {r r' : Rand} {old new : Schema} {opts : PlanOptions} {stmts : List Statement}
    (h : generateMigrationStatements r old new opts = .ok (stmts, r')) (hn : (names new.enums).Nodup)
    (ho : ∀ e ∈ old.enums, e.labels.Nodup) (hl : ∀ e ∈ new.enums, e.labels.Nodup) :
    (∀ e ∈ new.enums, ∃ out, runEnums e.name.getName (enumIn old e.name.getName) stmts = some (some out) ∧
      out.Perm e.labels ∧
      ((∀ o, enumIn old e.name.getName = some o → (∃ x ∈ o, x ∉ e.labels) ∨ o.Sublist e.labels) → out = e.labels)) ∧
    (∀ k, k ∉ names new.enums → runEnums k (enumIn old k) stmts = some none) := by
  obtain ⟨hod, p1, p2, p3, p4⟩ := plan_runEnums h hn
  refine ⟨fun e he => ?_, fun k hk => ?_⟩
  · by_cases hmem : e.name.getName ∈ names old.enums
    · obtain ⟨o, ho', hname⟩ := List.mem_map.mp hmem
      have hname : o.name.getName = e.name.getName := hname
      obtain ⟨l, hl', hrun⟩ := p3 o ho' e he hname
      obtain ⟨out, h1, h2, h3⟩ := EnumGen.alter_run hl' hname (ho o ho') (hl e he)
      have hin : enumIn old e.name.getName = some o.labels := hname ▸ enumIn_some hod ho'
      rw [hin]
      exact ⟨out, (hrun _).trans h1, h2, fun hh => h3.mpr (hh _ rfl)⟩
    · rw [enumIn_none hmem]
      exact ⟨e.labels, p1 e he hmem, List.Perm.refl _, fun _ => rfl⟩
  · by_cases hmem : k ∈ names old.enums
    · obtain ⟨o, ho', hname⟩ := List.mem_map.mp hmem
      have hname : o.name.getName = k := hname
      subst hname
      rw [enumIn_some hod ho']
      exact p2 o ho' hk
    · rw [enumIn_none hmem]
      exact p4 k hmem hk none

namespace Samples

def enum (n : String) (ls : List String) : Enum := ⟨pub n, ls⟩

def oldE : Schema := { Schema.empty with
  namedSchemas := [⟨"public"⟩]
  enums := [enum "grown" ["b", "d"], enum "shrunk" ["x", "y"], enum "gone" ["z"]] }
def newE : Schema := { Schema.empty with
  namedSchemas := [⟨"public"⟩]
  enums := [enum "grown" ["a", "b", "c", "d", "e"], enum "shrunk" ["y"], enum "born" ["p", "q"]] }

def oldR : Schema := { Schema.empty with
  namedSchemas := [⟨"public"⟩]
  enums := [enum "r" ["a", "b"]] }
def newR : Schema := { Schema.empty with
  namedSchemas := [⟨"public"⟩]
  enums := [enum "r" ["b", "a"]] }

end Samples

open Samples in
/-- the hypotheses of C12 hold for schemas with a grown, a shrunk, a removed and a new enum, and the plan has seven statements -/
example : (names newE.enums).Nodup ∧ (∀ e ∈ oldE.enums, e.labels.Nodup) ∧ (∀ e ∈ newE.enums, e.labels.Nodup) ∧
    ∃ stmts r', generateMigrationStatements rand oldE newE opts = .ok (stmts, r') ∧ stmts.length = 7 := by
  refine ⟨by decide +kernel, by decide +kernel, by decide +kernel, ?_⟩
  exact exists_plan (by decide +kernel)

/-- C13, the part that holds: after the plan the labels of an enum that exists before and after are in the target's order
if and only if a label is removed (then the type is recreated) or the old labels keep their relative order.  Missing: the
order of the target whatever the old order, which `C13_label_order_violated` refutes. -/
theorem C13_label_order_partial {r r' : Rand} {old new : Schema} {opts : PlanOptions} {stmts : List Statement}
    (h : generateMigrationStatements r old new opts = .ok (stmts, r')) (hn : (names new.enums).Nodup)
    {o e : Enum} (ho : o ∈ old.enums) (he : e ∈ new.enums) (hname : o.name.getName = e.name.getName)
    (hol : o.labels.Nodup) (hel : e.labels.Nodup) :
    runEnums e.name.getName (some o.labels) stmts = some (some e.labels) ↔
      (∃ x ∈ o.labels, x ∉ e.labels) ∨ o.labels.Sublist e.labels := by
  obtain ⟨_, _, _, p3, _⟩ := plan_runEnums h hn
  obtain ⟨l, hl, hrun⟩ := p3 o ho e he hname
  obtain ⟨out, h1, _, h3⟩ := EnumGen.alter_run hl hname hol hel
  rw [hrun, h1, ← h3]
  simp

open Samples in
/-- C13 is violated: for an enum whose two labels change places the plan is empty, so that the type keeps its old order. -/
theorem C13_label_order_violated :
    ∃ (r r' : Rand) (old new : Schema) (opts : PlanOptions) (stmts : List Statement) (o e : Enum),
      generateMigrationStatements r old new opts = .ok (stmts, r') ∧ (names new.enums).Nodup ∧
      o ∈ old.enums ∧ e ∈ new.enums ∧ o.name = e.name ∧ o.labels.Nodup ∧ e.labels.Nodup ∧
      runEnums e.name.getName (some o.labels) stmts ≠ some (some e.labels) := by
  obtain ⟨stmts, r', h, hl⟩ : ∃ stmts r', generateMigrationStatements rand oldR newR opts = .ok (stmts, r') ∧ stmts = [] :=
    exists_plan (by decide +kernel)
  subst hl
  refine ⟨rand, r', oldR, newR, opts, [], enum "r" ["a", "b"], enum "r" ["b", "a"], h, ?_, ?_, ?_, rfl, ?_, ?_, ?_⟩ <;>
    decide +kernel

open Samples in
/-- the hypotheses of the partial theorem hold with either outcome -/
example : ∃ stmts r', generateMigrationStatements rand oldE newE opts = .ok (stmts, r') ∧
    runEnums (enum "grown" []).name.getName (some ["b", "d"]) stmts = some (some ["a", "b", "c", "d", "e"]) ∧
    runEnums (enum "shrunk" []).name.getName (some ["x", "y"]) stmts = some (some ["y"]) :=
  exists_plan (by decide +kernel)

end Verif
