import Verif.Lemmas.IndexStep
import Verif.Lemmas.TableFate
import Verif.Props.IndexReplace
import Verif.Props.Check

/-!
# What becomes of one index
-/

namespace Verif

open Spec

/-! ### running -/

theorem allBefore_or_right {α : Type} {P Q R : α → Prop} {l : List α} (h1 : AllBefore P Q l) (h2 : AllBefore P R l) :
    AllBefore P (fun x => Q x ∨ R x) l := by
  unfold AllBefore at *
  rw [List.pairwise_iff_getElem] at *
  rintro i j hi hj hij ⟨a | a, b⟩
  · exact h1 i j hi hj hij ⟨a, b⟩
  · exact h2 i j hi hj hij ⟨a, b⟩

/-- what statements that do not name an index look at -/
def SamePlace (x y : IndexState) : Prop := x.onView = y.onView ∧ x.owner = y.owner ∧ x.definition = y.definition

theorem SamePlace.takes {tx : IndexTexts} {x y : IndexState} (h : SamePlace x y) (z : Ddl) :
    z.takesIndex tx x = z.takesIndex tx y := by
  obtain ⟨h1, h2, h3⟩ := h
  unfold Ddl.takesIndex
  rw [h1, h2, h3]

section
variable {tx : IndexTexts} {n : String} {x0 : IndexState}

/-- a statement that builds an index at the place of `x0` -/
def BuildsAt (tx : IndexTexts) (n : String) (x0 : IndexState) (y : Ddl) : Prop :=
  ∀ s s', nameStep tx n s y = some (some s') → (∀ x, s = some x → SamePlace x x0) → SamePlace s' x0

/-- only the statements that build the index matter, if nothing takes it along afterwards -/
theorem runName_filter {l : List Statement} (h : ∀ y ∈ l, y.ddl.makesIndex n = false → y.ddl.namesIndex n = false)
    (hb : ∀ y ∈ l, y.ddl.makesIndex n = true → BuildsAt tx n x0 y.ddl)
    (hk : AllBefore (fun s : Statement => s.ddl.takesIndex tx x0 = true) (fun s => s.ddl.makesIndex n = true) l)
    {s : Option IndexState} (hs : ∀ x, s = some x → SamePlace x x0)
    (h0 : s = none ∨ ∀ y ∈ l, y.ddl.takesIndex tx x0 = false) :
    runName tx n s l = runName tx n s (l.filter fun y : Statement => y.ddl.makesIndex n) := by
  unfold runName
  induction l generalizing s with
  | nil => rfl
  | cons y l ih =>
    have hl := (List.pairwise_cons.mp hk)
    have ih := @ih (fun z hz => h z (List.mem_cons_of_mem _ hz)) (fun z hz => hb z (List.mem_cons_of_mem _ hz)) hl.2
    cases hy : y.ddl.makesIndex n with
    | true =>
      rw [List.filter_cons, if_pos hy]
      unfold runWith
      cases hstep : nameStep tx n s y.ddl with
      | none => rfl
      | some s' =>
        refine ih ?_ (Or.inr fun z hz => ?_)
        · rintro x rfl
          exact hb y List.mem_cons_self hy s x hstep hs
        · cases hz' : z.ddl.takesIndex tx x0 with
          | false => rfl
          | true => exact absurd ⟨hy, hz'⟩ (hl.1 z hz)
    | false =>
      rw [List.filter_cons, if_neg (by rw [hy]; simp)]
      have hn := h y List.mem_cons_self hy
      have hstep : nameStep tx n s y.ddl = some s := by
        cases s with
        | none => exact nameStep_none hn
        | some x =>
          refine nameStep_keeps hn ?_
          rcases h0 with h0 | h0
          · cases h0
          · rw [SamePlace.takes (hs x rfl)]; exact h0 y List.mem_cons_self
      rw [runWith_cons hstep]
      refine ih hs ?_
      rcases h0 with h0 | h0
      · exact Or.inl h0
      · exact Or.inr fun z hz => h0 z (List.mem_cons_of_mem _ hz)

/-- an index that is there goes away: by one statement that names it -/
theorem runName_leaves {x : IndexState} {l : List Statement} {p : Statement → Bool} {e : Statement} (h1 : l.filter p = [e])
    (hp : ∀ y ∈ l, y.ddl.renamesIndex n = true ∨ y.ddl.dropsIndexNamed n = true → p y = true)
    (ho : ∀ y ∈ l, y.ddl.renamesOnto n = false)
    (he : nameStep tx n (some x) e.ddl = some none)
    (hk : AllBefore (fun s => p s = true) (fun s : Statement => s.ddl.takesIndex tx x = true) l)
    (hm : AllBefore (fun s => p s = true) (fun s : Statement => s.ddl.makesIndex n = true) l) :
    ∃ a b, l = a ++ b ∧ runName tx n (some x) a = some none ∧ (∀ y ∈ a, y.ddl.makesIndex n = true → p y = true) ∧
      (∀ y ∈ a, p y = true → y = e) ∧
      ∀ y ∈ b, y.ddl.makesIndex n = false → y.ddl.namesIndex n = false := by
  obtain ⟨a, b, rfl, hpe, ha, hb⟩ := split_once h1
  have hna : ∀ y ∈ a, y.ddl.makesIndex n = false := by
    intro y hy
    cases h : y.ddl.makesIndex n with
    | false => rfl
    | true => exact absurd h (hm.not_before hpe y hy)
  have names : ∀ y ∈ a ++ e :: b, p y = false → y.ddl.makesIndex n = false → y.ddl.namesIndex n = false := by
    intro y hy h2 h3
    unfold Ddl.namesIndex
    have := hp y hy
    rw [h2] at this
    simp only [Bool.false_eq_true, imp_false, not_or, Bool.not_eq_true] at this
    rw [this.1, this.2, ho y hy, h3]; rfl
  refine ⟨a ++ [e], b, by simp, ?_, ?_, ?_, ?_⟩
  · unfold runName
    rw [runWith_at ?_ he]
    · rfl
    · intro y hy
      refine nameStep_keeps (names y (by simp [hy]) (ha y hy) (hna y hy)) ?_
      cases h : y.ddl.takesIndex tx x with
      | false => rfl
      | true => exact absurd h (hk.not_before hpe y hy)
  · intro y hy h
    rcases List.mem_append.mp hy with hy | hy
    · rw [hna y hy] at h; cases h
    · rw [List.mem_singleton.mp hy]; exact hpe
  · intro y hy h
    rcases List.mem_append.mp hy with hy | hy
    · rw [ha y hy] at h; cases h
    · exact List.mem_singleton.mp hy
  · intro y hy h
    exact names y (by simp [hy]) (hb y hy) h

/-- an index that is there goes away: with its relation -/
theorem runName_taken {x : IndexState} {l : List Statement} (hn : ∀ y ∈ l, y.ddl.makesIndex n = false → y.ddl.namesIndex n = false)
    {k : Statement} (hk : k ∈ l) (ht : k.ddl.takesIndex tx x = true)
    (hm : AllBefore (fun s : Statement => s.ddl.takesIndex tx x = true) (fun s : Statement => s.ddl.makesIndex n = true) l) :
    ∃ a b, l = a ++ b ∧ runName tx n (some x) a = some none ∧ (∀ y ∈ a, y.ddl.makesIndex n = false) := by
  obtain ⟨a, e, b, rfl, he, ha⟩ := split_first (p := fun s : Statement => s.ddl.takesIndex tx x) hk ht
  have hna : ∀ y ∈ a, y.ddl.makesIndex n = false := by
    intro y hy
    cases h : y.ddl.makesIndex n with
    | false => rfl
    | true => exact absurd h (hm.not_before he y hy)
  refine ⟨a ++ [e], b, by simp, ?_, ?_⟩
  · unfold runName
    rw [runWith_at ?_ (nameStep_takes he)]
    · rfl
    · intro y hy
      exact nameStep_keeps (hn y (by simp [hy]) (hna y hy)) (ha y hy)
  · intro y hy
    rcases List.mem_append.mp hy with hy | hy
    · exact hna y hy
    · rw [List.mem_singleton.mp hy]
      exact (namesIndex_false (takes_namesIndex he)).2.2.1

end

/-! ### statements of one vertex -/

section
variable {opts : PlanOptions} {old new : Schema} {d : SchemaDiff} {r r' : Rand} {stmts : List Statement}

/-- statements of one vertex of a part of the graph, in the order of the plan -/
theorem PlanRun.part_filter (run : PlanRun opts d r r' stmts) {f : Family} (hf : f ∈ [Family.attach, .rename, .index, .fk,
      .sequence, .ownership, .function, .procedure, .trigger, .matView]) {n : String} {k : DiffType} {P : Statement → Bool}
    (hid : ∀ id s, GraphShape opts d run.s3 id s → P s = true → id = ⟨f.kind, n, k⟩)
    (hout : ∀ s : Statement, s.ddl.IsOuter → P s = false) :
    stmts.filter P = (run.part f).statements.filter P := by
  obtain ⟨a, b, e, ha, hb⟩ := run.around
  have h0 : stmts.filter P = run.ordered.filter P := by
    refine (congrArg (List.filter P) e).trans ?_
    rw [List.filter_append, List.filter_append]
    have : ∀ l : List Statement, (∀ s ∈ l, s.ddl.IsOuter) → l.filter P = [] := fun l hl => by
      rw [List.filter_eq_nil_iff]
      intro s hs hp
      rw [hout s (hl s hs)] at hp; cases hp
    rw [this a ha, this b hb]; simp
  have h1 : run.ordered.filter P = run.graph.statements.filter P := by
    refine order_filter run.hordered (⟨f.kind, n, k⟩ : VertexId).text ?_
    intro v hv s hs hp
    rw [hid v.id s (run.vertex_shape hv hs) hp]
  have e2 : run.graph = PartialGraph.concat ([Family.table, .attach, .rename, .index, .fk, .sequence, .ownership,
      .function, .procedure, .trigger, .view, .matView].map run.part) := rfl
  have other : ∀ g ∈ [Family.table, .attach, .rename, .index, .fk, .sequence, .ownership, .function, .procedure, .trigger,
      .view, .matView], g ≠ f → (run.part g).statements.filter P = [] := by
    intro g hg hne
    rw [List.filter_eq_nil_iff]
    intro s hs hp
    obtain ⟨v, hv, hs'⟩ := PartialGraph.mem_statements.mp hs
    have hv' : v ∈ run.graph.vertices := by
      rw [e2]; exact PartialGraph.mem_vertices_concat.mpr ⟨_, List.mem_map_of_mem hg, hv⟩
    have hi := hid v.id s (run.vertex_shape hv' hs') hp
    have hk := run.part_kind hv
    rw [hi] at hk
    simp only [List.mem_cons, List.not_mem_nil, or_false] at hf hg
    rcases hf with rfl | rfl | rfl | rfl | rfl | rfl | rfl | rfl | rfl | rfl <;>
      rcases hg with rfl | rfl | rfl | rfl | rfl | rfl | rfl | rfl | rfl | rfl | rfl | rfl <;>
      first | exact hne rfl | (simp [Family.kind] at hk)
  have h2 : ∀ l : List Family, l.Nodup → f ∈ l → (∀ g ∈ l, g ≠ f → (run.part g).statements.filter P = []) →
      (PartialGraph.concat (l.map run.part)).statements.filter P = (run.part f).statements.filter P := by
    intro l hl hfl ho
    rw [PartialGraph.statements_concat, List.flatMap_map, filter_flatMap]
    obtain ⟨l1, l2, rfl⟩ := List.append_of_mem hfl
    rw [List.flatMap_append, List.flatMap_cons, flatMap_eq_nil_of, flatMap_eq_nil_of]
    · simp
    · intro g hg
      refine ho g (by simp [hg]) ?_
      rintro rfl
      exact (List.nodup_cons.mp (List.nodup_append.mp hl).2.1).1 hg
    · intro g hg
      refine ho g (by simp [hg]) ?_
      rintro rfl
      exact (List.nodup_append.mp hl).2.2 g hg g List.mem_cons_self rfl
  rw [h0, h1, e2]
  refine h2 _ (by decide) ?_ other
  simp only [List.mem_cons, List.not_mem_nil, or_false] at hf ⊢
  rcases hf with h | h | h | h | h | h | h | h | h | h <;> simp [h]

end
end Verif
