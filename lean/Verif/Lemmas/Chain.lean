import Verif.Lemmas.Focus
import Verif.Spec.Hazards

/-!
# Which statements of a plan come before which
-/

namespace Verif

section
variable {σ : Type}

theorem order_allBefore {parts : PartialGraph σ} {out : List σ} (h : orderPartial parts = .ok out) {P Q : σ → Prop}
    (hPQ : ∀ u ∈ parts.vertices, ∀ v ∈ parts.vertices, ∀ x ∈ u.statements, ∀ y ∈ v.statements, P x → Q y →
      Relation.TransGen parts.Declared u.id.text v.id.text) : AllBefore P Q out := by
  obtain ⟨order, hn, _, hd, _, rfl⟩ := orderPartial_spec parts h
  have bef : ∀ a b, Relation.TransGen parts.Declared a b → ∀ pre post, order = pre ++ b :: post → a ∈ pre := by
    intro a b hab
    induction hab with
    | single h => exact hd _ _ h
    | @tail b c h1 h2 ih =>
      intro pre post e
      obtain ⟨p1, p2, rfl⟩ := List.append_of_mem (hd _ _ h2 pre post e)
      exact List.mem_append_left _ (ih p1 (p2 ++ c :: post) (by rw [e]; simp))
  have mem : ∀ {a x}, x ∈ parts.contributed a → ∃ v ∈ parts.vertices, v.id.text = a ∧ x ∈ v.statements := by
    intro a x hx
    obtain ⟨v, hv, hx⟩ := List.mem_flatMap.mp hx
    obtain ⟨hv, e⟩ := List.mem_filter.mp hv
    exact ⟨v, hv, by simpa using e, hx⟩
  have link : ∀ {a b x y}, x ∈ parts.contributed a → y ∈ parts.contributed b → Q x → P y →
      Relation.TransGen parts.Declared b a := by
    intro a b x y hx hy hq hp
    obtain ⟨v, hv, e1, hx'⟩ := mem hx
    obtain ⟨u, hu, e2, hy'⟩ := mem hy
    rw [← e1, ← e2]
    exact hPQ u hu v hv y hy' x hx' hp hq
  unfold AllBefore
  rw [List.pairwise_flatMap]
  constructor
  · intro a ha
    refine List.pairwise_of_forall_mem_list ?_
    rintro x hx y hy ⟨hq, hp⟩
    obtain ⟨p1, p2, rfl⟩ := List.append_of_mem ha
    have := bef _ _ (link hx hy hq hp) p1 p2 rfl
    simp only [List.nodup_append, List.nodup_cons] at hn
    exact hn.2.2 a this a List.mem_cons_self rfl
  · rw [List.pairwise_iff_getElem]
    rintro i j hi hj hij x hx y hy ⟨hq, hp⟩
    have hb := bef _ _ (link hx hy hq hp) (order.take i) (order.drop (i + 1)) (by simp)
    obtain ⟨k, hk, e⟩ := List.mem_iff_getElem.mp hb
    have hk' : k < i := by simp at hk; omega
    rw [List.getElem_take] at e
    have := (List.Nodup.getElem_inj_iff hn).mp e
    omega

/-- two kinds of statements, one of which is before the other -/
theorem AllBefore.filter_eq {P Q : σ → Prop} [DecidablePred P] [DecidablePred Q] {l : List σ} (h : AllBefore P Q l)
    (hd : ∀ s, ¬ (P s ∧ Q s)) : l.filter (fun s => P s ∨ Q s) = l.filter (fun s => P s) ++ l.filter fun s => Q s := by
  induction l with
  | nil => rfl
  | cons x l ih =>
    obtain ⟨h1, h2⟩ := List.pairwise_cons.mp h
    have ih := ih h2
    by_cases hp : P x
    · have hq : ¬ Q x := fun hq => hd x ⟨hp, hq⟩
      simp only [List.filter_cons, hp, hq, true_or, decide_true, if_true, decide_false, ih]
      simp
    · by_cases hq : Q x
      · have e : ∀ y ∈ l, ¬ P y := fun y hy hp => h1 y hy ⟨hq, hp⟩
        have e1 : l.filter (fun s => P s) = [] := by
          rw [List.filter_eq_nil_iff]; intro y hy; simpa using e y hy
        rw [e1, List.nil_append] at ih
        simp only [List.filter_cons, hp, hq, or_true, decide_true, if_true, decide_false, ih, e1]
        simp
      · simp only [List.filter_cons, hp, hq, or_false, decide_false, ih]
        simp

theorem AllBefore.mono {P P' Q Q' : σ → Prop} {l : List σ} (h : AllBefore P Q l) (hp : ∀ s ∈ l, P' s → P s)
    (hq : ∀ s ∈ l, Q' s → Q s) : AllBefore P' Q' l := by
  unfold AllBefore at *
  rw [List.pairwise_iff_getElem] at *
  rintro i j hi hj hij ⟨a, b⟩
  exact h i j hi hj hij ⟨hq _ (List.getElem_mem _) a, hp _ (List.getElem_mem _) b⟩

theorem AllBefore.sublist {P Q : σ → Prop} {l l' : List σ} (h : AllBefore P Q l) (hs : l'.Sublist l) : AllBefore P Q l' :=
  List.Pairwise.sublist hs h

theorem allBefore_append {P Q : σ → Prop} {a b : List σ} : AllBefore P Q (a ++ b) ↔
    AllBefore P Q a ∧ AllBefore P Q b ∧ ∀ x ∈ a, ∀ y ∈ b, ¬ (Q x ∧ P y) := List.pairwise_append

theorem allBefore_of_not_left {P Q : σ → Prop} {l : List σ} (h : ∀ s ∈ l, ¬ P s) : AllBefore P Q l :=
  List.pairwise_of_forall_mem_list fun _ _ y hy hp => h y hy hp.2

theorem allBefore_of_not_right {P Q : σ → Prop} {l : List σ} (h : ∀ s ∈ l, ¬ Q s) : AllBefore P Q l :=
  List.pairwise_of_forall_mem_list fun x hx _ _ hp => h x hx hp.1

theorem declared_of_mem {parts : PartialGraph σ} {d : Dependency} (h : d ∈ parts.dependencies) :
    parts.Declared d.source.text d.target.text := ⟨d, h, rfl, rfl⟩

end

/-! ### the dependencies of wrapped generators -/

section
variable {m : Type → Type} [Monad m] [Yields m] {S D : Type} [GoZero S] [IsDiff D S] {g : LegacyGen m S D}
  {ld : ListDiff S D} {pg : PartialGraph Statement}

theorem deps_of_add (h : yields (generatePartialGraph g.toNew ld) pg) {o : S} (ho : o ∈ ld.adds) :
    ∃ deps, yields (g.addAlterDeps o GoZero.zero) deps ∧ ∀ x ∈ deps, x ∈ pg.dependencies := by
  obtain ⟨parts, rfl, _, ha, _⟩ := generatePartialGraph_parts h
  obtain ⟨p, hp, hy⟩ := ha o ho
  obtain ⟨l, deps, _, h2, rfl⟩ := toNew_add hy
  exact ⟨deps, h2, fun x hx => PartialGraph.mem_dependencies_concat.mpr ⟨_, hp, hx⟩⟩

theorem deps_of_delete (h : yields (generatePartialGraph g.toNew ld) pg) {o : S} (ho : o ∈ ld.deletes) :
    ∃ deps, yields (g.deleteDeps o) deps ∧ ∀ x ∈ deps, x ∈ pg.dependencies := by
  obtain ⟨parts, rfl, _, _, ha, _⟩ := generatePartialGraph_parts h
  obtain ⟨p, hp, hy⟩ := ha o ho
  obtain ⟨l, deps, _, h2, rfl⟩ := toNew_delete hy
  exact ⟨deps, h2, fun x hx => PartialGraph.mem_dependencies_concat.mpr ⟨_, hp, hx⟩⟩

theorem deps_of_alter (h : yields (generatePartialGraph g.toNew ld) pg) {o : D} (ho : o ∈ ld.alters) :
    ∃ deps, yields (g.addAlterDeps (IsDiff.getNew o) (IsDiff.getOld o)) deps ∧ ∀ x ∈ deps, x ∈ pg.dependencies := by
  obtain ⟨parts, rfl, _, _, _, ha⟩ := generatePartialGraph_parts h
  obtain ⟨p, hp, hy⟩ := ha o ho
  obtain ⟨l, deps, _, h2, rfl⟩ := toNew_alter hy
  exact ⟨deps, h2, fun x hx => PartialGraph.mem_dependencies_concat.mpr ⟨_, hp, hx⟩⟩

theorem LegacyPlaced.origin {id : VertexId} {s : Statement}
    (h : LegacyPlaced g ld id s) : LegacyOrigin g ld s := by
  cases h with
  | add o mem l h hs => exact .add o mem l h hs
  | delete o mem l h hs => exact .delete o mem l h hs
  | alter o mem l h hs => exact .alter o mem l h hs

/-- what an added object contributes -/
theorem stmts_of_add (h : yields (generatePartialGraph g.toNew ld) pg) {o : S} (ho : o ∈ ld.adds) :
    ∃ l, yields (g.add o) l ∧ ∀ x ∈ l, x ∈ pg.statements := by
  obtain ⟨parts, rfl, _, ha, _⟩ := generatePartialGraph_parts h
  obtain ⟨p, hp, hy⟩ := ha o ho
  obtain ⟨l, deps, h1, _, rfl⟩ := toNew_add hy
  exact ⟨l, h1, fun x hx => PartialGraph.mem_statements_concat.mpr ⟨_, hp, by simpa [PartialGraph.statements] using hx⟩⟩

/-- what a deleted object contributes -/
theorem stmts_of_delete (h : yields (generatePartialGraph g.toNew ld) pg) {o : S} (ho : o ∈ ld.deletes) :
    ∃ l, yields (g.delete o) l ∧ ∀ x ∈ l, x ∈ pg.statements := by
  obtain ⟨parts, rfl, _, _, ha, _⟩ := generatePartialGraph_parts h
  obtain ⟨p, hp, hy⟩ := ha o ho
  obtain ⟨l, deps, h1, _, rfl⟩ := toNew_delete hy
  exact ⟨l, h1, fun x hx => PartialGraph.mem_statements_concat.mpr ⟨_, hp, by simpa [PartialGraph.statements] using hx⟩⟩

/-- what an altered object contributes -/
theorem stmts_of_alter (h : yields (generatePartialGraph g.toNew ld) pg) {o : D} (ho : o ∈ ld.alters) :
    ∃ l, yields (g.alter o) l ∧ ∀ x ∈ l, x ∈ pg.statements := by
  obtain ⟨parts, rfl, _, _, _, ha⟩ := generatePartialGraph_parts h
  obtain ⟨p, hp, hy⟩ := ha o ho
  obtain ⟨l, deps, h1, _, rfl⟩ := toNew_alter hy
  exact ⟨l, h1, fun x hx => PartialGraph.mem_statements_concat.mpr ⟨_, hp, by simpa [PartialGraph.statements] using hx⟩⟩

end

section
variable {opts : PlanOptions} {d : SchemaDiff} {r r' : Rand} {stmts : List Statement}

/-- around the statements of the graph there are only those about schemas, extensions and enums -/
theorem PlanRun.around (run : PlanRun opts d r r' stmts) : ∃ a b, stmts = a ++ run.ordered ++ b ∧
    (∀ s ∈ a, s.ddl.IsOuter) ∧ ∀ s ∈ b, s.ddl.IsOuter := by
  obtain ⟨s1, s2, s3⟩ := resolveToSQL_spec.mp run.hschemas
  obtain ⟨e1, e2, e3⟩ := resolveToSQL_spec.mp run.hextensions
  obtain ⟨n1, n2, n3⟩ := resolveToSQL_spec.mp run.henums
  refine ⟨run.schemas.adds ++ run.schemas.alters ++ run.extensions.adds ++ run.extensions.alters ++ run.enums.adds ++
    run.enums.alters, run.enums.deletes ++ run.extensions.deletes ++ run.schemas.deletes, ?_, ?_, ?_⟩
  · refine run.hstmts.trans ?_; simp [SchemaGen.assemble]
  · intro s hs
    simp only [List.mem_append] at hs
    rcases hs with ((((hs | hs) | hs) | hs) | hs) | hs
    · obtain ⟨a, ha, b, hb, hs⟩ := mem_concatMapM s1 hs
      cases hb; rw [List.mem_singleton.mp hs]; trivial
    · obtain ⟨a, ha, b, hb, hs⟩ := mem_concatMapM s3 hs
      cases hb; cases hs
    · obtain ⟨a, ha, b, hb, hs⟩ := mem_concatMapM e1 hs
      cases hb; rw [List.mem_singleton.mp hs]; trivial
    · obtain ⟨a, ha, b, hb, hs⟩ := mem_concatMapM e3 hs
      cases hb
      split at hs
      · rw [List.mem_singleton.mp hs]; trivial
      · cases hs
    · obtain ⟨a, ha, b, hb, hs⟩ := mem_concatMapM n1 hs
      cases hb; rw [List.mem_singleton.mp hs]; trivial
    · obtain ⟨a, ha, b, hb, hs⟩ := mem_concatMapM n3 hs
      unfold EnumGen.alter at hb
      split at hb
      · cases hb
        simp only [List.mem_cons, List.mem_append, List.not_mem_nil, or_false] at hs
        rcases hs with rfl | rfl <;> trivial
      · split at hb
        · cases hb
        · cases hb
          obtain ⟨l, b, h1, h2, rfl⟩ := EnumGen.mem_addValues hs
          trivial
  · intro s hs
    simp only [List.mem_append] at hs
    rcases hs with (hs | hs) | hs
    · obtain ⟨a, ha, b, hb, hs⟩ := mem_concatMapM n2 hs
      cases hb; rw [List.mem_singleton.mp hs]; trivial
    · obtain ⟨a, ha, b, hb, hs⟩ := mem_concatMapM e2 hs
      cases hb; rw [List.mem_singleton.mp hs]; trivial
    · obtain ⟨a, ha, b, hb, hs⟩ := mem_concatMapM s2 hs
      cases hb; rw [List.mem_singleton.mp hs]; trivial

/-- statements of which the vertices are ordered -/
theorem PlanRun.allBefore (run : PlanRun opts d r r' stmts) {P Q : Statement → Prop} (hP : ∀ s, P s → ¬ s.ddl.IsOuter)
    (hQ : ∀ s, Q s → ¬ s.ddl.IsOuter)
    (h : ∀ u x v y, GraphShape opts d run.s3 u x → GraphShape opts d run.s3 v y → P x → Q y →
      Relation.TransGen run.graph.Declared u.text v.text) : AllBefore P Q stmts := by
  obtain ⟨a, b, e, ha, hb⟩ := run.around
  have e' : AllBefore P Q run.ordered := order_allBefore run.hordered fun u hu v hv x hx y hy hp hq =>
    h _ _ _ _ (run.vertex_shape hu hx) (run.vertex_shape hv hy) hp hq
  rw [e, allBefore_append, allBefore_append]
  refine ⟨⟨allBefore_of_not_left fun s hs hp => hP s hp (ha s hs), e', ?_⟩,
    allBefore_of_not_left fun s hs hp => hP s hp (hb s hs), ?_⟩
  · rintro x hx y hy ⟨hq, _⟩
    exact hQ x hq (ha x hx)
  · rintro x hx y hy ⟨_, hp⟩
    exact hP y hp (hb y hy)

theorem PlanRun.declared (run : PlanRun opts d r r' stmts) {p : PartialGraph Statement} (hp : p ∈ [run.tables, run.attaches,
      run.renames, run.indexes, run.fks, run.sequences, run.ownerships, run.functions, run.procedures, run.triggers,
      run.views, run.matViews]) {x : Dependency} (hx : x ∈ p.dependencies) :
    run.graph.Declared x.source.text x.target.text :=
  declared_of_mem (PartialGraph.mem_dependencies_concat.mpr ⟨p, hp, hx⟩)

theorem PlanRun.declared_after (run : PlanRun opts d r r' stmts) {p : PartialGraph Statement} (hp : p ∈ [run.tables,
      run.attaches, run.renames, run.indexes, run.fks, run.sequences, run.ownerships, run.functions, run.procedures,
      run.triggers, run.views, run.matViews]) {base id : VertexId} (hx : mustRunAfter base id ∈ p.dependencies) :
    run.graph.Declared id.text base.text :=
  have h := run.declared hp hx
  h

theorem PlanRun.declared_before (run : PlanRun opts d r r' stmts) {p : PartialGraph Statement} (hp : p ∈ [run.tables,
      run.attaches, run.renames, run.indexes, run.fks, run.sequences, run.ownerships, run.functions, run.procedures,
      run.triggers, run.views, run.matViews]) {base id : VertexId} (hx : mustRunBefore base id ∈ p.dependencies) :
    run.graph.Declared base.text id.text :=
  have h := run.declared hp hx
  h

end
end Verif
