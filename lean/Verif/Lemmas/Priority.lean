import Verif.Lemmas.Before

/-!
# What the priorities of the vertices say about the order of statements

Dependencies alone do not say whether a new index is built before the old one is dropped: the priorities decide.
-/

namespace Verif

open Relation

namespace Graph
variable {V : Type} [Vertex V]

/-- A vertex without ancestors of negative priority comes before every vertex of negative priority. -/
theorem greedy_before {g : Graph V} {prio : V → Int} {out : List V} (hall : g.ListsAll out) (hresp : g.RespectsEdges out)
    (hgr : g.Greedy prio out) (hids : ∀ s t, g.Edge s t → s ∈ g.ids) {v : String} (hv : v ∈ g.ids)
    (hpos : ∀ u, g.getVertex (getId u) = some u → ReflTransGen g.Edge (getId u) v → 0 ≤ prio u)
    {pre post : List V} {w : V} (e : out = pre ++ w :: post) (hw : prio w < 0) : v ∈ pre.map getId := by
  by_contra hc
  have hvo : v ∈ out.map getId := hall.2.2 v hv
  have hwv : g.getVertex (getId w) = some w := hall.2.1 w (by rw [e]; simp)
  -- the first ancestor of `v` after `w`
  have key : ∀ (l done : List V), out = done ++ l → (∀ x ∈ done.map getId, ReflTransGen g.Edge x v → x ∈ pre.map getId) →
      v ∈ l.map getId → ∃ u d', out = d' ++ u :: (out.drop (d'.length + 1)) ∧ ReflTransGen g.Edge (getId u) v ∧
        getId u ∉ pre.map getId ∧ ∀ x ∈ d'.map getId, ReflTransGen g.Edge x v → x ∈ pre.map getId := by
    intro l
    induction l with
    | nil => intro done _ _ h; cases h
    | cons u l ih =>
      intro done e1 h1 h2
      by_cases hu : ReflTransGen g.Edge (getId u) v ∧ getId u ∉ pre.map getId
      · refine ⟨u, done, ?_, hu.1, hu.2, h1⟩
        rw [e1]
        congr 1
        rw [List.drop_append, List.drop_of_length_le (by omega)]
        simp
      · refine ih (done ++ [u]) (by rw [e1]; simp) ?_ ?_
        · intro x hx hxv
          rw [List.map_append, List.mem_append] at hx
          rcases hx with hx | hx
          · exact h1 x hx hxv
          · rw [List.map_singleton, List.mem_singleton] at hx
            subst hx
            by_contra hn
            exact hu ⟨hxv, hn⟩
        · rw [List.map_cons, List.mem_cons] at h2
          rcases h2 with h2 | h2
          · exact absurd ⟨h2 ▸ .refl, h2 ▸ hc⟩ hu
          · exact h2
  obtain ⟨u, d', e2, hu1, hu2, hd⟩ := key out [] rfl (by simp) hvo
  have huv : g.getVertex (getId u) = some u := hall.2.1 u (by rw [e2]; simp)
  have huid : getId u ∈ g.ids := by
    rcases ReflTransGen.cases_head hu1 with h | ⟨x, h, _⟩
    · rw [h]; exact hv
    · exact hids _ _ h
  have hav : g.Available (pre.map getId) (getId u) := by
    refine ⟨huid, hu2, fun s hs => ?_⟩
    exact hd s (hresp s _ hs d' u _ e2 rfl) (.head hs hu1)
  have h1 := ((hgr pre w post e).2 u huv hav).1
  have h2 := hpos u huv hu1
  omega

end Graph

section
variable {σ : Type}

/-- the priority of a merged vertex -/
theorem mergeVertices_priority {a b : SqlVertex σ} :
    ((mergeVertices a b).priority = .sooner ↔ a.priority = .sooner ∨ b.priority = .sooner) ∧
    ((mergeVertices a b).priority = .later ↔ (a.priority = .later ∧ b.priority ≠ .sooner) ∨
      (a.priority = .unset ∧ b.priority = .later)) := by
  unfold mergeVertices
  cases ha : a.priority <;> cases hb : b.priority <;> simp [SqlPriority.toInt]


/-- the vertex with an id, if there is one, has the property -/
def AtId (P : SqlVertex σ → Prop) (x : String) (g : Graph (SqlVertex σ)) : Prop := ∀ u, g.getVertex x = some u → P u

theorem addOrMerge_at {P : SqlVertex σ → Prop} {x : String} {g : Graph (SqlVertex σ)} (hg : Graph.Built g) {v : SqlVertex σ}
    (h : AtId P x g) (hv : v.id.text = x → P v) (hm : ∀ a b, P a → P b → P (mergeVertices a b)) :
    AtId P x (addOrMerge g v) := by
  unfold addOrMerge
  cases ho : g.getVertex (getId v) with
  | none =>
    intro u hu
    dsimp only at hu
    rw [Graph.getVertex_addVertex] at hu
    split at hu
    · rename_i e; cases hu; exact hv e
    · exact h u hu
  | some old =>
    have hid' : getId old = getId v := hg.wf.idOk _ _ ho
    have hid : getId (mergeVertices old v) = getId v := hid'
    intro u hu
    dsimp only at hu
    rw [Graph.getVertex_addVertex, hid] at hu
    split at hu
    · rename_i e; cases hu
      exact hm _ _ (h old (e ▸ ho)) (hv e)
    · exact h u hu

theorem foldl_addOrMerge_at {P : SqlVertex σ → Prop} {x : String} (hm : ∀ a b, P a → P b → P (mergeVertices a b)) :
    ∀ (vs : List (SqlVertex σ)) {g : Graph (SqlVertex σ)}, Graph.Built g → AtId P x g →
      (∀ v ∈ vs, v.id.text = x → P v) → AtId P x (vs.foldl addOrMerge g)
  | [], g, _, h, _ => h
  | v :: vs, g, hg, h, hv => by
    rw [List.foldl_cons]
    exact foldl_addOrMerge_at hm vs (addOrMerge_spec hg v).1 (addOrMerge_at hg h (hv v List.mem_cons_self) hm)
      fun w hw => hv w (List.mem_cons_of_mem _ hw)

theorem addVertexIfNotExists_at {P : SqlVertex σ → Prop} {x : String} {g : Graph (SqlVertex σ)} {id : VertexId} (h : AtId P x g)
    (hp : P ⟨id, .unset, []⟩) : AtId P x (addVertexIfNotExists g id) := by
  unfold addVertexIfNotExists
  split
  · exact h
  · intro u hu
    rw [Graph.getVertex_addVertex] at hu
    split at hu
    · cases hu; exact hp
    · exact h u hu

theorem addDependencies_at {P : SqlVertex σ → Prop} {x : String} (hp : ∀ id, P ⟨id, .unset, []⟩) :
    ∀ (deps : List Dependency) {g g' : Graph (SqlVertex σ)}, Graph.Built g → addDependencies g deps = .ok g' →
      AtId P x g → AtId P x g'
  | [], g, g', _, h, hx => by cases h; exact hx
  | d :: deps, g, g', hg, h, hx => by
    simp only [addDependencies, bind, Except.bind] at h
    have b1 := (addVertexIfNotExists_spec (addVertexIfNotExists_spec hg d.source).1 d.target).1
    have hspec := Graph.addEdge_spec b1.wf d.source.text d.target.text
    cases h1 : (addVertexIfNotExists (addVertexIfNotExists g d.source) d.target).addEdge d.source.text d.target.text with
    | error e => rw [h1] at h; cases h
    | ok g2 =>
      rw [h1] at h
      simp only at h
      refine addDependencies_at hp deps (b1.addEdge _ _ h1) h ?_
      have : g2.verticesById = (addVertexIfNotExists (addVertexIfNotExists g d.source) d.target).verticesById := by
        split at hspec
        · obtain ⟨g3, k1, _, k3, _⟩ := hspec
          rw [h1] at k1; cases k1; exact k3
        · obtain ⟨e, k1, _⟩ := hspec
          rw [h1] at k1; cases k1
      intro u hu
      unfold Graph.getVertex at hu
      rw [this] at hu
      exact addVertexIfNotExists_at (addVertexIfNotExists_at hx (hp _)) (hp _) u hu

/-- wanted soon, or nothing to do -/
def NotLate (v : SqlVertex σ) : Prop := v.priority = .sooner ∨ v.statements = []

theorem NotLate.merge (a b : SqlVertex σ) (ha : NotLate a) (hb : NotLate b) : NotLate (mergeVertices a b) := by
  unfold NotLate at *
  rw [mergeVertices_priority.1]
  rcases ha with ha | ha
  · exact Or.inl (Or.inl ha)
  · rcases hb with hb | hb
    · exact Or.inl (Or.inr hb)
    · right; simp [mergeVertices, ha, hb]

theorem NotLate.prio {v : SqlVertex σ} (h : NotLate v) : 0 ≤ v.getPriority := by
  unfold SqlVertex.getPriority
  rcases h with h | h
  · rw [h]; simp [SqlPriority.toInt]
  · rw [h]; simp

theorem graph_ids_of_edge {g : Graph (SqlVertex σ)} (hg : Graph.Built g) {s t : String} (h : g.Edge s t) : s ∈ g.ids :=
  (Graph.Edge.mem_ids hg.wf h).1

/-- the order of a graph with what the priorities guarantee: a vertex all of whose ancestors are not late comes before every
vertex that is late -/
theorem orderPartial_late (parts : PartialGraph σ) {out : List σ} (h : orderPartial parts = .ok out) :
    ∃ order : List String, order.Nodup ∧ (∀ v ∈ parts.vertices, v.id.text ∈ order) ∧
      (∀ s t, parts.Declared s t → ∀ pre post, order = pre ++ t :: post → s ∈ pre) ∧
      out = order.flatMap parts.contributed ∧
      ∀ v w, (∃ p ∈ parts.vertices, p.id.text = v) →
        (∀ x, ReflTransGen parts.Declared x v → ∀ p ∈ parts.vertices, p.id.text = x → NotLate p) →
        (∀ p ∈ parts.vertices, p.id.text = w → p.priority = .later) → parts.contributed w ≠ [] →
        ∀ pre post, order = pre ++ w :: post → v ∈ pre := by
  obtain ⟨g, h1, h2, h3, h4, h5⟩ := graphFromPartials_spec parts
  have hgraph := h1
  simp only [orderPartial, h1, bind, Except.bind] at h
  unfold toOrderedStatements at h
  cases hs : g.topologicallySortWithPriority (Graph.isLowerPriorityFromGetPriority SqlVertex.getPriority) with
  | error e => rw [hs] at h; cases h
  | ok vs =>
    rw [hs] at h
    simp only [bind, Except.bind, pure, Except.pure, Except.ok.injEq] at h
    obtain ⟨⟨t1, t2, t3⟩, t4⟩ := Graph.C01_sort_topological h2 hs
    have hgr := Graph.C05_sort_greedy h2 hs
    have hdecl : parts.Declared = g.Edge := by
      funext s t; exact propext (h5 s t).symm
    have hbase := (foldl_addOrMerge_spec parts.vertices (Graph.Built.new (V := SqlVertex σ))).1
    refine ⟨vs.map getId, t1, fun v hv => t3 _ ((h4 _).mpr (Or.inl ⟨v, hv, rfl⟩)), ?_, ?_, ?_⟩
    · intro s t hd pre post e
      obtain ⟨a, b, e1, rfl, e3⟩ := List.map_eq_append_iff.mp e
      obtain ⟨v, b', rfl, e5, _⟩ := List.map_eq_cons_iff.mp e3
      exact t4 s t ((h5 s t).mpr hd) a v b' e1 e5
    · rw [← h, List.flatMap_map]
      have key : ∀ l : List (SqlVertex σ), (∀ v ∈ l, v ∈ vs) →
          l.flatMap (·.statements) = l.flatMap (fun v => parts.contributed (getId v)) := by
        intro l hl
        induction l with
        | nil => rfl
        | cons v l ih =>
          rw [List.flatMap_cons, List.flatMap_cons, ih (fun w hw => hl w (List.mem_cons_of_mem _ hw)), ← h3]
          have := t2 v (hl v (by simp))
          simp [stmtsOf, this]
      exact key vs (fun _ h => h)
    · intro v w hv hpos hlate hne pre post e
      obtain ⟨a, b, e1, rfl, e3⟩ := List.map_eq_append_iff.mp e
      obtain ⟨wv, b', rfl, e5, _⟩ := List.map_eq_cons_iff.mp e3
      have hwv : g.getVertex w = some wv := e5 ▸ t2 wv (by rw [e1]; simp)
      have hws : wv.statements = parts.contributed w := by
        rw [← h3]; simp [stmtsOf, hwv]
      refine Graph.greedy_before ⟨t1, t2, t3⟩ t4 hgr (fun s t => graph_ids_of_edge h2) ((h4 _).mpr (Or.inl hv)) ?_ e1 ?_
      · intro u hu hanc
        have hat : AtId NotLate (getId u) (parts.vertices.foldl addOrMerge Graph.new) :=
          foldl_addOrMerge_at NotLate.merge _ Graph.Built.new (fun u hu => by cases hu)
            (fun p hp ep => hpos _ (hdecl ▸ hanc) p hp ep)
        exact (addDependencies_at (fun id => Or.inr rfl) _ hbase hgraph hat u hu).prio
      · have hat : AtId (fun p => p.priority = .later) w (parts.vertices.foldl addOrMerge Graph.new) :=
          foldl_addOrMerge_at (fun a b ha hb => mergeVertices_priority.2.mpr (Or.inl ⟨ha, by rw [hb]; simp⟩)) _
            Graph.Built.new (fun u hu => by cases hu) (fun p hp ep => hlate p hp ep)
        have hex : ∃ u, (parts.vertices.foldl addOrMerge Graph.new).getVertex w = some u := by
          have : w ∈ (parts.vertices.foldl addOrMerge Graph.new).ids := by
            rw [(foldl_addOrMerge_spec parts.vertices (Graph.Built.new (V := SqlVertex σ))).2.2.1]
            right
            obtain ⟨y, hy⟩ := List.exists_mem_of_ne_nil _ hne
            obtain ⟨p, hp, _⟩ := List.mem_flatMap.mp hy
            have := List.mem_filter.mp hp
            exact ⟨p, this.1, by simpa using this.2⟩
          exact Option.isSome_iff_exists.mp (mem_ids_iff.mp this)
        obtain ⟨u, hu⟩ := hex
        have := addDependencies_getVertex _ hbase hgraph w u hu
        rw [hwv] at this
        cases this
        have hp := hat _ hu
        unfold SqlVertex.getPriority
        rw [hp]
        have hl : 0 < wv.statements.length := by
          rw [hws]; exact List.length_pos_of_ne_nil hne
        simp only [SqlPriority.toInt]
        omega

/-- statements of vertices that are not late and have no late ancestors precede the statements of late vertices -/
theorem order_late {parts : PartialGraph σ} {out : List σ} (h : orderPartial parts = .ok out) {Q : σ → Prop} {x : σ}
    {u : SqlVertex σ} (hu : u ∈ parts.vertices) (hx : x ∈ u.statements)
    (hpos : ∀ z, ReflTransGen parts.Declared z u.id.text → ∀ p ∈ parts.vertices, p.id.text = z → NotLate p)
    (hQ : ∀ v ∈ parts.vertices, ∀ y ∈ v.statements, Q y → ∀ p ∈ parts.vertices, p.id.text = v.id.text → p.priority = .later) :
    ∀ a y b, out = a ++ y :: b → Q y → x ∈ a := by
  obtain ⟨order, _, _, _, rfl, hlate⟩ := orderPartial_late parts h
  intro a y b e hy
  obtain ⟨pre, z, post, a', b', e1, e2, e3, _⟩ := flatMap_eq_append_cons e
  have hyz : y ∈ parts.contributed z := by rw [e3]; simp
  obtain ⟨v, hv, hyv⟩ := List.mem_flatMap.mp hyz
  obtain ⟨hv, ez⟩ := List.mem_filter.mp hv
  have ez : v.id.text = z := by simpa using ez
  have := hlate u.id.text z ⟨u, hu, rfl⟩ hpos (ez ▸ hQ v hv y hyv hy) (List.ne_nil_of_mem hyz) pre post e1
  rw [e2]
  refine List.mem_append_left _ (List.mem_flatMap.mpr ⟨_, this, ?_⟩)
  exact List.mem_flatMap.mpr ⟨u, List.mem_filter.mpr ⟨hu, by simp⟩, hx⟩

/-- the same for all statements of two kinds -/
theorem order_allBefore_late {parts : PartialGraph σ} {out : List σ} (h : orderPartial parts = .ok out) {P Q : σ → Prop}
    (hpos : ∀ u ∈ parts.vertices, ∀ x ∈ u.statements, P x →
      ∀ z, ReflTransGen parts.Declared z u.id.text → ∀ p ∈ parts.vertices, p.id.text = z → NotLate p)
    (hQ : ∀ v ∈ parts.vertices, ∀ y ∈ v.statements, Q y → ∀ p ∈ parts.vertices, p.id.text = v.id.text → p.priority = .later) :
    AllBefore P Q out := by
  obtain ⟨order, hn, _, _, rfl, hlate⟩ := orderPartial_late parts h
  have mem : ∀ {a x}, x ∈ parts.contributed a → ∃ v ∈ parts.vertices, v.id.text = a ∧ x ∈ v.statements := by
    intro a x hx
    obtain ⟨v, hv, hx⟩ := List.mem_flatMap.mp hx
    obtain ⟨hv, e⟩ := List.mem_filter.mp hv
    exact ⟨v, hv, by simpa using e, hx⟩
  have link : ∀ {a b x y}, x ∈ parts.contributed a → y ∈ parts.contributed b → Q x → P y →
      ∀ pre post, order = pre ++ a :: post → b ∈ pre := by
    intro a b x y hx hy hq hp
    obtain ⟨v, hv, rfl, hx'⟩ := mem hx
    obtain ⟨u, hu, rfl, hy'⟩ := mem hy
    exact hlate _ _ ⟨u, hu, rfl⟩ (hpos u hu y hy' hp) (hQ v hv x hx' hq) (List.ne_nil_of_mem hx)
  unfold AllBefore
  rw [List.pairwise_flatMap]
  constructor
  · intro a ha
    refine List.pairwise_of_forall_mem_list ?_
    rintro x hx y hy ⟨hq, hp⟩
    obtain ⟨p1, p2, rfl⟩ := List.append_of_mem ha
    have := link hx hy hq hp p1 p2 rfl
    simp only [List.nodup_append, List.nodup_cons] at hn
    exact hn.2.2 a this a List.mem_cons_self rfl
  · rw [List.pairwise_iff_getElem]
    rintro i j hi hj hij x hx y hy ⟨hq, hp⟩
    have hb := link hx hy hq hp (order.take i) (order.drop (i + 1)) (by simp)
    obtain ⟨k, hk, e⟩ := List.mem_iff_getElem.mp hb
    have hk' : k < i := by simp at hk; omega
    rw [List.getElem_take] at e
    have := (List.Nodup.getElem_inj_iff hn).mp e
    omega

end

/-! ### the priority of merged vertices -/

/-- the priority asked for by several contributions -/
def askedPriority (l : List SqlPriority) : SqlPriority :=
  if .sooner ∈ l then .sooner else if .later ∈ l then .later else .unset

theorem mergeVertices_asked {a b : SqlVertex σ} {l : List SqlPriority} (ha : a.priority = askedPriority l) :
    (mergeVertices a b).priority = askedPriority (l ++ [b.priority]) := by
  unfold mergeVertices
  rw [ha]
  unfold askedPriority
  by_cases h1 : SqlPriority.sooner ∈ l <;> by_cases h2 : SqlPriority.later ∈ l <;> cases hb : b.priority <;>
    simp [h1, h2, SqlPriority.toInt]

/-- the vertex at an id has the priority asked for -/
def Asked (x : String) (l : List SqlPriority) (g : Graph (SqlVertex σ)) : Prop :=
  (∀ u, g.getVertex x = some u → u.priority = askedPriority l) ∧ (g.getVertex x = none → l = [])

theorem foldl_addOrMerge_asked {x : String} : ∀ (vs : List (SqlVertex σ)) {g : Graph (SqlVertex σ)} {l : List SqlPriority},
    Graph.Built g → Asked x l g →
    Asked x (l ++ (vs.filter (fun v => v.id.text = x)).map (·.priority)) (vs.foldl addOrMerge g)
  | [], g, l, _, h => by simpa using h
  | v :: vs, g, l, hg, h => by
    rw [List.foldl_cons]
    have key : Asked x (l ++ if getId v = x then [v.priority] else []) (addOrMerge g v) := by
      unfold addOrMerge
      cases ho : g.getVertex (getId v) with
      | none =>
        dsimp only
        constructor
        · intro u hu
          rw [Graph.getVertex_addVertex] at hu
          split at hu
          · rename_i e
            cases hu
            have hl : l = [] := h.2 (e ▸ ho)
            rw [if_pos e, hl]
            cases hp : v.priority <;> simp [askedPriority]
          · rename_i e
            rw [if_neg e, List.append_nil]
            exact h.1 u hu
        · intro hu
          rw [Graph.getVertex_addVertex] at hu
          split at hu
          · cases hu
          · rename_i e
            rw [if_neg e, List.append_nil]
            exact h.2 hu
      | some old =>
        dsimp only
        have hid' : getId old = getId v := hg.wf.idOk _ _ ho
        have hid : getId (mergeVertices old v) = getId v := hid'
        constructor
        · intro u hu
          rw [Graph.getVertex_addVertex, hid] at hu
          split at hu
          · rename_i e
            cases hu
            rw [if_pos e]
            exact mergeVertices_asked (h.1 old (e ▸ ho))
          · rename_i e
            rw [if_neg e, List.append_nil]
            exact h.1 u hu
        · intro hu
          rw [Graph.getVertex_addVertex, hid] at hu
          split at hu
          · cases hu
          · rename_i e
            rw [if_neg e, List.append_nil]
            exact h.2 hu
    have := foldl_addOrMerge_asked vs (addOrMerge_spec hg v).1 key
    rw [List.append_assoc, getId_sqlVertex] at this
    rw [List.filter_cons]
    by_cases e : v.id.text = x
    · simpa [e] using this
    · simpa [e] using this

theorem getPriority_eq {v : SqlVertex σ} {l : List SqlPriority} (h : v.priority = askedPriority l) :
    v.getPriority = v.statements.length * (if .sooner ∈ l then 1 else if .later ∈ l then -1 else 0) := by
  unfold SqlVertex.getPriority
  rw [h]
  unfold askedPriority
  split
  · rfl
  · split <;> rfl

end Verif
