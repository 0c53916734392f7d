import Verif.Lemmas.Graph

namespace Verif
namespace Graph

set_option linter.unusedSectionVars false

variable {V : Type} [Vertex V]

theorem WF.new : (Graph.new : Graph V).WF := by
  constructor <;> simp [Graph.new]

theorem matOk_of_wf {g : Graph V} (wf : g.WF) : MatOk g.edges := ⟨wf.nodupE, wf.adjNodup⟩

theorem WF.addVertex {g : Graph V} (wf : g.WF) (v : V) : (g.addVertex v).WF := by
  have hedges : (g.addVertex v).edges = g.edges ∨
      (getId v ∉ g.edges.keys ∧ (g.addVertex v).edges = g.edges.set (getId v) []) := by
    unfold Graph.addVertex
    cases h : g.edges.get? (getId v) with
    | none => exact .inr ⟨GoMap.get?_eq_none.mp h, rfl⟩
    | some _ => exact .inl rfl
  have hverts : (g.addVertex v).verticesById = g.verticesById.set (getId v) v := rfl
  have hin : getId v ∈ (g.addVertex v).edges.keys := by
    unfold Graph.addVertex
    cases h : g.edges.get? (getId v) with
    | none => simp [GoMap.mem_keys_set]
    | some _ => exact GoMap.get?_isSome.mp (by simp [h])
  refine ⟨?_, ?_, ?_, ?_, ?_, ?_⟩
  · rw [hverts]; exact GoMap.nodup_set wf.nodupV _ _
  · rcases hedges with h | ⟨_, h⟩
    · rw [h]; exact wf.nodupE
    · rw [h]; exact GoMap.nodup_set wf.nodupE _ _
  · intro k
    rw [hverts, GoMap.mem_keys_set]
    rcases hedges with h | ⟨_, h⟩
    · rw [h] at hin ⊢
      rw [wf.sameKeys]
      constructor
      · exact .inr
      · rintro (rfl | h')
        · exact (wf.sameKeys _).mp hin
        · exact h'
    · rw [h, GoMap.mem_keys_set, wf.sameKeys]
  · intro k w h
    rw [hverts, GoMap.get?_set] at h
    split at h
    · rename_i e; cases h; exact e
    · exact wf.idOk k w h
  · intro s adj h
    rcases hedges with h' | ⟨_, h'⟩ <;> rw [h'] at h
    · exact wf.adjNodup s adj h
    · rw [GoMap.get?_set] at h
      split at h
      · cases h; simp
      · exact wf.adjNodup s adj h
  · intro s adj h t ht
    rw [hverts, GoMap.mem_keys_set]
    rcases hedges with h' | ⟨_, h'⟩ <;> rw [h'] at h
    · exact .inr (wf.adjIds s adj h t ht)
    · rw [GoMap.get?_set] at h
      split at h
      · cases h; simp at ht
      · exact .inr (wf.adjIds s adj h t ht)

theorem edge_addVertex (g : Graph V) (v : V) (s t : String) :
    (g.addVertex v).Edge s t ↔ g.Edge s t := by
  unfold Edge Graph.addVertex
  cases h : g.edges.get? (getId v) with
  | some _ => rfl
  | none =>
    simp only [GoMap.get?_set]
    by_cases hs : getId v = s
    · subst hs; simp [h]
    · simp [hs]

theorem getVertex_addVertex (g : Graph V) (v : V) (id : String) :
    (g.addVertex v).getVertex id = if getId v = id then some v else g.getVertex id := by
  unfold getVertex Graph.addVertex
  rw [GoMap.get?_set]

theorem hasVertex_iff {g : Graph V} {id : String} : g.hasVertexWithId id = true ↔ id ∈ g.ids :=
  GoMap.has_iff

theorem addEdge_spec {g : Graph V} (wf : g.WF) (s t : String) :
    if s ∈ g.ids ∧ t ∈ g.ids then
      ∃ g', g.addEdge s t = .ok g' ∧ g'.WF ∧ g'.verticesById = g.verticesById ∧
        ∀ a b, g'.Edge a b ↔ g.Edge a b ∨ (a = s ∧ b = t)
    else ∃ e, g.addEdge s t = .error e ∧ (e = .sourceMissing ∨ e = .targetMissing) := by
  unfold addEdge
  by_cases hs : s ∈ g.ids
  · by_cases ht : t ∈ g.ids
    · simp only [hs, ht, and_self, if_true, hasVertex_iff, not_true_eq_false, if_false]
      obtain ⟨m', hm'⟩ := setEdge_isOk (t := t) ((wf.sameKeys s).mpr hs)
      obtain ⟨e1, e2, e3⟩ := setEdge_ok hm'
      refine ⟨{ g with edges := m' }, by simp only [hm', bind, Except.bind, pure, Except.pure], ?_, rfl, e2⟩
      have ok := e3 (matOk_of_wf wf)
      refine ⟨wf.nodupV, ok.nodup, fun k => ?_, wf.idOk, ok.adjNodup, ?_⟩
      · show k ∈ m'.keys ↔ _
        rw [e1]; exact wf.sameKeys k
      · intro a adj h b hb
        show b ∈ g.verticesById.keys
        unfold setEdge at hm'
        cases hg : g.edges.get? s with
        | none => simp [hg] at hm'
        | some adj0 =>
          simp only [hg, Except.ok.injEq] at hm'
          subst hm'
          simp only [GoMap.get?_set] at h
          split at h
          · cases h
            rcases GoMap.mem_keys_set.mp hb with rfl | hb
            · exact ht
            · exact wf.adjIds s adj0 hg b hb
          · exact wf.adjIds a adj h b hb
    · simp only [hs, ht, and_false, if_false, hasVertex_iff, not_true_eq_false, not_false_eq_true, if_true]
      exact ⟨_, rfl, .inr rfl⟩
  · simp only [hs, false_and, if_false, hasVertex_iff, not_false_eq_true, if_true]
    exact ⟨_, rfl, .inl rfl⟩

theorem WF.addEdge {g g' : Graph V} (wf : g.WF) {s t : String} (h : g.addEdge s t = .ok g') : g'.WF := by
  have := addEdge_spec wf s t
  split at this
  · obtain ⟨g'', h1, h2, _⟩ := this
    rw [h] at h1; cases h1; exact h2
  · obtain ⟨e, h1, _⟩ := this
    rw [h] at h1; cases h1

theorem WF.copy {g : Graph V} (wf : g.WF) : g.copy.WF := by rw [copy_eq wf]; exact wf

theorem WF.reverse {g g' : Graph V} (wf : g.WF) (h : g.reverse = .ok g') : g'.WF := by
  obtain ⟨es, h1, h2, h3, h4, h5⟩ := reverse_spec wf
  rw [h] at h1; cases h1
  refine ⟨wf.nodupV, h3.nodup, fun k => ?_, wf.idOk, h3.adjNodup, ?_⟩
  · show k ∈ es.keys ↔ _
    rw [h2]
  · intro s adj hs t ht
    have hs : es.get? s = some adj := hs
    obtain ⟨b, hb⟩ := GoMap.mem_keys_iff.mp ht
    have hb' : b = true := h4 s adj hs _ hb
    subst hb'
    have : Rel es s t := ⟨adj, hs, GoMap.get?_of_mem (h3.adjNodup s adj hs) hb⟩
    exact (((h5 s t).mp this).mem_ids wf).1

/-- abstract effect of the first loop of `Union` -/
theorem unionVertices_spec (merge : V → V → V) (vs : GoMap String V) :
    ∀ g g' : Graph V, g.WF → vs.keys.Nodup → (∀ p ∈ vs, getId p.2 = p.1) →
    unionVertices merge g vs = .ok g' →
    g'.WF ∧ (∀ s t, g'.Edge s t ↔ g.Edge s t) ∧
    ∀ id, g'.getVertex id = match g.getVertex id, vs.get? id with
      | some o, some n => some (merge o n)
      | some o, none => some o
      | none, n => n := by
  induction vs with
  | nil =>
    intro g g' wf _ _ h
    simp only [unionVertices, Except.ok.injEq] at h
    subst h
    refine ⟨wf, fun _ _ => Iff.rfl, fun id => ?_⟩
    cases g.getVertex id <;> rfl
  | cons p vs ih =>
    intro g g' wf hn hid h
    obtain ⟨k, nv⟩ := p
    rw [GoMap.keys_cons, List.nodup_cons] at hn
    have hk : getId nv = k := hid (k, nv) (by simp)
    have hrest : ∀ p ∈ vs, getId p.2 = p.1 := fun p hp => hid p (List.mem_cons_of_mem _ hp)
    have hnone : GoMap.get? vs k = none := GoMap.get?_eq_none.mpr hn.1
    simp only [unionVertices] at h
    cases hg : g.getVertex (getId nv) with
    | none =>
      simp only [hg] at h
      obtain ⟨h1, h2, h3⟩ := ih _ g' (wf.addVertex nv) hn.2 hrest h
      refine ⟨h1, fun s t => by rw [h2, edge_addVertex], fun id => ?_⟩
      rw [h3, getVertex_addVertex, GoMap.get?_cons, hk]
      by_cases he : k = id
      · subst he
        rw [hk] at hg
        simp [hg, hnone]
      · simp [he]
    | some o =>
      simp only [hg] at h
      split at h
      · cases h
      · rename_i hm
        have hm' : getId (merge o nv) = k := by rw [← hk]; exact not_not.mp hm
        obtain ⟨h1, h2, h3⟩ := ih _ g' (wf.addVertex _) hn.2 hrest h
        refine ⟨h1, fun s t => by rw [h2, edge_addVertex], fun id => ?_⟩
        rw [h3, getVertex_addVertex, GoMap.get?_cons, hm']
        by_cases he : k = id
        · subst he
          rw [hk] at hg
          simp [hg, hnone]
        · simp [he]

theorem unionEdgesFrom_spec (source : String) (adj : List (String × Bool)) :
    ∀ g g' : Graph V, g.WF → unionEdgesFrom source g adj = .ok g' →
    g'.WF ∧ g'.verticesById = g.verticesById ∧
    ∀ s t, g'.Edge s t ↔ g.Edge s t ∨ (s = source ∧ (t, true) ∈ adj) := by
  induction adj with
  | nil =>
    intro g g' wf h
    simp only [unionEdgesFrom, Except.ok.injEq] at h
    subst h
    exact ⟨wf, rfl, by simp⟩
  | cons p adj ih =>
    intro g g' wf h
    obtain ⟨t0, b⟩ := p
    cases b with
    | false =>
      simp only [unionEdgesFrom, Bool.false_eq_true, if_false] at h
      obtain ⟨h1, h2, h3⟩ := ih g g' wf h
      exact ⟨h1, h2, fun s t => by rw [h3]; simp⟩
    | true =>
      simp only [unionEdgesFrom, if_true, bind, Except.bind] at h
      cases hg : g.addEdge source t0 with
      | error e => rw [hg] at h; cases h
      | ok g1 =>
        rw [hg] at h
        have hspec := addEdge_spec wf source t0
        split at hspec
        · obtain ⟨g2, k1, k2, k3, k4⟩ := hspec
          rw [hg] at k1; cases k1
          obtain ⟨h1, h2, h3⟩ := ih g1 g' k2 h
          refine ⟨h1, h2.trans k3, fun s t => ?_⟩
          rw [h3, k4]
          simp only [List.mem_cons, Prod.mk.injEq, and_true]
          constructor
          · rintro ((h' | ⟨rfl, rfl⟩) | ⟨rfl, h'⟩)
            · exact .inl h'
            · exact .inr ⟨rfl, .inl rfl⟩
            · exact .inr ⟨rfl, .inr h'⟩
          · rintro (h' | ⟨rfl, rfl | h'⟩)
            · exact .inl (.inl h')
            · exact .inl (.inr ⟨rfl, rfl⟩)
            · exact .inr ⟨rfl, h'⟩
        · obtain ⟨e, k1, _⟩ := hspec
          rw [hg] at k1; cases k1

theorem unionEdges_spec (es : List (String × GoMap String Bool)) :
    ∀ g g' : Graph V, g.WF → unionEdges g es = .ok g' →
    g'.WF ∧ g'.verticesById = g.verticesById ∧
    ∀ s t, g'.Edge s t ↔ g.Edge s t ∨ ∃ adj, (s, adj) ∈ es ∧ (t, true) ∈ adj := by
  induction es with
  | nil =>
    intro g g' wf h
    simp only [unionEdges, Except.ok.injEq] at h
    subst h
    exact ⟨wf, rfl, by simp⟩
  | cons p es ih =>
    intro g g' wf h
    obtain ⟨s0, adj⟩ := p
    simp only [unionEdges, bind, Except.bind] at h
    cases hg : unionEdgesFrom s0 g adj with
    | error e => rw [hg] at h; cases h
    | ok g1 =>
      rw [hg] at h
      obtain ⟨k1, k2, k3⟩ := unionEdgesFrom_spec s0 adj g g1 wf hg
      obtain ⟨h1, h2, h3⟩ := ih g1 g' k1 h
      refine ⟨h1, h2.trans k2, fun s t => ?_⟩
      rw [h3, k3]
      constructor
      · rintro ((h | ⟨rfl, h⟩) | ⟨adj', h, h'⟩)
        · exact .inl h
        · exact .inr ⟨adj, by simp, h⟩
        · exact .inr ⟨adj', by simp [h], h'⟩
      · rintro (h | ⟨adj', h, h'⟩)
        · exact .inl (.inl h)
        · rcases List.mem_cons.mp h with h | h
          · cases h; exact .inl (.inr ⟨rfl, h'⟩)
          · exact .inr ⟨adj', h, h'⟩

theorem union_spec {g new g' : Graph V} (wf : g.WF) (wfn : new.WF) (merge : V → V → V)
    (h : g.union new merge = .ok g') :
    g'.WF ∧ (∀ s t, g'.Edge s t ↔ g.Edge s t ∨ new.Edge s t) ∧
    ∀ id, g'.getVertex id = match g.getVertex id, new.getVertex id with
      | some o, some n => some (merge o n)
      | some o, none => some o
      | none, n => n := by
  unfold union at h
  simp only [bind, Except.bind] at h
  cases hv : unionVertices merge g new.verticesById with
  | error e => rw [hv] at h; cases h
  | ok g1 =>
    rw [hv] at h
    obtain ⟨k1, k2, k3⟩ := unionVertices_spec merge new.verticesById g g1 wf wfn.nodupV
      (fun p hp => wfn.idOk p.1 p.2 (GoMap.get?_of_mem wfn.nodupV hp)) hv
    obtain ⟨h1, h2, h3⟩ := unionEdges_spec new.edges g1 g' k1 h
    refine ⟨h1, fun s t => ?_, fun id => ?_⟩
    · rw [h3, k2]
      apply or_congr_right
      constructor
      · rintro ⟨adj, ha, ht⟩
        have hg := GoMap.get?_of_mem wfn.nodupE ha
        exact ⟨adj, hg, (mem_true_iff (wfn.adjNodup s adj hg)).mp ht⟩
      · rintro ⟨adj, ha, ht⟩
        exact ⟨adj, GoMap.mem_of_get? ha, (mem_true_iff (wfn.adjNodup s adj ha)).mpr ht⟩
    · have : g'.getVertex id = g1.getVertex id := by unfold getVertex; rw [h2]
      rw [this]; exact k3 id

/-- `Union` succeeds whenever `merge` keeps the id -/
theorem union_isOk {g new : Graph V} (wf : g.WF) (wfn : new.WF) (merge : V → V → V)
    (hm : ∀ o n, getId (merge o n) = getId n) : ∃ g', g.union new merge = .ok g' := by
  have hv : ∀ (vs : GoMap String V) (g : Graph V), ∃ g', unionVertices merge g vs = .ok g' ∧
      ∀ p ∈ vs, getId p.2 ∈ g'.ids ∧ (∀ i ∈ g.ids, i ∈ g'.ids) := by
    intro vs
    induction vs with
    | nil => intro g; exact ⟨g, rfl, by simp⟩
    | cons p vs ih =>
      intro g
      obtain ⟨k, nv⟩ := p
      have step : ∀ v : V, getId v = getId nv → ∃ g', unionVertices merge (g.addVertex v) vs = .ok g' ∧
        ∀ q ∈ (k, nv) :: vs, getId q.2 ∈ g'.ids ∧ (∀ i ∈ g.ids, i ∈ g'.ids) := by
        intro v hvid
        obtain ⟨g', h1, h2⟩ := ih (g.addVertex v)
        have hkeep : ∀ i ∈ (g.addVertex v).ids, i ∈ g'.ids := by
          cases vs with
          | nil => simp only [unionVertices, Except.ok.injEq] at h1; subst h1; exact fun i hi => hi
          | cons q vs => exact (h2 q (by simp)).2
        have hold : ∀ i ∈ g.ids, i ∈ g'.ids :=
          fun i hi => hkeep i (GoMap.mem_keys_set.mpr (.inr hi))
        refine ⟨g', h1, fun q hq => ⟨?_, hold⟩⟩
        rcases List.mem_cons.mp hq with rfl | hq
        · exact hkeep _ (GoMap.mem_keys_set.mpr (.inl hvid.symm))
        · exact (h2 q hq).1
      simp only [unionVertices]
      cases hg : g.getVertex (getId nv) with
      | none => simpa using step nv rfl
      | some o => simpa [hm] using step (merge o nv) (hm o nv)
  have hv' : ∃ g1, unionVertices merge g new.verticesById = .ok g1 ∧ ∀ i ∈ new.ids, i ∈ g1.ids := by
    obtain ⟨g1, h1, h2⟩ := hv new.verticesById g
    refine ⟨g1, h1, fun i hi => ?_⟩
    obtain ⟨v, hv⟩ := GoMap.mem_keys_iff.mp hi
    have := (h2 (i, v) hv).1
    rwa [wfn.idOk i v (GoMap.get?_of_mem wfn.nodupV hv)] at this
  obtain ⟨g1, h1, h2⟩ := hv'
  have wf1 : g1.WF := (unionVertices_spec merge new.verticesById g g1 wf wfn.nodupV
      (fun p hp => wfn.idOk p.1 p.2 (GoMap.get?_of_mem wfn.nodupV hp)) h1).1
  have hef : ∀ (source : String) (adj : List (String × Bool)) (g : Graph V), g.WF → source ∈ g.ids →
      (∀ p ∈ adj, p.1 ∈ g.ids) → ∃ g', unionEdgesFrom source g adj = .ok g' := by
    intro source adj
    induction adj with
    | nil => intro g _ _ _; exact ⟨g, rfl⟩
    | cons p adj ih =>
      intro g wfg hs ha
      obtain ⟨t, b⟩ := p
      have hrest : ∀ p ∈ adj, p.1 ∈ g.ids := fun p hp => ha p (List.mem_cons_of_mem _ hp)
      cases b with
      | false => simpa [unionEdgesFrom] using ih g wfg hs hrest
      | true =>
        have hspec := addEdge_spec wfg source t
        rw [if_pos ⟨hs, ha (t, true) (by simp)⟩] at hspec
        obtain ⟨g2, k1, k2, k3, _⟩ := hspec
        have hids : g2.ids = g.ids := by unfold ids; rw [k3]
        obtain ⟨g3, h3⟩ := ih g2 k2 (by rw [hids]; exact hs) (by rw [hids]; exact hrest)
        exact ⟨g3, by simp only [unionEdgesFrom, if_true, bind, Except.bind, k1]; exact h3⟩
  have he : ∀ (es : List (String × GoMap String Bool)) (g : Graph V), g.WF →
      (∀ p ∈ es, p.1 ∈ g.ids ∧ ∀ q ∈ p.2, q.1 ∈ g.ids) → ∃ g', unionEdges g es = .ok g' := by
    intro es
    induction es with
    | nil => intro g _ _; exact ⟨g, rfl⟩
    | cons p es ih =>
      intro g wfg ha
      obtain ⟨s, adj⟩ := p
      obtain ⟨g2, k1⟩ := hef s adj g wfg (ha (s, adj) (by simp)).1 (ha (s, adj) (by simp)).2
      obtain ⟨k2, k3, _⟩ := unionEdgesFrom_spec s adj g g2 wfg k1
      have hids : g2.ids = g.ids := by unfold ids; rw [k3]
      obtain ⟨g3, h3⟩ := ih g2 k2 (by rw [hids]; exact fun p hp => ha p (List.mem_cons_of_mem _ hp))
      exact ⟨g3, by simp only [unionEdges, bind, Except.bind, k1]; exact h3⟩
  obtain ⟨g2, k⟩ := he new.edges g1 wf1 (by
    intro p hp
    have hg := GoMap.get?_of_mem wfn.nodupE hp
    refine ⟨h2 _ ((wfn.sameKeys _).mp (GoMap.mem_keys_of_mem hp)), fun q hq => h2 _ ?_⟩
    exact wfn.adjIds _ _ hg q.1 (GoMap.mem_keys_of_mem hq))
  exact ⟨g2, by simp only [union, bind, Except.bind, h1]; exact k⟩

end Graph
end Verif
