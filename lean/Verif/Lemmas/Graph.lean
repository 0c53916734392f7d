import Verif.Spec.Digraph
import Verif.Lemmas.GoMap
import Verif.Lemmas.GoSort
import Mathlib.Data.Fintype.Card
import Mathlib.Order.WellFounded
import Mathlib.Data.Fintype.EquivFin
import Mathlib.Data.Fintype.Sets

namespace Verif
namespace Graph

set_option linter.unusedSectionVars false

variable {V : Type} [Vertex V]

/-! ### the edge relation of an adjacency map -/

/-- edge relation of a raw adjacency matrix -/
def Rel (m : GoMap String (GoMap String Bool)) (s t : String) : Prop :=
  ∃ adj, m.get? s = some adj ∧ adj.get? t = some true

structure MatOk (m : GoMap String (GoMap String Bool)) : Prop where
  nodup : m.keys.Nodup
  adjNodup : ∀ s adj, m.get? s = some adj → (GoMap.keys adj).Nodup

theorem rel_set {m : GoMap String (GoMap String Bool)} {s t : String} {adj : GoMap String Bool}
    (h : m.get? s = some adj) (a b : String) :
    Rel (m.set s (adj.set t true)) a b ↔ Rel m a b ∨ (a = s ∧ b = t) := by
  unfold Rel
  simp only [GoMap.get?_set]
  by_cases ha : s = a
  · subst ha
    simp only [if_true, Option.some.injEq, exists_eq_left', GoMap.get?_set, h, true_and]
    by_cases hb : t = b
    · subst hb; simp
    · simp [hb, Ne.symm hb]
  · simp [ha, Ne.symm ha]

theorem setEdge_ok {m m' : GoMap String (GoMap String Bool)} {s t : String}
    (h : setEdge m s t = .ok m') :
    m'.keys = m.keys ∧ (∀ a b, Rel m' a b ↔ Rel m a b ∨ (a = s ∧ b = t)) ∧ (MatOk m → MatOk m') := by
  unfold setEdge at h
  cases hg : m.get? s with
  | none => simp [hg] at h
  | some adj =>
    simp only [hg, Except.ok.injEq] at h
    subst h
    have hs : s ∈ m.keys := GoMap.get?_isSome.mp (by simp [hg])
    refine ⟨GoMap.keys_set_of_mem hs, rel_set hg, fun ok => ⟨?_, ?_⟩⟩
    · rw [GoMap.keys_set_of_mem hs]; exact ok.nodup
    · intro a adj' h'
      rw [GoMap.get?_set] at h'
      split at h'
      · cases h'; exact GoMap.nodup_set (ok.adjNodup s adj hg) _ _
      · exact ok.adjNodup a adj' h'

theorem setEdge_isOk {m : GoMap String (GoMap String Bool)} {s t : String} (h : s ∈ m.keys) :
    ∃ m', setEdge m s t = .ok m' := by
  unfold setEdge
  cases hg : m.get? s with
  | none => exact absurd h (GoMap.get?_eq_none.mp hg)
  | some adj => exact ⟨_, rfl⟩

/-! ### Reverse -/

/-- all stored booleans are true -/
def AllTrue (m : GoMap String (GoMap String Bool)) : Prop :=
  ∀ s adj, m.get? s = some adj → ∀ p ∈ adj, p.2 = true

theorem setEdge_allTrue {m m' : GoMap String (GoMap String Bool)} {s t : String} (ok : MatOk m)
    (h : setEdge m s t = .ok m') (ht : AllTrue m) : AllTrue m' := by
  unfold setEdge at h
  cases hg : m.get? s with
  | none => simp [hg] at h
  | some adj =>
    simp only [hg, Except.ok.injEq] at h
    subst h
    intro a adj' h' p hp
    rw [GoMap.get?_set] at h'
    split at h'
    · cases h'
      rcases (GoMap.mem_set (ok.adjNodup s adj hg)).mp hp with rfl | ⟨hp, _⟩
      · rfl
      · exact ht s adj hg p hp
    · exact ht a adj' h' p hp

theorem reverseFrom_spec (source : String) (adj : List (String × Bool)) :
    ∀ acc : GoMap String (GoMap String Bool), MatOk acc → AllTrue acc → (∀ p ∈ adj, p.1 ∈ acc.keys) →
    ∃ acc', reverseFrom source acc adj = .ok acc' ∧ acc'.keys = acc.keys ∧ MatOk acc' ∧ AllTrue acc' ∧
      ∀ a b, Rel acc' a b ↔ Rel acc a b ∨ (b = source ∧ (a, true) ∈ adj) := by
  induction adj with
  | nil => intro acc ok ht _; exact ⟨acc, rfl, rfl, ok, ht, by simp⟩
  | cons p rest ih =>
    intro acc ok ht hk
    obtain ⟨t, b⟩ := p
    cases b with
    | false =>
      obtain ⟨acc', h1, h2, h3, h4, h5⟩ := ih acc ok ht (fun p hp => hk p (List.mem_cons_of_mem _ hp))
      refine ⟨acc', by simpa [reverseFrom] using h1, h2, h3, h4, ?_⟩
      intro a b; rw [h5]; simp
    | true =>
      obtain ⟨m', hm'⟩ := setEdge_isOk (t := source) (hk (t, true) (by simp))
      obtain ⟨e1, e2, e3⟩ := setEdge_ok hm'
      obtain ⟨acc', h1, h2, h3, h4, h5⟩ := ih m' (e3 ok) (setEdge_allTrue ok hm' ht)
        (fun p hp => by rw [e1]; exact hk p (List.mem_cons_of_mem _ hp))
      refine ⟨acc', by simp only [reverseFrom, hm', if_true, bind, Except.bind]; exact h1, h2.trans e1, h3, h4, ?_⟩
      intro a b
      rw [h5, e2]
      simp only [List.mem_cons, Prod.mk.injEq, and_true]
      constructor
      · rintro ((h | ⟨rfl, rfl⟩) | ⟨rfl, h⟩)
        · exact .inl h
        · exact .inr ⟨rfl, .inl rfl⟩
        · exact .inr ⟨rfl, .inr h⟩
      · rintro (h | ⟨rfl, rfl | h⟩)
        · exact .inl (.inl h)
        · exact .inl (.inr ⟨rfl, rfl⟩)
        · exact .inr ⟨rfl, h⟩

theorem reverseAll_spec (edges : List (String × GoMap String Bool)) :
    ∀ acc : GoMap String (GoMap String Bool), MatOk acc → AllTrue acc →
    (∀ p ∈ edges, ∀ q ∈ p.2, q.1 ∈ acc.keys) →
    ∃ acc', reverseAll acc edges = .ok acc' ∧ acc'.keys = acc.keys ∧ MatOk acc' ∧ AllTrue acc' ∧
      ∀ a b, Rel acc' a b ↔ Rel acc a b ∨ ∃ adj, (b, adj) ∈ edges ∧ (a, true) ∈ adj := by
  induction edges with
  | nil => intro acc ok ht _; exact ⟨acc, rfl, rfl, ok, ht, by simp⟩
  | cons p rest ih =>
    intro acc ok ht hk
    obtain ⟨s, adj⟩ := p
    obtain ⟨m', h1, h2, h3, h4, h5⟩ := reverseFrom_spec s adj acc ok ht (hk (s, adj) (by simp))
    obtain ⟨acc', k1, k2, k3, k4, k5⟩ := ih m' h3 h4
      (fun p hp q hq => by rw [h2]; exact hk p (List.mem_cons_of_mem _ hp) q hq)
    refine ⟨acc', by simp only [reverseAll, h1, bind, Except.bind]; exact k1, k2.trans h2, k3, k4, ?_⟩
    intro a b
    rw [k5, h5]
    constructor
    · rintro ((h | ⟨rfl, h⟩) | ⟨adj', h, h'⟩)
      · exact .inl h
      · exact .inr ⟨adj, by simp, h⟩
      · exact .inr ⟨adj', by simp [h], h'⟩
    · rintro (h | ⟨adj', h, h'⟩)
      · exact .inl (.inl h)
      · rcases List.mem_cons.mp h with h | h
        · cases h; exact .inl (.inr ⟨rfl, h'⟩)
        · exact .inr ⟨adj', h, h'⟩

theorem copy_eq {g : Graph V} (wf : g.WF) : g.copy = g := by
  unfold copy
  rw [GoMap.foldl_set_nil wf.nodupV]
  have : ∀ (es acc : GoMap String (GoMap String Bool)), (∀ p ∈ es, (GoMap.keys p.2).Nodup) →
      es.foldl (fun m p => m.set p.1 (p.2.foldl (fun m' q => m'.set q.1 q.2) [])) acc =
      es.foldl (fun m p => m.set p.1 p.2) acc := by
    intro es
    induction es with
    | nil => intros; rfl
    | cons p es ih =>
      intro acc h
      simp only [List.foldl_cons]
      rw [GoMap.foldl_set_nil (h p (by simp)), ih _ (fun q hq => h q (List.mem_cons_of_mem _ hq))]
  rw [this _ _ ?_, GoMap.foldl_set_nil wf.nodupE]
  intro p hp
  exact wf.adjNodup p.1 p.2 (GoMap.get?_of_mem wf.nodupE hp)

theorem mem_true_iff {adj : GoMap String Bool} (hn : adj.keys.Nodup) {t : String} :
    (t, true) ∈ adj ↔ adj.get? t = some true := (GoMap.get?_eq_some_iff hn).symm

theorem reverse_spec {g : Graph V} (wf : g.WF) :
    ∃ es, g.reverse = .ok { g with edges := es } ∧ es.keys = g.verticesById.keys ∧ MatOk es ∧ AllTrue es ∧
      ∀ a b, Rel es a b ↔ g.Edge b a := by
  let init : GoMap String (GoMap String Bool) := g.verticesById.map (fun p => (p.1, []))
  have hk : init.keys = g.verticesById.keys := by
    simp [init, GoMap.keys, Function.comp_def]
  have hinit : ∀ s adj, init.get? s = some adj → adj = [] := by
    intro s adj h
    have := GoMap.mem_of_get? h
    simp [init] at this
    exact this.2
  have ok : MatOk init := ⟨by rw [hk]; exact wf.nodupV, fun s adj h => by rw [hinit s adj h]; simp⟩
  have ht : AllTrue init := fun s adj h p hp => by rw [hinit s adj h] at hp; simp at hp
  obtain ⟨es, h1, h2, h3, h4, h5⟩ := reverseAll_spec g.edges init ok ht (by
    intro p hp q hq
    rw [hk]
    exact wf.adjIds p.1 p.2 (GoMap.get?_of_mem wf.nodupE hp) q.1 (GoMap.mem_keys_of_mem hq))
  refine ⟨es, ?_, h2.trans hk, h3, h4, ?_⟩
  · simp only [reverse]
    show (reverseAll init g.edges >>= _) = _
    rw [h1]; rfl
  · intro a b
    rw [h5]
    have : ¬ Rel init a b := by
      rintro ⟨adj, h, h'⟩
      rw [hinit a adj h] at h'; simp at h'
    simp only [this, false_or, Edge]
    constructor
    · rintro ⟨adj, h, h'⟩
      have hg := GoMap.get?_of_mem wf.nodupE h
      exact ⟨adj, hg, (mem_true_iff (wf.adjNodup b adj hg)).mp h'⟩
    · rintro ⟨adj, h, h'⟩
      exact ⟨adj, GoMap.mem_of_get? h, (mem_true_iff (wf.adjNodup b adj h)).mpr h'⟩

/-! ### decidable edges and in-degrees -/

/-- boolean version of `Edge` -/
def edgeB (g : Graph V) (s t : String) : Bool :=
  match g.edges.get? s with
  | none => false
  | some adj => adj.get? t == some true

theorem edgeB_iff {g : Graph V} {s t : String} : g.edgeB s t = true ↔ g.Edge s t := by
  unfold edgeB Edge
  cases g.edges.get? s <;> simp

/-- number of predecessors of `u` that were not emitted yet -/
def inDeg (g : Graph V) (done : List String) (u : String) : Nat :=
  (g.ids.filter (fun s => decide (s ∉ done) && g.edgeB s u)).length

theorem Edge.mem_ids {g : Graph V} (wf : g.WF) {s t : String} (h : g.Edge s t) : s ∈ g.ids ∧ t ∈ g.ids := by
  obtain ⟨adj, h1, h2⟩ := h
  constructor
  · exact (wf.sameKeys s).mp (GoMap.get?_isSome.mp (by simp [h1]))
  · exact wf.adjIds s adj h1 t (GoMap.get?_isSome.mp (by simp [h2]))

theorem inDeg_eq_zero {g : Graph V} (wf : g.WF) {done : List String} {u : String} :
    g.inDeg done u = 0 ↔ ∀ s, g.Edge s u → s ∈ done := by
  unfold inDeg
  rw [List.length_eq_zero_iff, List.filter_eq_nil_iff]
  constructor
  · intro h s hs
    have := h s (hs.mem_ids wf).1
    simp only [Bool.and_eq_true, decide_eq_true_eq, not_and, edgeB_iff] at this
    by_contra hc
    exact this hc hs
  · intro h s _
    simp only [Bool.and_eq_true, decide_eq_true_eq, not_and, edgeB_iff]
    intro hn he
    exact hn (h s he)

theorem incomingCounts_spec {g : Graph V} (wf : g.WF) {es : GoMap String (GoMap String Bool)}
    (hk : es.keys = g.verticesById.keys) (ok : MatOk es) (ht : AllTrue es)
    (hr : ∀ a b, Rel es a b ↔ g.Edge b a) :
    (incomingCounts { g with edges := es }).keys = g.verticesById.keys ∧
    ∀ k, (incomingCounts { g with edges := es }).get? k =
      if k ∈ g.ids then some ((g.inDeg [] k : Nat) : Int) else none := by
  have hkeys : (incomingCounts { g with edges := es }).keys = g.verticesById.keys := by
    rw [← hk]; simp [incomingCounts, GoMap.keys, Function.comp_def]
  refine ⟨hkeys, fun k => ?_⟩
  by_cases hm : k ∈ g.ids
  · simp only [hm, if_true]
    have hm' : k ∈ es.keys := by rw [hk]; exact hm
    obtain ⟨adj, hadj⟩ := Option.isSome_iff_exists.mp (GoMap.get?_isSome.mpr hm')
    have hmem := GoMap.mem_of_get? hadj
    rw [GoMap.get?_eq_some_iff (by rw [hkeys]; exact wf.nodupV)]
    simp only [incomingCounts, List.mem_map, Prod.mk.injEq, Int.natCast_inj]
    refine ⟨(k, adj), hmem, rfl, ?_⟩
    have hnd := ok.adjNodup k adj hadj
    have hall := ht k adj hadj
    have e1 : adj.filter (fun q => q.2) = adj := List.filter_eq_self.mpr (fun p hp => hall p hp)
    rw [e1]
    unfold inDeg
    have : (GoMap.keys adj).Perm (g.ids.filter (fun s => decide (s ∉ ([] : List String)) && g.edgeB s k)) := by
      refine (List.perm_ext_iff_of_nodup hnd (List.Nodup.filter _ wf.nodupV)).mpr ?_
      intro s
      simp only [List.mem_filter, List.not_mem_nil, not_false_eq_true, decide_true, Bool.true_and, edgeB_iff]
      rw [← hr]
      constructor
      · intro hs
        obtain ⟨b, hb⟩ := GoMap.mem_keys_iff.mp hs
        have hb' : b = true := hall _ hb
        subst hb'
        have : Rel es k s := ⟨adj, hadj, GoMap.get?_of_mem hnd hb⟩
        exact ⟨(((hr k s).mp this).mem_ids wf).1, this⟩
      · rintro ⟨_, adj', h1, h2⟩
        rw [hadj] at h1; cases h1
        exact GoMap.get?_isSome.mp (by simp [h2])
    simpa [GoMap.keys] using this.length_eq
  · simp only [hm, if_false]
    rw [GoMap.get?_eq_none, hkeys]; exact hm

/-! ### the loop -/

/-- the set of available vertices, as a list without repetitions -/
structure IsAvailList (g : Graph V) (done : List String) (L : List V) : Prop where
  nodup : (L.map getId).Nodup
  mem : ∀ w, w ∈ L ↔ g.getVertex (getId w) = some w ∧ g.Available done (getId w)

/-- `out` is a run of the selection rule -/
structure Run (g : Graph V) (isLower : V → V → Bool) (out : List V) : Prop where
  mem : ∀ v ∈ out, g.getVertex (getId v) = some v
  nodup : (out.map getId).Nodup
  greedy : ∀ pre v post, out = pre ++ v :: post →
    ∃ L, g.IsAvailList (pre.map getId) L ∧ pickHighest isLower (sortBy getId L) = some v

theorem foldl_higher_mem {isLower : V → V → Bool} (l : List V) :
    ∀ (cur : Option V) (v : V), l.foldl (higher isLower) cur = some v → v ∈ l ∨ cur = some v := by
  induction l with
  | nil => intro cur v h; exact .inr h
  | cons a l ih =>
    intro cur v h
    simp only [List.foldl_cons] at h
    rcases ih _ v h with h | h
    · exact .inl (List.mem_cons_of_mem _ h)
    · cases cur with
      | none => simp [higher] at h; subst h; simp
      | some c =>
        simp only [higher] at h
        split at h
        · simp at h; subst h; simp
        · exact .inr h

theorem pickHighest_mem {isLower : V → V → Bool} {l : List V} {v : V} (h : pickHighest isLower l = some v) :
    v ∈ l := by
  rcases foldl_higher_mem l none v h with h | h
  · exact h
  · simp at h

theorem foldl_higher_some {isLower : V → V → Bool} (l : List V) :
    ∀ c : V, l.foldl (higher isLower) (some c) ≠ none := by
  induction l with
  | nil => intro c; simp
  | cons a l ih =>
    intro c; simp only [List.foldl_cons, higher]
    split <;> apply ih

theorem pickHighest_none {isLower : V → V → Bool} {l : List V} : pickHighest isLower l = none ↔ l = [] := by
  constructor
  · intro h
    cases l with
    | nil => rfl
    | cons a l => exact absurd h (foldl_higher_some l a)
  · rintro rfl; rfl

/-- what the fold selects when priorities come from a function: highest priority, earliest among those -/
theorem pickHighest_prio {prio : V → Int} {l : List V} {v : V}
    (h : pickHighest (isLowerPriorityFromGetPriority prio) l = some v) :
    ∃ pre post, l = pre ++ v :: post ∧ (∀ u ∈ pre, prio u < prio v) ∧ (∀ u ∈ post, prio u ≤ prio v) := by
  induction l using List.reverseRecOn generalizing v with
  | nil => simp [pickHighest] at h
  | append_singleton l a ih =>
    unfold pickHighest at h ih
    rw [List.foldl_append] at h
    simp only [List.foldl_cons, List.foldl_nil] at h
    cases hc : l.foldl (higher (isLowerPriorityFromGetPriority prio)) none with
    | none =>
      rw [hc] at h
      have hl : l = [] := pickHighest_none.mp hc
      simp [higher] at h; subst h; subst hl
      exact ⟨[], [], by simp⟩
    | some c =>
      rw [hc] at h
      obtain ⟨pre, post, e, h1, h2⟩ := ih hc
      simp only [higher, isLowerPriorityFromGetPriority, decide_eq_true_eq] at h
      split at h
      · rename_i hlt
        simp at h; subst h
        refine ⟨l, [], by simp, ?_, by simp⟩
        intro u hu
        rw [e] at hu
        rcases List.mem_append.mp hu with hu | hu
        · exact lt_trans (h1 u hu) hlt
        · rcases List.mem_cons.mp hu with rfl | hu
          · exact hlt
          · exact lt_of_le_of_lt (h2 u hu) hlt
      · rename_i hlt
        simp at h; subst h
        refine ⟨pre, post ++ [a], by simp [e], h1, ?_⟩
        intro u hu
        rcases List.mem_append.mp hu with hu | hu
        · exact h2 u hu
        · simp at hu; subst hu; exact not_lt.mp hlt

theorem IsAvailList.perm {g : Graph V} {done : List String} {L L' : List V}
    (h : g.IsAvailList done L) (h' : g.IsAvailList done L') : L.Perm L' :=
  (List.perm_ext_iff_of_nodup (List.Nodup.of_map _ h.nodup) (List.Nodup.of_map _ h'.nodup)).mpr
    (fun w => by rw [h.mem, h'.mem])

theorem collectSources_spec {g : Graph V} (wf : g.WF) (counts : GoMap String Int) (hn : counts.keys.Nodup)
    (hk : ∀ k ∈ counts.keys, k ∈ g.ids) :
    ∃ L, collectSources g counts = .ok L ∧ (L.map getId).Nodup ∧
      ∀ w, w ∈ L ↔ g.getVertex (getId w) = some w ∧ counts.get? (getId w) = some 0 := by
  induction counts with
  | nil => exact ⟨[], rfl, by simp, by simp⟩
  | cons p rest ih =>
    obtain ⟨id, n⟩ := p
    rw [GoMap.keys_cons, List.nodup_cons] at hn
    obtain ⟨L, h1, h2, h3⟩ := ih hn.2 (fun k hk' => hk k (by simp [hk']))
    simp only [collectSources, h1, bind, Except.bind]
    by_cases hz : n = 0
    · subst hz
      have hid : id ∈ g.verticesById.keys := hk id (by simp)
      obtain ⟨v, hv⟩ := Option.isSome_iff_exists.mp (GoMap.get?_isSome.mpr hid)
      have hvid : getId v = id := wf.idOk id v hv
      simp only [getVertex, hv, if_true]
      refine ⟨v :: L, rfl, ?_, ?_⟩
      · rw [List.map_cons, List.nodup_cons]
        refine ⟨?_, h2⟩
        rw [hvid]
        intro hc
        obtain ⟨w, hw, he⟩ := List.mem_map.mp hc
        have := ((h3 w).mp hw).2
        apply hn.1
        rw [← he]
        exact GoMap.get?_isSome.mp (by simp [this])
      · intro w
        rw [List.mem_cons, h3, GoMap.get?_cons]
        by_cases he : id = getId w
        · simp only [if_pos he, and_true]
          constructor
          · rintro (rfl | h)
            · rw [hvid]; exact hv
            · exact h.1
          · intro h
            left
            rw [← he, hv] at h
            exact (Option.some.inj h).symm
        · simp only [if_neg he]
          constructor
          · rintro (rfl | h)
            · exact absurd hvid.symm he
            · exact h
          · intro h; exact .inr h
    · simp only [hz, if_false]
      refine ⟨L, rfl, h2, ?_⟩
      intro w
      rw [h3, GoMap.get?_cons]
      by_cases he : id = getId w
      · simp only [if_pos he, Option.some.injEq, hz, and_false, iff_false, not_and]
        intro _ hc
        exact hn.1 (he ▸ GoMap.get?_isSome.mp (by simp [hc]))
      · simp only [if_neg he]

theorem decrement_get? (c : GoMap String Int) (t k : String) :
    (decrement c t).get? k = if t = k then some ((c.get? t).getD 0 - 1) else c.get? k := by
  unfold decrement
  cases h : c.get? t <;> simp [GoMap.get?_set]

theorem decrement_nodup {c : GoMap String Int} (hn : c.keys.Nodup) (t : String) :
    (decrement c t).keys.Nodup := by
  unfold decrement
  cases c.get? t <;> exact GoMap.nodup_set hn _ _

theorem foldl_decrement (ts : List (String × Bool)) :
    ∀ c : GoMap String Int, c.keys.Nodup → (ts.map Prod.fst).Nodup →
    (ts.foldl (fun c p => decrement c p.1) c).keys.Nodup ∧
    ∀ k, (ts.foldl (fun c p => decrement c p.1) c).get? k =
      if k ∈ ts.map Prod.fst then some ((c.get? k).getD 0 - 1) else c.get? k := by
  induction ts with
  | nil => intro c hn _; exact ⟨hn, by simp⟩
  | cons p ts ih =>
    intro c hn hd
    rw [List.map_cons, List.nodup_cons] at hd
    obtain ⟨h1, h2⟩ := ih (decrement c p.1) (decrement_nodup hn _) hd.2
    refine ⟨h1, fun k => ?_⟩
    simp only [List.foldl_cons]
    rw [h2, decrement_get?]
    by_cases hk : p.1 = k
    · subst hk; simp [hd.1]
    · simp [hk, Ne.symm hk]

/-- loop invariant -/
structure Inv (g : Graph V) (isLower : V → V → Bool) (verts : GoMap String V)
    (edges : GoMap String (GoMap String Bool)) (counts : GoMap String Int) (out : List V) : Prop where
  run : g.Run isLower out
  closed : ∀ t ∈ out.map getId, ∀ s, g.Edge s t → s ∈ out.map getId
  vNodup : verts.keys.Nodup
  vGet : ∀ k, verts.get? k = if k ∈ out.map getId then none else g.verticesById.get? k
  eGet : ∀ k, edges.get? k = if k ∈ out.map getId then none else g.edges.get? k
  cNodup : counts.keys.Nodup
  cGet : ∀ k, counts.get? k =
    if k ∈ g.ids ∧ k ∉ out.map getId then some ((g.inDeg (out.map getId) k : Nat) : Int) else none

theorem inDeg_snoc {g : Graph V} (wf : g.WF) {done : List String} {id : String} (hid : id ∈ g.ids)
    (hd : id ∉ done) (u : String) :
    g.inDeg done u = g.inDeg (done ++ [id]) u + if g.edgeB id u then 1 else 0 := by
  unfold inDeg
  have hnd : g.ids.Nodup := wf.nodupV
  have gen : ∀ l : List String, l.Nodup →
      (l.filter (fun s => decide (s ∉ done) && g.edgeB s u)).length =
      (l.filter (fun s => decide (s ∉ done ++ [id]) && g.edgeB s u)).length +
        if id ∈ l ∧ g.edgeB id u then 1 else 0 := by
    intro l
    induction l with
    | nil => intro _; simp
    | cons a l ih =>
      intro hl
      rw [List.nodup_cons] at hl
      have ih := ih hl.2
      simp only [List.filter_cons, List.mem_append, List.mem_cons, List.not_mem_nil, or_false]
      by_cases ha : a = id
      · subst ha
        simp only [List.mem_append, List.mem_singleton, hl.1, false_and, if_false] at ih
        by_cases he : g.edgeB a u
        · simp [hd, he]; simpa using ih
        · simp [hd, he]; simpa using ih
      · have e : (decide (a ∉ done) && g.edgeB a u) = (decide (¬ (a ∈ done ∨ a = id)) && g.edgeB a u) := by
          simp [ha]
        rw [e]
        simp only [List.mem_append, List.mem_singleton] at ih
        by_cases hc : (decide (¬ (a ∈ done ∨ a = id)) && g.edgeB a u) = true
        · simp only [hc, if_true, List.length_cons, ih]
          simp only [Ne.symm ha, false_or]
          omega
        · simp only [hc, if_false, Bool.false_eq_true, ih, Ne.symm ha, false_or]
  have := gen g.ids hnd
  simpa [hid] using this

theorem Run.snoc {g : Graph V} {isLower : V → V → Bool} {out : List V} (h : g.Run isLower out)
    {L : List V} {v : V} (hL : g.IsAvailList (out.map getId) L)
    (hp : pickHighest isLower (sortBy getId L) = some v) : g.Run isLower (out ++ [v]) := by
  have hvL : v ∈ L := (sortBy_perm _ _).mem_iff.mp (pickHighest_mem hp)
  obtain ⟨h1, h2⟩ := (hL.mem v).mp hvL
  refine ⟨?_, ?_, ?_⟩
  · intro w hw
    rcases List.mem_append.mp hw with hw | hw
    · exact h.mem w hw
    · simp at hw; subst hw; exact h1
  · rw [List.map_append, List.nodup_append]
    refine ⟨h.nodup, by simp, ?_⟩
    intro a ha b hb e
    simp at hb; subst hb; subst e
    exact h2.2.1 ha
  · intro pre w post e
    rcases List.eq_nil_or_concat post with rfl | ⟨post', z, rfl⟩
    · obtain ⟨e1, e2⟩ := List.append_inj' e rfl
      cases e2; subst e1
      exact ⟨L, hL, hp⟩
    · have e' : out ++ [v] = (pre ++ w :: post') ++ [z] := by simpa using e
      obtain ⟨e1, _⟩ := List.append_inj' e' rfl
      exact h.greedy pre w post' e1

theorem topoLoop_spec {g : Graph V} (wf : g.WF) (isLower : V → V → Bool) :
    ∀ (fuel : Nat) (verts : GoMap String V) (edges : GoMap String (GoMap String Bool))
      (counts : GoMap String Int) (out : List V),
    Inv g isLower verts edges counts out → fuel = verts.length →
    match topoLoop g isLower fuel verts edges counts out with
    | .ok r => g.Run isLower r ∧ ∀ id ∈ g.ids, id ∈ r.map getId
    | .error e => e = .cycle ∧ ∃ D : List String, (∃ u ∈ g.ids, u ∉ D) ∧
        ∀ u ∈ g.ids, u ∉ D → ¬ g.Available D u := by
  intro fuel
  induction fuel with
  | zero =>
    intro verts edges counts out inv hf
    have hv : verts = [] := List.eq_nil_of_length_eq_zero hf.symm
    unfold topoLoop
    simp only [hv, List.length_nil, if_true]
    refine ⟨inv.run, fun id hid => ?_⟩
    have := inv.vGet id
    rw [hv] at this
    simp only [GoMap.get?_nil] at this
    by_contra hc
    rw [if_neg hc] at this
    exact GoMap.get?_eq_none.mp this.symm hid
  | succ fuel ih =>
    intro verts edges counts out inv hf
    unfold topoLoop
    have hne : verts.length ≠ 0 := by omega
    simp only [hne, if_false]
    have hcid : ∀ k ∈ counts.keys, k ∈ g.ids ∧ k ∉ out.map getId := by
      intro k hk
      have := inv.cGet k
      by_contra hc
      rw [if_neg hc] at this
      exact GoMap.get?_eq_none.mp this hk
    obtain ⟨L, hL1, hL2, hL3⟩ := collectSources_spec wf counts inv.cNodup (fun k hk => (hcid k hk).1)
    have hAvail : g.IsAvailList (out.map getId) L := by
      refine ⟨hL2, fun w => ?_⟩
      rw [hL3, inv.cGet]
      by_cases hc : getId w ∈ g.ids ∧ getId w ∉ out.map getId
      · rw [if_pos hc]
        simp only [Option.some.injEq, Int.natCast_eq_zero, inDeg_eq_zero wf]
        constructor
        · rintro ⟨h1, h2⟩; exact ⟨h1, hc.1, hc.2, h2⟩
        · rintro ⟨h1, _, _, h2⟩; exact ⟨h1, h2⟩
      · rw [if_neg hc]
        simp only [reduceCtorEq, and_false, false_iff, not_and]
        rintro _ ⟨h1, h2, _⟩
        exact hc ⟨h1, h2⟩
    simp only [hL1, bind, Except.bind]
    cases hp : pickHighest isLower (sortBy getId L) with
    | none =>
      simp only
      have hnil : L = [] := by
        have := pickHighest_none.mp hp
        exact List.perm_nil.mp (this ▸ (sortBy_perm getId L).symm)
      refine ⟨trivial, out.map getId, ?_, ?_⟩
      · obtain ⟨⟨k, v⟩, hkv⟩ := List.exists_mem_of_length_pos (Nat.pos_of_ne_zero hne)
        have h1 := GoMap.get?_of_mem inv.vNodup hkv
        rw [inv.vGet] at h1
        by_cases hc : k ∈ out.map getId
        · rw [if_pos hc] at h1; simp at h1
        · rw [if_neg hc] at h1
          exact ⟨k, GoMap.get?_isSome.mp (by simp [h1]), hc⟩
      · intro u hu _ ha
        obtain ⟨v, hv⟩ := Option.isSome_iff_exists.mp (GoMap.get?_isSome.mpr hu)
        have hid := wf.idOk u v hv
        have : v ∈ L := (hAvail.mem v).mpr ⟨by rw [hid]; exact hv, by rw [hid]; exact ha⟩
        rw [hnil] at this; simp at this
    | some v =>
      simp only
      have hvL : v ∈ L := (sortBy_perm _ _).mem_iff.mp (pickHighest_mem hp)
      obtain ⟨hv1, hv2, hv3, hv4⟩ := (hAvail.mem v).mp hvL
      have hvk : getId v ∈ verts.keys := by
        apply GoMap.get?_isSome.mp
        rw [inv.vGet, if_neg hv3]
        unfold getVertex at hv1
        simp [hv1]
      have hmap : (out ++ [v]).map getId = out.map getId ++ [getId v] := by simp
      refine ih _ _ _ _ ?_ (by have := GoMap.length_delete inv.vNodup hvk; omega)
      -- the decremented counts
      obtain ⟨adj, hadj⟩ : ∃ adj, g.edges.get? (getId v) = some adj :=
        Option.isSome_iff_exists.mp (GoMap.get?_isSome.mpr ((wf.sameKeys _).mpr hv2))
      have hadj' : (edges.get? (getId v)).getD [] = adj := by
        rw [inv.eGet, if_neg hv3, hadj]; rfl
      have hadjn := wf.adjNodup _ adj hadj
      have hts : ((adj.filter (fun p => p.2)).map Prod.fst).Nodup :=
        List.Nodup.sublist (List.Sublist.map _ List.filter_sublist) hadjn
      have htmem : ∀ k, k ∈ (adj.filter (fun p => p.2)).map Prod.fst ↔ g.Edge (getId v) k := by
        intro k
        constructor
        · intro h
          obtain ⟨⟨a, b⟩, hm, rfl⟩ := List.mem_map.mp h
          obtain ⟨hm, hb⟩ := List.mem_filter.mp hm
          simp only at hb; subst hb
          exact ⟨adj, hadj, GoMap.get?_of_mem hadjn hm⟩
        · rintro ⟨adj', h1, h2⟩
          rw [hadj] at h1; cases h1
          exact List.mem_map.mpr ⟨(k, true), List.mem_filter.mpr ⟨GoMap.mem_of_get? h2, rfl⟩, rfl⟩
      obtain ⟨hd1, hd2⟩ := foldl_decrement (adj.filter (fun p => p.2)) counts inv.cNodup hts
      rw [hadj']
      have hrun := inv.run.snoc hAvail hp
      refine ⟨hrun, ?_, GoMap.nodup_delete inv.vNodup _, ?_, ?_, GoMap.nodup_delete hd1 _, ?_⟩
      · intro t ht s hs
        rw [hmap] at ht ⊢
        rcases List.mem_append.mp ht with ht | ht
        · exact List.mem_append_left _ (inv.closed t ht s hs)
        · simp at ht; subst ht
          exact List.mem_append_left _ (hv4 s hs)
      · intro k
        rw [GoMap.get?_delete, inv.vGet, hmap]
        by_cases hk : getId v = k
        · simp [hk]
        · simp [hk, Ne.symm hk]
      · intro k
        rw [GoMap.get?_delete, inv.eGet, hmap]
        by_cases hk : getId v = k
        · simp [hk]
        · simp [hk, Ne.symm hk]
      · intro k
        rw [GoMap.get?_delete, hd2, hmap]
        by_cases hk : getId v = k
        · subst hk; simp
        · rw [if_neg hk]
          have hmem : k ∉ out.map getId ++ [getId v] ↔ k ∉ out.map getId := by
            simp [Ne.symm hk]
          simp only [hmem]
          by_cases he : g.Edge (getId v) k
          · rw [if_pos ((htmem k).mpr he)]
            have hkid := (he.mem_ids wf).2
            have hkout : k ∉ out.map getId := fun hc => hv3 (inv.closed k hc _ he)
            rw [inv.cGet, if_pos ⟨hkid, hkout⟩, if_pos ⟨hkid, hkout⟩]
            have := inDeg_snoc wf hv2 hv3 k
            rw [if_pos (edgeB_iff.mpr he)] at this
            simp only [Option.getD_some, Option.some.injEq]
            omega
          · rw [if_neg (fun h => he ((htmem k).mp h)), inv.cGet]
            have := inDeg_snoc wf hv2 hv3 k
            rw [if_neg (fun h => he (edgeB_iff.mp h))] at this
            rw [this]; simp

theorem topoSort_spec {g : Graph V} (wf : g.WF) (isLower : V → V → Bool) :
    match g.topologicallySortWithPriority isLower with
    | .ok r => g.Run isLower r ∧ ∀ id ∈ g.ids, id ∈ r.map getId
    | .error e => e = .cycle ∧ ∃ D : List String, (∃ u ∈ g.ids, u ∉ D) ∧
        ∀ u ∈ g.ids, u ∉ D → ¬ g.Available D u := by
  obtain ⟨es, h1, h2, h3, h4, h5⟩ := reverse_spec wf
  obtain ⟨k1, k2⟩ := incomingCounts_spec wf h2 h3 h4 h5
  unfold topologicallySortWithPriority
  simp only [copy_eq wf, h1, bind, Except.bind]
  refine topoLoop_spec wf isLower _ _ _ _ _ ?_ rfl
  refine ⟨⟨by simp, by simp, ?_⟩, by simp, wf.nodupV, by simp, by simp, by rw [k1]; exact wf.nodupV, ?_⟩
  · intro pre v post e; simp at e
  · intro k; rw [k2]; simp

theorem Run.respects {g : Graph V} {isLower : V → V → Bool} {out : List V} (h : g.Run isLower out) :
    g.RespectsEdges out := by
  intro s t he pre v post e ht
  obtain ⟨L, hL, hp⟩ := h.greedy pre v post e
  have hvL : v ∈ L := (sortBy_perm _ _).mem_iff.mp (pickHighest_mem hp)
  have := ((hL.mem v).mp hvL).2.2.2
  rw [ht] at this
  exact this s he

theorem RespectsEdges.acyclic {g : Graph V} (wf : g.WF) {out : List V} (h : g.RespectsEdges out)
    (hall : ∀ id ∈ g.ids, id ∈ out.map getId) : ¬ g.Cyclic := by
  rintro ⟨c, hc⟩
  -- every vertex reaching `t` by a path stands before `t`
  have key : ∀ s t, Relation.TransGen g.Edge s t →
      ∀ pre v post, out = pre ++ v :: post → getId v = t → s ∈ pre.map getId := by
    intro s t hst
    induction hst with
    | single h1 => exact h s _ h1
    | tail h1 h2 ih =>
      rename_i b c'
      intro pre v post e ht
      have hb := h b c' h2 pre v post e ht
      obtain ⟨w, hw, hwid⟩ := List.mem_map.mp hb
      obtain ⟨p1, p2, rfl⟩ := List.append_of_mem hw
      have := ih p1 w (p2 ++ v :: post) (by simp [e]) hwid
      rw [List.map_append]
      exact List.mem_append_left _ this
  have hcid : c ∈ g.ids := by
    cases hc with
    | single h1 => exact (h1.mem_ids wf).2
    | tail _ h1 => exact (h1.mem_ids wf).2
  -- take the first occurrence of c
  have hcm := hall c hcid
  have first : ∀ n (pre : List V) (v : V) (post : List V), pre.length = n → out = pre ++ v :: post →
      getId v = c → False := by
    intro n
    induction n using Nat.strong_induction_on with
    | _ n ih =>
      intro pre v post hn e hv
      have := key c c hc pre v post e hv
      obtain ⟨w, hw, hwid⟩ := List.mem_map.mp this
      obtain ⟨p1, p2, rfl⟩ := List.append_of_mem hw
      exact ih p1.length (by rw [← hn]; simp) p1 w (p2 ++ v :: post) rfl (by simp [e]) hwid
  obtain ⟨w, hw, hwid⟩ := List.mem_map.mp hcm
  obtain ⟨p1, p2, e⟩ := List.append_of_mem hw
  exact first _ p1 w p2 rfl e hwid

/-- a stuck state (nothing available, something left) contains a cycle -/
theorem cyclic_of_stuck {g : Graph V} (wf : g.WF) {D : List String} (hne : ∃ u ∈ g.ids, u ∉ D)
    (hst : ∀ u ∈ g.ids, u ∉ D → ¬ g.Available D u) : g.Cyclic := by
  by_contra hac
  -- every remaining vertex has a remaining predecessor
  have hpred : ∀ u : {u // u ∈ g.ids ∧ u ∉ D}, ∃ s : {u // u ∈ g.ids ∧ u ∉ D}, g.Edge s.1 u.1 := by
    rintro ⟨u, hu, hd⟩
    have := hst u hu hd
    unfold Available at this
    push Not at this
    obtain ⟨s, hs, hsd⟩ := this hu hd
    exact ⟨⟨s, (hs.mem_ids wf).1, hsd⟩, hs⟩
  let r : {u // u ∈ g.ids ∧ u ∉ D} → {u // u ∈ g.ids ∧ u ∉ D} → Prop :=
    fun a b => Relation.TransGen g.Edge a.1 b.1
  have : Finite {u // u ∈ g.ids ∧ u ∉ D} :=
    Finite.of_injective (fun u : {u // u ∈ g.ids ∧ u ∉ D} => (⟨u.1, u.2.1⟩ : {u // u ∈ g.ids}))
      (fun a b h => Subtype.ext (Subtype.mk.inj h))
  have : IsTrans _ r := ⟨fun _ _ _ h1 h2 => Relation.TransGen.trans h1 h2⟩
  have : Std.Irrefl r := ⟨fun a h => hac ⟨a.1, h⟩⟩
  have wfr := Finite.wellFounded_of_trans_of_irrefl r
  obtain ⟨u, hu⟩ := hne
  obtain ⟨m, _, hm⟩ := wfr.has_min Set.univ ⟨⟨u, hu⟩, trivial⟩
  obtain ⟨s, hs⟩ := hpred m
  exact hm s trivial (.single hs)

end Graph
end Verif
