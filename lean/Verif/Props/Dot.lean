import Verif.Model.Dot
import Verif.Spec.Dot
import Verif.Lemmas.Json
import Verif.Lemmas.GoSort
import Verif.Props.Graph

/-!
# The drawing of a graph in the report of a cycle (C96)
-/

namespace Verif

open Spec Spec.Dot Graph

/-! ### texts -/

theorem dot_hex (k : Nat) : ∀ (acc n : Nat) (rest : List Char),
    Spec.Dot.hex k acc (Dot.hexDigits k n ++ rest) = some (16 ^ k * acc + n % 16 ^ k, rest) := by
  induction k with
  | zero =>
    intro acc n rest
    show some (acc, rest) = _
    rw [Nat.pow_zero, Nat.mod_one, Nat.one_mul, Nat.add_zero]
  | succ k ih =>
    intro acc n rest
    show (Json.hexValue (Verif.Json.hexDigit (n / 16 ^ k % 16))).bind (fun v => Spec.Dot.hex k (16 * acc + v) (Dot.hexDigits k n ++ rest)) = _
    rw [hexValue_hexDigit _ (Nat.mod_lt _ (by decide)), Option.bind_some, ih, Nat.mod_pow_succ]
    congr 2
    rw [Nat.mul_add, ← Nat.mul_assoc, Nat.pow_succ]
    omega

theorem rune_escape {e : Char} {c : Char} {l : List Char} (hw : width e = none) (hs : simple e = some c) :
    rune ('\\' :: e :: l) = some (c, l) := by
  simp [rune, hw, hs]

theorem rune_hex {e : Char} {k n : Nat} {l : List Char} (hw : width e = some k) (hn : n < 16 ^ k) :
    rune ('\\' :: e :: (Dot.hexDigits k n ++ l)) = some (Char.ofNat n, l) := by
  simp only [rune, hw]
  rw [dot_hex, Nat.mul_zero, Nat.zero_add, Nat.mod_eq_of_lt hn]
  rfl

theorem rune_plain {c : Char} {l : List Char} (h1 : c ≠ '"') (h2 : c ≠ '\\') : rune (c :: l) = some (c, l) := by
  unfold rune
  split
  · rename_i h; cases h
  · rename_i h; injection h with h _; exact absurd h h1
  · rename_i h; injection h with h _; exact absurd h h2
  · rename_i h; injection h with h _; exact absurd h h2
  · rename_i h; cases h; rfl

theorem rune_escapeRune (p : Char → Bool) (c : Char) (l : List Char) : rune (Dot.escapeRune p c ++ l) = some (c, l) := by
  unfold Dot.escapeRune
  by_cases h0 : c = '"' ∨ c = '\\'
  · rw [if_pos h0]
    rcases h0 with rfl | rfl
    · exact rune_escape (by decide) (by decide)
    · exact rune_escape (by decide) (by decide)
  rw [if_neg h0]
  obtain ⟨hq, hb⟩ := not_or.mp h0
  by_cases hp : p c = true
  · rw [if_pos hp]
    exact rune_plain hq hb
  rw [if_neg hp]
  by_cases e : c = '\x07'
  · rw [if_pos e, e]; exact rune_escape (by decide) (by decide)
  rw [if_neg e]; clear e
  by_cases e : c = '\x08'
  · rw [if_pos e, e]; exact rune_escape (by decide) (by decide)
  rw [if_neg e]; clear e
  by_cases e : c = '\x0c'
  · rw [if_pos e, e]; exact rune_escape (by decide) (by decide)
  rw [if_neg e]; clear e
  by_cases e : c = '\n'
  · rw [if_pos e, e]; exact rune_escape (by decide) (by decide)
  rw [if_neg e]; clear e
  by_cases e : c = '\r'
  · rw [if_pos e, e]; exact rune_escape (by decide) (by decide)
  rw [if_neg e]; clear e
  by_cases e : c = '\t'
  · rw [if_pos e, e]; exact rune_escape (by decide) (by decide)
  rw [if_neg e]; clear e
  by_cases e : c = '\x0b'
  · rw [if_pos e, e]; exact rune_escape (by decide) (by decide)
  rw [if_neg e]; clear e
  have hc : Char.ofNat c.toNat = c := Char.ofNat_toNat c
  have hlt : c.toNat < 16 ^ 8 := by
    have := c.valid
    rcases this with h | ⟨_, h⟩
    · exact lt_trans h (by decide)
    · exact lt_trans h (by decide)
  by_cases e : c.toNat < 32 ∨ c.toNat = 0x7f
  · rw [if_pos e]
    refine (rune_hex (e := 'x') (k := 2) (by decide) ?_).trans (by rw [hc])
    have : (16 : Nat) ^ 2 = 256 := by decide
    omega
  rw [if_neg e]; clear e
  by_cases e : c.toNat < 0x10000
  · rw [if_pos e]
    exact (rune_hex (e := 'u') (k := 4) (by decide) e).trans (by rw [hc])
  rw [if_neg e]
  exact (rune_hex (e := 'U') (k := 8) (by decide) hlt).trans (by rw [hc])

theorem text_succ {fuel : Nat} {l : List Char} {r : Char × List Char} (h : rune l = some r) :
    text (fuel + 1) l = (text fuel r.2).map fun t => (r.1 :: t.1, t.2) := by
  cases l with
  | nil => cases h
  | cons c l =>
    by_cases hc : c = '"'
    · subst hc; cases h
    · rw [text]
      · rw [h]; rfl
      · intro l' e
        injection e with e _
        exact hc e

theorem text_quote (p : Char → Bool) : ∀ (s : List Char) (fuel : Nat) (rest : List Char), s.length ≤ fuel →
    text fuel (s.flatMap (Dot.escapeRune p) ++ '"' :: rest) = some (s, rest) := by
  intro s
  induction s with
  | nil => intro fuel rest _; unfold text; rfl
  | cons c s ih =>
    intro fuel rest hf
    obtain ⟨f, rfl⟩ : ∃ f, fuel = f + 1 := ⟨fuel - 1, by simp only [List.length_cons] at hf; omega⟩
    rw [List.flatMap_cons, List.append_assoc, text_succ (rune_escapeRune p c _), ih f rest (by simpa using hf)]
    rfl

theorem escapeRune_ne_nil (p : Char → Bool) (c : Char) : 1 ≤ (Dot.escapeRune p c).length := by
  have := rune_escapeRune p c []
  cases h : Dot.escapeRune p c with
  | nil => rw [h] at this; cases this
  | cons _ _ => simp

theorem length_flatMap_escape (p : Char → Bool) (s : List Char) : s.length ≤ (s.flatMap (Dot.escapeRune p)).length := by
  induction s with
  | nil => exact Nat.le_refl _
  | cons c s ih =>
    rw [List.flatMap_cons, List.length_append, List.length_cons]
    have := escapeRune_ne_nil p c
    omega

/-! ### lines -/

theorem dot_word : ∀ (w l : List Char), word w (w ++ l) = some l := by
  intro w
  induction w with
  | nil => intro l; rfl
  | cons c w ih => intro l; show (if c = c then _ else _) = _; rw [if_pos rfl]; exact ih l

theorem dot_header : Dot.header = opening := rfl

theorem dot_number (n : Nat) {c : Char} {l : List Char} (h : Spec.Json.isDigit c = false) :
    Spec.Json.readNat (Dot.number n ++ c :: l) = some (n, c :: l) := by
  rw [show Dot.number n = Nat.toDigits 10 n from Nat.toList_repr]
  refine readNat_toDigits n ?_
  intro x e
  injection e with e
  rw [← e, h]

theorem node_addNode (p : Char → Bool) (i : Nat) (s : String) (rest : List Char) :
    node (Dot.addNode p i s ++ rest) = some ((i, s), rest) := by
  have e : Dot.addNode p i s ++ rest = "n".toList ++ (Dot.number i ++ ' ' :: ("[label=\"".toList ++
      (s.toList.flatMap (Dot.escapeRune p) ++ '"' :: ("]\n".toList ++ rest)))) := by
    unfold Dot.addNode Dot.quote
    simp [List.append_assoc]
  have hw : word " [label=\"".toList (' ' :: ("[label=\"".toList ++
      (s.toList.flatMap (Dot.escapeRune p) ++ '"' :: ("]\n".toList ++ rest)))) =
      some (s.toList.flatMap (Dot.escapeRune p) ++ '"' :: ("]\n".toList ++ rest)) := dot_word " [label=\"".toList _
  rw [e]
  unfold node
  rw [dot_word]
  simp only [Option.bind_eq_bind, Option.bind_some]
  rw [dot_number i (by decide)]
  simp only [Option.bind_some]
  rw [hw]
  simp only [Option.bind_some]
  rw [text_quote p s.toList _ _ (by
    have := length_flatMap_escape p s.toList
    rw [List.length_append]
    omega)]
  simp only [Option.bind_some]
  rw [dot_word]
  simp

theorem edge_addEdge (i j : Nat) (rest : List Char) :
    node (Dot.addEdge i j ++ rest) = none ∧ edge (Dot.addEdge i j ++ rest) = some ((i, j), rest) := by
  have e : Dot.addEdge i j ++ rest = "n".toList ++ (Dot.number i ++ ' ' :: ("-> n".toList ++ (Dot.number j ++ '\n' :: rest))) := by
    unfold Dot.addEdge
    simp [List.append_assoc]
  have hw : word " -> n".toList (' ' :: ("-> n".toList ++ (Dot.number j ++ '\n' :: rest))) = some (Dot.number j ++ '\n' :: rest) :=
    dot_word " -> n".toList _
  rw [e]
  constructor
  · unfold node
    rw [dot_word]
    simp only [Option.bind_eq_bind, Option.bind_some]
    rw [dot_number i (by decide)]
    rfl
  · unfold edge
    rw [dot_word]
    simp only [Option.bind_eq_bind, Option.bind_some]
    rw [dot_number i (by decide)]
    simp only [Option.bind_some]
    rw [hw]
    simp only [Option.bind_some]
    rw [dot_number j (by decide)]
    simp only [Option.bind_some]
    rw [show word "\n".toList ('\n' :: rest) = some rest from dot_word "\n".toList rest]
    rfl

theorem lines_edges : ∀ (es : List (Nat × Nat)) (fuel : Nat), es.length < fuel →
    Spec.Dot.lines fuel (es.flatMap (fun e => Dot.addEdge e.1 e.2) ++ Dot.finish) = some ⟨[], es⟩ := by
  intro es
  induction es with
  | nil =>
    intro fuel hf
    obtain ⟨f, rfl⟩ : ∃ f, fuel = f + 1 := ⟨fuel - 1, by omega⟩
    rfl
  | cons x es ih =>
    intro fuel hf
    obtain ⟨f, rfl⟩ : ∃ f, fuel = f + 1 := ⟨fuel - 1, by omega⟩
    obtain ⟨h1, h2⟩ := edge_addEdge x.1 x.2 (es.flatMap (fun e => Dot.addEdge e.1 e.2) ++ Dot.finish)
    rw [List.flatMap_cons, List.append_assoc, Spec.Dot.lines, if_neg, h1, h2]
    · show (Spec.Dot.lines f _).map _ = _
      rw [ih f (by simpa using hf)]
      rfl
    · intro e
      have : 'n' = '}' := (List.cons.inj e).1
      exact absurd this (by decide)

theorem lines_nodes (p : Char → Bool) {rest : List Char} {k : Nat} {d : Drawing}
    (h : ∀ f, k ≤ f → Spec.Dot.lines f rest = some d) : ∀ (ids : List String) (i fuel : Nat), k + ids.length ≤ fuel →
    Spec.Dot.lines fuel (Dot.addNodes p i ids ++ rest) = some ⟨(Dot.nodeIds i ids).map Prod.swap ++ d.nodes, d.edges⟩ := by
  intro ids
  induction ids with
  | nil => intro i fuel hf; exact h fuel hf
  | cons x ids ih =>
    intro i fuel hf
    simp only [List.length_cons] at hf
    obtain ⟨f, rfl⟩ : ∃ f, fuel = f + 1 := ⟨fuel - 1, by omega⟩
    show Spec.Dot.lines (f + 1) ((Dot.addNode p i x ++ Dot.addNodes p (i + 1) ids) ++ rest) = _
    rw [List.append_assoc, Spec.Dot.lines, if_neg, node_addNode]
    · show (Spec.Dot.lines f _).map _ = _
      rw [ih (i + 1) f (by omega)]
      rfl
    · intro e
      have : 'n' = '}' := (List.cons.inj e).1
      exact absurd this (by decide)

/-! ### numbers of nodes -/

theorem nodeIds_keys : ∀ (ids : List String) (i : Nat), (Dot.nodeIds i ids).keys = ids := by
  intro ids
  induction ids with
  | nil => intro i; rfl
  | cons x ids ih => intro i; exact congrArg (x :: ·) (ih (i + 1))

theorem nodeIds_values : ∀ (ids : List String) (i : Nat), (Dot.nodeIds i ids).map Prod.snd = List.range' i ids.length := by
  intro ids
  induction ids with
  | nil => intro i; rfl
  | cons x ids ih => intro i; exact congrArg (i :: ·) (ih (i + 1))

theorem mem_nodeIds {ids : List String} (hn : ids.Nodup) {a : String} {i : Nat} :
    (a, i) ∈ Dot.nodeIds 0 ids ↔ a ∈ ids ∧ i = Dot.nodeId ids a := by
  have hk : (Dot.nodeIds 0 ids).keys.Nodup := by rw [nodeIds_keys]; exact hn
  constructor
  · intro h
    refine ⟨by have := GoMap.mem_keys_of_mem h; rwa [nodeIds_keys] at this, ?_⟩
    unfold Dot.nodeId
    rw [GoMap.get?_of_mem hk h]
    rfl
  · rintro ⟨h, rfl⟩
    rw [← nodeIds_keys ids 0] at h
    obtain ⟨i, hi⟩ := GoMap.mem_keys_iff.mp h
    unfold Dot.nodeId
    rw [GoMap.get?_of_mem hk hi]
    exact hi

theorem nodeId_inj {ids : List String} (hn : ids.Nodup) {a b : String} (ha : a ∈ ids) (hb : b ∈ ids)
    (h : Dot.nodeId ids a = Dot.nodeId ids b) : a = b := by
  have h1 := (mem_nodeIds hn).mpr ⟨ha, rfl⟩
  have h2 := (mem_nodeIds hn).mpr ⟨hb, rfl⟩
  have hv : ((Dot.nodeIds 0 ids).map Prod.snd).Nodup := by rw [nodeIds_values]; exact List.nodup_range'
  exact congrArg Prod.fst (List.inj_on_of_nodup_map hv h1 h2 h)

/-! ### graphs -/

section
variable {V : Type}

/-- the targets of the edges that are drawn from a vertex -/
def Dot.targets (g : Graph V) (b : Bool) (s : String) : List String :=
  (Dot.ordered b ((g.edges.get? s).getD []).keys).filter fun t => (((g.edges.get? s).getD []).get? t).getD false

theorem ordered_perm (b : Bool) (l : List String) : (Dot.ordered b l).Perm l := by
  cases b with
  | true => exact sortBy_perm _ _
  | false => exact List.Perm.refl _

theorem mem_targets {g : Graph V} {b : Bool} {s t : String} : t ∈ Dot.targets g b s ↔ g.Edge s t := by
  unfold Dot.targets Graph.Edge
  rw [List.mem_filter, (ordered_perm b _).mem_iff]
  cases h : g.edges.get? s with
  | none => simp
  | some adj =>
    simp only [Option.getD_some, Option.some.injEq, exists_eq_left']
    cases h' : adj.get? t with
    | none => simp
    | some x =>
      have : t ∈ GoMap.keys adj := GoMap.get?_isSome.mp (by rw [h']; rfl)
      simp [this]

theorem targets_nodup [Vertex V] {g : Graph V} (wf : g.WF) (b : Bool) (s : String) : (Dot.targets g b s).Nodup := by
  refine List.Nodup.filter _ ((ordered_perm b _).nodup_iff.mpr ?_)
  cases h : g.edges.get? s with
  | none => exact List.nodup_nil
  | some adj => exact wf.adjNodup s adj h

theorem edgesFrom_eq (g : Graph V) (b : Bool) (ids : List String) (s : String) :
    Dot.edgesFrom g b ids s = ((Dot.targets g b s).map fun t => (Dot.nodeId ids s, Dot.nodeId ids t)).flatMap
      (fun e => Dot.addEdge e.1 e.2) := by
  unfold Dot.edgesFrom Dot.targets
  dsimp only
  generalize Dot.ordered b ((g.edges.get? s).getD []).keys = l
  induction l with
  | nil => rfl
  | cons t l ih =>
    rw [List.flatMap_cons, List.filter_cons, ih]
    by_cases h : (((g.edges.get? s).getD []).get? t).getD false = true
    · rw [if_pos h, if_pos h]; rfl
    · rw [if_neg h, if_neg h]; rfl

/-- the edges of the drawing -/
def Dot.drawn (g : Graph V) (b : Bool) (ids : List String) : List (Nat × Nat) :=
  ids.flatMap fun s => (Dot.targets g b s).map fun t => (Dot.nodeId ids s, Dot.nodeId ids t)

theorem length_le_flatMap {α : Type} {f : α → List Char} (h : ∀ x, 1 ≤ (f x).length) (l : List α) :
    l.length ≤ (l.flatMap f).length := by
  induction l with
  | nil => exact Nat.le_refl _
  | cons x l ih =>
    rw [List.flatMap_cons, List.length_append, List.length_cons]
    have := h x
    omega

theorem length_addNodes (p : Char → Bool) : ∀ (ids : List String) (i : Nat), ids.length ≤ (Dot.addNodes p i ids).length := by
  intro ids
  induction ids with
  | nil => intro i; exact Nat.le_refl _
  | cons x ids ih =>
    intro i
    show _ ≤ (Dot.addNode p i x ++ Dot.addNodes p (i + 1) ids).length
    have h1 := ih (i + 1)
    have h2 : 1 ≤ (Dot.addNode p i x).length := by unfold Dot.addNode; simp
    rw [List.length_append, List.length_cons]
    omega

/-- what is read is what was written -/
theorem read_encodeDot (p : Char → Bool) (g : Graph V) (b : Bool) :
    Spec.Dot.read (encodeDot p g b) = some ⟨(Dot.nodeIds 0 (Dot.ordered b g.ids)).map Prod.swap,
      Dot.drawn g b (Dot.ordered b g.ids)⟩ := by
  unfold encodeDot
  show Spec.Dot.read (String.ofList (Dot.header ++ Dot.addNodes p 0 (Dot.ordered b g.ids) ++
    (Dot.ordered b g.ids).flatMap (Dot.edgesFrom g b (Dot.ordered b g.ids)) ++ Dot.finish)) = _
  generalize Dot.ordered b g.ids = ids
  have he : ids.flatMap (Dot.edgesFrom g b ids) = (Dot.drawn g b ids).flatMap (fun e => Dot.addEdge e.1 e.2) := by
    unfold Dot.drawn
    rw [List.flatMap_assoc]
    exact congrArg (List.flatMap · ids) (funext fun s => edgesFrom_eq g b ids s)
  rw [he]
  unfold Spec.Dot.read
  rw [List.append_assoc, List.append_assoc]
  have hh : ∀ l, word opening (String.ofList (Dot.header ++ l)).toList = some l := fun l => by
    rw [String.toList_ofList, dot_header]
    exact dot_word opening l
  rw [hh, Option.bind_some]
  have key := lines_nodes p (rest := (Dot.drawn g b ids).flatMap (fun e => Dot.addEdge e.1 e.2) ++ Dot.finish)
    (k := (Dot.drawn g b ids).length + 1) (d := ⟨[], Dot.drawn g b ids⟩) (fun f hf => lines_edges _ f (by omega)) ids 0
  have h1 := length_addNodes p ids 0
  have h2 := length_le_flatMap (f := fun e : Nat × Nat => Dot.addEdge e.1 e.2) (by intro x; unfold Dot.addEdge; simp) (Dot.drawn g b ids)
  rw [key _ (by rw [List.length_append, List.length_append]; omega), List.append_nil]

variable [Vertex V]

/-- **C96**: the report of a cycle contains the whole graph.  Whatever the order of the vertices and whatever characters their
names have, the drawing can be read, its labels are the ids of the vertices, each once and each with a number of its own, and it
has an edge between two of them, once, exactly if the graph has. -/
theorem C96_drawing_shows_graph {g : Graph V} (hg : Built g) (isPrint : Char → Bool) (sortVertices : Bool) :
    ∃ d, Spec.Dot.read (encodeDot isPrint g sortVertices) = some d ∧
      (d.nodes.map Prod.snd).Perm g.ids ∧ (d.nodes.map Prod.snd).Nodup ∧ (d.nodes.map Prod.fst).Nodup ∧ d.edges.Nodup ∧
      ∀ a b, d.Shows a b ↔ g.Edge a b := by
  have wf := hg.wf
  have hp := ordered_perm sortVertices g.ids
  have hn : (Dot.ordered sortVertices g.ids).Nodup := hp.nodup_iff.mpr wf.nodupV
  refine ⟨_, read_encodeDot isPrint g sortVertices, ?_, ?_, ?_, ?_, ?_⟩
  · rw [List.map_map]
    show ((Dot.nodeIds 0 _).map Prod.fst).Perm _
    rw [show (Dot.nodeIds 0 (Dot.ordered sortVertices g.ids)).map Prod.fst = _ from nodeIds_keys _ 0]
    exact hp
  · rw [List.map_map]
    show ((Dot.nodeIds 0 _).map Prod.fst).Nodup
    rw [show (Dot.nodeIds 0 (Dot.ordered sortVertices g.ids)).map Prod.fst = _ from nodeIds_keys _ 0]
    exact hn
  · rw [List.map_map]
    show ((Dot.nodeIds 0 _).map Prod.snd).Nodup
    rw [nodeIds_values]
    exact List.nodup_range'
  · have inIds : ∀ {s t}, t ∈ Dot.targets g sortVertices s → t ∈ Dot.ordered sortVertices g.ids :=
      fun h => hp.mem_iff.mpr (Graph.Edge.mem_ids wf (mem_targets.mp h)).2
    refine List.nodup_flatMap.mpr ⟨fun s _ => ?_, ?_⟩
    · refine List.Nodup.map_on ?_ (targets_nodup wf sortVertices s)
      intro a ha b hb e
      exact nodeId_inj hn (inIds ha) (inIds hb) (congrArg Prod.snd e)
    · refine List.Pairwise.imp_of_mem ?_ hn
      intro a b ha hb hab x hx hx'
      obtain ⟨t, _, rfl⟩ := List.mem_map.mp hx
      obtain ⟨u, _, e⟩ := List.mem_map.mp hx'
      exact hab (nodeId_inj hn ha hb (congrArg Prod.fst e).symm)
  · intro a b
    have node : ∀ {i x}, (i, x) ∈ (Dot.nodeIds 0 (Dot.ordered sortVertices g.ids)).map Prod.swap ↔
        x ∈ Dot.ordered sortVertices g.ids ∧ i = Dot.nodeId (Dot.ordered sortVertices g.ids) x := by
      intro i x
      rw [← mem_nodeIds hn]
      constructor
      · intro h
        obtain ⟨y, hy, e⟩ := List.mem_map.mp h
        have : y = (x, i) := by rw [← Prod.swap_swap y, e]; rfl
        rw [← this]; exact hy
      · intro h; exact List.mem_map.mpr ⟨_, h, rfl⟩
    constructor
    · rintro ⟨i, j, hi, hj, he⟩
      obtain ⟨ha, rfl⟩ := node.mp hi
      obtain ⟨hb, rfl⟩ := node.mp hj
      obtain ⟨s, hs, he⟩ := List.mem_flatMap.mp he
      obtain ⟨t, ht, e⟩ := List.mem_map.mp he
      have e1 := nodeId_inj hn hs ha (congrArg Prod.fst e)
      have e2 := nodeId_inj hn (hp.mem_iff.mpr (Graph.Edge.mem_ids wf (mem_targets.mp ht)).2) hb (congrArg Prod.snd e)
      subst e1 e2
      exact mem_targets.mp ht
    · intro h
      obtain ⟨ha, hb⟩ := Graph.Edge.mem_ids wf h
      have ha := hp.mem_iff.mpr ha
      have hb := hp.mem_iff.mpr hb
      exact ⟨_, _, node.mpr ⟨ha, rfl⟩, node.mpr ⟨hb, rfl⟩, List.mem_flatMap.mpr ⟨a, ha, List.mem_map.mpr ⟨b, mem_targets.mpr h, rfl⟩⟩⟩

/-- **C96**: when the sort gives up, the drawing of its report has a cycle, and whenever it is made with sorted vertices, as in the
report, it depends on the vertices and edges of the graph alone -/
theorem C96_cycle_is_drawn {g : Graph V} (hg : Built g) (isPrint : Char → Bool) {isLower : V → V → Bool} {e : GraphErr}
    (h : g.topologicallySortWithPriority isLower = .error e) :
    ∃ d, Spec.Dot.read (encodeDot isPrint g true) = some d ∧ ∃ a, Relation.TransGen d.Shows a a := by
  obtain ⟨d, h1, _, _, _, _, h2⟩ := C96_drawing_shows_graph hg isPrint true
  obtain ⟨a, ha⟩ := (C03_sort_fails_iff_cyclic hg isLower).1.mp ⟨e, h⟩
  exact ⟨d, h1, a, Relation.TransGen.mono (fun x y => (h2 x y).mpr) a a ha⟩

theorem sorted_unique {l l' : List String} (hp : ∀ x, x ∈ l ↔ x ∈ l') (hn : l.Nodup) (hn' : l'.Nodup)
    (hs : l.Pairwise (· ≤ ·)) (hs' : l'.Pairwise (· ≤ ·)) : l = l' :=
  ((List.perm_ext_iff_of_nodup hn hn').mpr hp).eq_of_pairwise (fun _ _ _ _ h1 h2 => le_antisymm h1 h2) hs hs'

omit [Vertex V] in
theorem targets_sorted (g : Graph V) (s : String) : (Dot.targets g true s).Pairwise (· ≤ ·) :=
  List.Pairwise.filter _ (sortBy_sorted id _)

/-- **C96**: the drawing does not depend on the order in which Go goes through its maps -/
theorem C96_drawing_deterministic {g g' : Graph V} (hg : Built g) (hg' : Built g') (h : g.SameContent g') (isPrint : Char → Bool) :
    encodeDot isPrint g true = encodeDot isPrint g' true := by
  have hid : ∀ u, u ∈ g.ids ↔ u ∈ g'.ids := by
    intro u
    unfold Graph.ids
    rw [← GoMap.get?_isSome, ← GoMap.get?_isSome]
    have := h.1 u
    unfold Graph.getVertex at this
    rw [this]
  have e1 : Dot.ordered true g.ids = Dot.ordered true g'.ids :=
    sorted_unique (fun x => by rw [(ordered_perm true _).mem_iff, (ordered_perm true _).mem_iff]; exact hid x)
      ((ordered_perm true _).nodup_iff.mpr hg.wf.nodupV) ((ordered_perm true _).nodup_iff.mpr hg'.wf.nodupV)
      (sortBy_sorted id _) (sortBy_sorted id _)
  have e2 : ∀ s, Dot.targets g true s = Dot.targets g' true s := fun s =>
    sorted_unique (fun x => by rw [mem_targets, mem_targets]; exact h.2 s x) (targets_nodup hg.wf true s)
      (targets_nodup hg'.wf true s) (targets_sorted g s) (targets_sorted g' s)
  have e3 : Dot.edgesFrom g true = Dot.edgesFrom g' true := by
    funext ids s
    rw [edgesFrom_eq, edgesFrom_eq, e2]
  unfold encodeDot
  show String.ofList (Dot.header ++ Dot.addNodes isPrint 0 (Dot.ordered true g.ids) ++
    (Dot.ordered true g.ids).flatMap (Dot.edgesFrom g true (Dot.ordered true g.ids)) ++ Dot.finish) = _
  rw [e1, e3]
  rfl

end

/-! ### non-vacuity -/

/-- a graph with a cycle, and a name with a quote -/
def dotG : Graph TV :=
  { verticesById := [("b", ⟨"b", 1⟩), ("a\"", ⟨"a\"", 1⟩)]
    edges := [("b", [("a\"", true)]), ("a\"", [("b", true)])] }

example : Built dotG ∧ dotG.topologicallySortWithPriority (isLowerPriorityFromGetPriority TV.pri) = .error .cycle := by
  have h1 : Built (((Graph.new : Graph TV).addVertex ⟨"b", 1⟩).addVertex ⟨"a\"", 1⟩) := .addVertex _ (.addVertex _ .new)
  have h2 : Built (⟨[("b", ⟨"b", 1⟩), ("a\"", ⟨"a\"", 1⟩)], [("b", [("a\"", true)]), ("a\"", [])]⟩ : Graph TV) :=
    .addEdge "b" "a\"" h1 (by rfl)
  exact ⟨.addEdge "a\"" "b" h2 (by rfl), by decide⟩

example : encodeDot (fun c => 32 ≤ c.toNat) dotG true =
    "digraph G {\nnode [fontname=\"Helvetica,Arial,sans-serif\"]\nn0 [label=\"a\\\"\"]\nn1 [label=\"b\"]\nn0 -> n1\nn1 -> n0\n}\n" := by
  decide +kernel

end Verif
