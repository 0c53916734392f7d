import Verif.Model.SqlGraph
import Mathlib.Logic.Relation

/-!
# What it means to order the statements of a partial graph correctly
-/

namespace Verif

variable {σ : Type}

/-- the statements handed in for the vertex `id`, in the order in which they were handed in -/
def PartialGraph.contributed (p : PartialGraph σ) (id : String) : List σ :=
  (p.vertices.filter (fun v => v.id.text = id)).flatMap (·.statements)

/-- `s` was declared to run before `t` -/
def PartialGraph.Declared (p : PartialGraph σ) (s t : String) : Prop :=
  ∃ d ∈ p.dependencies, d.source.text = s ∧ d.target.text = t

/-- the block `a` stands before the block `b` in `l` -/
def BlockBefore (a b l : List σ) : Prop := ∃ x y z, l = x ++ a ++ y ++ b ++ z

/-- in `l` no statement with `P` comes after a statement with `Q` -/
def AllBefore (P Q : σ → Prop) (l : List σ) : Prop := l.Pairwise fun x y => ¬ (Q x ∧ P y)

/-- how much a vertex is wanted soon, given what was handed in for it: sooner if some contribution asks for it, else later
if some contribution asks for that; the more statements, the stronger -/
def PartialGraph.wanted (p : PartialGraph σ) (id : String) : Int :=
  let asked := (p.vertices.filter (fun v => v.id.text = id)).map (·.priority)
  (p.contributed id).length * (if .sooner ∈ asked then 1 else if .later ∈ asked then -1 else 0)

/-- a vertex was handed in for `id`, or a dependency names it -/
def PartialGraph.Mentions (p : PartialGraph σ) (id : String) : Prop :=
  (∃ v ∈ p.vertices, v.id.text = id) ∨ ∃ d ∈ p.dependencies, id = d.source.text ∨ id = d.target.text

/-- `id` may come next after the vertices in `done` -/
def PartialGraph.Ready (p : PartialGraph σ) (done : List String) (id : String) : Prop :=
  p.Mentions id ∧ id ∉ done ∧ ∀ s, p.Declared s id → s ∈ done

end Verif
