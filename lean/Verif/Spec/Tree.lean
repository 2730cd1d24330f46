/-
Specification for C89: which parts of the skeleton hang together.
-/
import Verif.Spec.Cubic
import Mathlib.Logic.Relation
import Mathlib.Combinatorics.SimpleGraph.Acyclic

namespace Grassfire.Spec

variable {K : Type}

/-- the things that hang together: nodes, arcs and triangles of the skeleton -/
inductive Item where
  | node (x : NodeId)
  | arc (v : VId)
  | triangle (t : TId)

/-- An arc touches the nodes where it begins and ends, and the triangles of which its vertex is a corner now. -/
inductive Touch (s : St K) : Item → Item → Prop
  | begins (v : VId) (x : NodeId) : v ∈ s.skVertices → beginOf s v = some x → Touch s (.arc v) (.node x)
  | ends (v : VId) (x : NodeId) : v ∈ s.skVertices → endOf s v = some x → Touch s (.arc v) (.node x)
  | corner (t : TId) (i : Fin 3) : t ∈ s.skTriangles → Live s t → Touch s (.arc ((s.tri t).vertices i)) (.triangle t)

/-- Two things are connected by a chain of things that touch each other. -/
def Together (s : St K) : Item → Item → Prop := Relation.EqvGen (Touch s)

/-- Two nodes are connected by arcs that have ended. -/
def ByArcs (s : St K) : NodeId → NodeId → Prop :=
  Relation.EqvGen fun x y => ∃ v ∈ s.skVertices, beginOf s v = some x ∧ endOf s v = some y

/-- The triangles of the skeleton are connected by their sides. -/
def OnePiece (s : St K) : Prop :=
  ∀ t ∈ s.skTriangles, ∀ u ∈ s.skTriangles, Relation.EqvGen (fun t u => t ∈ s.skTriangles ∧ Live s t ∧
    ∃ i, (s.tri t).neighbours i = some u) t u

/-- the nodes at which arcs begin or end -/
def Used (s : St K) (x : NodeId) : Prop := ∃ v ∈ s.skVertices, beginOf s v = some x ∨ endOf s v = some x

/-- The skeleton as a graph: two nodes are adjacent if an arc joins them. -/
def graph (s : St K) : SimpleGraph {x : NodeId // Used s x} where
  Adj x y := x ≠ y ∧ ∃ v ∈ s.skVertices, beginOf s v = some x.1 ∧ endOf s v = some y.1 ∨
    beginOf s v = some y.1 ∧ endOf s v = some x.1
  symm := ⟨fun x y h => ⟨h.1.symm, by obtain ⟨-, v, hv, h⟩ := h; exact ⟨v, hv, h.symm⟩⟩⟩
  loopless := ⟨fun x h => h.1 rfl⟩

end Grassfire.Spec
