/-
Specification for C41: how the triangles around a vertex are divided by the constrained edges.
-/
import Verif.Initialize
import Mathlib.Data.List.Rotate
import Mathlib.Data.List.Chain

namespace Grassfire.Spec

variable {K : Type}

/-- Turning counterclockwise around the vertex, the edge at which triangle `e.1` ends is
constrained. -/
def Ahead (dt : Dt K) (e : DEdge) : Prop := dt.constrained e.1 (ccw e.2) = true

/-- the edge at which the triangle begins is constrained -/
def Behind (dt : Dt K) (e : DEdge) : Prop := dt.constrained e.1 (cw e.2) = true

/-- The star is geometrically consistent: the edge at which a triangle ends is the edge at which
the next one begins, all the way around. -/
structure StarOk (dt : Dt K) (star : List DEdge) : Prop where
  chain : star.IsChain fun e f => (Ahead dt e ↔ Behind dt f)
  closed : ∀ l ∈ star.getLast?, ∀ f ∈ star.head?, (Ahead dt l ↔ Behind dt f)

/-- A group of triangles between two constrained edges. -/
structure GroupOk (dt : Dt K) (g : List DEdge) : Prop where
  nonempty : g ≠ []
  first : ∀ e ∈ g.head?, Behind dt e
  last : ∀ e ∈ g.getLast?, Ahead dt e
  ahead : ∀ e ∈ g.dropLast, ¬ Ahead dt e
  behind : ∀ e ∈ g.tail, ¬ Behind dt e

end Grassfire.Spec
