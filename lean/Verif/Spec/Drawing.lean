/-
Specification for C101: a drawing without crossings.
-/
import Verif.Spec.Cover

namespace Grassfire.Spec

variable {K : Type} [Field K] [LinearOrder K]

/-- `z` is an end of the line segment. -/
def IsEnd (g : Pt K × Pt K) (z : Pt K) : Prop := z = g.1 ∨ z = g.2

/-- Line segments, none of which is a single point, two of which have nothing in common but ends of both. -/
def PlaneDrawing (l : List (Pt K × Pt K)) : Prop :=
  (∀ g ∈ l, g.1 ≠ g.2) ∧ l.Pairwise fun g h => ∀ z, On g.1 g.2 z → On h.1 h.2 z → IsEnd g z ∧ IsEnd h z

/-- Where point `p` of the skeleton is in the coordinates of the input (transform.py:14-17). -/
def putBack (s : St K) (p : Pt K) : Pt K := s.transform.elim p (·.backward p)

/-- `p` to `q` is an edge of the input: a constrained side of a triangle inside. -/
def InputEdge (dt : Dt K) (p q : Pt K) : Prop :=
  ∃ t < dt.nT, dt.internal t = true ∧ ∃ i a b, dt.constrained t i = true ∧ dt.corner t (i + 1) = some a ∧
    dt.corner t (i + 2) = some b ∧ dt.pos a = p ∧ dt.pos b = q

end Grassfire.Spec
