/-
Specification for C106: convex input, and the distance to its edges.
-/
import Verif.Spec.Drawing
import Verif.Spec.Inward

namespace Grassfire.Spec

variable {K : Type} [Field K] [LinearOrder K]

/-- All that is inside the input is on the left of (or on) the lines of all its edges. -/
def ConvexInput (dt : Dt K) : Prop :=
  ∀ p q, InputEdge dt p q → ∀ t < dt.nT, dt.internal t = true → ∀ i a, dt.corner t i = some a → 0 ≤ area2 p q (dt.pos a)

/-- The triangulation has no other constraints than the edges of the input: every constrained side is an edge of the input,
seen from inside or from outside. -/
def OnlyEdges (dt : Dt K) : Prop :=
  ∀ t < dt.nT, ∀ i a b, dt.constrained t i = true → dt.corner t (i + 1) = some a → dt.corner t (i + 2) = some b →
    InputEdge dt (dt.pos a) (dt.pos b) ∨ InputEdge dt (dt.pos b) (dt.pos a)

/-- `l` is the line of an edge of the input, with a normal of length 1 that points to the inside. -/
def EdgeLine (dt : Dt K) (l : Line2 K) : Prop :=
  l.w.1 ^ 2 + l.w.2 ^ 2 = 1 ∧ ∃ p q, InputEdge dt p q ∧ AtDistance l 0 p ∧ AtDistance l 0 q ∧ 0 < ahead l p q

/-- `T` is the distance of `o` to the nearest of the lines of the edges of the input. -/
def NearestAt (dt : Dt K) (o : Pt K) (T : K) : Prop :=
  (∃ l, EdgeLine dt l ∧ AtDistance l T o) ∧ ∀ l, EdgeLine dt l → T ≤ l.w.1 * o.1 + l.w.2 * o.2 + l.b

end Grassfire.Spec
