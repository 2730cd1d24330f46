/-
Specification for C96 and C97: how often a point is inside the wavefront.
-/
import Verif.Spec.Area
import Mathlib.Algebra.BigOperators.Group.Finset.Basic

namespace Grassfire.Spec

variable {K : Type} [Field K] [LinearOrder K]

/-- How often the line from `p` to `q` crosses the ray downwards from point `o`, counted positive from left to right and
negative from right to left (the line includes its left end, but not its right end; the ray includes `o`). -/
def crosses (p q o : Pt K) : ℤ :=
  (if p.1 ≤ o.1 ∧ o.1 < q.1 ∧ 0 ≤ area2 p q o then 1 else 0) - if q.1 ≤ o.1 ∧ o.1 < p.1 ∧ 0 ≤ area2 q p o then 1 else 0

/-- The winding number around `o` of the rings of the wavefront at time `x`. -/
def winding (s : St K) (x : K) (o : Pt K) : ℤ :=
  (s.skVertices.map fun v => ((sideAt s x v).map fun e => crosses e.1 e.2 o).getD 0).sum

/-- The winding number around `o` of the boundary of the input: of the constrained sides of the triangles inside. -/
def dtWinding (dt : Dt K) (o : Pt K) : ℤ :=
  ∑ t ∈ (Finset.range dt.nT).filter (fun t => dt.internal t = true),
    ∑ i ∈ (Finset.univ : Finset (Fin 3)).filter (fun i => dt.constrained t i = true),
      crosses (((dt.corner t (i + 1)).map dt.pos).getD (0, 0)) (((dt.corner t (i + 2)).map dt.pos).getD (0, 0)) o

/-- `r` is on the line from `p` to `q`, between its ends. -/
def Amid (p q r : Pt K) : Prop := ∃ z, 0 < z ∧ z < 1 ∧ r = (p.1 + z * (q.1 - p.1), p.2 + z * (q.2 - p.2))

/-- `r` is on the line from `p` to `q`, or one of its ends. -/
def On (p q r : Pt K) : Prop := ∃ z, 0 ≤ z ∧ z ≤ 1 ∧ r = (p.1 + z * (q.1 - p.1), p.2 + z * (q.2 - p.2))

/-- The lines from `p` to `q` and from `p'` to `q'` run in opposite directions. -/
def Opposite (p q p' q' : Pt K) : Prop :=
  (q.1 - p.1) * (q'.2 - p'.2) - (q.2 - p.2) * (q'.1 - p'.1) = 0 ∧ (q.1 - p.1) * (q'.1 - p'.1) + (q.2 - p.2) * (q'.2 - p'.2) < 0

end Grassfire.Spec
