/-
Specification for C91: the wavefront moves inwards.
-/
import Verif.Spec.Progress

namespace Grassfire.Spec

variable {K : Type} [Field K] [LinearOrder K]

/-- How far `q` is ahead of `p`, for somebody who walks along line `l` with the normal of `l` to the left. -/
def ahead (l : Line2 K) (p q : Pt K) : K := (q.1 - p.1) * l.w.2 - (q.2 - p.2) * l.w.1

/-- At time `u`, the wavefront edges of the triangles of `S` that have not been stopped run from their first to their
second end in the direction of their input edge (or have length zero): the triangle, which is on the left of its sides, is
on the side to which the wavefront moves. -/
def Forward (S : TId → Prop) (s : St K) (u : K) : Prop :=
  ∀ t, S t → Live s t → ∀ i, (s.tri t).neighbours i = none → ∀ l p q, RightLine s ((s.tri t).vertices (i + 1)) l →
    placeAt s ((s.tri t).vertices (i + 1)) u = some p → placeAt s ((s.tri t).vertices (i + 2)) u = some q →
    0 ≤ ahead l p q

end Grassfire.Spec
