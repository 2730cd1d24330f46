/-
Specification for C99: when the wavefront passes a point.
-/
import Verif.Spec.Cover

namespace Grassfire.Spec

variable {K : Type} [Field K] [LinearOrder K]

/-- Up to time `x'`, the wavefront passes `o` once, at time `T`: before, `o` is inside the wavefront; afterwards it is not. -/
structure PassedAt (s : St K) (x' : K) (o : Pt K) (T : K) : Prop where
  nonneg : 0 ≤ T
  le : T ≤ x'
  before : ∀ x, 0 ≤ x → x < T → winding s x o = 1
  after : ∀ x, T < x → x ≤ x' → winding s x o = 0

end Grassfire.Spec
