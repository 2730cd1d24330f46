/-
Specification for C98: the arcs of the skeleton, with their ends.
-/
import Verif.Spec.Rings

namespace Grassfire.Spec

variable {K : Type} [Field K] [LinearOrder K]

/-- `v` is on the wavefront just before time `x`, which is when it is stopped at the earliest. -/
def Arrives (s : St K) (x : K) (v : VId) : Prop :=
  v ∈ s.skVertices ∧ ∃ k, s.vert v = .kin k ∧ (∃ a, k.startsAt = some a ∧ a < x) ∧ ∀ b, k.stopsAt = some b → x ≤ b

end Grassfire.Spec
