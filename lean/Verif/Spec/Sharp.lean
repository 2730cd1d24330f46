/-
Specification for C84: executions in which the tolerances of the code do not blur anything.
-/
import Verif.Spec.Upright
import Verif.Spec.Meetings

namespace Grassfire.Spec

variable {K : Type} [Field K] [LinearOrder K] [HasSqrt K]

/-- At the iteration of the loop that takes event `e`, at time `x'`, the one before having been at time `x`, the
tolerances of the code do not blur anything.
`sharp`, `tiny`: the corners of the triangle are in line only at the time of the event, and its sides are not almost, but
not quite, of length zero;
`three`: when all sides are wavefront edges and one vanishes, then all do;
`plain`: of the events at the same time, none concerns vertices that have been stopped already (see `Plain`);
`gaps`, `late`: the events are at the same time, or not within the tolerance. -/
structure SharpStep (s : St K) (e : Event K) (x x' : K) : Prop where
  sharp : Live s e.tri → SharpAt (viewT s e.tri) x'
  tiny : Live s e.tri → ∀ i, HasSqrt.sqrt (lengthSq (viewT s e.tri) i x') ≤ 1 / 10 ^ 10 →
    cornerAt (viewT s e.tri) (i + 1) x' = cornerAt (viewT s e.tri) (i + 2) x'
  three : Live s e.tri → (∀ i, (s.tri e.tri).neighbours i = none) → ∀ i,
    cornerAt (viewT s e.tri) (i + 1) x' = cornerAt (viewT s e.tri) (i + 2) x' →
    cornerAt (viewT s e.tri) i x' = cornerAt (viewT s e.tri) (i + 1) x'
  plain : x' = x → (s.tri e.tri).stopsAt = none → Plain s e
  gaps : x' = x ∨ x + 1 / 10 ^ 10 < x'
  late : 1 / 10 ^ 10 < x'

/-- An ordinary execution (see `OrdinaryExecution`) from a state with counter-clockwise, finite triangles and without
infinitely fast vertices, in which vertices and triangles tell the same.  The motions of the triangles are clear and the
times at which their corners are in line can be computed (whenever no event is to be handled at once), and the tolerances
do not blur what happens at the events.  What happens there is not asked for. -/
structure SharpExecution [HasTrig K] (depth : ℕ) (s0 : St K) (n : ℕ) (now : K) (s : St K) (tr : List (Event K × K)) :
    Prop where
  ordinary : OrdinaryExecution depth s0 n now s tr
  linked : Linked s0
  closed : Closed (· ∈ s0.skTriangles) s0
  finite : ∀ t ∈ s0.skTriangles, Live s0 t → ∀ i, Kinetic s0 ((s0.tri t).vertices i)
  slow : ∀ v k, v < s0.nV → s0.vert v = .kin k → k.infFast = false
  start : ∀ t ∈ s0.skTriangles, Live s0 t → ∀ x, 0 ≤ x → x ≤ 1 / 10 ^ 10 → ∀ a b c,
    placeAt s0 ((s0.tri t).vertices 0) x = some a → placeAt s0 ((s0.tri t).vertices 1) x = some b →
    placeAt s0 ((s0.tri t).vertices 2) x = some c → 0 < area2 a b c
  clear : ∀ s1, initEventList s0 = .ok ((), s1) → ∀ m ≤ n, ∀ x u tr', Run depth { s1 with immediate := [] } 0 m x u tr' →
    u.immediate = [] → ∀ t ∈ s0.skTriangles, Live u t → (∀ i, Kinetic u ((u.tri t).vertices i)) →
      ClearTriangle (¬ Tidy depth s0 n) u t ∧ Solvable (viewT u t)
  sharp : ∀ s1, initEventList s0 = .ok ((), s1) → ∀ m < n, ∀ x u tr' e x' u',
    Run depth { s1 with immediate := [] } 0 m x u tr' → loopStep depth (m + 1 : ℕ) x u = .ok (some (e, x'), u') →
      SharpStep u e x x'

end Grassfire.Spec
