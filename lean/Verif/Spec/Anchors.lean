/-
Specification for C75: the arcs of the skeleton run from node to node.
-/
import Verif.Spec.Wavefronts
import Verif.Spec.Execution
import Verif.Spec.Invariants

namespace Grassfire.Spec

variable {K : Type} [Field K] [LinearOrder K]

/-- Where kinetic vertex `k` is at time `t`. -/
def pointAt (k : KVertex K) (t : K) : Pt K := (k.origin.1 + t * k.velocity.1, k.origin.2 + t * k.velocity.2)

/-- The path of vertex `k` begins in its start node at its start time.  It has a stop node exactly if it has a stop time,
and is in the stop node at that time. -/
structure Anchored (s : St K) (k : KVertex K) : Prop where
  start : ∃ t n, k.startsAt = some t ∧ k.startNode = some n ∧ n < s.nN ∧ (s.node n).pos = pointAt k t
  stop : ∀ t, k.stopsAt = some t → ∃ n, k.stopNode = some n ∧ n < s.nN ∧ (s.node n).pos = pointAt k t
  node : k.stopNode.isSome → k.stopsAt.isSome

/-- All vertices that are not infinitely fast run from node to node. -/
def NodeToNode (s : St K) : Prop :=
  ∀ v k, v < s.nV → s.vert v = .kin k → k.infFast = false → Anchored s k

/-- Vertex `v` reaches `p` at time `now`: it is not infinitely fast, it has not been stopped at another time, and it has
not been started just a little earlier or later. -/
def Reaches (s : St K) (now : K) (v : VId) (p : Pt K) : Prop :=
  ∃ k, s.vert v = .kin k ∧ k.infFast = false ∧ p = pointAt k now ∧ (∀ t, k.stopsAt = some t → t = now) ∧
    ∀ t, k.startsAt = some t → |t - now| ≤ 1 / 10 ^ 10 → t = now

/-- The iteration of the loop that leads from `s` to `s'` by handling `e` is exact: the vertices that are to be stopped
are at the same place, a vertex that hits a side is on the wavefront of the side, and no new vertex is infinitely
fast. -/
structure Exact (s s' : St K) (e : Event K) : Prop where
  slow : ∀ v k, s.nV ≤ v → v < s'.nV → s'.vert v = .kin k → k.infFast = false
  edge : e.tp = .edge → ∀ i, e.side = [i] → ∃ p, ∀ j, j ≠ i → Reaches s e.time ((s.tri e.tri).vertices j) p
  three : e.tp = .edge → e.side.length = 3 ∨ (∀ j, (s.tri e.tri).neighbours j = none) →
    ∃ p, ∀ j, Reaches s e.time ((s.tri e.tri).vertices j) p
  split : e.tp = .split → ∀ i, e.side = [i] → ∃ p, Reaches s e.time ((s.tri e.tri).vertices i) p ∧
    ∀ k a, s.vert ((s.tri e.tri).vertices (i + 2)) = .kin k → k.ul = some a → AtDistance (s.line a) e.time p

/-- Input edges are either not parallel within the tolerance of the code, or exactly parallel. -/
def ClearAngles (dt : Dt K) : Prop :=
  ∀ l r, InputLine dt l → InputLine dt r → Cross l r ∨ l.w = r.w ∨ l.w = (-r.w.1, -r.w.2)

/-- No vertex is between two wavefronts that move in opposite directions. -/
def NoSpikes (s : St K) : Prop :=
  ∀ v k a b, v < s.nV → s.vert v = .kin k → k.ul = some a → k.ur = some b →
    (s.line a).w ≠ (-(s.line b).w.1, -(s.line b).w.2)

/-- An execution on what `init_skeleton` has delivered, of which all iterations are exact. -/
structure ExactExecution [HasSqrt K] [HasTrig K] (depth : ℕ) (s0 : St K) (n : ℕ) (now : K) (s : St K)
    (tr : List (Event K × K)) : Prop where
  execution : Execution depth s0 n now s tr
  exact : ∀ s1, initEventList s0 = .ok ((), s1) → ∀ m < n, ∀ x u tr' e x' u',
    Run depth { s1 with immediate := [] } 0 m x u tr' → loopStep depth (m + 1 : ℕ) x u = .ok (some (e, x'), u') →
      (u.tri e.tri).stopsAt = none → Exact u u' e

end Grassfire.Spec
