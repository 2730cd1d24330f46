/-
Specification for C29: stopping vertices.
-/
import Verif.Primitives

namespace Grassfire.Spec

variable {K : Type} [Field K] [LinearOrder K]

/-- A vertex that exists, is kinetic, has a start time and a start node, and has a stop node
if it has been stopped. -/
def Stoppable (s : St K) (v : VId) : Prop :=
  v < s.nV ∧ ∃ kv, s.vert v = .kin kv ∧ kv.startsAt ≠ none ∧ kv.startNode ≠ none ∧
    (kv.stopsAt ≠ none → kv.stopNode ≠ none)

/-- `n` is the node that the vertex is already at: its stop node when it has been stopped,
its start node when it starts now (within the tolerance). -/
def AtNode (s : St K) (now : K) (v : VId) (n : NodeId) : Prop :=
  ∃ kv st, s.vert v = .kin kv ∧ kv.startsAt = some st ∧
    (kv.stopsAt ≠ none ∧ kv.stopNode = some n ∨
      kv.stopsAt = none ∧ |st - now| ≤ 1 / 10 ^ 10 ∧ kv.startNode = some n)

/-- `p` is where the vertex is at time `now`. -/
def IsAt (s : St K) (now : K) (v : VId) (p : Pt K) : Prop :=
  ∃ kv, s.vert v = .kin kv ∧
    (kv.infFast = false ∧ p = (kv.origin.1 + now * kv.velocity.1, kv.origin.2 + now * kv.velocity.2) ∨
      kv.infFast = true ∧ ∃ n, kv.startNode = some n ∧ p = (s.node n).pos)

end Grassfire.Spec
