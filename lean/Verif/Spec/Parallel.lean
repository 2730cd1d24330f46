/-
Specification for C73: what the handlers for infinitely fast vertices stop, and where.
-/
import Verif.Primitives

namespace Grassfire.Spec

variable {K : Type}

/-- The same kind of vertex, stopped or running as before. -/
def SameStop : Vertex K → Vertex K → Prop
  | .kin a, .kin b => b.stopsAt = a.stopsAt ∧ b.stopNode = a.stopNode
  | .inf _, .inf _ => True
  | _, _ => False

/-- Where vertex `v` is at time `now`: it has been moving from its origin, or has stayed at the node where it started
when it is infinitely fast. -/
def Place [Field K] (s : St K) (now : K) (v : VId) (p : Pt K) : Prop :=
  ∃ k, s.vert v = .kin k ∧
    (k.infFast = false → p = (k.origin.1 + now * k.velocity.1, k.origin.2 + now * k.velocity.2)) ∧
    (k.infFast = true → ∃ n, k.startNode = some n ∧ p = (s.node n).pos)

/-- The vertices in `V`, and no other ones, are stopped at time `now` and at node `n`. -/
structure StopsThese (s s' : St K) (V : List VId) (now : K) (n : NodeId) : Prop where
  these : ∀ v ∈ V, ∃ k, s'.vert v = .kin k ∧ k.stopsAt = some now ∧ k.stopNode = some n
  others : ∀ v, v < s.nV → v ∉ V → SameStop (s.vert v) (s'.vert v)

/-- Triangle `t`, and no other one, is stopped at time `now`. -/
structure EndsOnly (s s' : St K) (t : TId) (now : K) : Prop where
  this : (s'.tri t).stopsAt = some now
  others : ∀ x, x ≠ t → (s'.tri x).stopsAt = (s.tri x).stopsAt

/-- `n` is the node at which the vertices in `V` meet: a node where one of them started or was stopped before, or a
single new node, located at `p`. -/
structure MeetAt (s s' : St K) (V : List VId) (p : Pt K) (n : NodeId) : Prop where
  old : ∀ m, m < s.nN → s'.node m = s.node m
  which : s'.nN = s.nN ∧ s'.skNodes = s.skNodes ∧
      (∃ v ∈ V, ∃ k, s.vert v = .kin k ∧ (k.startNode = some n ∨ k.stopNode = some n)) ∨
    n = s.nN ∧ s'.nN = s.nN + 1 ∧ s'.skNodes = s.skNodes ++ [n] ∧ (s'.node n).pos = p

/-- The outer leg of triangle `t` from the infinitely fast vertex `pivot` (`kp`) to `w` (`kw`), which is at `p`, has
collapsed: `t` ends, `w` stops where it is, `pivot` (unless it was stopped before) stops at the same node, and one new
vertex, between the wavefronts `ul` and `ur`, starts there. -/
structure LegCollapse (s s' : St K) (t : TId) (pivot w : VId) (kp : KVertex K) (now : K) (p : Pt K)
    (ul ur : Option LineId) (n : NodeId) (k : KVertex K) : Prop where
  node : MeetAt s s' [w] p n
  stops : StopsThese s s' (if kp.stopNode.isNone then [pivot, w] else [w]) now n
  ends : EndsOnly s s' t now
  one : s'.nV = s.nV + 1 ∧ s'.skVertices = s.skVertices ++ [s.nV]
  vertex : s'.vert s.nV = .kin k
  born : k.startsAt = some now ∧ k.startNode = some n ∧ k.stopsAt = none ∧ k.stopNode = none
  lines : k.ul = ul ∧ k.ur = ur

/-- The length of the segment from `p` to `q`. -/
def segLength [Field K] [HasSqrt K] (p q : Pt K) : K :=
  HasSqrt.sqrt ((q.1 - p.1) * (q.1 - p.1) + (q.2 - p.2) * (q.2 - p.2))

end Grassfire.Spec
