/-
Specification for C88: the skeleton as a graph.
-/
import Verif.Spec.Progress
import Verif.Spec.Within

namespace Grassfire.Spec

variable {K : Type}

/-- the node where the arc of vertex `v` begins -/
def beginOf (s : St K) (v : VId) : Option NodeId :=
  match s.vert v with
  | .kin k => k.startNode
  | .inf _ => none

/-- the node where the arc of vertex `v` ends, if it has ended -/
def endOf (s : St K) (v : VId) : Option NodeId :=
  match s.vert v with
  | .kin k => k.stopNode
  | .inf _ => none

/-- the number of arcs of the skeleton that begin at node `x` -/
def begins (s : St K) (x : NodeId) : ℕ := s.skVertices.countP fun v => decide (beginOf s v = some x)

/-- the number of arcs of the skeleton that end at node `x` -/
def ends (s : St K) (x : NodeId) : ℕ := s.skVertices.countP fun v => decide (endOf s v = some x)

/-- the number of triangles of the skeleton that have not been stopped -/
def liveTriangles (s : St K) : ℕ := s.skTriangles.countP fun t => (s.tri t).stopsAt.isNone

/-- the number of arcs of the skeleton that have not ended -/
def openArcs (s : St K) : ℕ := s.skVertices.countP fun v => (endOf s v).isNone

/-- The moving corners of the triangles of the skeleton are its moving vertices. -/
structure Populated (s : St K) : Prop where
  once : s.skVertices.Nodup
  different : s.skTriangles.Nodup
  closed : Closed (· ∈ s.skTriangles) s
  corners : ∀ t ∈ s.skTriangles, Live s t → ∀ i, Kinetic s ((s.tri t).vertices i) → (s.tri t).vertices i ∈ s.skVertices
  held : ∀ v ∈ s.skVertices, Running s v → ∃ t ∈ s.skTriangles, Live s t ∧ ∃ i, (s.tri t).vertices i = v

/-- What happens at an event that is not a flip: triangle `t` vanishes, the arcs `gone`, one at least, end and the arcs `made`
begin, at one new node, where no other arc begins or ends; nothing happens to the other arcs. -/
structure Junction (s s' : St K) (t : TId) (gone made : List VId) : Prop where
  node : s'.nN = s.nN + 1
  recorded : s'.skNodes = s.skNodes ++ [s.nN]
  vertices : s'.skVertices = s.skVertices ++ made
  triangles : s'.skTriangles = s.skTriangles
  three : gone.length + made.length = 3
  nonempty : gone ≠ []
  different : gone.Nodup ∧ made.Nodup ∧ ∀ v ∈ made, v ∉ s.skVertices
  before : ∀ v ∈ gone, v ∈ s.skVertices ∧ endOf s v = none
  after : ∀ v ∈ gone, endOf s' v = some s.nN
  fresh : ∀ v ∈ made, beginOf s' v = some s.nN ∧ endOf s' v = none
  sameBegin : ∀ v ∈ s.skVertices, beginOf s' v = beginOf s v
  sameEnd : ∀ v ∈ s.skVertices, v ∉ gone → endOf s' v = endOf s v
  live : ∀ x, Live s' x ↔ Live s x ∧ x ≠ t

/-- Nothing happens to the skeleton. -/
structure Untouched (s s' : St K) : Prop where
  node : s'.nN = s.nN
  recorded : s'.skNodes = s.skNodes
  vertices : s'.skVertices = s.skVertices
  triangles : s'.skTriangles = s.skTriangles
  sameBegin : ∀ v ∈ s.skVertices, beginOf s' v = beginOf s v
  sameEnd : ∀ v ∈ s.skVertices, endOf s' v = endOf s v
  live : ∀ x, Live s' x ↔ Live s x

variable [Field K] [LinearOrder K]

/-- Event `e` happens on its own: a triangle with three wavefront edges vanishes as a whole, and the corners of the triangle
have not started just before. -/
structure Alone (s : St K) (e : Event K) : Prop where
  whole : e.tp = .edge → (∀ j, (s.tri e.tri).neighbours j = none) → e.side.length = 3
  aged : e.tp ≠ .flip → ∀ i k u, s.vert ((s.tri e.tri).vertices i) = .kin k → k.startsAt = some u →
    1 / 10 ^ 10 < |u - e.time|

variable [HasTrig K] [HasSqrt K]

/-- An execution in general position (see `GenericExecution`) in which every event happens on its own. -/
structure LoneExecution (depth : ℕ) (s0 : St K) (n : ℕ) (now : K) (s : St K) (tr : List (Event K × K)) : Prop where
  generic : GenericExecution depth s0 n now s tr
  populated : Populated s0
  alone : ∀ s1, initEventList s0 = .ok ((), s1) → ∀ m ≤ n, ∀ x u tr' e,
    Run depth { s1 with immediate := [] } 0 m x u tr' → NextEvent u e → Live u e.tri → Alone u e

end Grassfire.Spec
