/-
Specification for C37: what may change while events are handled.
-/
import Verif.Primitives

namespace Grassfire.Spec

variable {K : Type}

/-- The data of a kinetic vertex that is fixed when it is created. -/
structure SameBirth (a b : KVertex K) : Prop where
  origin : b.origin = a.origin
  velocity : b.velocity = a.velocity
  startsAt : b.startsAt = a.startsAt
  startNode : b.startNode = a.startNode
  ul : b.ul = a.ul
  ur : b.ur = a.ur
  info : b.info = a.info
  infFast : b.infFast = a.infFast
  internal : b.internal = a.internal
  /-- a vertex that has been stopped stays so -/
  stopsAt : a.stopsAt.isSome → b.stopsAt.isSome
  stopNode : a.stopNode.isSome → b.stopNode.isSome
  /-- the histories of neighbours only grow -/
  left : (a.left.map fun i => (i.start, i.ref)) <+: b.left.map fun i => (i.start, i.ref)
  right : (a.right.map fun i => (i.start, i.ref)) <+: b.right.map fun i => (i.start, i.ref)

/-- A vertex object keeps its kind and its birth data. -/
def SameVertex : Vertex K → Vertex K → Prop
  | .kin a, .kin b => SameBirth a b
  | .inf a, .inf b => a = b
  | _, _ => False

/-- `s'` is reached from `s` by only adding to the skeleton. -/
structure Grows (s s' : St K) : Prop where
  nV : s.nV ≤ s'.nV
  nT : s'.nT = s.nT
  nN : s.nN ≤ s'.nN
  nE : s.nE ≤ s'.nE
  line : s'.line = s.line
  wfLine : s'.wfLine = s.wfLine
  pyid : s'.pyid = s.pyid
  transform : s'.transform = s.transform
  skNodes : s.skNodes <+: s'.skNodes
  skVertices : s.skVertices <+: s'.skVertices
  skTriangles : s'.skTriangles = s.skTriangles
  node : ∀ n, n < s.nN → s'.node n = s.node n
  vert : ∀ v, v < s.nV → SameVertex (s.vert v) (s'.vert v)
  stopped : ∀ t, (s.tri t).stopsAt.isSome → (s'.tri t).stopsAt.isSome
  info : ∀ t, (s'.tri t).info = (s.tri t).info
  internal : ∀ t, (s'.tri t).internal = (s.tri t).internal

end Grassfire.Spec
