/-
Specification for C79: what the output functions have to show.
-/
import Verif.Inout
import Verif.Spec.Anchors

namespace Grassfire.Spec

variable {K : Type} [Field K] [LinearOrder K]

/-- Where vertex `v` is at time `T`: a vertex that is infinitely fast is in its start node, an infinite vertex does
not move. -/
inductive DrawnAt (s : St K) (v : VId) (T : K) : Pt K → Prop
  | moving {k : KVertex K} : s.vert v = .kin k → k.infFast = false → DrawnAt s v T (pointAt k T)
  | fast {k : KVertex K} {n : NodeId} : s.vert v = .kin k → k.infFast = true → k.startNode = some n →
      DrawnAt s v T (s.node n).pos
  | infinite {o : Pt K} : s.vert v = .inf o → DrawnAt s v T o

/-- the vertex has been stopped -/
def stopped (s : St K) (v : VId) : Bool :=
  match s.vert v with
  | .kin k => k.stopsAt.isSome
  | .inf _ => false

/-- `row` shows the trace of its vertex at time `T`: from its start node to its stop node, or to where it is. -/
structure ArcOf [HasSqrt K] (s : St K) (T : K) (row : ArcRow K) : Prop where
  start : ∃ k n, s.vert row.v = .kin k ∧ k.startNode = some n ∧ (s.node n).pos = row.p
  done : row.finished = stopped s row.v
  stop : row.finished = true → ∃ k n, s.vert row.v = .kin k ∧ k.stopNode = some n ∧ (s.node n).pos = row.q
  runs : row.finished = false → DrawnAt s row.v T row.q
  length : row.length = HasSqrt.sqrt ((row.q.1 - row.p.1) * (row.q.1 - row.p.1) +
    (row.q.2 - row.p.2) * (row.q.2 - row.p.2))

/-- all three corners of `t` are kinetic vertices -/
def AllKinetic (s : St K) (t : TId) : Prop := ∀ i, ∃ k, s.vert ((s.tri t).vertices i) = .kin k

/-- `q` is the tip of an arrow of length 1/100 at `p` in the direction of `w`, or `p` when `w` has no length -/
def Arrow [HasSqrt K] (w p q : Pt K) : Prop :=
  if HasSqrt.sqrt (w.1 * w.1 + w.2 * w.2) = 0 then q = p
  else q.1 - p.1 = w.1 / HasSqrt.sqrt (w.1 * w.1 + w.2 * w.2) / 100 ∧
    q.2 - p.2 = w.2 / HasSqrt.sqrt (w.1 * w.1 + w.2 * w.2) / 100

/-- `pic` shows the state at time `T`. -/
structure PictureOf [HasSqrt K] (s : St K) (queue : List (Event K)) (T : K) (pic : Picture K) : Prop where
  /-- the live triangles, in order, with their corners where they are -/
  triangles : pic.triangles.map (·.tri) = s.skTriangles.filter fun t => (s.tri t).stopsAt.isNone
  corners : ∀ r ∈ pic.triangles, ∀ i, DrawnAt s ((s.tri r.tri).vertices i) T (r.poly i)
  /-- the other columns of the triangles -/
  columns : ∀ r ∈ pic.triangles, r.neighbours = (s.tri r.tri).neighbours ∧ r.vertices = (s.tri r.tri).vertices ∧
    (r.finite = true ↔ AllKinetic s r.tri) ∧ r.info = (s.tri r.tri).info ∧
    ∀ x, r.time = some x ↔ ∃ e, (s.tri r.tri).event = some e ∧ e.time = x
  /-- the wavefront: the sides of live triangles without neighbour -/
  edges : ∀ t i, (∃ r ∈ pic.edges, r.tri = t ∧ r.side = i) ↔
    (t ∈ s.skTriangles ∧ (s.tri t).stopsAt = none ∧ (s.tri t).neighbours i = none)
  ends : ∀ r ∈ pic.edges, DrawnAt s ((s.tri r.tri).vertices (r.side + 1)) T r.p ∧
    DrawnAt s ((s.tri r.tri).vertices (r.side + 2)) T r.q
  /-- the traces of all vertices -/
  traces : pic.segments.map (·.v) = s.skVertices
  arcs : ∀ r ∈ pic.segments, ArcOf s T r
  /-- the vertices that still run, with their neighbours -/
  running : pic.vertices.map (·.v) = s.skVertices.filter fun v => !stopped s v
  places : ∀ r ∈ pic.vertices, DrawnAt s r.v T r.p ∧ ∃ k, s.vert r.v = .kin k ∧
    r.left = (k.left.at T).join ∧ r.right = (k.right.at T).join
  directions : pic.bisectors.map (·.1) = s.skVertices.filter fun v => !stopped s v
  /-- where they go -/
  arrows : ∀ r ∈ pic.bisectors, DrawnAt s r.1 T r.2.1 ∧ ∃ k, s.vert r.1 = .kin k ∧ Arrow k.velocity r.2.1 r.2.2
  /-- the nodes -/
  nodes : pic.nodes = s.skNodes.map s.node
  /-- the events that wait, in order -/
  events : pic.events.map (fun r => (r.tri, r.time, r.tp)) = queue.map fun e => (e.tri, e.time, e.tp)
  shapes : ∀ r ∈ pic.events, ∀ i, DrawnAt s ((s.tri r.tri).vertices i) T (r.poly i)
  numbers : pic.events.map (·.pos) = List.range queue.length
  shown : ∀ r ∈ pic.events, r.neighbours = (s.tri r.tri).neighbours ∧ (r.finite = true ↔ AllKinetic s r.tri)

end Grassfire.Spec
