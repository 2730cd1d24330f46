/-
What the code relies on of the external package `tri`, and what the initial skeleton should look
like (C52-C55).
-/
import Verif.Spec.Star
import Verif.Spec.Invariants

namespace Grassfire.Spec

variable {K : Type}

/-- The triangulation is consistent: triangles have three corners; `StarEdgeIterator(v)` delivers
every triangle at `v` once, in order around it; the corners of the triangles are elements of
`dt.vertices` or infinite vertices. -/
structure DtOk (dt : Dt K) : Prop where
  corners : ∀ t, t < dt.nT → ∀ i, ∃ v, dt.corner t i = some v ∧
    (dt.finite v = true → v < dt.nV ∧ (t, i) ∈ dt.star v)
  star_corner : ∀ v, v < dt.nV → ∀ e ∈ dt.star v, dt.corner e.1 e.2 = some v
  star_nodup : ∀ v, v < dt.nV → (dt.star v).Nodup
  star_ok : ∀ v, v < dt.nV → StarOk dt (dt.star v)

/-- Over the edge at which triangle `e.1` ends, turning counterclockwise, lies triangle `f.1`. -/
def Next (dt : Dt K) (e f : DEdge) : Prop := dt.neighbour e.1 (ccw e.2) = some f.1

/-- The triangulation is consistent, and so are its neighbour pointers: the corners of a triangle
are different and not all infinite; the neighbour over a side has the same side in opposite
direction, constrained or not; the star of a vertex goes from neighbour to neighbour, all the way
around; constrained edges are between finite vertices. -/
structure DtMesh (dt : Dt K) : Prop extends DtOk dt where
  distinct : ∀ t < dt.nT, Function.Injective (dt.corner t)
  proper : ∀ t < dt.nT, ∃ i v, dt.corner t i = some v ∧ dt.finite v = true
  back : ∀ t < dt.nT, ∀ i n, dt.neighbour t i = some n → n < dt.nT →
    ∃ j : Fin 3, dt.neighbour n j = some t ∧ dt.corner n (j + 1) = dt.corner t (i + 2) ∧
      dt.corner n (j + 2) = dt.corner t (i + 1) ∧ dt.constrained n j = dt.constrained t i
  star_next : ∀ v, v < dt.nV → (dt.star v).IsChain (Next dt)
  star_closed : ∀ v, v < dt.nV → ∀ l ∈ (dt.star v).getLast?, ∀ f ∈ (dt.star v).head?, Next dt l f
  constrained_finite : ∀ t < dt.nT, ∀ i, dt.constrained t i = true → ∀ j, j ≠ i →
    ∀ v, dt.corner t j = some v → dt.finite v = true

/-- Kinetic vertex `v` and its right neighbour refer to each other, and have the wavefront between
them in common. -/
def LinkedRight (s : St K) (v : VId) : Prop :=
  ∃ kv w kw, s.vert v = .kin kv ∧ kv.rightRef = some w ∧ s.vert w = .kin kw ∧
    kw.leftRef = some v ∧ kv.wfr = kw.wfl ∧ kv.wfr ≠ none

/-- The same for the left neighbour. -/
def LinkedLeft (s : St K) (v : VId) : Prop :=
  ∃ kv w kw, s.vert v = .kin kv ∧ kv.leftRef = some w ∧ s.vert w = .kin kw ∧
    kw.rightRef = some v ∧ kv.wfl = kw.wfr ∧ kv.wfl ≠ none

/-- The neighbours of the triangles of the skeleton are triangles of the skeleton, and mutual. -/
def MutualNeighbours (s : St K) : Prop :=
  ∀ t ∈ s.skTriangles, ∀ i n, (s.tri t).neighbours i = some n →
    n ∈ s.skTriangles ∧ ∃ j, (s.tri n).neighbours j = some t

/-- where the first corner of a triangle starts -/
def startOf (s : St K) (t : TId) : Pt K :=
  match s.vert ((s.tri t).vertices 0) with
  | .kin k => k.origin
  | .inf p => p

/-- The triangles are in the order of their first corners: from bottom to top, then from left to right. -/
def Swept [LT K] [LE K] (s : St K) : Prop :=
  s.skTriangles.Pairwise fun t u =>
    (startOf s t).2 < (startOf s u).2 ∨ (startOf s t).2 = (startOf s u).2 ∧ (startOf s t).1 ≤ (startOf s u).1

/-- Both ends of side `i` of triangle `t` are infinite. -/
def FarSide (dt : Dt K) (t : DT) (i : Fin 3) : Prop :=
  ∀ j, j ≠ i → ∃ v, dt.corner t j = some v ∧ dt.finite v = false

/-- The triangulation is one of points within a large triangle of three infinite vertices.
`listed`: the elements of `dt.vertices` are finite, and the triangles around them are elements of `dt.triangles`;
`corners`: the infinite vertices are at three places;
`far`: there are three triangles with two infinite corners;
`outer`: over the sides with two infinite ends, and only there, lies nothing, or a triangle that has not got three corners;
`inner`: all other neighbours are elements of `dt.triangles`;
`bounded`: at least two constrained edges end at every vertex;
`long`: constrained edges have different ends. -/
structure DtFrame (dt : Dt K) : Prop where
  listed : ∀ v < dt.nV, dt.finite v = true ∧ ∀ e ∈ dt.star v, e.1 < dt.nT
  corners : ∃ a b c : Pt K, a ≠ b ∧ a ≠ c ∧ b ≠ c ∧ ∀ p,
    (∃ t < dt.nT, ∃ i v, dt.corner t i = some v ∧ dt.finite v = false ∧ dt.pos v = p) ↔ p = a ∨ p = b ∨ p = c
  far : ∃ a b c : DT, a ≠ b ∧ a ≠ c ∧ b ≠ c ∧ ∀ t, (t < dt.nT ∧ ∃ i, FarSide dt t i) ↔ t = a ∨ t = b ∨ t = c
  outer : ∀ t < dt.nT, ∀ i, FarSide dt t i ↔
    dt.neighbour t i = none ∨ ∃ n, dt.neighbour t i = some n ∧ dt.corner n 2 = none
  inner : ∀ t < dt.nT, ∀ i n w, dt.neighbour t i = some n → dt.corner n 2 = some w → n < dt.nT
  bounded : ∀ v < dt.nV, 2 ≤ (dt.star v).countP fun e => dt.constrained e.1 (ccw e.2)
  long : ∀ t < dt.nT, ∀ i a b, dt.constrained t i = true → dt.corner t (i + 1) = some a →
    dt.corner t (i + 2) = some b → dt.pos a ≠ dt.pos b

end Grassfire.Spec
