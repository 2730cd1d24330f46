/-
Model of the output functions of src/grassfire/inout.py, and of `calc_skel` with its arguments `pause` and
`output`.  What is written to a file is modelled by the list of rows; the header lines, the text format of the
numbers and the file system are left out.
-/
import Verif.CalcSkel
import Verif.Offsets
import Verif.VectorOps

namespace Grassfire

open VectorOps

variable {K : Type} [Field K] [LinearOrder K]

/-- primitives.py:155-166 and 244-246 `visualize_at`: the same as `position_at` -/
def visualizeAt (s : St K) (v : VId) (time : K) : Except Err (Pt K) :=
  (s.vert v).positionAt (fun n => (s.node n).pos) time

/-- primitives.py:321-366 `KineticTriangle.visualize_at`: the three corners (the text repeats the first one) -/
def triangleAt (s : St K) (t : TId) (time : K) : Except Err (Fin 3 → Pt K) :=
  list3 fun i => visualizeAt s ((s.tri t).vertices i) time

/-- primitives.py:376-379 `is_finite` -/
def finiteT (s : St K) (t : TId) : Bool :=
  (s.vert ((s.tri t).vertices 0)).isKinetic && (s.vert ((s.tri t).vertices 1)).isKinetic &&
    (s.vert ((s.tri t).vertices 2)).isKinetic

/-- a row of inout.py:26-35, without the two columns that are filled while initialising only -/
structure TriRow (K : Type) where
  tri : TId
  poly : Fin 3 → Pt K
  neighbours : Fin 3 → Option TId
  vertices : Fin 3 → VId
  finite : Bool
  info : ℕ
  /-- `None` stands for the text "-1" -/
  time : Option K

/-- inout.py:20-38 `output_triangles_at_T`; the elements of the list are never `None` -/
def outputTrianglesAt (s : St K) (ts : List TId) (T : K) : Except Err (List (TriRow K)) :=
  collect (fun t =>
    match (s.tri t).stopsAt with
    | some _ => .ok none
    | none => do
      let poly ← triangleAt s t T
      .ok (some ⟨t, poly, (s.tri t).neighbours, (s.tri t).vertices, finiteT s t, (s.tri t).info,
        (s.tri t).event.map (·.time)⟩)) ts

/-- a row of inout.py:12-17: a side of a triangle with its end points -/
structure EdgeRow (K : Type) where
  tri : TId
  side : Fin 3
  p : Pt K
  q : Pt K

/-- inout.py:12-17 `output_edges_at_T`; `Edge(t, s).segment` runs from corner `s + 1` to corner `s + 2` -/
def outputEdgesAt (s : St K) (edges : List (TId × Fin 3)) (T : K) : Except Err (List (EdgeRow K)) :=
  collect (fun e => do
    let p ← visualizeAt s ((s.tri e.1).vertices (ccw e.2)) T
    let q ← visualizeAt s ((s.tri e.1).vertices (cw e.2)) T
    .ok (some ⟨e.1, e.2, p, q⟩)) edges

/-- a row of inout.py:69-74 and 295-316: a vertex, its place and its neighbours on both sides -/
structure VertexRow (K : Type) where
  v : VId
  p : Pt K
  left : Option VId
  right : Option VId

/-- inout.py:69-74 `output_vertices_at_T` -/
def outputVerticesAt (s : St K) (V : List VId) (T : K) : Except Err (List (VertexRow K)) :=
  collect (fun v => do
    let p ← visualizeAt s v T
    match s.vert v with
    | .inf _ => .ok (some ⟨v, p, none, none⟩)
    | .kin kv => .ok (some ⟨v, p, kv.leftRef, kv.rightRef⟩)) V

/-- inout.py:41-58 the first loop of `output_kdt`: the class `KineticTriangle` has no attribute `finite` -/
def outputKdtTriangles : List TId → Except Err Unit
  | [] => .ok ()
  | _ :: _ => .error .attributeError

/-- inout.py:61-66 the second loop of `output_kdt`, one vertex -/
def outputKdtVertex (s : St K) (time : K) (v : VId) : Except Err (Option (VertexRow K)) :=
  match s.vert v with
  | .inf _ => .error .attributeError
  | .kin kv =>
    match kv.startsAt with
    | none => .error .typeError
    | some a =>
      let row := do
        let p ← visualizeAt s v time
        .ok (some ⟨v, p, kv.leftRef, kv.rightRef⟩)
      if a ≤ time then
        match kv.stopsAt with
        | none => .error .typeError
        | some b => if b ≥ time then row else .ok none
      else if kv.stopsAt = none then row else .ok none

/-- inout.py:41-66 `output_kdt` -/
def outputKdt (s : St K) (time : K) : Except Err (List (VertexRow K)) := do
  outputKdtTriangles s.skTriangles
  collect (outputKdtVertex s time) s.skVertices

/-- a row of inout.py:138-151 and 262-292: the trace of a vertex -/
structure ArcRow (K : Type) where
  v : VId
  p : Pt K
  q : Pt K
  finished : Bool
  length : K

/-- `dist` of two points -/
def distPt [HasSqrt K] (p q : Pt K) : Except Err K := dist [p.1, p.2] [q.1, q.2]

/-- inout.py:138-151 the first loop of `output_skel`, one vertex -/
def outputArc [HasSqrt K] (s : St K) (time : K) (v : VId) : Except Err (Option (ArcRow K)) :=
  match s.vert v with
  | .inf _ => .error .attributeError
  | .kin kv =>
    match kv.stopsAt with
    | some _ =>
      match kv.startNode, kv.stopNode with
      | some a, some b => do
        let d ← distPt (s.node a).pos (s.node b).pos
        .ok (some ⟨v, (s.node a).pos, (s.node b).pos, true, d⟩)
      | _, _ => .error .attributeError
    | none =>
      match kv.startsAt with
      | none => .error .typeError
      | some a => do
        let p ← visualizeAt s v a
        let q ← visualizeAt s v time
        let d ← distPt p q
        .ok (some ⟨v, p, q, false, d⟩)

/-- inout.py:134-156 `output_skel`: the rows of the two files -/
def outputSkel [HasSqrt K] (s : St K) (time : K) : Except Err (List (ArcRow K) × List (Pt K)) := do
  let arcs ← collect (outputArc s time) s.skVertices
  .ok (arcs, s.skNodes.map fun n => (s.node n).pos)

/-- a row of inout.py:218-233: an event of the queue and its triangle -/
structure EventRow (K : Type) where
  pos : ℕ
  poly : Fin 3 → Pt K
  tp : EvType
  time : K
  tri : TId
  neighbours : Fin 3 → Option TId
  finite : Bool

/-- inout.py:215-233 the events of the queue in order -/
def queueRows (s : St K) (T : K) : List (Event K) → ℕ → Except Err (List (EventRow K))
  | [], _ => .ok []
  | e :: es, i => do
    let poly ← triangleAt s e.tri T
    let rest ← queueRows s T es (i + 1)
    .ok (⟨i, poly, e.tp, e.time, e.tri, (s.tri e.tri).neighbours, finiteT s e.tri⟩ :: rest)

/-- inout.py:245-256 the direction in which a vertex moves: a line of length 0.01 -/
def bisectorRow [HasSqrt K] (s : St K) (T : K) (v : VId) : Except Err (Option (VId × Pt K × Pt K)) :=
  match s.vert v with
  | .inf _ => .error .attributeError
  | .kin kv =>
    match kv.stopsAt with
    | some _ => .ok none
    | none => do
      let p1 ← visualizeAt s v T
      let len ← norm [kv.velocity.1, kv.velocity.2]
      if len ≠ 0 then
        let u ← unit [kv.velocity.1, kv.velocity.2]
        let m ← mul u (.scalar (1 / 100))
        let e ← add [p1.1, p1.2] (.vec m)
        match e with
        | [x, y] => .ok (some (v, p1, (x, y)))
        | _ => .error .indexError
      else .ok (some (v, p1, p1))

/-- inout.py:260-292 the trace of a vertex so far -/
def segmentRow [HasSqrt K] (s : St K) (T : K) (v : VId) : Except Err (Option (ArcRow K)) :=
  match s.vert v with
  | .inf _ => .error .attributeError
  | .kin kv =>
    match kv.startNode, kv.stopNode with
    | some a, some b => do
      let d ← distPt (s.node a).pos (s.node b).pos
      .ok (some ⟨v, (s.node a).pos, (s.node b).pos, true, d⟩)
    | some a, none => do
      let q ← visualizeAt s v T
      let d ← distPt (s.node a).pos q
      .ok (some ⟨v, (s.node a).pos, q, false, d⟩)
    | none, _ => .ok none

/-- inout.py:294-316 a vertex that still moves -/
def vertexRow (s : St K) (T : K) (v : VId) : Except Err (Option (VertexRow K)) :=
  match s.vert v with
  | .inf _ => .error .attributeError
  | .kin kv =>
    match kv.stopNode with
    | some _ => .ok none
    | none => do
      passert (decide (kv.stopsAt.isNone = true))
      let p ← visualizeAt s v T
      .ok (some ⟨v, p, neighbourAt kv.left T, neighbourAt kv.right T⟩)

/-- inout.py:318-327 the sides of live triangles without neighbour -/
def frontEdges (s : St K) (ts : List TId) : List (TId × Fin 3) :=
  ts.flatMap fun t =>
    if (s.tri t).stopsAt = none then
      ([0, 1, 2] : List (Fin 3)).filterMap fun i => if (s.tri t).neighbours i = none then some (t, i) else none
    else []

/-- what `visualize` writes -/
structure Picture (K : Type) where
  events : List (EventRow K)
  triangles : List (TriRow K)
  nodes : List (Node K)
  bisectors : List (VId × Pt K × Pt K)
  segments : List (ArcRow K)
  vertices : List (VertexRow K)
  edges : List (EdgeRow K)

/-- inout.py:208-330 `visualize` -/
def visualize [HasSqrt K] (queue : List (Event K)) (s : St K) (T : K) : Except Err (Picture K) := do
  let events ← queueRows s T queue 0
  let triangles ← outputTrianglesAt s s.skTriangles T
  let bisectors ← collect (bisectorRow s T) s.skVertices
  let segments ← collect (segmentRow s T) s.skVertices
  let vertices ← collect (vertexRow s T) s.skVertices
  let edges ← outputEdgesAt s (frontEdges s s.skTriangles) T
  .ok ⟨events, triangles, s.skNodes.map s.node, bisectors, segments, vertices, edges⟩

/-- inout.py:194-205 `interactive_visualize` under python 3, where `raw_input` is not defined -/
def interactiveVisualize [HasSqrt K] (queue : List (Event K)) (s : St K) (now : K) : Except Err Unit := do
  let _ ← visualize queue s now
  .error .nameError

/-- __init__.py:81-85 what `calc_skel` does with `output=True` after the events -/
def writeOutput [HasSqrt K] (now : K) (s : St K) : Except Err Unit := do
  let _ ← outputOffsets s now 5
  let _ ← outputSkel s (now + 10)
  let _ ← visualize [] s (now + 10)
  .ok ()

/-- loop.py:225-515 `event_loop(queue, skel, pause)`: with `pause=True` it calls `interactive_visualize`
(loop.py:261) before anything else.  What would come after it is not modelled, see `C79_pause`. -/
def eventLoopP [HasSqrt K] [HasTrig K] (pause : Bool) (depth : ℕ) (s : St K) : Except Fault (K × St K) :=
  if pause then
    match interactiveVisualize s.queue s 0 with
    | .error e => .error (.py e)
    | .ok _ => .error .outside
  else eventLoop depth s

/-- __init__.py:27-112 `calc_skel` with all its arguments, see `calcSkel` -/
def calcSkelFull [HasSqrt K] [HasTrig K] (depth : ℕ) (pyid : TId → ℕ)
    (triangulate : List (Pt K) → Except Err (Dt K)) (points : List (Pt K))
    (pause output shrink internal : Bool) : Except Fault (K × St K) := do
  let x ← liftE (shrinkPoints shrink points)
  let dt ← liftE (triangulate x.1)
  let skel ← initSkeleton dt pyid
  let s := prepare internal x.2 skel
  liftE (allE (checkStart s) s.skVertices)
  let s1 ← initEventList s
  let r ← eventLoopP pause depth s1.2
  if output then
    liftE (writeOutput r.1 r.2)
    .ok r
  else .ok r

end Grassfire
