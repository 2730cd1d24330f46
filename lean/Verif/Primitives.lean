/-
Model of src/grassfire/primitives.py.

Python objects with identity (vertices, triangles, nodes, support lines,
wavefronts) are numbers: keys of the heap `St` below.  `is` is equality of these
numbers.  The heap also contains the skeleton and the two event queues, so that
`St` is the complete state that the event code works on.
-/
import Verif.Line2d
import Verif.Transform
import Mathlib.Data.Fintype.Pi
import Mathlib.Data.Fintype.Basic

namespace Grassfire

variable {K : Type} [Field K] [LinearOrder K]

/-- reference to a vertex object -/
abbrev VId := ℕ
/-- reference to a triangle object -/
abbrev TId := ℕ
/-- reference to a skeleton node object -/
abbrev NodeId := ℕ
/-- reference to a `Line2` object (support line of a wavefront edge) -/
abbrev LineId := ℕ
/-- reference to a `WaveFront` object -/
abbrev WfId := ℕ

/-- tri/delaunay/tds `cw` (external package). -/
def cw (i : Fin 3) : Fin 3 := i + 2

/-- tri/delaunay/tds `ccw` (external package). -/
def ccw (i : Fin 3) : Fin 3 := i + 1

/-! ### left / right history of a kinetic vertex -/

/-- one entry `(start, stop, reference)` of `_left` / `_right`, primitives.py:97.  -/
structure HistItem (K R : Type) where
  start : K
  stop : Option K
  ref : R
  deriving DecidableEq

/-- the list `_left` or `_right` -/
abbrev Hist (K R : Type) := List (HistItem K R)

/-- primitives.py:179-189 / 191-197 the setters of `left` and `right`:
close the last entry and append a new one. -/
def Hist.set {K R : Type} (h : Hist K R) (ref : R) (time : K) : Hist K R :=
  match h.getLast? with
  | none => [⟨time, none, ref⟩]
  | some last => h.dropLast ++ [⟨last.start, some time, last.ref⟩, ⟨time, none, ref⟩]

/-- primitives.py:167-177 the getters of `left` and `right` (`None` when the list
is empty). -/
def Hist.last {K R : Type} (h : Hist K R) : Option R := h.getLast?.map (·.ref)

/-- primitives.py:199-213 `left_at` / `right_at`: first entry that covers `time`;
only comparisons are used. -/
def Hist.at {K R : Type} [LinearOrder K] (h : Hist K R) (time : K) : Option R :=
  (h.find? fun item =>
    (decide (item.start ≤ time) &&
      (match item.stop with
       | some stop => decide (stop > time)
       | none => false)) ||
    (decide (item.start ≤ time) && item.stop.isNone)).map (·.ref)

/-! ### the objects -/

/-- primitives.py:84-118 class `KineticVertex`.  `turn` (only written) is left out.
`left`/`right` may hold `None` as reference (events/lib.py:333-343). -/
structure KVertex (K : Type) where
  origin : Pt K
  velocity : Pt K
  left : Hist K (Option VId) := []
  right : Hist K (Option VId) := []
  startsAt : Option K := none
  stopsAt : Option K := none
  startNode : Option NodeId := none
  stopNode : Option NodeId := none
  ul : Option LineId := none
  ur : Option LineId := none
  wfl : Option WfId := none
  wfr : Option WfId := none
  info : ℕ := 0
  infFast : Bool := false
  internal : Bool := false

/-- `v.left`: a missing entry and an entry `None` both read as `None`. -/
def KVertex.leftRef (v : KVertex K) : Option VId := v.left.last.join

/-- `v.right` -/
def KVertex.rightRef (v : KVertex K) : Option VId := v.right.last.join

/-- The object behind a vertex reference: `KineticVertex` (primitives.py:84) or
`InfiniteVertex` (primitives.py:216-246, `velocity = (0,0)`, `internal = False`). -/
inductive Vertex (K : Type) where
  | kin (v : KVertex K)
  | inf (origin : Pt K)

/-- primitives.py:64-81 class `SkeletonNode` -/
structure Node (K : Type) where
  pos : Pt K
  step : ℤ
  info : Option ℕ
  deriving DecidableEq

/-- event kinds used in collapse.py -/
inductive EvType where
  | edge | flip | split
  deriving DecidableEq, Repr

/-- What collapse.py computes: an event without its triangle. -/
structure EvCore (K : Type) where
  time : K
  side : List (Fin 3)
  tp : EvType
  triTp : ℕ
  deriving DecidableEq

/-- primitives.py:7-17 class `Event`; `eid` is the identity of the object.  (`Event`
defines no `__eq__`, so `==` and `in` compare identities.)  The assertion `tri_tp
!= -1` always holds as `tri_tp` is the type of a triangle. -/
structure Event (K : Type) extends EvCore K where
  eid : ℕ
  tri : TId
  deriving DecidableEq

/-- primitives.py:256-271 class `KineticTriangle`.  The two `wavefront_*` lists are
only used while initialising and are left out. -/
structure KTri (K : Type) where
  vertices : Fin 3 → VId
  neighbours : Fin 3 → Option TId
  event : Option (Event K) := none
  info : ℕ := 0
  stopsAt : Option K := none
  internal : Bool := false

/-- `list.index(x)` on a list of three elements; `none` stands for ValueError. -/
def index3 {α : Type} [DecidableEq α] (f : Fin 3 → α) (x : α) : Option (Fin 3) :=
  if f 0 = x then some 0 else if f 1 = x then some 1 else if f 2 = x then some 2 else none

/-- `list.count(x)` on a list of three elements. -/
def count3 {α : Type} [DecidableEq α] (f : Fin 3 → α) (x : α) : ℕ :=
  (if f 0 = x then 1 else 0) + (if f 1 = x then 1 else 0) + (if f 2 = x then 1 else 0)

/-- primitives.py:369-373 `KineticTriangle.type`: number of neighbours that are None. -/
def KTri.type (t : KTri K) : ℕ := count3 t.neighbours none

/-! ### the state -/

/-- The heap with all objects, the skeleton (primitives.py:29-42) and the two event
queues of `event_loop`.  `line`, `wfLine` and `pyid` never change after the
initialisation.  References are valid below the counters `nV`, `nT`, `nN`. -/
structure St (K : Type) where
  vert : VId → Vertex K
  nV : ℕ
  tri : TId → KTri K
  nT : ℕ
  node : NodeId → Node K
  nN : ℕ
  /-- next free event identity -/
  nE : ℕ
  /-- contents of the `Line2` objects -/
  line : LineId → Line2 K
  /-- the attribute `line` of the `WaveFront` objects -/
  wfLine : WfId → LineId
  /-- python's `id(triangle)` -/
  pyid : TId → ℕ
  /-- `skel.sk_nodes` -/
  skNodes : List NodeId
  /-- `skel.vertices` -/
  skVertices : List VId
  /-- `skel.triangles` -/
  skTriangles : List TId
  /-- `skel.transform` -/
  transform : Option (Transform K)
  /-- the ordered event queue (oseq.OrderedSequence), in iteration order -/
  queue : List (Event K)
  /-- the deque `immediate` -/
  immediate : List (Event K)

/-- Computations on the state that may raise. -/
abbrev M (K : Type) := StateT (St K) (Except Fault)

/-- raise an exception -/
def raise {K α : Type} (e : Err) : M K α := fun _ => .error (.py e)

/-- lift a pure computation that may raise -/
def lift {K α : Type} (x : Except Err α) : M K α := fun s =>
  match x with
  | .ok a => .ok (a, s)
  | .error e => .error (.py e)

/-- python's `assert` -/
def assertM {K : Type} (c : Prop) [Decidable c] : M K Unit := fun s =>
  if c then .ok ((), s) else .error (.py .assertionError)

/-- follow a vertex reference.  (References that are not below the counter do not
exist in python; following one is reported as an error of the model.) -/
def getV (v : VId) : M K (Vertex K) := fun s =>
  if v < s.nV then .ok (s.vert v, s) else .error .dangling

/-- follow a vertex reference and use it as `KineticVertex`: an attribute that
`InfiniteVertex` does not have is accessed. -/
def getK (v : VId) : M K (KVertex K) := fun s =>
  if v < s.nV then
    match s.vert v with
    | .kin kv => .ok (kv, s)
    | .inf _ => .error (.py .attributeError)
  else .error .dangling

/-- assign attributes of a `KineticVertex`. -/
def modifyK (v : VId) (f : KVertex K → KVertex K) : M K Unit := fun s =>
  if v < s.nV then
    match s.vert v with
    | .kin kv => .ok ((), { s with vert := Function.update s.vert v (.kin (f kv)) })
    | .inf _ => .error (.py .attributeError)
  else .error .dangling

/-- follow a triangle reference -/
def getT (t : TId) : M K (KTri K) := fun s =>
  if t < s.nT then .ok (s.tri t, s) else .error .dangling

/-- assign attributes of a triangle -/
def modifyT (t : TId) (f : KTri K → KTri K) : M K Unit := fun s =>
  if t < s.nT then .ok ((), { s with tri := Function.update s.tri t (f (s.tri t)) })
  else .error .dangling

/-- follow a node reference -/
def getN (n : NodeId) : M K (Node K) := fun s =>
  if n < s.nN then .ok (s.node n, s) else .error .dangling

/-- allocate a `SkeletonNode` -/
def newNode (n : Node K) : M K NodeId := fun s =>
  .ok (s.nN, { s with node := Function.update s.node s.nN n, nN := s.nN + 1 })

/-- allocate a `KineticVertex` -/
def newK (kv : KVertex K) : M K VId := fun s =>
  .ok (s.nV, { s with vert := Function.update s.vert s.nV (.kin kv), nV := s.nV + 1 })

/-- allocate an `Event`, primitives.py:10-17 -/
def newEvent (c : EvCore K) (t : TId) : M K (Event K) := fun s =>
  .ok ({ c with eid := s.nE, tri := t }, { s with nE := s.nE + 1 })

/-- use `None` where an object is needed: AttributeError -/
def need {K α : Type} (o : Option α) : M K α := fun s =>
  match o with
  | some a => .ok (a, s)
  | none => .error (.py .attributeError)

/-- `list.index`: ValueError when there is no hit -/
def needIdx {K α : Type} (o : Option α) : M K α := fun s =>
  match o with
  | some a => .ok (a, s)
  | none => .error (.py .valueError)

/-! ### methods -/

/-- primitives.py:148-153 `KineticVertex.position_at` and 235-237
`InfiniteVertex.position_at`, where `startPos` is `start_node.pos`. -/
def Vertex.positionAt (v : Vertex K) (startPos : NodeId → Pt K) (time : K) :
    Except Err (Pt K) :=
  match v with
  | .inf origin => .ok origin
  | .kin kv =>
    if kv.infFast = false then
      .ok (kv.origin.1 + time * kv.velocity.1, kv.origin.2 + time * kv.velocity.2)
    else
      match kv.startNode with
      | some n => .ok (startPos n)
      | none => .error .attributeError

/-- `v.position_at(time)` for a reference -/
def positionAt (v : VId) (time : K) : M K (Pt K) := fun s =>
  if v < s.nV then
    match (s.vert v).positionAt (fun n => (s.node n).pos) time with
    | .ok p => .ok (p, s)
    | .error e => .error (.py e)
  else .error .dangling

/-- Output of `segments`: the two end points and the two node infos. -/
abbrev Segment (K : Type) := (Pt K × Pt K) × (Option ℕ × Option ℕ)

/-- primitives.py:44-61 `Skeleton.segments`: the loop body for one vertex. -/
def segmentOf (s : St K) (v : VId) : Except Err (Option (Segment K)) :=
  match s.vert v with
  | .inf _ => .error .attributeError
  | .kin kv =>
    match kv.stopsAt with
    | some _ =>
      -- `v.start_node is v.stop_node`
      if kv.startNode = kv.stopNode then .ok none
      else
        match kv.startNode, kv.stopNode with
        | some a, some b =>
          match s.transform with
          | some tr => .ok (some ((tr.backward (s.node a).pos, tr.backward (s.node b).pos),
              ((s.node a).info, (s.node b).info)))
          | none => .ok (some (((s.node a).pos, (s.node b).pos),
              ((s.node a).info, (s.node b).info)))
        | _, _ => .error .attributeError
    | none =>
      match kv.startNode with
      | none => .error .attributeError
      | some a => do
        let p ← (Vertex.kin kv).positionAt (fun n => (s.node n).pos) 1000
        .ok (some (((s.node a).pos, p), ((s.node a).info, none)))

/-- primitives.py:44-61 `Skeleton.segments`. -/
def segmentsLoop (s : St K) : List VId → List (Segment K) → Except Err (List (Segment K))
  | [], segs => .ok segs
  | v :: vs, segs => do
    match ← segmentOf s v with
    | none => segmentsLoop s vs segs
    | some seg => segmentsLoop s vs (segs ++ [seg])

/-- primitives.py:44-61 `Skeleton.segments`. -/
def segments (s : St K) : Except Err (List (Segment K)) := segmentsLoop s s.skVertices []

end Grassfire
