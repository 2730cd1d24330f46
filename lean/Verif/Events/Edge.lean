/-
Model of src/grassfire/events/edge.py.  The helpers `signed_turn` and `get_bisector`
(13-52) are not used by the handlers (see
Verif/Helpers.lean); what only happens with `pause` is left out.
-/
import Verif.Events.Parallel

namespace Grassfire

variable {K : Type} [Field K] [LinearOrder K]

/-- events/edge.py:103-109: the position where two wavefronts meet, `None` on
ValueError -/
def tryIntersection [HasSqrt K] (l r : Line2 K) (now : K) : M K (Option (Pt K)) := fun s =>
  match getIntersectionAtT l r now with
  | .ok p => .ok (some p, s)
  | .error .valueError => .ok (none, s)
  | .error e => .error (.py e)

/-- `x.position_at(now)` is evaluated for logging -/
def evalPosition (v : Option VId) (now : K) : M K Unit :=
  match v with
  | none => pure ()
  | some v => do
    let _ ← positionAt v now
    pure ()

/-- events/edge.py:196-197 and events/split.py:220-221, 233-234: the wavefronts of a vertex
are those of its neighbours -/
def checkLinks (v : VId) : M K Unit := do
  let kv ← getK v
  let l ← need kv.leftRef
  let kl ← getK l
  assertM (kv.wfl = kl.wfr)
  let r ← need kv.rightRef
  let kr ← getK r
  assertM (kv.wfr = kr.wfl)

/-- events/edge.py:223-229 and 235-241: schedule the last triangle of the fan when its outer
edge is tiny -/
def scheduleTiny [HasSqrt K] (fan : List TId) (kv : VId) (dir : Dir) (now : K) : M K Unit :=
  match fan.getLast? with
  | none => pure ()
  | some t => do
    let i ← vertexIndex t kv
    let T ← getT t
    let p ← positionAt (T.vertices (ccw (dir.fn i))) now
    let q ← positionAt (T.vertices (cw (dir.fn i))) now
    let d ← lift (psqrt ((p.1 - q.1) * (p.1 - q.1) + (p.2 - q.2) * (p.2 - q.2)))
    if nearZero d then scheduleImmediately t now else pure ()

/-- events/edge.py:217-241, one of the two sides -/
def edgeSide [HasSqrt K] (n : Option TId) (t : TId) (other : Option TId) (v kv : VId)
    (now : K) (dir : Dir) : M K (List TId) :=
  match n with
  | none => pure []
  | some n => do
    relink n t other
    let fan ← replaceKvertex n v kv now dir
    scheduleTiny fan kv dir now
    pure fan

/-- events/edge.py:255-269: process a parallel fan -/
def edgeFan [HasSqrt K] [HasTrig K] (depth : ℕ) (kv : VId) (fanA fanB : List TId) (now : K)
    (step : ℤ) : M K Unit := do
  let next ← nextFan kv fanA fanB
  match next with
  | none => pure ()
  | some x => parallelFan depth x.1 x.2.1 now x.2.2 step

/-- events/edge.py:71-198: stop the two vertices and create the vertex that replaces
them -/
def edgeVertex [HasSqrt K] [HasTrig K] (t : TId) (e : Fin 3) (now : K) (step : ℤ) :
    M K VId := do
  let T ← getT t
  let v1 := T.vertices (ccw e)
  let v2 := T.vertices (cw e)
  let k1 ← getK v1
  let k2 ← getK v2
  let fresh := (T.neighbours e).isNone ∧ k1.stopNode.isNone ∧ k2.stopNode.isNone
  assertM (fresh → k1.rightRef = some v2)
  assertM (fresh → k2.leftRef = some v1)
  assertM (fresh → k2.wfl = k1.wfr)
  let a ← need k1.wfl
  let c ← need k2.wfr
  let la ← getWfLine a
  let lc ← getWfLine c
  let _ ← lift (getBisector la lc)
  let pos ← tryIntersection la lc now
  let node ← stopAndRecord [v1, v2] step now pos
  let ct ← countVertices
  let kv ← computeNewKvertex k1.ul k2.ur now node (ct + 1) (k1.internal || k2.internal)
  modifyK kv fun k => { k with wfl := k1.wfl, wfr := k2.wfr }
  let k1 ← getK v1
  evalPosition k1.leftRef now
  let k2 ← getK v2
  evalPosition k2.rightRef now
  appendVertex kv
  updateCirc k1.leftRef (some kv) now
  let k2 ← getK v2
  updateCirc (some kv) k2.rightRef now
  checkLinks kv
  pure kv

/-- events/edge.py:57-269 `handle_edge_event` -/
def handleEdge [HasSqrt K] [HasTrig K] (depth : ℕ) (evt : Event K) (step : ℤ) :
    M K Unit := do
  let e ← singleSide evt.side
  let t := evt.tri
  let kv ← edgeVertex t e evt.time step
  let T ← getT t
  let a := T.neighbours (ccw e)
  let b := T.neighbours (cw e)
  let fanA ← edgeSide a t b (T.vertices (cw e)) kv evt.time .cw
  let fanB ← edgeSide b t a (T.vertices (ccw e)) kv evt.time .ccw
  detachAndSchedule (T.neighbours e) t evt.time
  stopTriangle t evt.time
  edgeFan depth kv fanA fanB evt.time step

/-- events/edge.py:297-300, one neighbour; `for n in t.neighbours` reads the list while it
iterates. -/
def threeSidesNeighbour [HasSqrt K] (t : TId) (now : K) (i : Fin 3) : M K Unit := do
  let T ← getT t
  match T.neighbours i with
  | none => pure ()
  | some n => do
    let N ← getT n
    if N.event.isSome ∧ N.stopsAt.isNone then do
      relink n t none
      scheduleImmediately n now
    else pure ()

/-- events/edge.py:272-302 `handle_edge_event_3sides` -/
def handleEdge3 [HasSqrt K] (evt : Event K) (step : ℤ) : M K Unit := do
  assertM (evt.side.length = 3)
  let T ← getT evt.tri
  let _ ← stopAndRecord [T.vertices 0, T.vertices 1, T.vertices 2] step evt.time none
  forEach (threeSidesNeighbour evt.tri evt.time) [0, 1, 2]
  stopTriangle evt.tri evt.time

/-- events/edge.py:305-341 `handle_edge_event_1side` -/
def handleEdge1 [HasSqrt K] [HasTrig K] (evt : Event K) (step : ℤ) : M K Unit := do
  let e ← singleSide evt.side
  let T ← getT evt.tri
  let v0 := T.vertices e
  let v1 := T.vertices (ccw e)
  let v2 := T.vertices (cw e)
  let node ← stopAndRecord [v1, v2] step evt.time none
  let k1 ← getK v1
  let k2 ← getK v2
  let ct ← countVertices
  let kv ← computeNewKvertex k1.ul k2.ur evt.time node (ct + 1) (k1.internal || k2.internal)
  appendVertex kv
  let _ ← stopAndRecord [v0, kv] step evt.time none
  stopTriangle evt.tri evt.time

end Grassfire
