/-
Model of src/grassfire/events/lib.py (logging left out where it cannot raise).
-/
import Verif.Collapse
import Verif.Queue

namespace Grassfire

variable {K : Type} [Field K] [LinearOrder K]

/-- `math.acos`, `math.pi` and `math.cos(math.radians(179.999999))` (events/lib.py:171)
as parameters of the model. -/
class HasTrig (K : Type) where
  acos : K → K
  pi : K
  cosLimit : K

/-- the functions `cw` / `ccw` passed as argument `direction` -/
inductive Dir where
  | cw | ccw
  deriving DecidableEq

/-- call of `direction(side)` -/
def Dir.fn : Dir → Fin 3 → Fin 3
  | .cw => Grassfire.cw
  | .ccw => Grassfire.ccw

/-- `for x in xs: f(x)` -/
def forEach {α : Type} (f : α → M K Unit) : List α → M K Unit
  | [] => pure ()
  | x :: xs => do
    f x
    forEach f xs

/-- `[f(x) for x in xs]` -/
def mapEach {α β : Type} (f : α → M K β) : List α → M K (List β)
  | [] => pure []
  | x :: xs => do
    let y ← f x
    let ys ← mapEach f xs
    pure (y :: ys)

/-- `None - now`: TypeError -/
def needNum (o : Option K) : M K K := fun s =>
  match o with
  | some a => .ok (a, s)
  | none => .error (.py .typeError)

/-- content of a `Line2` object -/
def getLine (l : LineId) : M K (Line2 K) := fun s => .ok (s.line l, s)

/-- the line of a `WaveFront` object -/
def getWfLine (w : WfId) : M K (Line2 K) := fun s => .ok (s.line (s.wfLine w), s)

/-- `skel.sk_nodes.append(sk_node)` -/
def appendNode (n : NodeId) : M K Unit := fun s =>
  .ok ((), { s with skNodes := s.skNodes ++ [n] })

/-- `skel.vertices.append(kv)` -/
def appendVertex (v : VId) : M K Unit := fun s =>
  .ok ((), { s with skVertices := s.skVertices ++ [v] })

/-- `len(skel.vertices)` -/
def countVertices : M K ℕ := fun s => .ok (s.skVertices.length, s)

/-! ### views for collapse.py -/

/-- what collapse.py sees of a vertex -/
def viewOf (s : St K) (v : VId) : VView K :=
  match s.vert v with
  | .kin kv => ⟨true, kv.origin, kv.velocity, kv.infFast, kv.startNode.map fun n => (s.node n).pos,
      kv.ul.map s.line, kv.ur.map s.line⟩
  | .inf o => ⟨false, o, (0, 0), false, none, none, none⟩

/-- what collapse.py sees of a triangle -/
def triView (t : TId) : M K (TView K) := fun s =>
  if t < s.nT then
    let T := s.tri t
    if T.vertices 0 < s.nV ∧ T.vertices 1 < s.nV ∧ T.vertices 2 < s.nV then
      .ok (⟨fun i => viewOf s (T.vertices i), fun i => (T.neighbours i).isNone, T.stopsAt.isSome⟩, s)
    else .error .dangling
  else .error .dangling

/-- assign `tri.event` -/
def setEvent (t : TId) (e : Event K) : M K Unit := modifyT t fun T => { T with event := some e }

/-- a computed event becomes the event of the triangle -/
def storeEvent (c : Option (EvCore K)) (t : TId) : M K (Option (Event K)) :=
  match c with
  | none => pure none
  | some c => do
    let e ← newEvent c t
    setEvent t e
    pure (some e)

/-- collapse.py:884-938 `compute_collapse_time`: the computation is `computeCollapse`;
a new event is stored in the triangle, without new event the old one stays. -/
def computeCollapseTime [HasSqrt K] (t : TId) (now : K) (sieve : Sieve) :
    M K (Option (Event K)) := do
  let view ← triView t
  let c ← lift (computeCollapse view now sieve)
  storeEvent c t

/-! ### stopping vertices -/

/-- events/lib.py:47-65, second loop of `stop_kvertices`; `acc` is `sk_node` -/
def stopScan (now : K) : List VId → Option NodeId → M K (Option NodeId)
  | [], acc => pure acc
  | v :: vs, acc => do
    let kv ← getK v
    let startsAt ← needNum kv.startsAt
    let timeClose := nearZero (startsAt - now)
    if kv.stopsAt.isSome then stopScan now vs kv.stopNode
    else if timeClose then stopScan now vs kv.startNode
    else do
      modifyK v fun kv => { kv with stopsAt := some now }
      stopScan now vs acc

/-- events/lib.py:81-86: average of positions -/
def averagePos (l : List (Pt K)) : Except Err (Pt K) := do
  let ct : K := l.length
  let x ← pdiv (l.map (·.1)).sum ct
  let y ← pdiv (l.map (·.2)).sum ct
  .ok (x, y)

/-- events/lib.py:64-73: the node is already there -/
def stopAtExisting (V : List VId) (now : K) (n : NodeId) : M K (NodeId × Bool) := do
  forEach (fun v => modifyK v fun kv => { kv with stopNode := some n, stopsAt := some now }) V
  pure (n, false)

/-- events/lib.py:75-89: the position of a new node -/
def nodePosition (V : List VId) (now : K) (pos : Option (Pt K)) : M K (Pt K) :=
  match pos with
  | some p => pure p
  | none => do
    let l ← mapEach (fun v => positionAt v now) V
    lift (averagePos l)

/-- events/lib.py:74-93: a new node is made -/
def stopAtNew (V : List VId) (step : ℤ) (now : K) (pos : Option (Pt K)) :
    M K (NodeId × Bool) := do
  let pos ← nodePosition V now pos
  let n ← newNode ⟨pos, step, none⟩
  forEach (fun v => modifyK v fun kv => { kv with stopNode := some n }) V
  pure (n, true)

/-- events/lib.py:64-93 -/
def stopAtNode (V : List VId) (step : ℤ) (now : K) (pos : Option (Pt K))
    (skNode : Option NodeId) : M K (NodeId × Bool) :=
  match skNode with
  | some n => stopAtExisting V now n
  | none => stopAtNew V step now pos

/-- events/lib.py:96-99: post condition -/
def assertStoppedAt (now : K) (v : VId) : M K Unit := do
  let kv ← getK v
  assertM (kv.stopNode.isSome)
  assertM (kv.stopsAt = some now)

/-- the loop over the vertices for logging, events/lib.py:44-45, reads `v.inf_fast` -/
def readVertex (v : VId) : M K Unit := do
  let _ ← getK v
  pure ()

/-- events/lib.py:27-119 `stop_kvertices`; the result is `(sk_node, is_new_node)`. -/
def stopKvertices (V : List VId) (step : ℤ) (now : K) (pos : Option (Pt K)) :
    M K (NodeId × Bool) := do
  forEach readVertex V
  let skNode ← stopScan now V none
  let res ← stopAtNode V step now pos skNode
  forEach (assertStoppedAt now) V
  pure res

/-- `if newly_made: skel.sk_nodes.append(sk_node)` -/
def recordNode (new : Bool) (n : NodeId) : M K Unit :=
  if new then appendNode n else pure ()

/-- the statement pair that follows every call of `stop_kvertices`, e.g.
events/edge.py:126-128: `if newly_made: skel.sk_nodes.append(sk_node)` -/
def stopAndRecord (V : List VId) (step : ℤ) (now : K) (pos : Option (Pt K)) : M K NodeId := do
  let r ← stopKvertices V step now pos
  recordNode r.2 r.1
  pure r.1

/-! ### new vertices -/

/-- events/lib.py:141-200, velocity and position at time 0 of a new vertex between the
lines `ul` and `ur`; the position is not set when the velocity is `(0, 0)`. -/
def newMotion [HasSqrt K] [HasTrig K] (ul ur : Line2 K) (now : K) (pos : Pt K) :
    Except Err (Pt K × Option (Pt K)) :=
  let direction := add2 ul.w ur.w
  let d := max (-1) (min 1 (dot2 ul.w ur.w))
  let acosD := HasTrig.acos d
  if (nearZero direction.1 && nearZero direction.2) || nearZero (acosD - HasTrig.pi) ||
      decide (d < HasTrig.cosLimit) then
    .ok ((0, 0), none)
  else do
    match ← lineLineIntersect ul ur with
    | .noIntersection => .ok ((0, 0), none)
    | .point p => do
      let ult ← ul.translated ul.w
      let urt ← ur.translated ur.w
      match ← lineLineIntersect ult urt with
      | .point q => .ok (sub2 q p, some p)
      | _ => .error .assertionError
    | .line _ => .ok (ul.w, some (add2 pos (mul2 (mul2 ul.w (-1)) now)))

/-- events/lib.py:122-220 `compute_new_kvertex`. The file written when `pause` is set is
left out. -/
def computeNewKvertex [HasSqrt K] [HasTrig K] (ul ur : Option LineId) (now : K) (node : NodeId)
    (info : ℕ) (internal : Bool) : M K VId := do
  let nd ← getN node
  let ulId ← need ul
  let urId ← need ur
  let l ← getLine ulId
  let r ← getLine urId
  let m ← lift (newMotion l r now nd.pos)
  let infFast : Bool := decide (m.1 = (0, 0))
  -- 206-215; `pos_at_t0` is assigned whenever the velocity is not (0, 0)
  let origin := if infFast then nd.pos else m.2.getD nd.pos
  newK { origin := origin, velocity := m.1, startsAt := some now, startNode := some node,
         ul := some ulId, ur := some urId, info := info, infFast := infFast, internal := internal }

/-! ### fans -/

/-- events/lib.py:16-24 `is_infinitely_fast` -/
def isInfinitelyFast (fan : List TId) (now : K) : M K Bool := do
  let times ← mapEach (fun t => do
    let T ← getT t
    pure (match T.event with
      | some e => e.time
      | none => -1)) fan
  pure (!fan.isEmpty && (times.map fun time => nearZero (time - now)).all id)

/-- events/lib.py:229-237, loop of `get_fan` -/
def getFanLoop (v : VId) (dir : Dir) (start : TId) : ℕ → Option TId → List TId → M K (List TId)
  | _, none, fan => pure fan
  | 0, some _, _ => fun _ => .error .nonTermination
  | fuel + 1, some t, fan => do
    let T ← getT t
    let side ← needIdx (index3 T.vertices v)
    let next := T.neighbours (dir.fn side)
    assertM (next ≠ some start)
    getFanLoop v dir start fuel next (fan ++ [t])

/-- events/lib.py:223-237 `get_fan`.  The python loop has no bound; here it is cut off
after one step per triangle. -/
def getFan (t : TId) (v : VId) (dir : Dir) : M K (List TId) := fun s =>
  getFanLoop v dir t (s.nT + 1) (some t) [] s

/-! ### queue -/

/-- events/lib.py:298-300 (and 286-288): remove an event from both queues -/
def discardEvent (e : Option (Event K)) : M K Unit :=
  match e with
  | some e => do
    queueDiscard e
    immediateRemove e
  | none => pure ()

/-- events/lib.py:308-317 -/
def addEvent (e : Option (Event K)) : M K Unit :=
  match e with
  | some e => queueAdd e
  | none => pure ()

/-- events/lib.py:295-317 `replace_in_queue` -/
def replaceInQueue [HasSqrt K] (t : TId) (now : K) : M K Unit := do
  let T ← getT t
  discardEvent T.event
  let e ← computeCollapseTime t now .gte
  addEvent e

/-- assign `t.vertices[side]` -/
def setVertex (t : TId) (side : Fin 3) (v : VId) : M K Unit :=
  modifyT t fun T => { T with vertices := Function.update T.vertices side v }

/-- assign `t.neighbours[side]` -/
def setNeighbour (t : TId) (side : Fin 3) (n : Option TId) : M K Unit :=
  modifyT t fun T => { T with neighbours := Function.update T.neighbours side n }

/-- assign `t.stops_at` -/
def stopTriangle (t : TId) (now : K) : M K Unit :=
  modifyT t fun T => { T with stopsAt := some now }

/-- events/lib.py:285-290: renew the event of a triangle that got the vertex `newv` -/
def renewEvent [HasSqrt K] (infFast : Bool) (t : TId) (now : K) : M K Unit := do
  let T ← getT t
  if infFast = true ∧ T.event.isSome then discardEvent T.event
  else replaceInQueue t now

/-- events/lib.py:245-292, loop of `replace_kvertex`.  The handling of 'same time' events
(252-266) only logs. -/
def replaceLoop [HasSqrt K] (v newv : VId) (now : K) (dir : Dir) :
    ℕ → Option TId → List TId → M K (List TId)
  | _, none, fan => pure fan
  | 0, some _, _ => fun _ => .error .nonTermination
  | fuel + 1, some t, fan => do
    let T ← getT t
    let side ← needIdx (index3 T.vertices v)
    setVertex t side newv
    let nk ← getK newv
    renewEvent nk.infFast t now
    let T ← getT t
    replaceLoop v newv now dir fuel (T.neighbours (dir.fn side)) (fan ++ [t])

/-- events/lib.py:240-292 `replace_kvertex`.  The python loop has no bound;
Verif/Props/Fan.lean proves that this bound is never reached (for `newv` other
than `v`). -/
def replaceKvertex [HasSqrt K] (t : TId) (v newv : VId) (now : K) (dir : Dir) :
    M K (List TId) := fun s =>
  replaceLoop v newv now dir (3 * s.nT + 1) (some t) [] s

/-- events/lib.py:336 -/
def setRight (l r : Option VId) (now : K) : M K Unit :=
  match l with
  | some l => modifyK l fun kv => { kv with right := kv.right.set r now }
  | none => pure ()

/-- events/lib.py:343 -/
def setLeft (r l : Option VId) (now : K) : M K Unit :=
  match r with
  | some r => modifyK r fun kv => { kv with left := kv.left.set l now }
  | none => pure ()

/-- events/lib.py:320-343 `update_circ`.  Both vertices are kinetic in all uses; python
would also allow the assignment for an `InfiniteVertex`. -/
def updateCirc (l r : Option VId) (now : K) : M K Unit := do
  setRight l r now
  setLeft r l now

/-- events/lib.py:364-365; `None` is never in the list -/
def immediateRemoveOpt (e : Option (Event K)) : M K Unit :=
  match e with
  | some e => immediateRemove e
  | none => pure ()

/-- events/lib.py:367-373: the event for a triangle that is assumed to collapse now -/
def immediateEvent [HasSqrt K] (t : TId) (now : K) : M K (Event K) := do
  let view ← triView t
  let c ← lift (newEdgeCollapse view now)
  let T ← getT t
  let side := if count3 T.neighbours none = 3 then [0, 1, 2] else c.side
  newEvent { c with side := side } t

/-- events/lib.py:346-376 `schedule_immediately` -/
def scheduleImmediately [HasSqrt K] (t : TId) (now : K) : M K Unit := do
  let T ← getT t
  queueDiscardOpt T.event
  immediateRemoveOpt T.event
  let e ← immediateEvent t now
  setEvent t e
  assertM (0 < e.side.length)
  immediateAppend e

end Grassfire
