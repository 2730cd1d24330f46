/-
Model of src/grassfire/events/loop.py.  Everything that only happens with `pause` or
`make_video`, and all blocks behind `if False`, are left out.
-/
import Verif.Events.Check

namespace Grassfire

variable {K : Type} [Field K] [LinearOrder K]

/-- events/loop.py:288-292 together with `choose_next_event` (22-173, of which only 53-54 and
164-173 are executed): the next event and the new value of `NOW`; `none` when the
loop ends (278). -/
def takeEvent (now : K) : M K (Option (Event K × K)) := fun s =>
  match s.immediate with
  | e :: rest => .ok (some (e, now), { s with immediate := rest })
  | [] =>
    match s.queue with
    | e :: rest => .ok (some (e, e.time), { s with queue := rest })
    | [] => .ok (none, s)

/-- events/loop.py:416-437: skip stopped triangles, otherwise dispatch -/
def handleEvent [HasSqrt K] [HasTrig K] (depth : ℕ) (evt : Event K) (step : ℤ) :
    M K Unit := do
  let T ← getT evt.tri
  if T.stopsAt.isSome then pure ()
  else
    match evt.tp with
    | .edge =>
      if evt.side.length = 3 then handleEdge3 evt step
      else if evt.side.length = 1 ∧ T.type = 3 then handleEdge1 evt step
      else if evt.side.length = 2 then raise .valueError
      else handleEdge depth evt step
    | .flip => handleFlip evt
    | .split => handleSplit depth evt step

/-- events/loop.py:278-437, one iteration of the loop; `none`: nothing is pending -/
def loopStep [HasSqrt K] [HasTrig K] (depth : ℕ) (step : ℤ) (now : K) :
    M K (Option (Event K × K)) := do
  let next ← takeEvent now
  match next with
  | none => pure none
  | some x => do
    handleEvent depth x.1 step
    pure (some x)

/-- events/loop.py:278-437, the loop; the first argument is the number of iterations left
before the guard (280) strikes. -/
def loop [HasSqrt K] [HasTrig K] (depth : ℕ) : ℕ → ℤ → K → M K K
  | 0, _, now => fun s =>
    if s.immediate.isEmpty && s.queue.isEmpty then .ok (now, s) else .error (.py .valueError)
  | fuel + 1, step, now => do
    let next ← loopStep depth (step + 1) now
    match next with
    | none => pure now
    | some x => loop depth fuel (step + 1) x.2

/-- `v.internal` of either kind of vertex -/
def Vertex.internal : Vertex K → Bool
  | .kin kv => kv.internal
  | .inf _ => false

/-- events/loop.py:511: triangle that should have been stopped -/
def leftOver (t : TId) : M K Bool := do
  let T ← getT t
  let v0 ← getV (T.vertices 0)
  let v1 ← getV (T.vertices 1)
  let v2 ← getV (T.vertices 2)
  pure (v0.internal && v1.internal && v2.internal && T.stopsAt.isNone)

/-- events/loop.py:508-514: post condition -/
def checkAllStopped (ts : List TId) : M K Unit := do
  let l ← mapEach leftOver ts
  if l.any id then raise .valueError else pure ()

/-- `skel.triangles` -/
def skelTriangles : M K (List TId) := fun s => .ok (s.skTriangles, s)

/-- events/loop.py:260 `immediate = deque([])` -/
def clearImmediate : M K Unit := fun s => .ok ((), { s with immediate := [] })

/-- events/loop.py:225-516 `event_loop` (with `pause=False`) -/
def eventLoop [HasSqrt K] [HasTrig K] (depth : ℕ) : M K K := do
  clearImmediate
  let ts ← skelTriangles
  checkBisectors ts 0
  checkOrientation ts 0
  let now ← loop depth 50000 0 0
  let ts ← skelTriangles
  checkAllStopped ts
  pure now

/-- events/loop.py:550 `q = OrderedSequence(..)` -/
def clearQueue : M K Unit := fun s => .ok ((), { s with queue := [] })

/-- events/loop.py:554-556, one triangle -/
def initEvent [HasSqrt K] (t : TId) : M K Unit := do
  let e ← computeCollapseTime t 0 .gt
  addEvent e

/-- events/loop.py:545-558 `init_event_list` -/
def initEventList [HasSqrt K] : M K Unit := do
  clearQueue
  let ts ← skelTriangles
  forEach initEvent ts

end Grassfire
