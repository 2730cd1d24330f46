/-
Model of src/grassfire/events/split.py.  `compute_crossing_bisector` (12-61) is not
used by the handlers (see Verif/Helpers.lean); what only happens with `pause` is left out.
-/
import Verif.Events.Edge

namespace Grassfire

variable {K : Type} [Field K] [LinearOrder K]

/-- events/split.py:82-123: assertions and evaluation of the wavefront intersections; the
results are not used further on -/
def splitChecks [HasSqrt K] (v v1 v2 : VId) (now : K) : M K Unit := do
  let k1 ← getK v1
  let k2 ← getK v2
  assertM (k1.wfr = k2.wfl)
  let k ← getK v
  let a ← need k.wfr
  let b ← need k1.wfr
  let la ← getWfLine a
  let lb ← getWfLine b
  let _ ← lift (getBisector la lb)
  let c ← need k.wfl
  let lc ← getWfLine c
  let _ ← lift (getBisector la lc)
  let _ ← tryIntersection la lb now
  let _ ← tryIntersection la lc now
  let _ ← tryIntersection lb lc now
  pure ()

/-- events/split.py:127-234: stop the vertex and create the two vertices `vb` and `va` that
continue -/
def splitVertices [HasSqrt K] [HasTrig K] (v v1 v2 : VId) (now : K) (step : ℤ) :
    M K (VId × VId) := do
  let node ← stopAndRecord [v] step now none
  let k ← getK v
  let k1 ← getK v1
  let k2 ← getK v2
  assertM (k1.ur = k2.ul)
  let ct ← countVertices
  let vb ← computeNewKvertex k.ul k2.ul now node (ct + 1) (k.internal || k2.internal)
  modifyK vb fun x => { x with wfl := k.wfl, wfr := k2.wfl }
  appendVertex vb
  let ct ← countVertices
  let va ← computeNewKvertex k1.ur k.ur now node (ct + 1) (k.internal || k1.internal)
  modifyK va fun x => { x with wfl := k1.wfr, wfr := k.wfr }
  appendVertex va
  updateCirc k.leftRef (some vb) now
  updateCirc (some vb) (some v2) now
  checkLinks vb
  updateCirc (some v1) (some va) now
  let k ← getK v
  updateCirc (some va) k.rightRef now
  checkLinks va
  pure (vb, va)

/-- events/split.py:236-240 and 248-252: detach the neighbour and replace the vertex in
its fan -/
def splitSide [HasSqrt K] (t : TId) (side : Fin 3) (v newv : VId) (now : K) (dir : Dir) :
    M K (List TId) := do
  let T ← getT t
  let n ← assertSome (T.neighbours side)
  relink n t none
  replaceKvertex n v newv now dir

/-- events/split.py:262-265 -/
def splitFan [HasSqrt K] [HasTrig K] (depth : ℕ) (v : VId) (fan : List TId) (now : K)
    (dir : Dir) (step : ℤ) : M K Unit := do
  let k ← getK v
  if k.infFast then parallelFan depth fan v now dir step else pure ()

/-- events/split.py:64-265 `handle_split_event` -/
def handleSplit [HasSqrt K] [HasTrig K] (depth : ℕ) (evt : Event K) (step : ℤ) :
    M K Unit := do
  let e ← singleSide evt.side
  let t := evt.tri
  let T ← getT t
  assertM (T.neighbours e = none)
  let v := T.vertices e
  let v1 := T.vertices (ccw e)
  let v2 := T.vertices (cw e)
  splitChecks v v1 v2 evt.time
  -- r = (vb, va)
  let r ← splitVertices v v1 v2 evt.time step
  let fanB ← splitSide t (ccw e) v r.1 evt.time .ccw
  let fanA ← splitSide t (cw e) v r.2 evt.time .cw
  stopTriangle t evt.time
  splitFan depth r.2 fanA evt.time .cw step
  splitFan depth r.1 fanB evt.time .ccw step

end Grassfire
