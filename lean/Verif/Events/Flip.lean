/-
Model of src/grassfire/events/flip.py.  `flip` occurs a second time, literally, in
events/parallel.py:22-65.
-/
import Verif.Events.Lib

namespace Grassfire

variable {K : Type} [Field K] [LinearOrder K]

/-- events/flip.py:57-60: side of the outer neighbour that is to be linked -/
def flipSide (neighbour : Option TId) (corner : VId) : M K (Option (Fin 3)) :=
  match neighbour with
  | none => pure none
  | some n => do
    let N ← getT n
    let i ← needIdx (index3 N.vertices corner)
    pure (some (ccw i))

/-- events/flip.py:65-66: link the outer neighbour to the triangle next to it after
the flip -/
def flipLink (neighbour : Option TId) (side : Option (Fin 3)) (t : TId) : M K Unit :=
  match neighbour, side with
  | some n, some i => setNeighbour n i (some t)
  | _, _ => pure ()

/-- assign `t.vertices` and `t.neighbours` -/
def setTriangle (t : TId) (vs : Fin 3 → VId) (ns : Fin 3 → Option TId) : M K Unit :=
  modifyT t fun T => { T with vertices := vs, neighbours := ns }

/-- events/flip.py:30-73 `flip` (and events/parallel.py:22-65); `apex`, `orig`, `dest`
of the external package `tri` are `side`, `ccw(side)` and `cw(side)`. -/
def flip (t0 : TId) (side0 : Fin 3) (t1 : TId) (side1 : Fin 3) : M K Unit := do
  let T0 ← getT t0
  let T1 ← getT t1
  assertM (T0.vertices (ccw side0) = T1.vertices (cw side1))
  assertM (T0.vertices (cw side0) = T1.vertices (ccw side1))
  assertM ((T0.neighbours side0).isSome)
  assertM ((T1.neighbours side1).isSome)
  let A := T0.vertices side0
  let B := T0.vertices (ccw side0)
  let C := T1.vertices side1
  let D := T0.vertices (cw side0)
  let AB := T0.neighbours (cw side0)
  let BC := T1.neighbours (ccw side1)
  let CD := T1.neighbours (cw side1)
  let DA := T0.neighbours (ccw side0)
  let sAB ← flipSide AB A
  let sBC ← flipSide BC B
  let sCD ← flipSide CD C
  let sDA ← flipSide DA D
  flipLink AB sAB t0
  flipLink BC sBC t0
  flipLink CD sCD t1
  flipLink DA sDA t1
  setTriangle t0 ![A, B, C] ![BC, some t1, AB]
  setTriangle t1 ![C, D, A] ![DA, some t0, CD]

/-- `assert len(evt.side) == 1; side = evt.side[0]` -/
def singleSide (l : List (Fin 3)) : M K (Fin 3) :=
  match l with
  | [e] => pure e
  | _ => raise .assertionError

/-- `assert n is not None` -/
def assertSome {α : Type} (o : Option α) : M K α :=
  match o with
  | some a => pure a
  | none => raise .assertionError

/-- events/flip.py:11-27 `handle_flip_event` -/
def handleFlip [HasSqrt K] (evt : Event K) : M K Unit := do
  let tSide ← singleSide evt.side
  let T ← getT evt.tri
  let n ← assertSome (T.neighbours tSide)
  let N ← getT n
  let nSide ← needIdx (index3 N.neighbours (some evt.tri))
  flip evt.tri tSide n nSide
  replaceInQueue evt.tri evt.time
  replaceInQueue n evt.time

end Grassfire
