/-
Model of `calc_skel` (src/grassfire/__init__.py).
-/
import Verif.Initialize
import Verif.Events.Loop

namespace Grassfire

variable {K : Type} [Field K] [LinearOrder K]

/-- __init__.py:34-42 the points that are triangulated, and the transform (`None` with
`shrink=False`) -/
def shrinkPoints (shrink : Bool) (points : List (Pt K)) :
    Except Err (List (Pt K) × Option (Transform K)) :=
  if shrink then do
    let box ← getBox points
    let transform := getTransform box
    let pts ← mapE transform.forward points
    .ok (pts, some transform)
  else .ok (points, none)

/-- __init__.py:63-70 `skel`, after `internal_only_skeleton` and with its transform -/
def prepare (internal : Bool) (transform : Option (Transform K)) (skel : St K) : St K :=
  let skel := if internal then internalOnly skel else skel
  match transform with
  | some tr => { skel with transform := some tr }
  | none => skel

/-- __init__.py:72-75 the check of the coordinates of one vertex -/
def checkStart (s : St K) (v : VId) : Except Err Unit :=
  match s.vert v with
  | .inf _ => .error .attributeError
  | .kin kv =>
    match kv.startNode with
    | none => .error .attributeError
    | some n => do
      passert (decide (-2 ≤ (s.node n).pos.1) && decide ((s.node n).pos.1 ≤ 2))
      passert (decide (-2 ≤ (s.node n).pos.2) && decide ((s.node n).pos.2 ≤ 2))

/-- __init__.py:76-79 the events -/
def runEvents [HasSqrt K] [HasTrig K] (depth : ℕ) (s : St K) : Except Fault (K × St K) :=
  match initEventList s with
  | .error f => .error f
  | .ok (_, s1) => eventLoop depth s1

/-- __init__.py:27-112 `calc_skel(conv, pause=False, output=False, shrink, internal_only)`.
`triangulate` is the function of the external package `tri`, applied to the infos and segments of
`conv`; `points` is `conv.points`; `pyid` and `depth` are python's `id` of the triangles and the
depth of its stack.  The result is the time of the last event and the skeleton. -/
def calcSkel [HasSqrt K] [HasTrig K] (depth : ℕ) (pyid : TId → ℕ)
    (triangulate : List (Pt K) → Except Err (Dt K)) (points : List (Pt K))
    (shrink internal : Bool) : Except Fault (K × St K) := do
  let x ← liftE (shrinkPoints shrink points)
  let dt ← liftE (triangulate x.1)
  let skel ← initSkeleton dt pyid
  let s := prepare internal x.2 skel
  liftE (allE (checkStart s) s.skVertices)
  runEvents depth s

end Grassfire
