/-
Model of helper functions that the package exports and that its own loop does not call (any more): of
src/grassfire/events/split.py, src/grassfire/events/edge.py, src/grassfire/collapse.py and src/grassfire/initialize.py.
Logging and the files in /tmpfast are left out.
-/
import Verif.Line2d
import Verif.Initialize
import Verif.Events.Check
import Mathlib.Analysis.SpecialFunctions.Complex.Arg

namespace Grassfire

variable {K : Type} [Field K] [LinearOrder K]

/-- split.py:12-61 `compute_crossing_bisector`, for two lines and a time -/
def computeCrossingBisector [HasSqrt K] (left right : Line2 K) (now : K) : Except Err (Pt K) := do
  -- split.py:23-34
  let r ← lineLineIntersect left right
  match r with
  | .point v => do
    -- split.py:37-39
    let lt ← left.translated (mul2 left.w now)
    let rt ← right.translated (mul2 right.w now)
    let i ← lineLineIntersect lt rt
    match i with
    -- split.py:47-48
    | .line _ => .ok left.w
    -- split.py:49-55
    | .point p => .ok (sub2 p v)
    -- split.py:56-59
    | .noIntersection => .ok left.w
  | _ => .error .notImplementedError

/-- edge.py:13-25 `signed_turn` over the reals; `math.atan2(y, x)` is the argument of `x + i y` -/
noncomputable def signedTurn (head mid tail : Pt ℝ) : ℝ :=
  let u := sub2 mid head
  let v := sub2 tail mid
  Complex.arg ⟨dot2 u v, u.1 * v.2 - u.2 * v.1⟩

/-- edge.py:28-52 `get_bisector` -/
def cornerBisector [HasSqrt K] (head mid tail : Pt K) : Except Err (Pt K) := do
  let a := sub2 tail mid
  let b := sub2 head mid
  let a ← unit2 a
  let b ← unit2 b
  .ok (add2 a b)

/-- collapse.py:1009-1038 `solve_quadratic_whatevery` -/
def solveQuadraticWhatevery [HasSqrt K] (A B C : K) : Except Err (List K) :=
  if nearZero A && !nearZero B then do
    let x ← pdiv (-C) B
    .ok [x]
  else if nearZero A && nearZero B then .ok []
  else
    -- collapse.py:1021-1024
    match psqrt (B * B - 4 * A * C) with
    | .error _ => .ok []
    | .ok d =>
      if 0 < B then do
        let x ← pdiv (2 * C) (-B - d)
        let y ← pdiv (-B - d) (2 * A)
        .ok [x, y]
      else do
        let x ← pdiv (-B + d) (2 * A)
        let y ← pdiv (2 * C) (-B + d)
        .ok [x, y]

/-- initialize.py:66-80 `make_unit_vector`, of side `i` of triangle `t` -/
def makeUnitVector [HasSqrt K] (dt : Dt K) (t : DT) (i : Fin 3) : Except Err (Option (Pt K)) :=
  if dt.constrained t i then
    match dt.corner t (ccw i), dt.corner t (cw i) with
    | some a, some b => do
      let v := sub2 (dt.pos b) (dt.pos a)
      let u ← unit2 (rot90ccw v)
      .ok (some u)
    | _, _ => .error .attributeError
  else .ok none

/-- initialize.py:41-49 `is_quad`; the list of three orientations is never empty -/
def isQuad (L : List (Pt K)) : Except Err Bool :=
  match L with
  | [a, b, c, d, e] =>
    let items := [orient2d a b c, orient2d b c d, orient2d c d e].map fun x => decide (x ≥ 0)
    .ok (items.all fun item => decide (orient2d a b c ≥ 0) == item)
  | _ => .error .assertionError

/-- an edge given by the places of the corners of its triangle and the number of its side -/
structure PlacedEdge (K : Type) where
  corner : Fin 3 → Pt K
  side : Fin 3

/-- initialize.py:27-37 the loop of `find_overlapping_triangle` -/
def findOverlapLoop (P Q : Pt K) : List (PlacedEdge K) → ℕ → Except Err ℕ
  | [], _ => .error .assertionError
  | e :: es, i => if orient2d P Q (e.corner (cw e.side)) ≥ 0 then .ok i else findOverlapLoop P Q es (i + 1)

/-- initialize.py:11-38 `find_overlapping_triangle` -/
def findOverlappingTriangle (E : List (PlacedEdge K)) : Except Err ℕ :=
  match E with
  | [] => .error .indexError
  | first :: _ => findOverlapLoop (first.corner (ccw first.side)) (first.corner first.side) E 0

end Grassfire
