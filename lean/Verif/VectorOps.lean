/-
Model of src/grassfire/vectorops.py.  Vectors are python tuples of arbitrary
dimension, modelled by lists; the second argument of add/sub/mul/div is a vector
or a scalar, modelled by `Operand`.
-/
import Verif.Calc
import Mathlib.Analysis.SpecialFunctions.Trigonometric.Inverse

namespace Grassfire
namespace VectorOps

variable {K : Type} [Field K] [LinearOrder K]

/-- Second operand: a vector (has `__iter__`) or a scalar, vectorops.py:13. -/
inductive Operand (K : Type) where
  | vec (v : List K)
  | scalar (c : K)

/-- vectorops.py:11-18 `sub`. -/
def sub (a : List K) : Operand K → Except Err (List K)
  | .vec b => if a.length ≠ b.length then .error .valueError else .ok (List.zipWith (· - ·) a b)
  | .scalar b => .ok (a.map fun ai => ai - b)

/-- vectorops.py:21-28 `add`. -/
def add (a : List K) : Operand K → Except Err (List K)
  | .vec b => if a.length ≠ b.length then .error .valueError else .ok (List.zipWith (· + ·) a b)
  | .scalar b => .ok (a.map fun ai => ai + b)

/-- vectorops.py:31-39 `mul`. -/
def mul (a : List K) : Operand K → Except Err (List K)
  | .vec b => if a.length ≠ b.length then .error .valueError else .ok (List.zipWith (· * ·) a b)
  | .scalar b => .ok (a.map fun ai => ai * b)

/-- vectorops.py:42-49 `div`: each element division may raise. -/
def div (a : List K) : Operand K → Except Err (List K)
  | .vec b => if a.length ≠ b.length then .error .valueError
      else (a.zip b).mapM fun p => pdiv p.1 p.2
  | .scalar b => a.mapM fun ai => pdiv ai b

/-- vectorops.py:52-57 `make_vector`. -/
def makeVector (e start : List K) : Except Err (List K) := sub e (.vec start)

/-- vectorops.py:60-64 `dot`. -/
def dot (v1 v2 : List K) : Except Err K :=
  if v1.length ≠ v2.length then .error .valueError
  else .ok ((v1.zip v2).map fun p => p.1 * p.2).sum

/-- vectorops.py:67-69 `norm2`. -/
def norm2 (v : List K) : Except Err K := dot v v

/-- vectorops.py:72-74 `norm`. -/
def norm [HasSqrt K] (a : List K) : Except Err K := do psqrt (← norm2 a)

/-- vectorops.py:96-98 `dist`. -/
def dist [HasSqrt K] (start e : List K) : Except Err K := do norm (← makeVector e start)

/-- vectorops.py:101-103 `unit`. -/
def unit [HasSqrt K] (v : List K) : Except Err (List K) := do div v (.scalar (← norm v))

/-- result of `cross`: a scalar in 2D, a vector in 3D -/
inductive CrossResult (K : Type) where
  | scalar (c : K)
  | vec (x y z : K)
  deriving DecidableEq

/-- vectorops.py:106-118 `cross`. -/
def cross (a b : List K) : Except Err (CrossResult K) :=
  if a.length ≠ b.length then .error .valueError
  else match a, b with
    | [a0, a1, a2], [b0, b1, b2] =>
      .ok (.vec (a1 * b2 - a2 * b1) (a2 * b0 - a0 * b2) (a0 * b1 - a1 * b0))
    | [a0, a1], [b0, b1] => .ok (.scalar (a0 * b1 - a1 * b0))
    | _, _ => .error .valueError

/-- vectorops.py:187-192 `rotate90ccw` (2D). -/
def rotate90ccw (v : Pt K) : Pt K := (-v.2, v.1)

/-- vectorops.py:195-200 `rotate90cw` (2D). -/
def rotate90cw (v : Pt K) : Pt K := (v.2, -v.1)

/-- vectorops.py:136-138 `angle`, real numbers; `math.acos` raises ValueError
outside [-1,1]. -/
noncomputable def angle (v1 v2 : List ℝ) : Except Err ℝ := do
  let d ← dot v1 v2
  let n1 ← norm v1
  let n2 ← norm v2
  let q ← pdiv d (n1 * n2)
  if q < -1 ∨ 1 < q then .error .valueError else .ok (Real.arccos q)

/-- vectorops.py:141-157 `angle_unit`, for 2D vectors: the clamped dot product and
its arc cosine. (Logging left out.) -/
noncomputable def angleUnit (v1 v2 : Pt ℝ) : ℝ × ℝ :=
  let d := v1.1 * v2.1 + v1.2 * v2.2
  let d := max (-1) (min 1 d)
  (d, Real.arccos d)

/-- vectorops.py:160-185 `bisector`, for 2D vectors over the reals. -/
noncomputable def bisector (u1 u2 : Pt ℝ) : Except Err (Pt ℝ) :=
  let direction : Pt ℝ := (u1.1 + u2.1, u1.2 + u2.2)
  let (d, acosD) := angleUnit u1 u2
  -- vectorops.py:173
  if (nearZero direction.1 && nearZero direction.2) = true ∨
      (nearZero (acosD - Real.pi) = true ∨ d < Real.cos (179.9999 * (Real.pi / 180))) then
    .ok (0, 0)
  else do
    -- vectorops.py:178-180
    let alpha := 0.5 * Real.pi + 0.5 * acosD
    let magnitude := Real.sin alpha
    -- vectorops.py:183: div(unit(direction), magnitude)
    let u ← unit [direction.1, direction.2]
    let r ← div u (.scalar magnitude)
    match r with
    | [x, y] => .ok (x, y)
    | _ => .error .valueError  -- not reachable, dimension is 2

end VectorOps
end Grassfire
