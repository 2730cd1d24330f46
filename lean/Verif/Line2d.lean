/-
Model of src/grassfire/line2d.py.  All vectors that occur here are 2-tuples
(`Pt K`), so the dimension assertions of the vector helpers (line2d.py:52-109)
always hold and are left out.
-/
import Verif.Calc

namespace Grassfire

variable {K : Type} [Field K] [LinearOrder K]

/-- line2d.py:52-55 `dot` for 2-vectors (`fsum` is an exact sum). -/
def dot2 (a b : Pt K) : K := a.1 * b.1 + a.2 * b.2

/-- line2d.py:58-65 `add` for two 2-vectors. -/
def add2 (a b : Pt K) : Pt K := (a.1 + b.1, a.2 + b.2)

/-- line2d.py:68-75 `mul` of a 2-vector with a scalar. -/
def mul2 (a : Pt K) (c : K) : Pt K := (a.1 * c, a.2 * c)

/-- line2d.py:78-84 `sub` for two 2-vectors. -/
def sub2 (a b : Pt K) : Pt K := (a.1 - b.1, a.2 - b.2)

/-- line2d.py:87-93 `div` of a 2-vector by a scalar. -/
def div2 (a : Pt K) (c : K) : Except Err (Pt K) := do
  let x ← pdiv a.1 c
  let y ← pdiv a.2 c
  .ok (x, y)

/-- line2d.py:96-98 `norm2`. -/
def normSq2 (v : Pt K) : K := dot2 v v

/-- line2d.py:101-103 `norm`: `norm2(a) ** 0.5`. -/
def norm2d [HasSqrt K] (v : Pt K) : K := HasSqrt.sqrt (normSq2 v)

/-- line2d.py:106-108 `unit`. -/
def unit2 [HasSqrt K] (v : Pt K) : Except Err (Pt K) := div2 v (norm2d v)

/-- line2d.py:429-434 `rotate90ccw`. -/
def rot90ccw (v : Pt K) : Pt K := (-v.2, v.1)

/-- line2d.py:437-442 `rotate90cw`. -/
def rot90cw (v : Pt K) : Pt K := (v.2, -v.1)

/-- line2d.py:123-164 `coefficients_from_points`. -/
def coefficientsFromPoints (p q : Pt K) : K × K × K :=
  let (px, py) := p
  let (qx, qy) := q
  if py = qy then
    if qx > px then (0, 1, -py)
    else if qx = px then (0, 0, 0)
    else (0, -1, py)
  else if qx = px then
    if qy > py then (-1, 0, px)
    else if qy = py then (0, 0, 0)
    else (1, 0, -px)
  else
    let a := py - qy
    let b := qx - px
    let c := -px * a - py * b
    (a, b, c)

/-- line2d.py:167-171 `coefficients_perpendicular_through_point`. -/
def coefficientsPerpendicular (la lb px py : K) : K × K × K :=
  (-lb, la, lb * px - la * py)

/-- line2d.py:173-190 `coefficients_bisector_of_lines`. -/
def coefficientsBisector [HasSqrt K] (pa pb pc qa qb qc : K) : K × K × K :=
  let n1 := HasSqrt.sqrt (pa * pa + pb * pb)
  let n2 := HasSqrt.sqrt (qa * qa + qb * qb)
  let a := n2 * pa + n1 * qa
  let b := n2 * pb + n1 * qb
  let c := n2 * pc + n1 * qc
  if a = 0 ∧ b = 0 then
    (n2 * pa - n1 * qa, n2 * pb - n1 * qb, n2 * pc - n1 * qc)
  else (a, b, c)

/-- line2d.py:193-210 class `Line2`: `w . p + b = 0`.  Equality of the structure
is `__eq__` (line2d.py:203-204). -/
structure Line2 (K : Type) where
  w : Pt K
  b : K
  deriving DecidableEq, Repr

namespace Line2

variable [HasSqrt K]

/-- line2d.py:194-201, 206-210: constructor with `normalize=True`
(`_normalize` divides by the norm, raising for a zero normal). -/
def make (w : Pt K) (b : K) : Except Err (Line2 K) := do
  let nrm := norm2d w
  let b' ← pdiv b nrm
  let w' ← unit2 w
  .ok ⟨w', b'⟩

/-- line2d.py:235-242 `signed_distance`. -/
def signedDistance (l : Line2 K) (pt : Pt K) : K := dot2 l.w pt + l.b

/-- line2d.py:215-218 `translated`. -/
def translated (l : Line2 K) (v : Pt K) : Except Err (Line2 K) :=
  let d := dot2 l.w v
  if d ≠ 0 then make l.w (l.b - d) else .ok ⟨l.w, l.b - d⟩

/-- line2d.py:220-227 `perpendicular`. -/
def perpendicular (l : Line2 K) (through : Pt K) : Except Err (Line2 K) :=
  let (a, b, c) := coefficientsPerpendicular l.w.1 l.w.2 through.1 through.2
  make (a, b) c

/-- line2d.py:229-233 `bisector`. -/
def bisector (l o : Line2 K) : Except Err (Line2 K) :=
  let (a, b, c) := coefficientsBisector l.w.1 l.w.2 l.b o.w.1 o.w.2 o.b
  make (a, b) c

/-- line2d.py:244-249 `through`. -/
def through (l : Line2 K) : Pt K := mul2 l.w (-l.b)

/-- line2d.py:251-268 `from_points`: first the normalising constructor, then
`assert end != start`. -/
def fromPoints (start e : Pt K) : Except Err (Line2 K) := do
  let (a, b, c) := coefficientsFromPoints start e
  let ln ← make (a, b) c
  if e = start then .error .assertionError else .ok ln

/-- line2d.py:270-272 `y_at_x`. -/
def yAtX (l : Line2 K) (x : K) : Except Err K := pdiv (-l.w.1 * x - l.b) l.w.2

/-- line2d.py:274-279 `ends`, result `(start, end)`. -/
def ends (l : Line2 K) : Pt K × Pt K :=
  let ccw := rot90ccw l.w
  let cw := rot90cw l.w
  let e := add2 (mul2 cw 1000) l.through
  let start := add2 (mul2 ccw 1000) l.through
  (start, e)

/-- line2d.py:284-290 `at_time`. -/
def atTime (l : Line2 K) (now : K) : Except Err (Line2 K) :=
  if now = 0 then .ok l else translated l (mul2 l.w now)

end Line2

/-- line2d.py:378-426 `LineLineIntersector.intersection_type` together with the
attribute `result` that it sets. (372-375: the three result codes.) -/
inductive LLI (K : Type) where
  /-- NO_INTERSECTION, `result = None` -/
  | noIntersection
  /-- POINT, `result` is the point -/
  | point (p : Pt K)
  /-- LINE, `result` is the first line -/
  | line (l : Line2 K)
  deriving DecidableEq

/-- line2d.py:384-426 `intersection_type`. -/
def lineLineIntersect (one other : Line2 K) : Except Err (LLI K) :=
  let (a1, b1) := one.w
  let c1 := one.b
  let (a2, b2) := other.w
  let c2 := other.b
  let denom := a1 * b2 - a2 * b1
  if nearZero denom then
    let x1 := a1 * c2 - a2 * c1
    let x2 := b1 * c2 - b2 * c1
    if nearZero x1 && nearZero x2 then .ok (.line one)
    else .ok .noIntersection
  else do
    let num1 := b1 * c2 - b2 * c1
    let num2 := a2 * c1 - a1 * c2
    let xw ← pdiv num1 denom
    let yw ← pdiv num2 denom
    .ok (.point (xw, yw))

/-- line2d.py:310-319 class `WaveFront`.  -/
structure WaveFront (K : Type) where
  line : Line2 K
  start : Pt K
  stop : Pt K
  deriving DecidableEq, Repr

/-- line2d.py:312-319 constructor; `line = none` is the default argument. -/
def WaveFront.make [HasSqrt K] (start stop : Pt K) (line : Option (Line2 K)) :
    Except Err (WaveFront K) := do
  let l ← match line with
    | none => Line2.fromPoints start stop
    | some l => .ok l
  .ok ⟨l, start, stop⟩

/-- line2d.py:333-359 `WaveFrontIntersector.get_bisector`. Only the lines of the
two wavefronts are used.  -/
def getBisector [HasSqrt K] (left right : Line2 K) : Except Err (Pt K) := do
  let r ← lineLineIntersect left right
  match r with
  | .line _ => .ok (add2 (mul2 left.w (1 / 2)) (mul2 right.w (1 / 2)))
  | .point p => do
    let lt ← left.translated left.w
    let rt ← right.translated right.w
    let inner ← lineLineIntersect lt rt
    match inner with
    | .point q => .ok (sub2 q p)
    | _ => .error .assertionError
  | .noIntersection => .ok (add2 left.w right.w)

/-- line2d.py:364-369 `WaveFrontIntersector.get_intersection_at_t`. -/
def getIntersectionAtT [HasSqrt K] (left right : Line2 K) (t : K) : Except Err (Pt K) := do
  let l ← left.atTime t
  let r ← right.atTime t
  match ← lineLineIntersect l r with
  | .point p => .ok p
  | _ => .error .valueError

/-- line2d.py:361-362 `WaveFrontIntersector.get_intersection`: calls
`self.get_intersection_at_t()` without its mandatory argument `t`, which python
rejects with a TypeError whatever the state of the object is.  The model of a
python call with a missing argument is the error itself. -/
def getIntersection (_left _right : Line2 K) : Except Err (Pt K) := .error .typeError

/-- line2d.py:661-684 `create_bevel_wavefront`, (printing left out). -/
def createBevelWavefront [HasSqrt K] (first last : WaveFront K) :
    Except Err (WaveFront K × Pt K × Pt K) := do
  passert (decide (first.start = last.stop))
  let perp ← first.line.perpendicular first.start
  let wfBevel ← WaveFront.make first.start first.start (some perp)
  let bisector1 ← getBisector first.line wfBevel.line
  let intersection ← getIntersection first.line wfBevel.line
  passert (decide (intersection = first.start) && decide (first.start = last.stop))
  let bisector2 ← getBisector wfBevel.line last.line
  let intersection ← getIntersection wfBevel.line last.line
  passert (decide (intersection = first.start) && decide (first.start = last.stop))
  .ok (wfBevel, bisector1, bisector2)

end Grassfire
