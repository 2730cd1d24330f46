/-
Model of src/grassfire/regression.py (`math.fsum` is the exact sum; the test functions
`_test1` .. `_test5` and `_swapxy`, which nothing calls, are left out).
-/
import Verif.Calc

namespace Grassfire

variable {K : Type} [Field K] [LinearOrder K]

/-- What python functions here receive as data: a list, or a lazy object (`map`, `zip`)
that has no length under python 3. -/
inductive Seq (A : Type) where
  | list (l : List A)
  | lazy (l : List A)

/-- the elements, in order -/
def Seq.items {A : Type} : Seq A → List A
  | .list l => l
  | .lazy l => l

/-- `len(data)`: TypeError for `map` and `zip` objects -/
def Seq.len {A : Type} : Seq A → Except Err ℕ
  | .list l => .ok l.length
  | .lazy _ => .error .typeError

/-- regression.py:13-24 `_generalised_sum` -/
def generalisedSum {A : Type} (data : Seq A) (f : A → K) : Except Err (ℕ × K) := do
  let count ← data.len
  pure (count, (data.items.map f).sum)

/-- regression.py:47-60 `mean` -/
def mean (data : Seq K) : Except Err K := do
  let nt ← generalisedSum data id
  if nt.1 = 0 then .error .valueError else pdiv nt.2 nt.1

/-- `if m is None: m = mean(data)` -/
def orMean (data : Seq K) : Option K → Except Err K
  | some m => .ok m
  | none => mean data

/-- regression.py:27-33 `_SS` -/
def sumSquares (data : Seq K) (m : Option K) : Except Err (ℕ × K) := do
  let m ← orMean data m
  generalisedSum data fun x => (x - m) ^ 2

/-- regression.py:36-44 `_SP`; the pairs are a `zip` object -/
def sumProducts (xdata : Seq K) (mx : Option K) (ydata : Seq K) (my : Option K) :
    Except Err (ℕ × K) := do
  let mx ← orMean xdata mx
  let my ← orMean ydata my
  generalisedSum (.lazy (xdata.items.zip ydata.items)) fun t => (t.1 - mx) * (t.2 - my)

/-- regression.py:63-83 `variance` -/
def variance (data : Seq K) (m : Option K) : Except Err K := do
  let ns ← sumSquares data m
  if ns.1 < 2 then .error .valueError else pdiv ns.2 ((ns.1 : K) - 1)

/-- regression.py:86-100 `pcov` -/
def pcov (xdata ydata : Seq K) (mx my : Option K) : Except Err K := do
  let ns ← sumProducts xdata mx ydata my
  if ns.1 > 0 then pdiv ns.2 ns.1 else .error .valueError

/-- regression.py:103-111 `split` -/
def splitXY (l : List (Pt K)) : Except Err (List K × List K) :=
  let xs := l.map (·.1)
  let ys := l.map (·.2)
  if xs.length = ys.length then .ok (xs, ys) else .error .assertionError

/-- regression.py:114-134 `cov` -/
def cov (xdata ydata : Seq K) (mx my : Option K) : Except Err K := do
  let ns ← sumProducts xdata mx ydata my
  if ns.1 > 1 then pdiv ns.2 ((ns.1 : K) - 1) else .error .valueError

/-- regression.py:137-182 `eig_2x2`; result: eigenvalues, eigenvectors -/
def eig2x2 [HasSqrt K] (a b c d : K) : Except Err ((K × K) × (Pt K × Pt K)) := do
  let T := a + d
  let D := a * d - b * c
  let tmp := 1 / 4 * T ^ 2 - D
  let tmp ← psqrt (max 0 tmp)
  let L1 := 1 / 2 * T + tmp
  let L2 := 1 / 2 * T - tmp
  let vecs : Pt K × Pt K :=
    if !nearZero c then ((L1 - d, c), (L2 - d, c))
    else if !nearZero b then ((b, L1 - a), (b, L2 - a))
    else ((1, 0), (0, 1))
  pure ((|L1|, |L2|), vecs)

/-- regression.py:185-192 `adjust`; the new values are a `map` object -/
def adjust (data : Seq K) : Except Err (K × Seq K) := do
  let mu ← mean data
  pure (mu, .lazy (data.items.map fun x => x - mu))

/-- regression.py:224 `sorted(zip(*eig_2x2(..)), reverse=True)` of two (value, vector) tuples, the
vectors (`>` is lexicographic; sorting in reverse order is stable) -/
def sortedVectors (e : (K × K) × (Pt K × Pt K)) : Pt K × Pt K :=
  let before (x y : K × Pt K) : Bool :=
    decide (x.1 < y.1) || (decide (x.1 = y.1) &&
      (decide (x.2.1 < y.2.1) || (decide (x.2.1 = y.2.1) && decide (x.2.2 < y.2.2))))
  if before (e.1.1, e.2.1) (e.1.2, e.2.2) then (e.2.2, e.2.1) else (e.2.1, e.2.2)

/-- regression.py:195-236 `regress` -/
def regress [HasSqrt K] (pts : List (Pt K)) : Except Err (List K × List K) := do
  let xy ← splitXY pts
  let ax ← adjust (.list xy.1)
  let ay ← adjust (.list xy.2)
  let sx ← variance ax.2 (some 0)
  if nearZero sx then pure (ay.2.items, ax.2.items)
  else do
    let sy ← variance ay.2 (some 0)
    if nearZero sy then pure (ax.2.items, ay.2.items)
    else do
      let sxy ← cov ax.2 ay.2 (some 0) (some 0)
      let e ← eig2x2 sx sxy sxy sy
      let vecs := sortedVectors e
      let z := ax.2.items.zip ay.2.items
      pure (z.map fun pt => vecs.1.1 * pt.1 + vecs.1.2 * pt.2,
        z.map fun pt => vecs.2.1 * pt.1 + vecs.2.2 * pt.2)

/-- regression.py:239-244 `are_residuals_near_zero` -/
def areResidualsNearZero [HasSqrt K] (pts : List (Pt K)) : Except Err Bool := do
  let r ← regress pts
  pure (r.2.all nearZero)

end Grassfire
