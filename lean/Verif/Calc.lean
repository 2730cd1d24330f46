/-
Model of src/grassfire/calc.py.
-/
import Verif.Py

namespace Grassfire

variable {K : Type} [Field K] [LinearOrder K]

/-- The values of the parameter `method` of `is_close` (calc.py:94-96).  Any
other string is `other`. -/
inductive CloseMethod where
  | asymmetric | strong | weak | average | other
  deriving DecidableEq, Repr

/-- calc.py:61-128 `is_close`.  -/
def isClose (a b relTol absTol : K) (method : CloseMethod) : Except Err Bool :=
  -- calc.py:94-96
  if method = .other then .error .valueError
  -- calc.py:98-99
  else if relTol < 0 ∨ absTol < 0 then .error .valueError
  -- calc.py:101-102
  else if a = b then .ok true
  else
    -- calc.py:111
    let diff := |b - a|
    match method with
    -- calc.py:112-113
    | .asymmetric => .ok (decide (diff ≤ |relTol * b|) || decide (diff ≤ absTol))
    -- calc.py:114-117
    | .strong => .ok ((decide (diff ≤ |relTol * b|) && decide (diff ≤ |relTol * a|))
        || decide (diff ≤ absTol))
    -- calc.py:118-121
    | .weak => .ok ((decide (diff ≤ |relTol * b|) || decide (diff ≤ |relTol * a|))
        || decide (diff ≤ absTol))
    -- calc.py:122-124
    | .average => .ok (decide (diff ≤ |relTol * (a + b) * (1 / 2)|) || decide (diff ≤ absTol))
    | .other => .error .valueError

/-- calc.py:41-46 `near_zero`, as the call of `is_close` that it is. -/
def nearZeroE (v : K) : Except Err Bool :=
  isClose v 0 (1 / 10 ^ 12) (1 / 10 ^ 10) .weak

/-- `near_zero` as a plain boolean, for use inside larger model functions.
`nearZeroE v = .ok (nearZero v)` for every `v` is part of theorem C01, so that
using this instead of the raw call loses nothing. -/
def nearZero (v : K) : Bool :=
  match nearZeroE v with
  | .ok b => b
  | .error _ => false

/-- calc.py:49-58 `all_close`. -/
def allClose (L : List K) (absTol relTol : K) : Except Err Bool :=
  match L with
  -- calc.py:55-56
  | [] => .ok false
  -- calc.py:57-58 (`all` over a generator: stops at the first False)
  | first :: rest => go first rest
where
  /-- the generator consumed by `all(..)`, calc.py:57-58 -/
  go (first : K) : List K → Except Err Bool
    | [] => .ok true
    | other :: rest => do
      let b ← isClose first other relTol absTol .strong
      if b then go first rest else .ok false

/-- calc.py:29-35, the loop of `all_close_clusters`.  Note that `abs_tol` is
passed in the position of `rel_tol` and vice versa (calc.py:30), exactly as in
the code. `out` is the list built so far. -/
def clustersLoop (absTol relTol : K) : K → List K → List K → Except Err (List K)
  | _, out, [] => .ok out
  | first, out, val :: rest => do
    let b ← isClose first val absTol relTol .average
    if b then clustersLoop absTol relTol first out rest
    else clustersLoop absTol relTol val (out ++ [val]) rest

/-- Insertion into a sorted list (used for python's `sorted`). -/
def insertSorted {α : Type} [LE α] [DecidableLE α] (a : α) : List α → List α
  | [] => [a]
  | b :: l => if a ≤ b then a :: b :: l else b :: insertSorted a l

/-- python's `sorted(L)` on numbers, ascending.  (For a total order the result
of any correct sorting algorithm is the same list.) -/
def pySorted {α : Type} [LE α] [DecidableLE α] : List α → List α
  | [] => []
  | a :: l => insertSorted a (pySorted l)

/-- calc.py:22-38 `all_close_clusters`.  `truthy` is the truth value of the
object `L` in `if L:` (calc.py:26): for a list it is `L != []`, for the
iterator that python 3's `filter` returns it is always `True`. -/
def allCloseClusters (truthy : Bool) (L : List K) (absTol relTol : K) : Except Err (List K) :=
  if truthy then
    match pySorted L with
    -- calc.py:28 `next(it)` on an empty iterator
    | [] => .error .stopIteration
    | first :: it => clustersLoop absTol relTol first [first] it
  else .ok []

/-- calc.py:15-19 `get_unique_times`: the argument of `all_close_clusters` is a
`filter` object, which is always truthy; default tolerances from calc.py:22. -/
def getUniqueTimes (times : List (Option K)) : Except Err (List K) :=
  allCloseClusters true (times.filterMap id) (1 / 10 ^ 7) 0

/-- calc.py:142-150, the loop of `groupby_cluster`; state is
`(prev, clusters, cluster, ct)`. -/
def groupbyLoop : List (Pt K) → Pt K → List (List ℕ) → List ℕ → ℕ → List (List ℕ)
  | [], _, clusters, cluster, _ =>
    -- calc.py:151-153 (`cluster` is never empty, the test is kept)
    if cluster = [] then clusters else clusters ++ [cluster]
  | item :: it, prev, clusters, cluster, ct =>
    if nearZero (prev.1 - item.1) && nearZero (prev.2 - item.2) then
      groupbyLoop it prev clusters (cluster ++ [ct]) (ct + 1)
    else
      groupbyLoop it item (clusters ++ [cluster]) [ct] (ct + 1)

/-- calc.py:131-153 `groupby_cluster`. -/
def groupbyCluster (L : List (Pt K)) : Except Err (List (List ℕ)) :=
  match L with
  -- calc.py:139 `next(it)` on an empty iterator
  | [] => .error .stopIteration
  | prev :: it => .ok (groupbyLoop it prev [] [0] 1)

/-- calc.py:156-176 `r_squared`. -/
def rSquared [HasSqrt K] (pts : List (Pt K)) : Except Err K :=
  let length : K := (pts.length : K)
  let xs := pts.map Prod.fst
  let ys := pts.map Prod.snd
  let x := xs.sum
  let y := ys.sum
  let xx := (xs.map fun x => x ^ 2).sum
  let yy := (ys.map fun y => y ^ 2).sum
  let xy := ((xs.zip ys).map fun p => p.1 * p.2).sum
  let num := length * xy - x * y
  let sqt := (length * xx - x * x) * (length * yy - y * y)
  if sqt ≤ 0 then .ok 0
  else do
    let den ← psqrt sqt
    pdiv num den

end Grassfire
