/-
Model of `calc_offsets` (src/grassfire/__init__.py) and `output_offsets` (src/grassfire/inout.py):
the lines of the wavefront at given times.
-/
import Verif.Primitives

namespace Grassfire

variable {K : Type} [Field K] [LinearOrder K]

/-- What `calc_offsets` yields: two points, the time and the two vertices (python: their `id`s). -/
structure OffsetLine (K : Type) where
  p : Pt K
  q : Pt K
  time : K
  v : VId
  u : VId
  deriving DecidableEq

/-- `v.left_at(t)` / `v.right_at(t)`: `None` when there is no entry for `t`, or the entry holds
`None` -/
def neighbourAt (h : Hist K (Option VId)) (t : K) : Option VId := (h.at t).join

/-- __init__.py:121-132 (and inout.py:103-112): the body of `try` .. `except AttributeError` -/
def offsetLine (s : St K) (t : K) (v : VId) (kv : KVertex K) (u : Option VId) :
    Except Err (Option (OffsetLine K)) :=
  match (Vertex.kin kv).positionAt (fun n => (s.node n).pos) t with
  | .error .attributeError => .ok none
  | .error e => .error e
  | .ok p =>
    match u with
    | none => .ok none
    | some u =>
      match (s.vert u).positionAt (fun n => (s.node n).pos) t with
      | .error .attributeError => .ok none
      | .error e => .error e
      | .ok q => .ok (some ⟨p, q, t, v, u⟩)

/-- __init__.py:118-132, one vertex at time `t`.  A comparison with `None` is a TypeError; an
`InfiniteVertex` has no `starts_at`. -/
def offsetOf (s : St K) (t : K) (v : VId) : Except Err (Option (OffsetLine K)) :=
  match s.vert v with
  | .inf _ => .error .attributeError
  | .kin kv =>
    match kv.startsAt with
    | none => .error .typeError
    | some a =>
      if (a ≤ t ∧ (∃ b ∈ kv.stopsAt, b > t)) ∨ (a ≤ t ∧ kv.stopsAt = none) then
        offsetLine s t v kv (neighbourAt kv.left t)
      else .ok none

/-- all vertices in order; `continue` skips -/
def collect {A B : Type} (f : A → Except Err (Option B)) : List A → Except Err (List B)
  | [] => .ok []
  | x :: xs => do
    let y ← f x
    let ys ← collect f xs
    pure (y.toList ++ ys)

/-- __init__.py:117-132, all times -/
def offsetsAt (s : St K) : List K → Except Err (List (OffsetLine K))
  | [] => .ok []
  | t :: ts => do
    let l ← collect (offsetOf s t) s.skVertices
    let ls ← offsetsAt s ts
    pure (l ++ ls)

/-- __init__.py:115-132 `calc_offsets`, as the list of what the generator yields -/
def calcOffsets (s : St K) (now : K) (ct : ℤ) : Except Err (List (OffsetLine K)) := do
  let inc ← pdiv now ct
  offsetsAt s ((List.range ct.toNat).map fun i : ℕ => (i : K) * inc)

/-- inout.py:101-112 / 117-129 the loop body of `output_offsets`: here `v.stops_at > t` is
evaluated first, which is a TypeError for a vertex without stop time. `left` tells whether it is
the first or the second loop. -/
def outputOffset (left : Bool) (s : St K) (t : K) (v : VId) : Except Err (Option (OffsetLine K)) :=
  match s.vert v with
  | .inf _ => .error .attributeError
  | .kin kv =>
    match kv.startsAt with
    | none => .error .typeError
    | some a =>
      if a ≤ t then
        match kv.stopsAt with
        | none => .error .typeError
        | some b =>
          if b > t then offsetLine s t v kv (neighbourAt (if left then kv.left else kv.right) t)
          else .ok none
      else .ok none

/-- one of the two files, all times -/
def outputAt (left : Bool) (s : St K) : List K → Except Err (List (OffsetLine K))
  | [] => .ok []
  | t :: ts => do
    let l ← collect (outputOffset left s t) s.skVertices
    let ls ← outputAt left s ts
    pure (l ++ ls)

/-- inout.py:90-131 `output_offsets`: the lines written to the two files -/
def outputOffsets (s : St K) (now : K) (ct : ℤ) :
    Except Err (List (OffsetLine K) × List (OffsetLine K)) := do
  let inc ← pdiv now ct
  let times := (List.range ct.toNat).map fun i : ℕ => (i : K) * inc
  let l ← outputAt true s times
  let r ← outputAt false s times
  pure (l, r)

end Grassfire
