/-
Model of src/grassfire/collapse.py (logging left out).

The functions only read their triangle and its three vertices, so that they are
modelled as pure functions of a *view*: the vertices with the references to nodes
and lines resolved.  `Verif/Events/Lib.lean` makes the views from the heap.
-/
import Verif.Primitives

namespace Grassfire

variable {K : Type} [Field K] [LinearOrder K]

/-- What collapse.py can see of a vertex.  For an `InfiniteVertex`
(primitives.py:216-246) `kinetic = false`, `velocity = (0,0)` and the remaining
attributes do not exist. -/
structure VView (K : Type) where
  kinetic : Bool
  origin : Pt K
  velocity : Pt K
  infFast : Bool
  /-- `start_node.pos` -/
  startPos : Option (Pt K)
  ul : Option (Line2 K)
  ur : Option (Line2 K)

/-- What collapse.py can see of a triangle: its vertices, which neighbours are
`None`, and whether `stops_at` is set. -/
structure TView (K : Type) where
  v : Fin 3 → VView K
  noNeighbour : Fin 3 → Bool
  stopped : Bool

/-- primitives.py:369-373 `type` -/
def TView.type (t : TView K) : ℕ := count3 t.noNeighbour true

/-- primitives.py:375-378 `is_finite` -/
def TView.isFinite (t : TView K) : Bool := (t.v 0).kinetic && (t.v 1).kinetic && (t.v 2).kinetic

/-- primitives.py:148-153 and 235-237 `position_at` -/
def VView.positionAt (v : VView K) (time : K) : Except Err (Pt K) :=
  if v.kinetic = false then .ok v.origin
  else if v.infFast = false then
    .ok (v.origin.1 + time * v.velocity.1, v.origin.2 + time * v.velocity.2)
  else
    match v.startPos with
    | some p => .ok p
    | none => .error .attributeError

/-- primitives.py:141-146 and 228-233 `distance2_at` -/
def VView.distance2At (v o : VView K) (time : K) : Except Err K := do
  let (sx, sy) ← v.positionAt time
  let (ox, oy) ← o.positionAt time
  .ok ((sx - ox) ^ 2 + (sy - oy) ^ 2)

/-! ### sieves -/

/-- the standard library's `bisect.bisect_left` on a sorted list: the number of
elements `< x` (its documented contract). -/
def bisectLeft {α : Type} [LT α] [DecidableLT α] (L : List α) (x : α) : ℕ :=
  (L.takeWhile fun a => decide (a < x)).length

/-- the standard library's `bisect.bisect_right` on a sorted list: the number of
elements `<= x` (its documented contract). -/
def bisectRight {α : Type} [LE α] [DecidableLE α] (L : List α) (x : α) : ℕ :=
  (L.takeWhile fun a => decide (a ≤ x)).length

/-- collapse.py:24-38 `find_gt`.  Line 35 compares with the length of the filtered
list `a`. -/
def findGt (a : List (Option K)) (x : K) : Option K :=
  let a := a.filterMap id
  let a := a.filter fun v => !(nearZero (v - x))
  let L := pySorted a
  let i := bisectRight L x
  if i ≠ a.length then L[i]? else none

/-- collapse.py:41-50 `find_gte`; only comparisons are used. -/
def findGte {α : Type} [LinearOrder α] (a : List (Option α)) (x : α) : Option α :=
  let L := pySorted (a.filterMap id)
  let i := bisectLeft L x
  if i ≠ L.length then L[i]? else none

/-- the two functions that are passed as `sieve` (collapse.py:884, loop.py:554) -/
inductive Sieve where
  | gte | gt
  deriving DecidableEq

/-- call of `sieve(times, now)` -/
def Sieve.apply (s : Sieve) (a : List (Option K)) (x : K) : Option K :=
  match s with
  | .gte => findGte a x
  | .gt => findGt a x

/-! ### collapse times -/

/-- collapse.py:53-102 `vertex_crash_time`; the division is guarded by the
test `near_zero(denom)`. -/
def vertexCrashTime (org dst apx : VView K) : Except Err (Option K) :=
  let Mv := sub2 apx.origin org.origin
  match org.ur with
  | none => .error .assertionError
  | some ur =>
    -- `Line2.__eq__` against None raises AttributeError (line2d.py:203-204)
    match dst.ul with
    | none => .error .attributeError
    | some ul =>
      if ur ≠ ul then .error .assertionError
      else
        let n := ur.w
        let s := apx.velocity
        let distVE := dot2 Mv n
        let sProj := dot2 s n
        let denom := 1 - sProj
        if nearZero denom = false then .ok (some (distVE / denom)) else .ok none

/-- collapse.py:964-1003 `collapse_time_edge`. -/
def collapseTimeEdge (v1 v2 : VView K) : K :=
  let dv := sub2 v1.velocity v2.velocity
  let denominator := dot2 dv dv
  if nearZero denominator = false then
    let w0 := sub2 v2.origin v1.origin
    dot2 dv w0 / denominator
  else -1

/-- collapse.py:1042-1087 `solve_quadratic`; divisions by `A` and `B` are guarded by
the `near_zero` tests, `math.sqrt` by `under < 0`. -/
def solveQuadratic [HasSqrt K] (A B C : K) : List K :=
  if nearZero A && !nearZero B then [-C / B]
  else if nearZero A && nearZero B then []
  else
    let T := -B / A
    let D := C / A
    let centre := T * (1 / 2)
    let under := (1 / 4) * T ^ 2 - D
    if nearZero under then [centre]
    else if under < 0 then []
    else
      let plusMin := HasSqrt.sqrt under
      [centre - plusMin, centre + plusMin]

/-- collapse.py:1166-1209 `area_collapse_time_coeff`. -/
def areaCollapseTimeCoeff (kva kvb kvc : VView K) : K × K × K :=
  let (xaorig, yaorig) := kva.origin
  let (xborig, yborig) := kvb.origin
  let (xcorig, ycorig) := kvc.origin
  let (dxa, dya) := kva.velocity
  let (dxb, dyb) := kvb.velocity
  let (dxc, dyc) := kvc.velocity
  let A := dxa * dyb - dxb * dya + dxb * dyc - dxc * dyb + dxc * dya - dxa * dyc
  let B := xaorig * dyb - xborig * dya + xborig * dyc - xcorig * dyb +
    xcorig * dya - xaorig * dyc + dxa * yborig - dxb * yaorig +
    dxb * ycorig - dxc * yborig + dxc * yaorig - dxa * ycorig
  let C := xaorig * yborig - xborig * yaorig + xborig * ycorig - xcorig * yborig +
    xcorig * yaorig - xaorig * ycorig
  (A, B, C)

/-- collapse.py:105-114 `area_collapse_times` -/
def areaCollapseTimes [HasSqrt K] (o d a : VView K) : List K :=
  let (A, B, C) := areaCollapseTimeCoeff o d a
  pySorted (solveQuadratic A B C)

/-! ### python lists of three numbers -/

/-- `min` of a list of three -/
def min3 (f : Fin 3 → K) : K := min (min (f 0) (f 1)) (f 2)

/-- `max` of a list of three -/
def max3 (f : Fin 3 → K) : K := max (max (f 0) (f 1)) (f 2)

/-- `dists.index(x)` -/
def indexE {α : Type} [DecidableEq α] (f : Fin 3 → α) (x : α) : Except Err (Fin 3) :=
  match index3 f x with
  | some i => .ok i
  | none => .error .valueError

/-- a list of three computed from left to right -/
def list3 {α : Type} (f : Fin 3 → Except Err α) : Except Err (Fin 3 → α) := do
  let x0 ← f 0
  let x1 ← f 1
  let x2 ← f 2
  .ok ![x0, x1, x2]

/-- indices of the list elements with a property -/
def where3 (p : Fin 3 → Bool) : List (Fin 3) := [0, 1, 2].filter p

/-- `[d.distance2_at(a, t), a.distance2_at(o, t), o.distance2_at(d, t)]` with
`o, d, a = tri.vertices`: entry i is the squared length of side i. -/
def TView.dists2 (t : TView K) (time : K) : Except Err (Fin 3 → K) :=
  list3 fun i => (t.v (ccw i)).distance2At (t.v (cw i)) time

/-- `[math.sqrt(_) for _ in ...]` of the above -/
def TView.dists [HasSqrt K] (t : TView K) (time : K) : Except Err (Fin 3 → K) := do
  let d ← t.dists2 time
  list3 fun i => psqrt (d i)

/-- python truth value of a number or None -/
def truthy (o : Option K) : Option K :=
  match o with
  | some x => if x = 0 then none else some x
  | none => none

/-! ### events per triangle type -/

section Compute
variable [HasSqrt K]

/-- the flip event on the longest side that occurs several times in
`compute_event_0triangle` (e.g. collapse.py:233-241) -/
def flipLongest (t : TView K) (time : K) : Except Err (Option (EvCore K)) := do
  let dists ← t.dists2 time
  let side ← indexE dists (max3 dists)
  .ok (some ⟨time, [side], .flip, t.type⟩)

/-- collapse.py:142-164, the triangle is degenerate now -/
def degenerateNow0 (t : TView K) (now : K) : Except Err (Option (EvCore K)) := do
  let dists ← t.dists now
  let indices := where3 fun i => nearZero (dists i)
  match indices with
  | [side] => .ok (some ⟨now, [side], .edge, t.type⟩)
  | [_, _, _] => .error .valueError
  | _ => flipLongest t now

/-- collapse.py:243-264 and 273-297: edge collapse at `time`, sides with (squared)
length near zero -/
def edgeCollapse0 (t : TView K) (time : K) : Except Err (Option (EvCore K)) := do
  let dists ← t.dists2 time
  match where3 fun i => nearZero (dists i) with
  | [_, _, _] => .ok (some ⟨time, [0, 1, 2], .edge, t.type⟩)
  | [side] => .ok (some ⟨time, [side], .edge, t.type⟩)
  | _ => .error .valueError

/-- collapse.py:117-314 `compute_event_0triangle` -/
def computeEvent0 (t : TView K) (now : K) (sieve : Sieve) : Except Err (Option (EvCore K)) := do
  -- 137
  passert (decide (t.type = 0))
  let o := t.v 0
  let d := t.v 1
  let a := t.v 2
  -- 140-164
  let timesArea := areaCollapseTimes o d a
  if timesArea.any fun time => nearZero |time - now| then degenerateNow0 t now
  else
    -- 166-190 (side i of `times_edge_collapse` is opposite of `a`, `o`, `d`)
    let timesEdge : Fin 3 → K :=
      ![collapseTimeEdge o d, collapseTimeEdge d a, collapseTimeEdge a o]
    let dists ← list3 fun i => match i with
      | 0 => o.distance2At d (timesEdge 0)
      | 1 => d.distance2At a (timesEdge 1)
      | 2 => a.distance2At o (timesEdge 2)
    let dists ← list3 fun i => psqrt (dists i)
    let indices := where3 fun i => nearZero (dists i)
    -- 191-198
    let tec := indices.map fun i => some (timesEdge i)
    let timeEdge := sieve.apply tec now
    let timeArea := sieve.apply (timesArea.map some) now
    -- 211-314
    match timeEdge, timeArea with
    | none, none => .ok none
    | some te, some ta =>
      if nearZero |ta - te| then do
        -- 216-242
        let dists ← t.dists2 te
        match where3 fun i => nearZero (dists i - min3 dists) with
        | [_, _, _] => .ok (some ⟨te, [0, 1, 2], .edge, t.type⟩)
        | [side] => .ok (some ⟨te, [side], .edge, t.type⟩)
        | _ => flipLongest t ta
      else if ta < te then flipLongest t ta
      else edgeCollapse0 t te
    | some te, none => edgeCollapse0 t te
    | none, some ta => flipLongest t ta

/-- collapse.py:357-390, the apex is on the wavefront's line now -/
def crashNow1 (t : TView K) (now : K) (ws : Fin 3) : Except Err (Option (EvCore K)) := do
  let dists ← t.dists now
  match where3 fun i => nearZero (dists i) with
  | [side] => .ok (some ⟨now, [side], .edge, t.type⟩)
  | _ =>
    let longest ← indexE dists (max3 dists)
    .ok (some ⟨now, [longest], if longest = ws then .split else .flip, t.type⟩)

/-- collapse.py:427-466, case A -/
def case1A (t : TView K) (now : K) (sieve : Sieve) (ws : Fin 3) :
    Except Err (Option (EvCore K)) := do
  let (A, B, C) := areaCollapseTimeCoeff (t.v 0) (t.v 1) (t.v 2)
  match sieve.apply ((solveQuadratic A B C).map some) now with
  | none => .ok none
  | some time =>
    if nearZero (time - now) then .ok (some ⟨now, [ws], .split, t.type⟩)
    else do
      let dists ← list3 fun i =>
        if t.noNeighbour i = false then (t.v (ccw i)).distance2At (t.v (cw i)) time
        else .ok (-1)
      let side ← indexE dists (max3 dists)
      .ok (some ⟨time, [side], .flip, t.type⟩)

/-- collapse.py:475-483: the time looked at in case B -/
def time1B (ta : Option K) (tv : K) : K :=
  match ta with
  | some ta => if ta < tv then ta else tv
  | none => tv

/-- collapse.py:468-532, case B: only a vertex crash time `tv` -/
def case1B (t : TView K) (ws : Fin 3) (ta : Option K) (tv : K) :
    Except Err (Option (EvCore K)) := do
  let time := time1B ta tv
  let dists ← t.dists time
  if where3 (fun i => nearZero (dists i - max3 dists)) = [ws] then
    .ok (some ⟨tv, [ws], .split, t.type⟩)
  else if (where3 fun i => nearZero (dists i)).length = 1 then do
    let side ← indexE dists (min3 dists)
    .ok (some ⟨time, [side], .edge, t.type⟩)
  else do
    let side ← indexE dists (max3 dists)
    .ok (some ⟨time, [side], .flip, t.type⟩)

/-- collapse.py:543-616, case D: edge collapse time `te` and vertex crash time `tv` -/
def case1D (t : TView K) (te tv : K) : Except Err (Option (EvCore K)) := do
  if te < tv ∨ te = tv then do
    let d2 ← t.dists2 te
    let side ← indexE d2 (min3 d2)
    .ok (some ⟨te, [side], .edge, t.type⟩)
  else if tv < te then do
    let dists ← t.dists tv
    match where3 fun i => nearZero (dists i) with
    | [side] => .ok (some ⟨tv, [side], .edge, t.type⟩)
    | [_, _, _] => .ok (some ⟨tv, [0, 1, 2], .edge, t.type⟩)
    | _ => do
      let side ← indexE dists (max3 dists)
      .ok (some ⟨tv, [side], if t.noNeighbour side then .split else .flip, t.type⟩)
  else .error .notImplementedError

/-- collapse.py:317-617 `compute_event_1triangle` -/
def computeEvent1 (t : TView K) (now : K) (sieve : Sieve) : Except Err (Option (EvCore K)) := do
  -- 342-349
  passert (decide (t.type = 1))
  let ws ← indexE t.noNeighbour true
  let ow := t.v (ccw ws)
  let dw := t.v (cw ws)
  let aw := t.v ws
  -- 353
  let tv ← vertexCrashTime ow dw aw
  -- 355-390
  if (match tv with
      | some time => nearZero |time - now|
      | none => false) then crashNow1 t now ws
  else
    -- 391-403
    let timeVertex := sieve.apply [tv] now
    let timeArea := sieve.apply ((areaCollapseTimes (t.v 0) (t.v 1) (t.v 2)).map some) now
    let timeEdge := sieve.apply [some (collapseTimeEdge ow dw)] now
    match timeEdge, timeVertex with
    | none, none => case1A t now sieve ws
    | none, some tv => case1B t ws timeArea tv
    -- 534-541
    | some te, none => .ok (some ⟨te, [ws], .edge, t.type⟩)
    | some te, some tv => case1D t te tv

/-- collapse.py:620-690 `compute_event_2triangle` -/
def computeEvent2 (t : TView K) (now : K) (sieve : Sieve) : Except Err (Option (EvCore K)) := do
  -- 633-646
  passert (decide (t.type = 2))
  let o := t.v 0
  let d := t.v 1
  let a := t.v 2
  let times : List (Option K) :=
    (if t.noNeighbour 2 then [some (collapseTimeEdge o d)] else []) ++
    (if t.noNeighbour 0 then [some (collapseTimeEdge d a)] else []) ++
    (if t.noNeighbour 1 then [some (collapseTimeEdge a o)] else [])
  -- 647-652
  let times ← getUniqueTimes times
  let time := sieve.apply (times.map some) now
  let time := match time with
    | none => sieve.apply ((areaCollapseTimes o d a).map some) now
    | some _ => time
  -- 660-690
  match time with
  | none => .ok none
  | some time => do
    let dists ← t.dists time
    let m := min3 dists
    let dists : Fin 3 → K := ![dists 0 - m, dists 1 - m, dists 2 - m]
    match where3 fun i => nearZero (dists i) with
    | [_, _, _] => .ok (some ⟨time, [0, 1, 2], .edge, t.type⟩)
    | [_, _] => .error .valueError
    | [_] => do
      let side ← indexE dists (min3 dists)
      .ok (some ⟨time, [side], .edge, t.type⟩)
    | _ => .ok none

/-- collapse.py:744-825 `compute_event_3triangle`; note `if time_edge_collapse:`
(806) and `elif time_area_collapse:` (818), false for the number 0. -/
def computeEvent3 (t : TView K) (now : K) (sieve : Sieve) : Except Err (Option (EvCore K)) := do
  -- 754-772
  let a := t.v 0
  let o := t.v 1
  let d := t.v 2
  let tec : Fin 3 → K := ![collapseTimeEdge o d, collapseTimeEdge d a, collapseTimeEdge a o]
  let dists ← list3 fun i => match i with
    | 0 => o.distance2At d (tec 0)
    | 1 => d.distance2At a (tec 1)
    | 2 => a.distance2At o (tec 2)
  let dists ← list3 fun i => psqrt (dists i)
  let indices := where3 fun i => nearZero (dists i)
  -- 774-777
  passert (decide (t.type = 3))
  let timeEdge := sieve.apply [some (tec 0), some (tec 1), some (tec 2)] now
  let timeArea := sieve.apply ((areaCollapseTimes o d a).map some) now
  -- 806-823
  match truthy timeEdge with
  | some te =>
    let sides := if indices.length = 0 ∨ indices.length = 2 then [0, 1, 2] else indices
    .ok (some ⟨te, sides, .edge, t.type⟩)
  | none =>
    match truthy timeArea with
    | some ta => .ok (some ⟨ta, [0, 1, 2], .edge, t.type⟩)
    | none => .ok none

/-- collapse.py:831-834: index of the first infinite vertex (the loop variable keeps
its last value 2 when there is none) -/
def infIdx (t : TView K) : Fin 3 :=
  if (t.v 0).kinetic = false then 0 else if (t.v 1).kinetic = false then 1 else 2

/-- collapse.py:830-881 `compute_event_inftriangle` -/
def computeEventInf (t : TView K) (now : K) (sieve : Sieve) : Except Err (Option (EvCore K)) := do
  let side := infIdx t
  let o := t.v (cw side)
  let d := t.v (ccw side)
  let a := t.v side
  if t.noNeighbour side then do
    -- 842-856
    passert (decide (t.type = 1))
    match truthy (findGt [some (collapseTimeEdge o d)] now) with
    | some time => do
      let dist ← o.distance2At d time
      if nearZero dist then .ok (some ⟨time, [side], .edge, t.type⟩) else .ok none
    | none => .ok none
  else
    -- 858-881
    match truthy (sieve.apply ((areaCollapseTimes o d a).map some) now) with
    | some time => do
      let dist ← o.distance2At d time
      if nearZero dist then .ok (some ⟨time, [side], .edge, t.type⟩)
      else do
        let d0 ← (t.v (ccw (cw side))).distance2At (t.v (cw (cw side))) time
        let d1 ← (t.v (ccw (ccw side))).distance2At (t.v (cw (ccw side))) time
        let minDistSide := if d0 = min d0 d1 then cw side else ccw side
        .ok (some ⟨time, [minDistSide], .flip, t.type⟩)
    | none => .ok none

/-- collapse.py:894-908: dispatch on the type of a finite triangle -/
def computeFinite (t : TView K) (now : K) (sieve : Sieve) : Except Err (Option (EvCore K)) :=
  if t.type = 0 then computeEvent0 t now sieve
  else if t.type = 1 then computeEvent1 t now sieve
  else if t.type = 2 then computeEvent2 t now sieve
  else if t.type = 3 then computeEvent3 t now sieve
  else .ok none

/-- collapse.py:884-938 `compute_collapse_time`, without the assignment `tri.event =
event`.  A type above 3 does not exist.  The orientation checks (911-928) only log,
but evaluate positions. -/
def computeCollapse (t : TView K) (now : K) (sieve : Sieve) : Except Err (Option (EvCore K)) := do
  if t.stopped then .ok none
  else if t.isFinite then do
    let event ← computeFinite t now sieve
    match event with
    | some e => .ok (some e)
    | none => do
      let _ ← list3 fun i => (t.v i).positionAt (now + 10)
      .ok none
  else computeEventInf t now sieve

/-- collapse.py:945-961 `compute_new_edge_collapse_event` -/
def newEdgeCollapse (t : TView K) (time : K) : Except Err (EvCore K) := do
  let dists ← t.dists time
  let sides := where3 fun i => nearZero (dists i - min3 dists)
  .ok ⟨time, sides, .edge, t.type⟩

end Compute

end Grassfire
