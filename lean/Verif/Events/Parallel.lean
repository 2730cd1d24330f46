/-
Model of src/grassfire/events/parallel.py: infinitely fast vertices.
`interactive_visualize` (only with `pause`) is left out.
-/
import Verif.Events.Flip

namespace Grassfire

variable {K : Type} [Field K] [LinearOrder K]

/-- `dist(*map(lambda x: x.position_at(now), Edge(t, leg).segment))`,
e.g. events/parallel.py:142 -/
def legDist [HasSqrt K] (t : TId) (leg : Fin 3) (now : K) : M K K := do
  let T ← getT t
  let p ← positionAt (T.vertices (ccw leg)) now
  let q ← positionAt (T.vertices (cw leg)) now
  pure (norm2d (sub2 q p))

/-- `t.vertices.index(v)` -/
def vertexIndex (t : TId) (v : VId) : M K (Fin 3) := do
  let T ← getT t
  needIdx (index3 T.vertices v)

/-- `n.neighbours[n.neighbours.index(t)] = x` -/
def relink (n t : TId) (x : Option TId) : M K Unit := do
  let N ← getT n
  let i ← needIdx (index3 N.neighbours (some t))
  setNeighbour n i x

/-- The neighbour over the collapsing edge is detached and scheduled:
events/edge.py:243-247, events/parallel.py:361-364 and 450-454. -/
def detachAndSchedule [HasSqrt K] (n : Option TId) (t : TId) (now : K) : M K Unit :=
  match n with
  | none => pure ()
  | some n => do
    relink n t none
    let N ← getT n
    if N.event.isSome ∧ N.stopsAt.isNone then scheduleImmediately n now
    else pure ()

/-- `v.stop_node = sk_node; v.stops_at = now` -/
def stopAt (v : VId) (node : NodeId) (now : K) : M K Unit :=
  modifyK v fun kv => { kv with stopNode := some node, stopsAt := some now }

/-- events/parallel.py:404-454 `handle_parallel_edge_event_even_legs` -/
def evenLegs [HasSqrt K] (t : TId) (e : Fin 3) (pivot : VId) (now : K) (step : ℤ) :
    M K Unit := do
  let T ← getT t
  assertM (index3 T.vertices pivot = some e)
  assertM (T.vertices e = pivot)
  let node ← stopAndRecord [T.vertices (ccw e), T.vertices (cw e)] step now none
  stopAt pivot node now
  stopTriangle t now
  let T ← getT t
  detachAndSchedule (T.neighbours e) t now

/-- `handle_parallel_edge_event_even_legs(t, t.vertices.index(pivot), pivot, ..)` -/
def evenLegsAt [HasSqrt K] (t : TId) (pivot : VId) (now : K) (step : ℤ) : M K Unit := do
  let e ← vertexIndex t pivot
  evenLegs t e pivot now step

/-- events/parallel.py:217-223, one of the two triangles -/
def evenLegsIf [HasSqrt K] (c : Bool) (t : TId) (pivot : VId) (now : K) (step : ℤ) : M K Unit :=
  if c then evenLegsAt t pivot now step else pure ()

/-- `velocity` of either kind of vertex -/
def Vertex.velocity : Vertex K → Pt K
  | .kin kv => kv.velocity
  | .inf _ => (0, 0)

/-- `v.velocity` -/
def velocityOf (v : VId) : M K (Pt K) := do
  let x ← getV v
  pure x.velocity

/-- events/parallel.py:539 -/
def assertVertexStopped (v : VId) : M K Unit := do
  let kv ← getK v
  assertM (kv.stopsAt.isSome)

/-- events/parallel.py:457-539 `handle_parallel_edge_event_3tri`.  The distances computed
there are only logged (and evaluated). -/
def parallel3tri [HasSqrt K] (t : TId) (e : Fin 3) (pivot : VId) (now : K) (step : ℤ) :
    M K Unit := do
  let T ← getT t
  assertM (index3 T.vertices pivot = some e)
  assertM (T.vertices e = pivot)
  let _ ← legDist t (ccw e) now
  let _ ← legDist t (cw e) now
  let v1 := T.vertices (ccw e)
  let v2 := T.vertices (cw e)
  assertM (v1 ≠ pivot)
  assertM (v2 ≠ pivot)
  let velo1 ← velocityOf v1
  let velo2 ← velocityOf v2
  -- the slower one of v1 and v2 determines the location
  let slow := if norm2d velo2 < norm2d velo1 then v2 else v1
  let other := if norm2d velo2 < norm2d velo1 then v1 else v2
  let node ← stopAndRecord [slow] step now none
  stopAt other node now
  stopAt pivot node now
  stopTriangle t now
  let T ← getT t
  forEach assertVertexStopped [T.vertices 0, T.vertices 1, T.vertices 2]

/-- events/parallel.py:107-126: a fan of one triangle with three wavefront edges -/
def parallel3 [HasSqrt K] (first last : TId) (pivot : VId) (now : K) (step : ℤ) :
    M K Unit := do
  assertM (first = last)
  let d0 ← legDist first 0 now
  let d1 ← legDist first 1 now
  let d2 ← legDist first 2 now
  let m := min (min d0 d1) d2
  parallel3Collapse first (where3 fun i => nearZero (![d0, d1, d2] i - m)) (nearZero m)
where
  /-- lines 115-126; `near` are the sides that are as short as the shortest one -/
  parallel3Collapse (first : TId) (near : List (Fin 3)) (zero : Bool) : M K Unit :=
    match near, zero with
    | [side], true => do
      let T ← getT first
      evenLegsAt first (T.vertices side) now step
    | _, _ => do
      let e ← vertexIndex first pivot
      parallel3tri first e pivot now step

/-- events/parallel.py:248-364, `handle_parallel_edge_event_shorter_leg` up to the
recursive call; result: the vertex created and the fans `fan_a` and `fan_b` -/
def shorterLeg [HasSqrt K] [HasTrig K] (t : TId) (e : Fin 3) (pivot : VId) (now : K)
    (step : ℤ) : M K (VId × List TId × List TId) := do
  let pk ← getK pivot
  assertM (pk.infFast = true)
  let T ← getT t
  let v1 := T.vertices (ccw e)
  let v2 := T.vertices (cw e)
  assertM (pivot = v1 ∨ pivot = v2)
  let k1 ← getK v1
  let k2 ← getK v2
  let toStop := (if k1.infFast then [] else [v1]) ++ (if k2.infFast then [] else [v2])
  let node ← stopAndRecord toStop step now none
  stopPivot node
  stopTriangle t now
  assertM (index3 T.vertices pivot ≠ some e)
  let k1 ← getK v1
  let k2 ← getK v2
  let ct ← countVertices
  let kv ← computeNewKvertex k1.ul k2.ur now node (ct + 1) (k1.internal || k2.internal)
  let l ← need k1.leftRef
  let kl ← getK l
  let r ← need k2.rightRef
  let kr ← getK r
  modifyK kv fun k => { k with wfl := kl.wfr, wfr := kr.wfl }
  let T ← getT t
  appendVertex kv
  updateCirc (some l) (some kv) now
  let k2 ← getK v2
  updateCirc (some kv) k2.rightRef now
  let fanA ← replaceSide (T.neighbours (ccw e)) (T.neighbours (cw e)) v2 kv .cw
  let fanB ← replaceSide (T.neighbours (cw e)) (T.neighbours (ccw e)) v1 kv .ccw
  detachAndSchedule (T.neighbours e) t now
  pure (kv, fanA, fanB)
where
  /-- lines 293-302 -/
  stopPivot (node : NodeId) : M K Unit := do
    let pk ← getK pivot
    if pk.stopNode.isNone then do
      assertM (pk.stopsAt.isNone)
      stopAt pivot node now
    else pure ()
  /-- lines 342-346 and 351-355 -/
  replaceSide (n other : Option TId) (v kv : VId) (dir : Dir) : M K (List TId) :=
    match n with
    | none => pure []
    | some n => do
      relink n t other
      replaceKvertex n v kv now dir

/-- events/parallel.py:385-397 (also events/edge.py:257-269): the fan for which
`handle_parallel_fan` is called, if any -/
def combineFans (fanA fanB : List TId) : Option (List TId × Dir) :=
  if fanA ≠ [] ∧ fanB ≠ [] then some (fanA.reverse ++ fanB, .ccw)
  else if fanA ≠ [] then some (fanA, .cw)
  else if fanB ≠ [] then some (fanB, .ccw)
  else none

/-- events/parallel.py:179-194, one triangle of the loop: are both legs equally long? -/
def evenTriangle [HasSqrt K] (pivot : VId) (now : K) (t : TId) : M K Bool := do
  let i ← vertexIndex t pivot
  let l ← legDist t (ccw i) now
  let r ← legDist t (cw i) now
  pure (nearZero (l - min l r) && nearZero (r - min l r))

/-- `[v.inf_fast for v in t.vertices]`, contains True? -/
def hasInfFast (t : TId) : M K Bool := do
  let T ← getT t
  let k0 ← getK (T.vertices 0)
  let k1 ← getK (T.vertices 1)
  let k2 ← getK (T.vertices 2)
  pure (k0.infFast || k1.infFast || k2.infFast)

/-- events/parallel.py:205-223: flip two triangles and handle those with an infinitely fast
vertex -/
def flipPair [HasSqrt K] (t0 t1 : TId) (pivot : VId) (now : K) (step : ℤ) : M K Unit := do
  let T0 ← getT t0
  let side0 ← needIdx (index3 T0.neighbours (some t1))
  let T1 ← getT t1
  let side1 ← needIdx (index3 T1.neighbours (some t0))
  flip t0 side0 t1 side1
  let inf0 ← hasInfFast t0
  let inf1 ← hasInfFast t1
  evenLegsIf inf0 t0 pivot now step
  evenLegsIf inf1 t1 pivot now step

/-- `assert t.stops_at is not None` -/
def assertStopped (t : TId) : M K Unit := do
  let T ← getT t
  assertM (T.stopsAt.isSome)

/-- events/parallel.py:153-236: the outer legs of the fan are equally long -/
def parallelEven [HasSqrt K] (fan : List TId) (pivot : VId) (now : K) (step : ℤ) :
    M K Unit :=
  match fan with
  | [t] => do
    evenLegsAt t pivot now step
    assertStopped t
  | [t0, t1] => do
    let even0 ← evenTriangle pivot now t0
    let even1 ← evenTriangle pivot now t1
    if even0 && even1 then do
      evenLegsAt t0 pivot now step
      evenLegsAt t1 pivot now step
      assertStopped t0
      assertStopped t1
    else flipPair t0 t1 pivot now step
  | _ => raise .notImplementedError

/-- events/parallel.py:369: a recursive call is made when the new vertex is infinitely fast
and there is a fan. -/
def nextFan (kv : VId) (fanA fanB : List TId) : M K (Option (List TId × VId × Dir)) := do
  let k ← getK kv
  if k.infFast then pure ((combineFans fanA fanB).map fun (fan, dir) => (fan, kv, dir))
  else pure none

/-- events/parallel.py:128-245: the two outer legs of the fan are compared.  (One of
the two differences is 0, so that `dists_sub_min.index(True)` always finds something.) -/
def parallelLegs [HasSqrt K] [HasTrig K] (fan : List TId) (first last : TId) (pivot : VId)
    (now : K) (dir : Dir) (step : ℤ) : M K (Option (List TId × VId × Dir)) := do
  assertM (first = last → fan.length = 1)
  let left := if dir = .cw then first else last
  let right := if dir = .cw then last else first
  let li ← vertexIndex left pivot
  let dl ← legDist left (ccw li) now
  let ri ← vertexIndex right pivot
  let dr ← legDist right (cw ri) now
  if nearZero (dl - min dl dr) && nearZero (dr - min dl dr) then do
    parallelEven fan pivot now step
    pure none
  else if nearZero (dl - min dl dr) then do
    let r ← shorterLeg left (ccw li) pivot now step
    nextFan r.1 r.2.1 r.2.2
  else do
    let r ← shorterLeg right (cw ri) pivot now step
    nextFan r.1 r.2.1 r.2.2

/-- events/parallel.py:70-245 `handle_parallel_fan` together with
`handle_parallel_edge_event_shorter_leg`, up to the recursive call of
`handle_parallel_fan` (a tail call): the result is the argument of that call. -/
def parallelStep [HasSqrt K] [HasTrig K] (fan : List TId) (pivot : VId) (now : K) (dir : Dir)
    (step : ℤ) : M K (Option (List TId × VId × Dir)) :=
  match fan with
  | [] => raise .valueError
  | first :: rest => do
    let last := (first :: rest).getLast (List.cons_ne_nil _ _)
    let pk ← getK pivot
    assertM (pk.infFast = true)
    let F ← getT first
    if count3 F.neighbours none = 3 then do
      parallel3 first last pivot now step
      pure none
    else parallelLegs fan first last pivot now dir step

/-- events/parallel.py:70-245 `handle_parallel_fan`.  `depth` is the number of recursive
calls that fit on python's stack. -/
def parallelFan [HasSqrt K] [HasTrig K] :
    ℕ → List TId → VId → K → Dir → ℤ → M K Unit
  | 0, _, _, _, _, _ => raise .recursionError
  | depth + 1, fan, pivot, now, dir, step => do
    let next ← parallelStep fan pivot now dir step
    match next with
    | none => pure ()
    | some x => parallelFan depth x.1 x.2.1 now x.2.2 step

end Grassfire
