/-
Model of src/grassfire/initialize.py: from a constrained triangulation (delivered by the external
package `tri`) to the skeleton that the event loop works on.
-/
import Verif.Primitives
import Mathlib.Data.List.Dedup
import Mathlib.Data.List.Sort
import Mathlib.Data.Fin.VecNotation

namespace Grassfire

variable {K : Type} [Field K] [LinearOrder K]

/-- reference to a vertex of the triangulation -/
abbrev DV := ℕ
/-- reference to a triangle of the triangulation -/
abbrev DT := ℕ
/-- tri/delaunay/iter `Edge`: a triangle and one of its sides; `Edge.segment` is
`(t.vertices[ccw(side)], t.vertices[cw(side)])`, `Edge.constrained` is `t.constrained[side]` -/
abbrev DEdge := DT × Fin 3

/-- What initialize.py reads of a triangulation `dt` (external package `tri`).  The elements of
the list `dt.vertices` are the numbers below `nV`, those of `dt.triangles` the numbers below
`nT`, in order; other numbers are vertices and triangles that are not in these lists. -/
structure Dt (K : Type) where
  nV : ℕ
  nT : ℕ
  /-- `(v.x, v.y)` -/
  pos : DV → Pt K
  /-- `v.info` -/
  info : DV → Option ℕ
  /-- `v.is_finite` -/
  finite : DV → Bool
  /-- `t.vertices[i]` -/
  corner : DT → Fin 3 → Option DV
  /-- `t.neighbours[i]` -/
  neighbour : DT → Fin 3 → Option DT
  /-- `t.constrained[i]` -/
  constrained : DT → Fin 3 → Bool
  /-- the edges delivered by `StarEdgeIterator(v)` -/
  star : DV → List DEdge
  /-- the triangles with depth 1 according to `RegionatedTriangleIterator(dt)` -/
  internal : DT → Bool

/-- a pure computation as part of one that may end with a fault of the model -/
def liftE {α : Type} : Except Err α → Except Fault α
  | .ok a => .ok a
  | .error e => .error (.py e)

/-- a loop that produces one result per element -/
def mapE {α β ε : Type} (f : α → Except ε β) : List α → Except ε (List β)
  | [] => .ok []
  | x :: xs => do
    let y ← f x
    let ys ← mapE f xs
    .ok (y :: ys)

/-- a loop of checks -/
def allE {α ε : Type} (f : α → Except ε Unit) : List α → Except ε Unit
  | [] => .ok ()
  | x :: xs => do
    f x
    allE f xs

/-! ### split_star -/

/-- initialize.py:119-130 the loop of `split_star`; the second argument is `group` -/
def splitLoop (dt : Dt K) : List DEdge → List DEdge → List (List DEdge)
  | [], group => if group.isEmpty then [] else [group]
  | e :: es, group =>
    -- 126: the edge ahead is constrained
    if dt.constrained e.1 (ccw e.2) then (group ++ [e]) :: splitLoop dt es []
    else splitLoop dt es (group ++ [e])

/-- initialize.py:136-142 merge the first and the last group (there are at least two) -/
def mergeEnds (dt : Dt K) (groups : List (List DEdge)) : Except Err (List (List DEdge)) :=
  match groups with
  | (e :: g) :: rest =>
    if dt.constrained e.1 (cw e.2) then .ok groups
    else .ok ((rest.getLastD [] ++ e :: g) :: rest.dropLast)
  | _ => .error .indexError

/-- initialize.py:147-153 post conditions of one group -/
def checkGroup (dt : Dt K) (group : List DEdge) : Except Err Unit := do
  match group.head?, group.getLast? with
  | some first, some last => do
    passert (dt.constrained first.1 (cw first.2))
    passert (dt.constrained last.1 (ccw last.2))
    allE (fun middle => do
      passert (!dt.constrained middle.1 (cw middle.2))
      passert (!dt.constrained middle.1 (ccw middle.2))) group.tail.dropLast
  | _, _ => .error .indexError

/-- initialize.py:116-155 `split_star` -/
def splitStar (dt : Dt K) (v : DV) : Except Err (List (List DEdge)) := do
  let groups := splitLoop dt (dt.star v) []
  if groups.length ≤ 1 then .ok groups
  else do
    let groups ← mergeEnds dt groups
    allE (checkGroup dt) groups
    .ok groups

/-! ### init_skeleton: triangles -/

/-- initialize.py:83-97 `make_support_line`; of the `WaveFront` only its line is kept (the
identity of the object is its place: triangle and side) -/
def supportLine [HasSqrt K] (dt : Dt K) (t : DT) (i : Fin 3) : Except Err (Option (Line2 K)) :=
  if dt.constrained t i then
    match dt.corner t (ccw i), dt.corner t (cw i) with
    | some a, some b => do
      let wf ← WaveFront.make (dt.pos a) (dt.pos b) none
      .ok (some wf.line)
    | _, _ => .error .attributeError
  else .ok none

/-- initialize.py:216-225, one side: `none` when the triangle is unwanted because of this side,
otherwise the new value of `k.neighbours[j]` -/
def linkSide (dt : Dt K) (t : DT) (j : Fin 3) : Except Err (Option (Option TId)) :=
  if dt.constrained t j then .ok (some none)
  else
    match dt.neighbour t j with
    | none => .ok none
    | some n =>
      if dt.corner n 2 = none then .ok none
      else if n < dt.nT then .ok (some (some n)) else .error .keyError

/-- what is set in a kinetic triangle before there are kinetic vertices -/
structure TriStart (K : Type) where
  /-- `k.wavefront_support_lines` -/
  lines : Fin 3 → Option (Line2 K)
  /-- `k.neighbours` -/
  neighbours : Fin 3 → Option TId
  /-- how often `k` was appended to `unwanted` -/
  unwanted : ℕ

/-- initialize.py:208-225, one triangle -/
def initTri [HasSqrt K] (dt : Dt K) (t : DT) : Except Err (TriStart K) := do
  let l0 ← supportLine dt t 0
  let l1 ← supportLine dt t 1
  let l2 ← supportLine dt t 2
  let n0 ← linkSide dt t 0
  let n1 ← linkSide dt t 1
  let n2 ← linkSide dt t 2
  .ok ⟨![l0, l1, l2], ![n0.join, n1.join, n2.join], count3 ![n0, n1, n2] none⟩

/-- identity of the `WaveFront` object (and of its line) of side `i` of triangle `t` -/
def wfId (t : DT) (i : Fin 3) : WfId := 3 * t + i

/-- `triangle2ktriangle[t].wavefront_support_lines[i]` -/
def lineAt (ts : List (TriStart K)) (t : DT) (i : Fin 3) : Option (Line2 K) :=
  (ts[t]?).bind fun x => x.lines i

/-! ### init_skeleton: vertices -/

/-- initialize.py:247-348, one group of edges around `v`; `ct` is the number of kinetic vertices made
before.  The orientation (256-269) is only written to `turn` and left out. -/
def makeVertex [HasSqrt K] (dt : Dt K) (ts : List (TriStart K)) (v : DV) (ct : ℕ)
    (group : List DEdge) : Except Err (KVertex K) :=
  match group.head?, group.getLast? with
  | some first, some last => do
    -- 251-256 `tail, mid1 = Edge(last.triangle, ccw(last.side)).segment` and so on
    passert (dt.corner last.1 last.2 = dt.corner first.1 first.2)
    match dt.corner last.1 (cw last.2), dt.corner last.1 last.2, dt.corner first.1 (ccw first.2) with
    | some _, some _, some _ =>
      if first.1 < dt.nT ∧ last.1 < dt.nT then
        match lineAt ts last.1 (ccw last.2), lineAt ts first.1 (cw first.2) with
        | some left, some right => do
          let bi ← getBisector left right
          if group.all fun e => e.1 < dt.nT then
            .ok { origin := dt.pos v, velocity := bi,
                  startsAt := some 0, startNode := some v,
                  ul := some (wfId last.1 (ccw last.2)), ur := some (wfId first.1 (cw first.2)),
                  wfl := some (wfId last.1 (ccw last.2)), wfr := some (wfId first.1 (cw first.2)),
                  info := ct + 1, internal := dt.internal last.1 }
          else .error .keyError
        | _, _ => .error .assertionError
      else .error .keyError
    | _, _, _ => .error .attributeError
  | _, _ => .error .indexError

/-- initialize.py:247-351, the groups around one vertex: every kinetic vertex with its group -/
def makeGroup [HasSqrt K] (dt : Dt K) (ts : List (TriStart K)) (v : DV) :
    ℕ → List (List DEdge) → Except Err (List (KVertex K × List DEdge))
  | _, [] => .ok []
  | ct, g :: gs => do
    let kv ← makeVertex dt ts v ct g
    let rest ← makeGroup dt ts v (ct + 1) gs
    .ok ((kv, g) :: rest)

/-- initialize.py:240-245 the groups of a vertex -/
def vertexGroups (dt : Dt K) (v : DV) : Except Err (List (List DEdge)) := do
  passert (dt.finite v)
  let groups ← splitStar dt v
  if groups.length = 1 then .error .notImplementedError else .ok groups

/-- initialize.py:238-351, the loop over the vertices -/
def makeVertices [HasSqrt K] (dt : Dt K) (ts : List (TriStart K)) :
    ℕ → List DV → Except Err (List (KVertex K × List DEdge))
  | _, [] => .ok []
  | ct, v :: vs => do
    let groups ← vertexGroups dt v
    let here ← makeGroup dt ts v ct groups
    let rest ← makeVertices dt ts (ct + groups.length) vs
    .ok (here ++ rest)

/-- initialize.py:344-346 all assignments `ktriangle.vertices[edge.side] = kv`, in order -/
def assignments (vs : List (KVertex K × List DEdge)) : List (DEdge × VId) :=
  vs.zipIdx.flatMap fun x => x.1.2.map fun e => (e, x.2)

/-- `triangle2ktriangle[t].vertices[i]` after these assignments: the last one counts -/
def kcorner (vs : List (KVertex K × List DEdge)) (t : DT) (i : Fin 3) : Option VId :=
  ((assignments vs).reverse.find? fun x => decide (x.1 = (t, i))).map (·.2)

/-- initialize.py:350-351, 590-600 the vertices get linked in circular lists -/
def linkVertex (vs : List (KVertex K × List DEdge)) (x : KVertex K × List DEdge) : KVertex K :=
  match x.2.head?, x.2.getLast? with
  | some first, some last =>
    { x.1 with
      left := x.1.left.set (kcorner vs last.1 (cw last.2)) 0
      right := x.1.right.set (kcorner vs first.1 (ccw first.2)) 0 }
  | _, _ => x.1

/-- initialize.py:602-605 the check of one vertex; `kvs` are the vertices after linking.
`kv.is_stopped` is false for every new vertex. -/
def checkLink (kvs : List (KVertex K)) (kv : KVertex K) : Except Err Unit :=
  match kv.leftRef.bind fun u => kvs[u]?, kv.rightRef.bind fun u => kvs[u]? with
  | none, _ => .error .attributeError
  | some l, none => if l.wfr = kv.wfl then .error .attributeError else .error .assertionError
  | some l, some r => do
    passert (l.wfr = kv.wfl)
    passert (kv.wfr = r.wfl)

/-! ### init_skeleton: infinite vertices and triangles -/

/-- what a corner of a kinetic triangle may refer to during initialisation -/
inductive KRef (K : Type) where
  | kin (v : VId)
  /-- the `InfiniteVertex` that the dictionary `infinites` holds for this coordinate -/
  | inf (pos : Pt K)
  deriving DecidableEq

/-- `isinstance(v, InfiniteVertex)` -/
def KRef.isInf : Option (KRef K) → Bool
  | some (.inf _) => true
  | _ => false

/-- initialize.py:619-622 `kt.vertices[i]` after the infinite vertices have been copied -/
def kref (dt : Dt K) (vs : List (KVertex K × List DEdge)) (t : DT) (i : Fin 3) : Option (KRef K) :=
  match dt.corner t i with
  | some v =>
    if dt.finite v then (kcorner vs t i).map .kin else some (.inf (dt.pos v))
  | none => (kcorner vs t i).map .kin

/-- `range(3)` -/
def sides : List (Fin 3) := [0, 1, 2]

/-- initialize.py:609-616 the keys of `infinites` -/
def infinites (dt : Dt K) : List (Pt K) :=
  ((List.range dt.nT).flatMap fun t => sides.filterMap fun i =>
    match dt.corner t i with
    | some v => if dt.finite v then none else some (dt.pos v)
    | none => none).dedup

/-- the list `unwanted` -/
def unwantedOf (ts : List (TriStart K)) : List TId :=
  ts.zipIdx.flatMap fun x => List.replicate x.1.unwanted x.2

/-- initialize.py:656-659 the list `remove` -/
def removeOf (dt : Dt K) (corner : DT → Fin 3 → Option (KRef K)) : List TId :=
  (List.range dt.nT).filter fun t =>
    sides.countP (fun i => KRef.isInf (corner t i)) = 2

/-- `kt.vertices.index(v)` -/
def cornerOf (corner : DT → Fin 3 → Option (KRef K)) (v : VId) (t : TId) : Except Err (Fin 3) :=
  match index3 (corner t) (some (.kin v)) with
  | some i => .ok i
  | none => .error .valueError

/-- initialize.py:52-63 `rotate_until_not_in_candidates`; the first argument bounds the number of
steps of the `while` loop, `seen` are the triangles seen before. -/
def rotateOut (corner : DT → Fin 3 → Option (KRef K)) (nbr : TId → Fin 3 → Option TId) (v : VId)
    (dir : Fin 3 → Fin 3) (candidates : List TId) :
    ℕ → List TId → TId → Except Fault (Option TId)
  | 0, _, _ => .error .nonTermination
  | fuel + 1, seen, t =>
    if t ∈ seen then .ok none
    else
      match cornerOf corner v t with
      | .error e => .error (.py e)
      | .ok side =>
        match nbr t (dir side) with
        | none => .ok none
        | some n =>
          if n ∈ candidates then rotateOut corner nbr v dir candidates fuel (t :: seen) n
          else .ok (some n)

/-- use the result of `rotate_until_not_in_candidates` as a triangle: AttributeError on `None` -/
def needTri : Option TId → Except Fault TId
  | some t => .ok t
  | none => .error (.py .attributeError)

/-- initialize.py:665-677 the two entries of `link` for one unwanted triangle: triangle, side, new
neighbour -/
def relinkUnwanted (corner : DT → Fin 3 → Option (KRef K)) (nbr : TId → Fin 3 → Option TId)
    (unwanted : List TId) (kt : TId) : Except Fault (List (TId × Fin 3 × TId)) :=
  match index3 (nbr kt) none with
  | none => .error (.py .valueError)
  | some i =>
    match corner kt i with
    | some (.kin v) => do
      let a ← rotateOut corner nbr v cw unwanted (unwanted.length + 1) [] kt
      let b ← rotateOut corner nbr v ccw unwanted (unwanted.length + 1) [] kt
      let a ← needTri a
      let sa ← liftE (cornerOf corner v a)
      let b ← needTri b
      let sb ← liftE (cornerOf corner v b)
      .ok [(a, ccw sa, b), (b, cw sb, a)]
    | _ => .error (.py .assertionError)

/-- initialize.py:678-680 `ngb.neighbours[side] = new_ngb` for all entries -/
def applyLinks (nbr : TId → Fin 3 → Option TId) (links : List (TId × Fin 3 × TId)) :
    TId → Fin 3 → Option TId :=
  links.foldl (fun f x => Function.update f x.1 (Function.update (f x.1) x.2.1 (some x.2.2))) nbr

/-- initialize.py:733-756 `check_ktriangles` for the call at 691: no triangle has stopped and all
vertices of finite triangles started at time 0, so that only the neighbours matter -/
def checkKTriangles (ts : List TId) (nbr : TId → Fin 3 → Option TId) : Bool :=
  ts.all fun t => sides.all fun i =>
    match nbr t i with
    | none => true
    | some n => sides.any fun j => nbr n j = some t

/-- initialize.py:166-175 coordinates of `centroid` -/
def centroidOf (dt : Dt K) : Pt K :=
  let vs := (List.range dt.nV).filter dt.finite
  ((vs.map fun v => (dt.pos v).1 / (dt.nV : K)).sum, (vs.map fun v => (dt.pos v).2 / (dt.nV : K)).sum)

/-- initialize.py:692 the key by which the triangles are sorted, `(y, x)` -/
def sortKey (dt : Dt K) (kvs : List (KVertex K)) : Option (KRef K) → Except Err (Pt K)
  | some (.kin v) =>
    match kvs[v]? with
    | some kv => .ok (kv.origin.2, kv.origin.1)
    | none => .error .attributeError
  | some (.inf _) => .ok ((centroidOf dt).2, (centroidOf dt).1)
  | none => .error .attributeError

/-- comparison `<=` of tuples -/
def tupleLe (a b : Pt K) : Bool := decide (a.1 < b.1) || (decide (a.1 = b.1) && decide (a.2 ≤ b.2))

/-- the vertex number that a corner gets: kinetic vertices are numbered in the order in which they
were made, then comes the centroid, which replaces the infinite vertices
(initialize.py:687-690).  -/
def vidOf (m : ℕ) : Option (KRef K) → VId
  | some (.kin v) => v
  | _ => m

/-- Vertices, nodes and triangles of the skeleton on the heap.  The triangles that were removed
(initialize.py:681-684) keep a place, to which nothing refers; so that it does not count as a
triangle of the skeleton it is marked as stopped, and since the model has no corners that are
`None`, it gets arbitrary ones. -/
def initState (dt : Dt K) (pyid : TId → ℕ) (ts : List (TriStart K)) (kvs : List (KVertex K))
    (corner : DT → Fin 3 → Option (KRef K)) (unwanted : List TId)
    (nbr : TId → Fin 3 → Option TId) (sorted : List TId) : St K where
  vert v := match kvs[v]? with
    | some kv => .kin kv
    | none => .inf (centroidOf dt)
  nV := kvs.length + 1
  tri t :=
    if t ∈ unwanted then
      { vertices := fun i => min i.val kvs.length, neighbours := fun _ => none, stopsAt := some 0,
        info := t + 1, internal := dt.internal t }
    else
      { vertices := fun i => vidOf kvs.length (corner t i), neighbours := nbr t, info := t + 1,
        internal := dt.internal t }
  nT := dt.nT
  node v := ⟨dt.pos v, -1, dt.info v⟩
  nN := dt.nV
  nE := 0
  line k := (lineAt ts (k / 3) (Fin.ofNat 3 k)).getD ⟨(0, 0), 0⟩
  wfLine := id
  pyid := pyid
  skNodes := (List.range dt.nV).filter dt.finite
  skVertices := List.range kvs.length
  skTriangles := sorted
  transform := none
  queue := []
  immediate := []

/-- initialize.py:607-695, after the vertices have been linked -/
def finishSkeleton (dt : Dt K) (pyid : TId → ℕ) (ts : List (TriStart K))
    (vs : List (KVertex K × List DEdge)) (kvs : List (KVertex K)) : Except Fault (St K) := do
  liftE (passert ((infinites dt).length = 3))
  let corner := kref dt vs
  let nbr : TId → Fin 3 → Option TId := fun t i => (ts[t]?).bind fun x => x.neighbours i
  let unwanted := unwantedOf ts
  let remove := removeOf dt corner
  liftE (passert (remove.length = 3))
  liftE (passert (unwanted.length = 3))
  liftE (passert (remove = unwanted))
  let links ← mapE (relinkUnwanted corner nbr unwanted) unwanted
  let nbr' := applyLinks nbr links.flatten
  let nbr'' : TId → Fin 3 → Option TId := fun t => if t ∈ unwanted then fun _ => none else nbr' t
  let ktriangles := (List.range dt.nT).filter fun t => t ∉ unwanted
  liftE (passert (checkKTriangles ktriangles nbr''))
  let keys ← liftE (mapE (fun t => sortKey dt kvs (corner t 0)) ktriangles)
  let sorted := ((ktriangles.zip keys).insertionSort fun a b => tupleLe a.2 b.2 = true).map (·.1)
  -- a corner that has been left `None` (outside of the contract of the triangulation)
  if ktriangles.all fun t => sides.all fun i => (corner t i).isSome then
    .ok (initState dt pyid ts kvs corner unwanted nbr'' sorted)
  else .error .outside

/-- initialize.py:158-717 `init_skeleton`; `pyid` is python's `id` of the kinetic triangles -/
def initSkeleton [HasSqrt K] (dt : Dt K) (pyid : TId → ℕ) : Except Fault (St K) := do
  let ts ← liftE (mapE (initTri dt) (List.range dt.nT))
  let vs ← liftE (makeVertices dt ts 0 (List.range dt.nV))
  let kvs := vs.map (linkVertex vs)
  liftE (allE (checkLink kvs) kvs)
  finishSkeleton dt pyid ts vs kvs

/-- initialize.py:720-730 `internal_only_skeleton` on the heap: a new `Skeleton` object (so
`transform` is None) with the filtered lists.  (AttributeError for objects without
`internal` cannot occur: `skel.vertices` contains kinetic vertices only.) -/
def internalOnly (s : St K) : St K :=
  { s with
    skVertices := s.skVertices.filter fun v =>
      match s.vert v with
      | .kin kv => kv.internal
      | .inf _ => false
    skTriangles := s.skTriangles.filter fun t => (s.tri t).internal
    transform := none }

end Grassfire
