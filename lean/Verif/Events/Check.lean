/-
Model of src/grassfire/events/check.py (`orient2d` of the external package `geompreds` is
the exact determinant).
-/
import Verif.Events.Split

namespace Grassfire

variable {K : Type} [Field K] [LinearOrder K]

/-- geompreds `orient2d` (external package) -/
def orient2d (a b c : Pt K) : K :=
  (a.1 - c.1) * (b.2 - c.2) - (a.2 - c.2) * (b.1 - c.1)

/-- events/check.py:24-30 `check_bisector_direction` -/
def checkBisectorDirection (t : TId) (side : Fin 3) (time : K) : M K Unit := do
  let T ← getT t
  let v0 := T.vertices (ccw side)
  let v1 := T.vertices (cw side)
  let p1 ← positionAt v1 time
  let velo ← velocityOf v1
  let p0 ← positionAt v0 time
  let ori := orient2d p0 p1 (add2 p1 velo)
  assertM (ori > 0 ∨ nearZero ori = true)

/-- events/check.py:17-22 `check_bisectors` -/
def checkBisectors (ts : List TId) (now : K) : M K Unit :=
  forEach (fun t => do
    let T ← getT t
    if T.stopsAt.isNone then
      forEach (fun side =>
        if (T.neighbours side).isNone then checkBisectorDirection t side now else pure ())
        [0, 1, 2]
    else pure ()) ts

/-- `isinstance(v, KineticVertex)` -/
def Vertex.isKinetic : Vertex K → Bool
  | .kin _ => true
  | .inf _ => false

/-- events/check.py:33-43 `check_active_triangles_orientation` -/
def checkOrientation (ts : List TId) (now : K) : M K Unit :=
  forEach (fun t => do
    let T ← getT t
    if T.stopsAt.isNone then do
      let p0 ← positionAt (T.vertices 0) now
      let p1 ← positionAt (T.vertices 1) now
      let p2 ← positionAt (T.vertices 2) now
      let x0 ← getV (T.vertices 0)
      let x1 ← getV (T.vertices 1)
      let x2 ← getV (T.vertices 2)
      let ori := orient2d p0 p1 p2
      if x0.isKinetic && x1.isKinetic && x2.isKinetic then assertM (ori ≥ 0 ∨ nearZero ori = true)
      else assertM (ori ≤ 0 ∨ nearZero ori = true)
    else pure ()) ts

/-- events/check.py:9-15 `point_to_each_other` -/
def pointToEachOther (t : TId) (side : Fin 3) : M K Unit := do
  let T ← getT t
  let v0 := T.vertices (cw side)
  let v1 := T.vertices (ccw side)
  let k0 ← getK v0
  assertM (k0.leftRef = some v1)
  let k1 ← getK v1
  assertM (k1.rightRef = some v0)

/-- events/check.py:45-53 `check_wavefront_links` (no entry of the list is `None`) -/
def checkWavefrontLinks (ts : List TId) : M K Unit :=
  forEach (fun t => do
    let T ← getT t
    if T.stopsAt.isNone then
      forEach (fun side => if (T.neighbours side).isNone then pointToEachOther t side else pure ()) [0, 1, 2]
    else pure ()) ts

/-- events/check.py:62-64 -/
def neighbourActive (n : Option TId) : M K Unit :=
  match n with
  | none => pure ()
  | some n => do
    let N ← getT n
    assertM (N.stopsAt.isNone = true)

/-- events/check.py:55-64 `check_active_triangles` -/
def checkActiveTriangles (ts : List TId) : M K Unit :=
  forEach (fun t => do
    let T ← getT t
    if T.stopsAt.isNone then forEach (fun side => neighbourActive (T.neighbours side)) [0, 1, 2]
    else pure ()) ts

/-- events/check.py:75-77 -/
def vertexActive (v : VId) : M K Unit := do
  let x ← getV v
  match x with
  | .inf _ => pure ()
  | .kin k => assertM (k.stopsAt.isNone = true)

/-- events/check.py:68-77 `check_kinetic_vertices` -/
def checkKineticVertices (ts : List TId) : M K Unit :=
  forEach (fun t => do
    let T ← getT t
    if T.stopsAt.isNone then forEach (fun side => vertexActive (T.vertices side)) [0, 1, 2]
    else pure ()) ts

/-- what has a `position_at`: vertices and nodes -/
inductive Located where
  | vertex (v : VId)
  | node (n : NodeId)

/-- `position_at` of vertices and of nodes (primitives.py:77-81) -/
def Located.positionAt (x : Located) (time : K) : M K (Pt K) :=
  match x with
  | .vertex v => Grassfire.positionAt v time
  | .node n => do
    let N ← getN n
    pure N.pos

/-- events/check.py:79-89 `at_same_location` -/
def atSameLocation (V : List Located) (now : K) : M K Bool := do
  let P ← mapEach (fun v => v.positionAt now) V
  match P with
  | [] => raise .indexError
  | p :: os => pure (os.all fun o => nearZero (p.1 - o.1) && nearZero (p.2 - o.2))

end Grassfire
