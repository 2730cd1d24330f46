/-
Specification for C95: the area inside the wavefront at a given time, as the vertices tell it.
-/
import Verif.Spec.Rings
import Verif.Spec.Upright

namespace Grassfire.Spec

variable {K : Type} [Field K] [LinearOrder K]

/-- Twice the area of the triangle between the origin and the line from `p` to `q` (negative when it is clockwise). -/
def shoelace (p q : Pt K) : K := p.1 * q.2 - p.2 * q.1

/-- The side of the wavefront at time `x` that ends at vertex `v`, when `v` has started and has not stopped yet: from
`v.left_at(x)` to `v`. -/
def sideAt (s : St K) (x : K) (v : VId) : Option (Pt K × Pt K) :=
  match s.vert v with
  | .inf _ => none
  | .kin k =>
    if k.startsAt.any (fun a => a ≤ x) && k.stopsAt.all (fun b => x < b) then
      match k.left.at x with
      | some (some u) => (placeAt s u x).map fun p => (p, pointAt k x)
      | _ => none
    else none

/-- Twice the area inside the wavefront at time `x`: the sum over the sides of all its rings. -/
def enclosed (s : St K) (x : K) : K :=
  (s.skVertices.map fun v => ((sideAt s x v).map fun e => shoelace e.1 e.2).getD 0).sum

/-- Twice the area of triangle `t` of the triangulation. -/
def dtArea (dt : Dt K) (t : TId) : K :=
  area2 (((dt.corner t 0).map dt.pos).getD (0, 0)) (((dt.corner t 1).map dt.pos).getD (0, 0))
    (((dt.corner t 2).map dt.pos).getD (0, 0))

/-- `len` tells how long the sides of the wavefront at time `x` are. -/
def Lengths (s : St K) (x : K) (len : VId → K) : Prop :=
  ∀ v ∈ s.skVertices, ∀ p q, sideAt s x v = some (p, q) → 0 ≤ len v ∧ len v ^ 2 = distSq p q

end Grassfire.Spec
