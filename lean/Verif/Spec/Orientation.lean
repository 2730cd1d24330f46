/-
Specification for C76 and C77: no triangle turns over.
-/
import Verif.Collapse
import Verif.Spec.Geometry
import Verif.Spec.Wavefronts

namespace Grassfire.Spec

variable {K : Type} [Field K] [LinearOrder K]

/-- Where corner `i` of the triangle is at time `u`. -/
def cornerAt (T : TView K) (i : Fin 3) (u : K) : Pt K := move (T.v i).origin (T.v i).velocity u

/-- Twice the signed area of the triangle at time `u`: positive when its corners are in counter-clockwise order. -/
def areaAt (T : TView K) (u : K) : K := area2 (cornerAt T 0 u) (cornerAt T 1 u) (cornerAt T 2 u)

/-- Both ends of side `i` are on the wavefront of the line `l`, which moves at unit speed, at every time. -/
structure Rides (T : TView K) (i : Fin 3) (l : Line2 K) : Prop where
  unit : l.w.1 ^ 2 + l.w.2 ^ 2 = 1
  line : (T.v (i + 1)).ur = some l
  on : ∀ u, AtDistance l u (cornerAt T (i + 1) u) ∧ AtDistance l u (cornerAt T (i + 2) u)

/-- The motion of the triangle is not one of those that the tolerances of collapse.py misjudge.
`rides`: the ends of wavefront edges stay on their common wavefront;
`side`: the relative velocity of the ends of a wavefront edge is zero or not negligible;
`apex`: so is the velocity at which the apex of a triangle with one wavefront edge nears the wavefront;
`apart`: the times at which the two wavefront edges of a triangle vanish are equal, or not within 1e-7 of each other;
`zero`: no edge of a triangle with three wavefront edges vanishes at time 0;
`coeffs`: the coefficients of the area of a triangle without wavefront edge are zero or not negligible, neither is the
discriminant;
`near`: corners of such a triangle that pass each other at less than 1e-10 meet;
`roots`: the square roots that are computed for such a triangle are exact. -/
structure ClearMotion [HasSqrt K] (T : TView K) : Prop where
  rides : ∀ i, T.noNeighbour i = true → ∃ l, Rides T i l
  side : ∀ i, T.noNeighbour i = true → 1 / 10 ^ 10 < distSq (T.v (i + 1)).velocity (T.v (i + 2)).velocity ∨
    (T.v (i + 1)).velocity = (T.v (i + 2)).velocity
  apex : ∀ i l, (∀ j, T.noNeighbour j = true ↔ j = i) → Rides T i l →
    1 / 10 ^ 10 < |1 - dot2 (T.v i).velocity l.w| ∨ dot2 (T.v i).velocity l.w = 1
  apart : (∃ k, ∀ j, T.noNeighbour j = false ↔ j = k) → ∀ i j x y, T.noNeighbour i = true → T.noNeighbour j = true →
    cornerAt T (i + 1) x = cornerAt T (i + 2) x → cornerAt T (j + 1) y = cornerAt T (j + 2) y → x < y →
    1 / 10 ^ 7 * |(y + x) / 2| < y - x
  zero : (∀ j, T.noNeighbour j = true) → ∀ i, cornerAt T (i + 1) 0 ≠ cornerAt T (i + 2) 0
  coeffs : (∀ j, T.noNeighbour j = false) → ∀ A B C : K, (∀ x, A * x ^ 2 + B * x + C = areaAt T x) →
    (1 / 10 ^ 10 < |A| ∧ 1 / 10 ^ 10 < |(B / (2 * A)) ^ 2 - C / A|) ∨ (A = 0 ∧ (B = 0 ∨ 1 / 10 ^ 10 < |B|))
  near : (∀ j, T.noNeighbour j = false) → ∀ i x, distSq (cornerAt T (i + 1) x) (cornerAt T (i + 2) x) ≤ 1 / 10 ^ 20 →
    (∀ y, distSq (cornerAt T (i + 1) x) (cornerAt T (i + 2) x) ≤ distSq (cornerAt T (i + 1) y) (cornerAt T (i + 2) y)) →
    cornerAt T (i + 1) x = cornerAt T (i + 2) x
  roots : (∀ j, T.noNeighbour j = false) → SqrtLaws K

end Grassfire.Spec
