/-
Specification for C78: what events announce does happen.
-/
import Verif.Spec.Orientation

namespace Grassfire.Spec

variable {K : Type} [Field K] [LinearOrder K]

/-- the squared length of side `i` at time `x` -/
def lengthSq (T : TView K) (i : Fin 3) (x : K) : K := distSq (cornerAt T (i + 1) x) (cornerAt T (i + 2) x)

/-- At time `x` corner `i` is on side `i`. -/
def OnSide (T : TView K) (i : Fin 3) (x : K) : Prop :=
  ∃ r, 0 ≤ r ∧ r ≤ 1 ∧ cornerAt T i x =
    ((cornerAt T (i + 1) x).1 + r * ((cornerAt T (i + 2) x).1 - (cornerAt T (i + 1) x).1),
      (cornerAt T (i + 1) x).2 + r * ((cornerAt T (i + 2) x).2 - (cornerAt T (i + 1) x).2))

/-- What the event announces does happen: at its time the ends of the sides that are to collapse are at the same place;
the apex that hits a wavefront edge (`split`), or comes on an inner side (`flip`), is on that side. -/
structure Happens (T : TView K) (e : EvCore K) : Prop where
  edge : e.tp = .edge → ∀ i ∈ e.side, cornerAt T (i + 1) e.time = cornerAt T (i + 2) e.time
  split : e.tp = .split → ∀ i ∈ e.side, T.noNeighbour i = true ∧ OnSide T i e.time
  flip : e.tp = .flip → ∀ i ∈ e.side, OnSide T i e.time

variable [HasSqrt K]

/-- The times at which the corners of the triangle are in line are computed exactly: they are not always in line, the
coefficients of the quadratic equation are zero or not negligible, so is its discriminant, and the root of the
discriminant is exact. -/
structure Solvable (T : TView K) : Prop where
  nonzero : ∃ x, areaAt T x ≠ 0
  coeffs : ∀ A B C : K, (∀ x, A * x ^ 2 + B * x + C = areaAt T x) →
    (1 / 10 ^ 10 < |A| ∧ ((B / (2 * A)) ^ 2 - C / A = 0 ∨ 1 / 10 ^ 10 < |(B / (2 * A)) ^ 2 - C / A|)) ∨
      (A = 0 ∧ (B = 0 ∨ 1 / 10 ^ 10 < |B|))
  root : ∀ A B C : K, (∀ x, A * x ^ 2 + B * x + C = areaAt T x) → A ≠ 0 → 0 < (B / (2 * A)) ^ 2 - C / A →
    HasSqrt.sqrt ((B / (2 * A)) ^ 2 - C / A) * HasSqrt.sqrt ((B / (2 * A)) ^ 2 - C / A) = (B / (2 * A)) ^ 2 - C / A

/-- The tolerances do not blur what happens at time `x`.
`current`: the corners are not in line a little earlier or later (but not at `x`);
`short`: sides that are almost but not of length zero do not occur when the corners are in line;
`lengths`: the computed lengths are in the order of the lengths, and zero (or almost zero) for sides that are. -/
structure SharpAt (T : TView K) (x : K) : Prop where
  current : ∀ y, areaAt T y = 0 → |y - x| ≤ 1 / 10 ^ 10 → y = x
  short : areaAt T x = 0 → ∀ i, lengthSq T i x ≤ 1 / 10 ^ 10 → cornerAt T (i + 1) x = cornerAt T (i + 2) x
  lengths : areaAt T x = 0 → ∀ i, 0 ≤ HasSqrt.sqrt (lengthSq T i x) ∧
    (lengthSq T i x = 0 → HasSqrt.sqrt (lengthSq T i x) = 0) ∧
    (HasSqrt.sqrt (lengthSq T i x) ≤ 1 / 10 ^ 10 → lengthSq T i x ≤ 1 / 10 ^ 10) ∧
    ∀ j, HasSqrt.sqrt (lengthSq T i x) ≤ HasSqrt.sqrt (lengthSq T j x) → lengthSq T i x ≤ lengthSq T j x

end Grassfire.Spec
