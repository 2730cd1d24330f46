/-
Specification for C90: executions in general position in which no tolerance blurs anything.
-/
import Verif.Spec.Progress
import Verif.Spec.Sharp

namespace Grassfire.Spec

variable {K : Type} [Field K] [LinearOrder K] [HasSqrt K]

/-- The motion of the triangle is not one of those that the tolerances of collapse.py misjudge: as `ClearMotion`, except
that nothing is asked for about where the ends of wavefront edges are. -/
structure ClearTimes (T : TView K) : Prop where
  side : ∀ i, T.noNeighbour i = true → 1 / 10 ^ 10 < distSq (T.v (i + 1)).velocity (T.v (i + 2)).velocity ∨
    (T.v (i + 1)).velocity = (T.v (i + 2)).velocity
  apex : ∀ i l, (∀ j, T.noNeighbour j = true ↔ j = i) → Rides T i l →
    1 / 10 ^ 10 < |1 - dot2 (T.v i).velocity l.w| ∨ dot2 (T.v i).velocity l.w = 1
  apart : (∃ k, ∀ j, T.noNeighbour j = false ↔ j = k) → ∀ i j x y, T.noNeighbour i = true → T.noNeighbour j = true →
    cornerAt T (i + 1) x = cornerAt T (i + 2) x → cornerAt T (j + 1) y = cornerAt T (j + 2) y → x < y →
    1 / 10 ^ 7 * |(y + x) / 2| < y - x
  zero : (∀ j, T.noNeighbour j = true) → ∀ i, cornerAt T (i + 1) 0 ≠ cornerAt T (i + 2) 0
  coeffs : (∀ j, T.noNeighbour j = false) → ∀ A B C : K, (∀ x, A * x ^ 2 + B * x + C = areaAt T x) →
    (1 / 10 ^ 10 < |A| ∧ 1 / 10 ^ 10 < |(B / (2 * A)) ^ 2 - C / A|) ∨ (A = 0 ∧ (B = 0 ∨ 1 / 10 ^ 10 < |B|))
  near : (∀ j, T.noNeighbour j = false) → ∀ i x, distSq (cornerAt T (i + 1) x) (cornerAt T (i + 2) x) ≤ 1 / 10 ^ 20 →
    (∀ y, distSq (cornerAt T (i + 1) x) (cornerAt T (i + 2) x) ≤ distSq (cornerAt T (i + 1) y) (cornerAt T (i + 2) y)) →
    cornerAt T (i + 1) x = cornerAt T (i + 2) x
  roots : (∀ j, T.noNeighbour j = false) → SqrtLaws K

/-- At the iteration of the loop that takes event `e`, at time `x'`, the one before having been at time `x`, the
tolerances of the code do not blur anything: as `SharpStep`, except that nothing is asked for about which vertices have
been stopped. -/
structure CrispStep (s : St K) (e : Event K) (x x' : K) : Prop where
  sharp : Live s e.tri → SharpAt (viewT s e.tri) x'
  tiny : Live s e.tri → ∀ i, HasSqrt.sqrt (lengthSq (viewT s e.tri) i x') ≤ 1 / 10 ^ 10 →
    cornerAt (viewT s e.tri) (i + 1) x' = cornerAt (viewT s e.tri) (i + 2) x'
  three : Live s e.tri → (∀ i, (s.tri e.tri).neighbours i = none) → ∀ i,
    cornerAt (viewT s e.tri) (i + 1) x' = cornerAt (viewT s e.tri) (i + 2) x' →
    cornerAt (viewT s e.tri) i x' = cornerAt (viewT s e.tri) (i + 1) x'
  gaps : x' = x ∨ x + 1 / 10 ^ 10 < x'
  late : 1 / 10 ^ 10 < x'

variable [HasTrig K]

/-- The first `n` iterations of the loop from `s0` on are such that no tolerance blurs anything: the times at which
triangles vanish can be computed (whenever no event is to be handled at once), and what happens at the events is clear. -/
structure Unblurred (depth : ℕ) (s0 : St K) (n : ℕ) : Prop where
  clear : ∀ s1, initEventList s0 = .ok ((), s1) → ∀ m ≤ n, ∀ x u tr', Run depth { s1 with immediate := [] } 0 m x u tr' →
    u.immediate = [] → ∀ t ∈ s0.skTriangles, Live u t → ClearTimes (viewT u t) ∧ Solvable (viewT u t)
  sharp : ∀ s1, initEventList s0 = .ok ((), s1) → ∀ m < n, ∀ x u tr' e x' u',
    Run depth { s1 with immediate := [] } 0 m x u tr' → loopStep depth (m + 1 : ℕ) x u = .ok (some (e, x'), u') →
      CrispStep u e x x'

/-- The events of the first `n` iterations of the loop from `s0` on, and the next one, are as in general position. -/
def GenericEvents (depth : ℕ) (s0 : St K) (n : ℕ) : Prop :=
  ∀ s1, initEventList s0 = .ok ((), s1) → ∀ m ≤ n, ∀ x u tr' e, Run depth { s1 with immediate := [] } 0 m x u tr' →
    NextEvent u e → Live u e.tri → Generic u e

end Grassfire.Spec
