/-
Specification for C92: the event loop ends, and `calc_skel` delivers the skeleton.
-/
import Verif.Spec.Cubic
import Verif.Spec.General

namespace Grassfire.Spec

variable {K : Type} [Field K] [LinearOrder K]

/-- At time `u` the corners of triangle `t`, which are moving vertices, are in line. -/
def FlatAt (s : St K) (t : TId) (u : K) : Prop :=
  ∃ a b c, placeAt s ((s.tri t).vertices 0) u = some a ∧ placeAt s ((s.tri t).vertices 1) u = some b ∧
    placeAt s ((s.tri t).vertices 2) u = some c ∧ area2 a b c = 0

/-- When `e` is a flip event, then the apex is not at an end of the side that is to be flipped, and the triangle on the
other side of it does not vanish at the same time. -/
def Turning (s : St K) (e : Event K) : Prop :=
  e.tp = .flip → ∀ i, e.side = [i] →
    (∀ n, (s.tri e.tri).neighbours i = some n → ¬ FlatAt s n e.time) ∧
    ∀ j p q, j ≠ i → placeAt s ((s.tri e.tri).vertices i) e.time = some p →
      placeAt s ((s.tri e.tri).vertices j) e.time = some q → p ≠ q

/-- `s` is a state in which it is not clear what happens next to one of the triangles that the next event renews. -/
def Unclear [HasSqrt K] (s : St K) : Prop :=
  ∃ e T, NextEvent s e ∧ Live s e.tri ∧ Renewed s e T ∧ Followable T ∧ Ambiguous T e.time

variable [HasTrig K] [HasSqrt K]

/-- The events of the first `n` iterations of the loop from `s0` on, and the next one, happen on their own. -/
def LoneEvents (depth : ℕ) (s0 : St K) (n : ℕ) : Prop :=
  ∀ s1, initEventList s0 = .ok ((), s1) → ∀ m ≤ n, ∀ x u tr' e, Run depth { s1 with immediate := [] } 0 m x u tr' →
    NextEvent u e → Live u e.tri → Alone u e ∧ Turning u e

end Grassfire.Spec
