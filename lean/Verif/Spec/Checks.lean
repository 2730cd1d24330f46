/-
Specification for C74: what the functions of events/check.py are to accept.
-/
import Verif.Spec.Links
import Verif.Spec.Parallel

namespace Grassfire.Spec

variable {K : Type}

/-- Vertex `v`, kinetic or infinite, is at `p` at time `now`. -/
def At [Field K] (s : St K) (now : K) (v : VId) (p : Pt K) : Prop :=
  v < s.nV ∧ (s.vert v = .inf p ∨ Place s now v p)

/-- Twice the area of the triangle `a`, `b`, `c`, positive when these turn left. -/
def leftTurn [Field K] (a b c : Pt K) : K := (b.1 - a.1) * (c.2 - a.2) - (b.2 - a.2) * (c.1 - a.1)

/-- Vertex `v` moves with velocity `u` (infinite vertices stay). -/
def Moves [Field K] (s : St K) (v : VId) (u : Pt K) : Prop :=
  match s.vert v with
  | .inf _ => u = (0, 0)
  | .kin k => u = k.velocity

/-- Vertex `b`, the end of the side from `a` to `b`, does not move to the right of this side (up to the tolerance of
`near_zero`). -/
def KeepsLeft [Field K] [LinearOrder K] (s : St K) (now : K) (a b : VId) : Prop :=
  ∃ p q u, At s now a p ∧ At s now b q ∧ Moves s b u ∧ -(1 / 10 ^ 10) ≤ leftTurn p q (q.1 + u.1, q.2 + u.2)

/-- The corners of triangle `t` turn left, those of a triangle with an infinite corner turn right (up to the tolerance of
`near_zero`). -/
def Turns [Field K] [LinearOrder K] (s : St K) (now : K) (t : TId) : Prop :=
  ∃ p : Fin 3 → Pt K, (∀ i, At s now ((s.tri t).vertices i) (p i)) ∧
    ((∀ i, Kinetic s ((s.tri t).vertices i)) → -(1 / 10 ^ 10) ≤ leftTurn (p 0) (p 1) (p 2)) ∧
    (¬ (∀ i, Kinetic s ((s.tri t).vertices i)) → leftTurn (p 0) (p 1) (p 2) ≤ 1 / 10 ^ 10)

end Grassfire.Spec
