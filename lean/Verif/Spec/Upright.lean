/-
Specification for C77: no triangle is ever turned over.
-/
import Verif.Spec.Orientation
import Verif.Spec.Freshness
import Verif.Spec.Anchors
import Verif.Spec.Within
import Verif.Spec.Links

namespace Grassfire.Spec

variable {K : Type} [Field K] [LinearOrder K]

/-- Where vertex `v` is at time `u`; infinite vertices are nowhere. -/
def placeAt (s : St K) (v : VId) (u : K) : Option (Pt K) :=
  match s.vert v with
  | .kin k => some (pointAt k u)
  | .inf _ => none

/-- At time `u` the corners of triangle `t` are in counter-clockwise order or in line (nothing is claimed for triangles
with an infinite corner). -/
def UprightAt (s : St K) (t : TId) (u : K) : Prop :=
  ∀ a b c, placeAt s ((s.tri t).vertices 0) u = some a → placeAt s ((s.tri t).vertices 1) u = some b →
    placeAt s ((s.tri t).vertices 2) u = some c → 0 ≤ area2 a b c

/-- So are those of all triangles of `S` that have not been stopped. -/
def Upright (S : TId → Prop) (s : St K) (u : K) : Prop := ∀ t, S t → Live s t → UprightAt s t u

/-- At time `u` the corners of triangle `t` are in counter-clockwise order, or they are in line all the time. -/
def StrictlyAt (s : St K) (t : TId) (u : K) : Prop :=
  ∀ ka kb kc, s.vert ((s.tri t).vertices 0) = .kin ka → s.vert ((s.tri t).vertices 1) = .kin kb →
    s.vert ((s.tri t).vertices 2) = .kin kc → 0 < area2 (pointAt ka u) (pointAt kb u) (pointAt kc u) ∨
      ∀ x, area2 (pointAt ka x) (pointAt kb x) (pointAt kc x) = 0

/-- When `e` is a flip event, then the apex is on the side that is to be flipped. -/
def FlipOnSide (s : St K) (e : Event K) : Prop :=
  e.tp = .flip → ∀ i, e.side = [i] → ∃ a b c r, placeAt s ((s.tri e.tri).vertices i) e.time = some a ∧
    placeAt s ((s.tri e.tri).vertices (i + 1)) e.time = some b ∧
    placeAt s ((s.tri e.tri).vertices (i + 2)) e.time = some c ∧ 0 ≤ r ∧ r ≤ 1 ∧
    a = (b.1 + r * (c.1 - b.1), b.2 + r * (c.2 - b.2))

variable [HasSqrt K]

/-- The motion of triangle `t` is clear (see `ClearMotion`).  If `W`, then for a triangle that never had an event this is
asked for any number of its wavefront edges (see `Certified`). -/
def ClearTriangle (W : Prop) (s : St K) (t : TId) : Prop :=
  ∀ nb : Fin 3 → Bool, ((∀ i, nb i = (viewT s t).noNeighbour i) ∨
      W ∧ (s.tri t).event = none ∧ ∀ i, nb i = true → (viewT s t).noNeighbour i = true) →
    ClearMotion { viewT s t with noNeighbour := nb }

/-- An execution that is ordinary and exact, in which all motions are clear (whenever no event is to be handled at once),
all flips exact, and all events later than 1e-10, from a state with counter-clockwise triangles and without infinitely
fast vertices. -/
structure SteadyExecution [HasTrig K] (depth : ℕ) (s0 : St K) (n : ℕ) (now : K) (s : St K) (tr : List (Event K × K)) :
    Prop where
  ordinary : OrdinaryExecution depth s0 n now s tr
  exact : ExactExecution depth s0 n now s tr
  closed : Closed (· ∈ s0.skTriangles) s0
  slow : ∀ v k, v < s0.nV → s0.vert v = .kin k → k.infFast = false
  start : ∀ t ∈ s0.skTriangles, Live s0 t → ∀ x, 0 ≤ x → x ≤ 1 / 10 ^ 10 → ∀ a b c,
    placeAt s0 ((s0.tri t).vertices 0) x = some a → placeAt s0 ((s0.tri t).vertices 1) x = some b →
    placeAt s0 ((s0.tri t).vertices 2) x = some c → 0 < area2 a b c
  clear : ∀ s1, initEventList s0 = .ok ((), s1) → ∀ m ≤ n, ∀ x u tr', Run depth { s1 with immediate := [] } 0 m x u tr' →
    u.immediate = [] → ∀ t ∈ s0.skTriangles, Live u t → (∀ i, Kinetic u ((u.tri t).vertices i)) →
      ClearTriangle (¬ Tidy depth s0 n) u t
  events : ∀ s1, initEventList s0 = .ok ((), s1) → ∀ m < n, ∀ x u tr' e x' u',
    Run depth { s1 with immediate := [] } 0 m x u tr' → loopStep depth (m + 1 : ℕ) x u = .ok (some (e, x'), u') →
      ((u.tri e.tri).stopsAt = none → FlipOnSide u e) ∧ 1 / 10 ^ 10 < x'

end Grassfire.Spec
