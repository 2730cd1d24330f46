/-
Specification for C71: the triangles of a region without holes.
-/
import Verif.Spec.Freshness
import Verif.Spec.Within

namespace Grassfire.Spec

variable {K : Type}

/-- the neighbours among the triangles `S` form a forest: the triangles can be ranked in such a way that each has at most
one neighbour (over one side) that does not rank higher -/
def Forest (S : TId → Prop) (s : St K) : Prop :=
  ∃ rank : TId → ℕ, ∀ t, S t → Live s t → ∀ i j n m, (s.tri t).neighbours i = some n → (s.tri t).neighbours j = some m →
    rank n ≤ rank t → rank m ≤ rank t → i = j

/-- `y` is the neighbour of triangle `x` over a side that has the end `v` -/
def Beside (s : St K) (v : VId) (x y : TId) : Prop :=
  Live s x ∧ ∃ i j, j ≠ i ∧ (s.tri x).vertices j = v ∧ (s.tri x).neighbours i = some y

/-- Connected triangles of `S` with a common corner are connected around this corner: in no part of the triangulation is a
vertex met twice when following the boundary. -/
def Round (S : TId → Prop) (s : St K) : Prop :=
  ∀ v x y, S x → S y → Live s x → Live s y → Connected s x y → (∃ i, (s.tri x).vertices i = v) →
    (∃ i, (s.tri y).vertices i = v) → Relation.ReflTransGen (Beside s v) x y

/-- the triangles `S` are those of regions without holes -/
structure NoHoles (S : TId → Prop) (s : St K) : Prop where
  closed : Closed S s
  forest : Forest S s
  round : Round S s

/-- The iteration of the loop that leads from `s` to `s'` by handling `e` is an ordinary one (see `Ordinary`), whatever the
triangles look like around the side that vanishes or is flipped. -/
structure Calm (s s' : St K) (e : Event K) : Prop where
  slow : ∀ v k, s.nV ≤ v → v < s'.nV → s'.vert v = .kin k → k.infFast = false
  three : e.tp = .edge → e.side.length = 3 → (s.tri e.tri).stopsAt = none → ∀ i n, (s.tri e.tri).neighbours i = some n → (s.tri n).event.isSome

/-- An execution (see `Execution`) that starts with a consistent triangulation, works on regions `S` without holes, and
whose iterations are calm. -/
structure RegionExecution [Field K] [LinearOrder K] [HasSqrt K] [HasTrig K] (S : TId → Prop) (depth : ℕ) (s0 : St K) (n : ℕ) (now : K)
    (s : St K) (tr : List (Event K × K)) : Prop where
  initial : Initial s0
  mesh : Mesh s0
  noHoles : NoHoles S s0
  skeleton : ∀ t ∈ s0.skTriangles, S t
  run : ∃ s1, initEventList s0 = .ok ((), s1) ∧ Run depth { s1 with immediate := [] } 0 n now s tr ∧
    ∀ m < n, ∀ x u tr' e x' u', Run depth { s1 with immediate := [] } 0 m x u tr' →
      loopStep depth (m + 1 : ℕ) x u = .ok (some (e, x'), u') → Calm u u' e

/-- the iterations of the loop from `s0` on are calm -/
def CalmIterations [Field K] [LinearOrder K] [HasSqrt K] [HasTrig K] (depth : ℕ) (s0 : St K) (n : ℕ) : Prop :=
  ∀ s1, initEventList s0 = .ok ((), s1) → ∀ m < n, ∀ x u tr' e x' u', Run depth { s1 with immediate := [] } 0 m x u tr' →
    loopStep depth (m + 1 : ℕ) x u = .ok (some (e, x'), u') → Calm u u' e

/-- Triangles inside have finite corners (those at the hull are outside). -/
def DtInside (dt : Dt K) : Prop :=
  ∀ t < dt.nT, dt.internal t = true → ∀ i v, dt.corner t i = some v → dt.finite v = true

/-- The polygons have no holes: the triangles inside, with the neighbours over edges that are not constrained, form a
forest. -/
def DtForest (dt : Dt K) : Prop :=
  ∃ rank : TId → ℕ, ∀ t < dt.nT, dt.internal t = true → ∀ i j n m, dt.neighbour t i = some n → dt.neighbour t j = some m →
    dt.constrained t i = false → dt.constrained t j = false → rank n ≤ rank t → rank m ≤ rank t → i = j

end Grassfire.Spec
