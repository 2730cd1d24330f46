/-
Specification for C93: triangulations of one polygon, and how their sides are counted.
-/
import Mathlib.Data.Finset.Prod
import Verif.Spec.Forest
import Verif.Spec.Tree

namespace Grassfire.Spec

variable {K : Type}

/-- the number of sides with a neighbour, over all triangles of the skeleton that have not vanished (so that a side between
two triangles counts twice) -/
def innerSides (s : St K) : ℕ :=
  ((s.skTriangles.toFinset ×ˢ (Finset.univ : Finset (Fin 3))).filter fun a =>
    (s.tri a.1).stopsAt.isNone = true ∧ ((s.tri a.1).neighbours a.2).isSome = true).card

/-- triangle `u` is on the other side of an edge of triangle `t` that is not constrained -/
def DtBeside (dt : Dt K) (t u : TId) : Prop :=
  t < dt.nT ∧ u < dt.nT ∧ dt.internal t = true ∧ ∃ i, dt.neighbour t i = some u ∧ dt.constrained t i = false

/-- There is something inside, and it is in one piece: the triangles inside are connected by edges that are not
constrained. -/
def DtOnePiece (dt : Dt K) : Prop :=
  (∃ t < dt.nT, dt.internal t = true) ∧
  ∀ t < dt.nT, dt.internal t = true → ∀ u < dt.nT, dt.internal u = true → Relation.EqvGen (DtBeside dt) t u

/-- The boundary does not meet itself: of the constrained sides of the triangles inside, one starts at a vertex. -/
def DtOnce (dt : Dt K) : Prop :=
  ∀ t < dt.nT, dt.internal t = true → ∀ u < dt.nT, dt.internal u = true → ∀ i j,
    dt.constrained t i = true → dt.constrained u j = true → dt.corner t (i + 1) = dt.corner u (j + 1) → t = u ∧ i = j

/-- the number of constrained sides of the triangles inside: the number of corners of a polygon -/
def dtCorners (dt : Dt K) : ℕ :=
  ((Finset.range dt.nT ×ˢ (Finset.univ : Finset (Fin 3))).filter fun a =>
    dt.internal a.1 = true ∧ dt.constrained a.1 a.2 = true).card

end Grassfire.Spec
