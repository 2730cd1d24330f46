/-
Specification for C72: a part of the triangulation.
-/
import Verif.Spec.InitialMesh

namespace Grassfire.Spec

variable {K : Type}

/-- no neighbour pointer leads out of the triangles `S` -/
def Closed (S : TId → Prop) (s : St K) : Prop :=
  ∀ t i n, S t → (s.tri t).neighbours i = some n → S n

/-- `RegionatedTriangleIterator` reaches neighbours over edges that are not constrained at the same depth. -/
def DtRegions (dt : Dt K) : Prop :=
  ∀ t < dt.nT, ∀ i n, dt.neighbour t i = some n → n < dt.nT → dt.constrained t i = false → dt.internal n = dt.internal t

end Grassfire.Spec
