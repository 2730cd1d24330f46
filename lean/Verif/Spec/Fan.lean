/-
Specification of the fan of triangles around a vertex.
-/
import Verif.Events.Lib

namespace Grassfire.Spec

variable {K : Type}

/-- Starting at the triangle `t` and going around the vertex `v` from neighbour to neighbour
(in direction `dir`), one meets exactly the triangles in the list, and then a wavefront edge. -/
inductive FanWalk (dir : Dir) (v : VId) (tri : TId → KTri K) : Option TId → List TId → Prop where
  | stop : FanWalk dir v tri none []
  | step {t : TId} {i : Fin 3} {l : List TId} :
      (tri t).vertices i = v →
      FanWalk dir v tri ((tri t).neighbours (dir.fn i)) l →
      FanWalk dir v tri (some t) (t :: l)

/-- no triangle has two corners `v` -/
def Once (v : VId) (s : St K) : Prop :=
  ∀ t < s.nT, ∀ i j, (s.tri t).vertices i = v → (s.tri t).vertices j = v → i = j

/-- put `w` in the place of `v` -/
def substitute (v w : VId) (vs : Fin 3 → VId) : Fin 3 → VId :=
  fun i => if vs i = v then w else vs i

end Grassfire.Spec
