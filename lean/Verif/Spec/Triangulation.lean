/-
What it means that triangles and their neighbour pointers form a triangulation.
Side `i` of a triangle is opposite of vertex `i` and runs from vertex `i + 1` to vertex
`i + 2` (counted modulo 3).
-/
import Verif.Primitives
import Mathlib.Logic.Relation

namespace Grassfire.Spec

variable {K : Type}

/-- Triangle `T` has a side from `a` to `b` and its neighbour there is `n` (`none`: the side is a
wavefront edge). -/
def HasSide (T : KTri K) (a b : VId) (n : Option TId) : Prop :=
  ∃ i : Fin 3, T.vertices (i + 1) = a ∧ T.vertices (i + 2) = b ∧ T.neighbours i = n

/-- The triangles in the set `P` form a consistent triangulation: the corners of a triangle are
different, neighbours are in `P` and have the same side in opposite direction with a pointer
back. -/
def Consistent (P : TId → Prop) (s : St K) : Prop :=
  ∀ t, P t → t < s.nT ∧ Function.Injective (s.tri t).vertices ∧
    ∀ a b n, HasSide (s.tri t) a b (some n) → P n ∧ HasSide (s.tri n) b a (some t)

/-- triangle `t` has not been stopped -/
def Live (s : St K) (t : TId) : Prop := t < s.nT ∧ (s.tri t).stopsAt = none

/-- The triangles that have not been stopped form a consistent triangulation.  (The corners of stopped triangles are
different, too, and all corners are vertices.) -/
structure Mesh (s : St K) : Prop where
  consistent : Consistent (Live s) s
  distinct : ∀ t < s.nT, Function.Injective (s.tri t).vertices
  vertices : ∀ t < s.nT, ∀ i, (s.tri t).vertices i < s.nV

/-- `y` is a neighbour of triangle `x`, which has not been stopped -/
def Adjacent (s : St K) (x y : TId) : Prop := Live s x ∧ ∃ i, (s.tri x).neighbours i = some y

/-- one gets from `x` to `y` by going from neighbour to neighbour -/
def Connected (s : St K) : TId → TId → Prop := Relation.ReflTransGen (Adjacent s)

/-- No triangle that is connected to `t`, but `t`, has both ends of side `e` of `t` as corners, except for the one
neighbour over this side; this one is not the neighbour over another side as well. -/
def Collapsible (s : St K) (t : TId) (e : Fin 3) : Prop :=
  ∀ x, Live s x → Connected s t x → (∃ i, (s.tri x).vertices i = (s.tri t).vertices (e + 1)) →
    (∃ i, (s.tri x).vertices i = (s.tri t).vertices (e + 2)) → x = t ∨
    (s.tri t).neighbours e = some x ∧ (s.tri t).neighbours (e + 1) ≠ some x ∧ (s.tri t).neighbours (e + 2) ≠ some x

/-- The neighbour over side `e` of `t` has another third corner than `t`. -/
def ProperSide (s : St K) (t : TId) (e : Fin 3) : Prop :=
  ∀ n, (s.tri t).neighbours e = some n → ∀ i, (s.tri n).vertices i ≠ (s.tri t).vertices e

/-- `T'` is `T` with the corners numbered differently, in the same circular order. -/
def Rotated (T T' : KTri K) : Prop :=
  ∃ k : Fin 3, ∀ i, T'.vertices (i + k) = T.vertices i ∧ T'.neighbours (i + k) = T.neighbours i

end Grassfire.Spec
