/-
Specification for C86: triangles of which collapse.py can tell what happens.
-/
import Verif.Spec.Meetings

namespace Grassfire.Spec

variable {K : Type} [Field K] [LinearOrder K]

/-- The motion of the triangle can be followed: no corner is infinitely fast, infinite vertices do not move, and sides
without neighbour are between kinetic vertices that share the line of the side. -/
structure Followable (T : TView K) : Prop where
  slow : ∀ i, (T.v i).infFast = false
  still : ∀ i, (T.v i).kinetic = false → (T.v i).velocity = (0, 0)
  front : ∀ i, T.noNeighbour i = true → (T.v (i + 1)).kinetic = true ∧ (T.v (i + 2)).kinetic = true ∧
    ∃ l, (T.v (i + 1)).ur = some l ∧ (T.v (i + 2)).ul = some l

variable [HasSqrt K]

/-- It is ambiguous what happens to the triangle, which has no wavefront edge and no infinite corner: all its sides are
(almost) zero at `now`; or some side vanishes later, at `x`, and then the number of sides that have vanished, by their
squared length, is not one and not three. -/
structure Ambiguous0 (T : TView K) (now : K) : Prop where
  inner : ∀ i, T.noNeighbour i = false
  sides : (∀ i, HasSqrt.sqrt (lengthSq T i now) ≤ 1 / 10 ^ 10) ∨
    ∃ x, now ≤ x ∧ (∃ i, HasSqrt.sqrt (lengthSq T i x) ≤ 1 / 10 ^ 10) ∧
      (∃ i, ¬ lengthSq T i x ≤ 1 / 10 ^ 10) ∧
      ∀ i, lengthSq T i x ≤ 1 / 10 ^ 10 → ∃ j, j ≠ i ∧ lengthSq T j x ≤ 1 / 10 ^ 10

/-- It is ambiguous what happens to the triangle, which has two wavefront edges and no infinite corner: at some time `x`
that is not before `now` there are two shortest sides, equally long within the tolerance, and a longer one. -/
structure Ambiguous2 (T : TView K) (now : K) : Prop where
  two : ∃ k, ∀ j, T.noNeighbour j = false ↔ j = k
  sides : ∃ x, now ≤ x ∧ ∃ i j k, i ≠ j ∧ j ≠ k ∧ k ≠ i ∧
    HasSqrt.sqrt (lengthSq T i x) ≤ HasSqrt.sqrt (lengthSq T j x) ∧
    HasSqrt.sqrt (lengthSq T j x) ≤ HasSqrt.sqrt (lengthSq T i x) + 1 / 10 ^ 10 ∧
    HasSqrt.sqrt (lengthSq T i x) + 1 / 10 ^ 10 < HasSqrt.sqrt (lengthSq T k x)

/-- It is ambiguous what happens to the triangle from `now` on. -/
structure Ambiguous (T : TView K) (now : K) : Prop where
  running : T.stopped = false
  finite : ∀ i, (T.v i).kinetic = true
  which : Ambiguous0 T now ∨ Ambiguous2 T now

end Grassfire.Spec
