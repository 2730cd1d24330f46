/-
The signed area of a moving triangle, for C76.
-/
import Verif.Props.Earliest
import Verif.Proofs.AreaLemmas
import Verif.Spec.Orientation

set_option linter.unusedSectionVars false

namespace Grassfire

open Spec

variable {K : Type} [Field K] [LinearOrder K] [IsStrictOrderedRing K]

/-- the signed length of side `i` along the wavefront of `l` -/
def sideLen (T : TView K) (i : Fin 3) (l : Line2 K) (u : K) : K :=
  ((cornerAt T (i + 2) u).1 - (cornerAt T (i + 1) u).1) * l.w.2 -
    ((cornerAt T (i + 2) u).2 - (cornerAt T (i + 1) u).2) * l.w.1

/-- the distance of corner `i` to the wavefront of `l` -/
def heightOf (T : TView K) (i : Fin 3) (l : Line2 K) (u : K) : K :=
  l.w.1 * (cornerAt T i u).1 + l.w.2 * (cornerAt T i u).2 + l.b - u

/-- the area does not depend on the corner that is taken first -/
theorem areaAt_turn (T : TView K) (i : Fin 3) (u : K) :
    areaAt T u = area2 (cornerAt T i u) (cornerAt T (i + 1) u) (cornerAt T (i + 2) u) := by
  unfold areaAt area2
  fin_cases i
  · rfl
  · show _ = ((cornerAt T 2 u).1 - (cornerAt T 1 u).1) * ((cornerAt T 0 u).2 - (cornerAt T 1 u).2) -
      ((cornerAt T 2 u).2 - (cornerAt T 1 u).2) * ((cornerAt T 0 u).1 - (cornerAt T 1 u).1)
    ring
  · show _ = ((cornerAt T 0 u).1 - (cornerAt T 2 u).1) * ((cornerAt T 1 u).2 - (cornerAt T 2 u).2) -
      ((cornerAt T 0 u).2 - (cornerAt T 2 u).2) * ((cornerAt T 1 u).1 - (cornerAt T 2 u).1)
    ring

theorem side_along {T : TView K} {i : Fin 3} {l : Line2 K} (h : Rides T i l) (u : K) :
    (cornerAt T (i + 2) u).1 - (cornerAt T (i + 1) u).1 = sideLen T i l u * l.w.2 ∧
    (cornerAt T (i + 2) u).2 - (cornerAt T (i + 1) u).2 = -(sideLen T i l u * l.w.1) := by
  obtain ⟨h1, h2⟩ := h.on u
  have hu := h.unit
  unfold AtDistance at h1 h2
  unfold sideLen
  generalize (cornerAt T (i + 2) u).1 = bx at *
  generalize (cornerAt T (i + 2) u).2 = by' at *
  generalize (cornerAt T (i + 1) u).1 = ax at *
  generalize (cornerAt T (i + 1) u).2 = ay at *
  have h0 : l.w.1 * (bx - ax) + l.w.2 * (by' - ay) = 0 := by linarith
  constructor
  · linear_combination -(bx - ax) * hu + l.w.1 * h0
  · linear_combination -(by' - ay) * hu + l.w.2 * h0

theorem sideLen_zero {T : TView K} {i : Fin 3} {l : Line2 K} (h : Rides T i l) {u : K} (h0 : sideLen T i l u = 0) :
    cornerAt T (i + 1) u = cornerAt T (i + 2) u := by
  obtain ⟨a, b⟩ := side_along h u
  rw [h0, zero_mul] at a b
  rw [neg_zero] at b
  exact Prod.ext (sub_eq_zero.1 a).symm (sub_eq_zero.1 b).symm

/-- one wavefront side: the area is the product of its length and the height -/
theorem areaAt_one {T : TView K} {i : Fin 3} {l : Line2 K} (h : Rides T i l) (u : K) :
    areaAt T u = sideLen T i l u * heightOf T i l u := by
  obtain ⟨a, b⟩ := side_along h u
  obtain ⟨h1, -⟩ := h.on u
  rw [areaAt_turn T i u]
  unfold AtDistance at h1
  unfold area2 heightOf
  generalize sideLen T i l u = c at *
  generalize (cornerAt T (i + 2) u).1 = bx at *
  generalize (cornerAt T (i + 2) u).2 = by' at *
  generalize (cornerAt T (i + 1) u).1 = ax at *
  generalize (cornerAt T (i + 1) u).2 = ay at *
  generalize (cornerAt T i u).1 = px at *
  generalize (cornerAt T i u).2 = py at *
  linear_combination (ay - py) * -a + (ax - px) * b - c * h1

/-- two wavefront sides: the area is the product of their lengths, up to a constant -/
theorem areaAt_two {T : TView K} {i : Fin 3} {l m : Line2 K} (h : Rides T (i + 1) l) (g : Rides T (i + 2) m) (u : K) :
    areaAt T u = sideLen T (i + 1) l u * sideLen T (i + 2) m u * (l.w.1 * m.w.2 - l.w.2 * m.w.1) := by
  obtain ⟨a, b⟩ := side_along h u
  obtain ⟨c, d⟩ := side_along g u
  rw [areaAt_turn T i u]
  have e1 : i + 1 + 2 = i := (by decide : ∀ x : Fin 3, x + 1 + 2 = x) i
  have e2 : i + 1 + 1 = i + 2 := (by decide : ∀ x : Fin 3, x + 1 + 1 = x + 2) i
  have e3 : i + 2 + 1 = i := (by decide : ∀ x : Fin 3, x + 2 + 1 = x) i
  have e4 : i + 2 + 2 = i + 1 := (by decide : ∀ x : Fin 3, x + 2 + 2 = x + 1) i
  rw [e1, e2] at a b
  rw [e3, e4] at c d
  unfold area2
  generalize sideLen T (i + 1) l u = p at *
  generalize sideLen T (i + 2) m u = q at *
  generalize (cornerAt T (i + 2) u).1 = bx at *
  generalize (cornerAt T (i + 2) u).2 = by' at *
  generalize (cornerAt T (i + 1) u).1 = ax at *
  generalize (cornerAt T (i + 1) u).2 = ay at *
  generalize (cornerAt T i u).1 = px at *
  generalize (cornerAt T i u).2 = py at *
  have a' : bx - px = -(p * l.w.2) := by linarith
  have b' : by' - py = p * l.w.1 := by linarith
  rw [a', b', c, d]
  ring

/-- the area is a polynomial of degree 2 -/
theorem areaAt_quadratic (T : TView K) : ∃ A B C : K, areaCollapseTimeCoeff (T.v 0) (T.v 1) (T.v 2) = (A, B, C) ∧
    ∀ x, A * x ^ 2 + B * x + C = areaAt T x := by
  refine ⟨_, _, _, rfl, fun x => ?_⟩
  unfold areaAt cornerAt
  simp only [area2, move]
  ring

/-- sides with ends of the same velocity do not change -/
theorem sideLen_const {T : TView K} {i : Fin 3} {l : Line2 K} (h : (T.v (i + 1)).velocity = (T.v (i + 2)).velocity)
    (x y : K) : sideLen T i l x = sideLen T i l y := by
  unfold sideLen cornerAt move
  rw [h]
  ring

theorem heightOf_const {T : TView K} {i : Fin 3} {l : Line2 K} (h : dot2 (T.v i).velocity l.w = 1)
    (x y : K) : heightOf T i l x = heightOf T i l y := by
  unfold heightOf cornerAt move
  unfold dot2 at h
  linear_combination (x - y) * h

theorem Spec.Rides.meet {T : TView K} {i : Fin 3} (hun : ∀ i, Uniform (T.v i)) {u : K}
    (h : cornerAt T (i + 1) u = cornerAt T (i + 2) u) : Meet (T.v (i + 1)) (T.v (i + 2)) u :=
  ⟨cornerAt T (i + 1) u, C17_position _ (hun _) u, by rw [h]; exact C17_position _ (hun _) u⟩

/-- the ends of a wavefront side meet at the time that `collapse_time_edge` returns -/
theorem Spec.Rides.edge_time {T : TView K} {i : Fin 3} {l : Line2 K} (h : Rides T i l)
    (hm : Moving (T.v (i + 1)) (T.v (i + 2))) :
    cornerAt T (i + 1) (collapseTimeEdge (T.v (i + 1)) (T.v (i + 2))) =
      cornerAt T (i + 2) (collapseTimeEdge (T.v (i + 1)) (T.v (i + 2))) := by
  obtain ⟨a0, b0⟩ := h.on 0
  obtain ⟨a1, b1⟩ := h.on 1
  have hu := h.unit
  have hd : nearZero (dot2 (sub2 (T.v (i + 1)).velocity (T.v (i + 2)).velocity)
      (sub2 (T.v (i + 1)).velocity (T.v (i + 2)).velocity)) = false := by
    rw [nearZero_false_iff]
    refine lt_of_lt_of_le hm (le_trans (le_of_eq ?_) (le_abs_self _))
    simp only [distSq, dot2, sub2]; ring
  have hne : dot2 (sub2 (T.v (i + 1)).velocity (T.v (i + 2)).velocity)
      (sub2 (T.v (i + 1)).velocity (T.v (i + 2)).velocity) ≠ 0 := by
    intro q
    rw [q] at hd
    rw [nearZero_zero] at hd
    cases hd
  unfold collapseTimeEdge
  dsimp only
  rw [if_pos hd]
  unfold AtDistance cornerAt move at *
  unfold dot2 sub2 at *
  dsimp only at *
  generalize (T.v (i + 2)).velocity.1 = vx at *
  generalize (T.v (i + 2)).velocity.2 = vy at *
  generalize (T.v (i + 1)).velocity.1 = ux at *
  generalize (T.v (i + 1)).velocity.2 = uy at *
  generalize (T.v (i + 2)).origin.1 = bx at *
  generalize (T.v (i + 2)).origin.2 = by' at *
  generalize (T.v (i + 1)).origin.1 = ax at *
  generalize (T.v (i + 1)).origin.2 = ay at *
  have hv : l.w.1 * (ux - vx) + l.w.2 * (uy - vy) = 0 := by linarith
  have ho : l.w.1 * (bx - ax) + l.w.2 * (by' - ay) = 0 := by linarith
  have hcross : (ux - vx) * (by' - ay) - (uy - vy) * (bx - ax) = 0 := by
    have h1 : l.w.1 * ((ux - vx) * (by' - ay) - (uy - vy) * (bx - ax)) = 0 := by
      linear_combination (by' - ay) * hv - (uy - vy) * ho
    have h2 : l.w.2 * ((ux - vx) * (by' - ay) - (uy - vy) * (bx - ax)) = 0 := by
      linear_combination -(bx - ax) * hv + (ux - vx) * ho
    linear_combination l.w.1 * h1 + l.w.2 * h2 - ((ux - vx) * (by' - ay) - (uy - vy) * (bx - ax)) * hu
  have hx : ((ux - vx) * (bx - ax) + (uy - vy) * (by' - ay)) / ((ux - vx) * (ux - vx) + (uy - vy) * (uy - vy)) *
      (ux - vx) = bx - ax := by
    rw [div_mul_eq_mul_div, div_eq_iff hne]
    linear_combination (uy - vy) * hcross
  have hy : ((ux - vx) * (bx - ax) + (uy - vy) * (by' - ay)) / ((ux - vx) * (ux - vx) + (uy - vy) * (uy - vy)) *
      (uy - vy) = by' - ay := by
    rw [div_mul_eq_mul_div, div_eq_iff hne]
    linear_combination -(ux - vx) * hcross
  refine Prod.ext ?_ ?_
  · dsimp only
    linear_combination hx
  · dsimp only
    linear_combination hy

end Grassfire
