/-
Properties C03, C04, C17, C18, C19, C20: sieves and collapse times (collapse.py).
-/
import Verif.Proofs.CollapseLemmas
import Verif.Proofs.Line2dLemmas
import Verif.Spec.Geometry
import Verif.Spec.RatSqrt
import Mathlib.Tactic.LinearCombination
import Mathlib.Tactic.Positivity
import Mathlib.Tactic.NormNum

set_option linter.unusedSectionVars false

namespace Grassfire

open Spec

/-! ### C03, C04 -/

/-- C03: `find_gte(a, x)` returns the least number of the list that is `>= x`, and
`None` exactly when there is none; `None` entries are ignored.  Comparison only:
valid for any linear order, including non-NaN floats. -/
theorem C03_find_gte {α : Type} [LinearOrder α] (a : List (Option α)) (x : α) :
    (∀ t, findGte a x = some t ↔
      (some t ∈ a ∧ x ≤ t ∧ ∀ u, some u ∈ a → x ≤ u → t ≤ u)) ∧
    (findGte a x = none ↔ ∀ u, some u ∈ a → u < x) := by
  have hn : findGte a x = none → ∀ u, some u ∈ a → u < x := findGte_none a x
  constructor
  · intro t
    refine ⟨findGte_some a x t, ?_⟩
    rintro ⟨h1, h2, h3⟩
    cases h : findGte a x with
    | none => exact absurd (hn h t h1) (not_lt.mpr h2)
    | some u =>
      obtain ⟨g1, g2, g3⟩ := findGte_some a x u h
      rw [le_antisymm (g3 t h1 h2) (h3 u g1 g2)]
  · refine ⟨hn, ?_⟩
    intro h
    cases h' : findGte a x with
    | none => rfl
    | some u =>
      obtain ⟨g1, g2, _⟩ := findGte_some a x u h'
      exact absurd (h u g1) (not_lt.mpr g2)

example : findGte [some (3 : ℚ), none, some 1, some 2, some 2] 2 = some 2 := by decide +kernel

variable {K : Type} [Field K] [LinearOrder K] [IsStrictOrderedRing K]

/-- C04: `find_gt(a, x)` returns the least number of the list that exceeds `x` by
more than `1e-10`, and `None` exactly when there is none. -/
theorem C04_find_gt (a : List (Option K)) (x : K) :
    (∀ t, findGt a x = some t ↔
      (some t ∈ a ∧ x + 1 / 10 ^ 10 < t ∧ ∀ u, some u ∈ a → x + 1 / 10 ^ 10 < u → t ≤ u)) ∧
    (findGt a x = none ↔ ∀ u, some u ∈ a → u ≤ x + 1 / 10 ^ 10) := by
  have key : ∀ u : K, (x < u ∧ 1 / 10 ^ 10 < |u - x|) ↔ x + 1 / 10 ^ 10 < u := by
    intro u
    constructor
    · rintro ⟨h1, h2⟩
      rw [abs_of_pos (by linarith)] at h2
      linarith
    · intro h
      have h10 : (0 : K) < 1 / 10 ^ 10 := by positivity
      have h1 : x < u := by linarith
      refine ⟨h1, ?_⟩
      rw [abs_of_pos (by linarith)]
      linarith
  have hs : ∀ t, findGt a x = some t →
      (some t ∈ a ∧ x + 1 / 10 ^ 10 < t ∧ ∀ u, some u ∈ a → x + 1 / 10 ^ 10 < u → t ≤ u) := by
    intro t h
    obtain ⟨g1, g2, g3, g4⟩ := findGt_some a x t h
    refine ⟨g1, (key t).mp ⟨g2, g3⟩, ?_⟩
    intro u hu hux
    exact g4 u hu ((key u).mpr hux).1 ((key u).mpr hux).2
  have hn : findGt a x = none → ∀ u, some u ∈ a → u ≤ x + 1 / 10 ^ 10 := by
    intro h u hu
    by_contra hc
    rw [not_le] at hc
    obtain ⟨k1, k2⟩ := (key u).mpr hc
    exact absurd (findGt_none a x h u hu k1) (not_le.mpr k2)
  constructor
  · intro t
    refine ⟨hs t, ?_⟩
    rintro ⟨h1, h2, h3⟩
    cases h : findGt a x with
    | none => exact absurd (hn h t h1) (not_le.mpr h2)
    | some u =>
      obtain ⟨g1, g2, g3⟩ := hs u h
      rw [le_antisymm (g3 t h1 h2) (h3 u g1 g2)]
  · refine ⟨hn, ?_⟩
    intro h
    cases h' : findGt a x with
    | none => rfl
    | some u =>
      obtain ⟨g1, g2, _⟩ := hs u h'
      exact absurd (h u g1) (not_le.mpr g2)

example : findGt [some (1 : ℚ), none, some (1 + 1 / 10 ^ 11), some 3, some 2] 1 = some 2 := by
  decide +kernel

/-! ### C17 -/

/-- The vertex moves uniformly from `origin` with `velocity`: an ordinary kinetic
vertex, or an infinite / infinitely fast vertex, which have velocity zero and stay
where they are (primitives.py:221, events/lib.py:209-211). -/
def Uniform (v : VView K) : Prop :=
  (v.kinetic = true ∧ v.infFast = false) ∨
  (v.velocity = (0, 0) ∧ (v.kinetic = false ∨ v.startPos = some v.origin))

/-- the position of a uniformly moving vertex -/
theorem C17_position (v : VView K) (h : Uniform v) (t : K) :
    v.positionAt t = .ok (move v.origin v.velocity t) := by
  unfold VView.positionAt move
  rcases h with ⟨h1, h2⟩ | ⟨h1, h2⟩
  · simp [h1, h2]
  · rcases h2 with h2 | h2
    · simp [h1, h2]
    · simp only [h1, h2, mul_zero, add_zero, Prod.mk.eta]
      split_ifs <;> rfl

/-- C17: `area_collapse_time_coeff` returns the coefficients of the quadratic in `t`
that is twice the signed area of the triangle at time `t`, for every `t`. -/
theorem C17_area_quadratic (a b c : VView K) (ha : Uniform a) (hb : Uniform b) (hc : Uniform c)
    (t : K) (pa pb pc : Pt K) (ea : a.positionAt t = .ok pa) (eb : b.positionAt t = .ok pb)
    (ec : c.positionAt t = .ok pc) :
    let (A, B, C) := areaCollapseTimeCoeff a b c
    A * t ^ 2 + B * t + C = area2 pa pb pc := by
  rw [C17_position a ha, Except.ok.injEq] at ea
  rw [C17_position b hb, Except.ok.injEq] at eb
  rw [C17_position c hc, Except.ok.injEq] at ec
  subst ea eb ec
  simp only [areaCollapseTimeCoeff, area2, move]
  ring

/-- a kinetic vertex for examples -/
def exV (ox oy vx vy : ℚ) : VView ℚ := ⟨true, (ox, oy), (vx, vy), false, none, none, none⟩

example : areaCollapseTimeCoeff (exV 0 0 1 1) (exV 4 0 (-1) 1) (exV 0 3 0 (-2)) = (6, -18, 12) ∧
    (exV 0 0 1 1).positionAt 1 = .ok (1, 1) ∧ Uniform (exV 0 0 1 1) :=
  ⟨by decide +kernel, by decide +kernel, Or.inl ⟨rfl, rfl⟩⟩

/-! ### C18 -/

section C18
variable [HasSqrt K] [SqrtLaws K]

/-- C18: the roots come in strictly ascending order, at most two. -/
theorem C18_ascending (A B C : K) :
    (solveQuadratic A B C).Pairwise (· < ·) ∧ (solveQuadratic A B C).length ≤ 2 := by
  unfold solveQuadratic
  simp only
  split_ifs with h1 h2 h3 h4
  · simp
  · simp
  · simp
  · simp
  · refine ⟨?_, by simp⟩
    have hp := sqrt_pos_K (1 / 4 * (-B / A) ^ 2 - C / A) (by
      rcases lt_or_eq_of_le (not_lt.mp h4) with h | h
      · exact h
      · exfalso; rw [← h, nearZero_zero] at h3; exact h3 rfl)
    simp only [List.pairwise_cons, List.mem_singleton, forall_eq, List.not_mem_nil,
      IsEmpty.forall_iff, implies_true, List.Pairwise.nil, and_true]
    linarith

/-- C18: outside the tolerance the result is exactly the set of real roots: a
genuine quadratic (`|A| > 1e-10`) whose reduced discriminant `B^2/4A^2 - C/A` is
more than `1e-10` away from zero. -/
theorem C18_exact (A B C : K) (hA : 1 / 10 ^ 10 < |A|)
    (hD : 1 / 10 ^ 10 < |(B / (2 * A)) ^ 2 - C / A|) (x : K) :
    x ∈ solveQuadratic A B C ↔ A * x ^ 2 + B * x + C = 0 := by
  have hA0 : A ≠ 0 := by
    rintro rfl; rw [abs_zero] at hA
    exact absurd hA (not_lt.mpr (by positivity))
  have hAn : nearZero A = false := (nearZero_false_iff A).mpr hA
  have hu : (1 / 4 * (-B / A) ^ 2 - C / A) = (B / (2 * A)) ^ 2 - C / A := by
    field_simp; ring
  have hDn : nearZero (1 / 4 * (-B / A) ^ 2 - C / A) = false := by
    rw [hu]; exact (nearZero_false_iff _).mpr hD
  have hquad : A * x ^ 2 + B * x + C =
      A * ((x - -B / A * (1 / 2)) ^ 2 - (1 / 4 * (-B / A) ^ 2 - C / A)) := by
    field_simp; ring
  unfold solveQuadratic
  simp only [hAn, hDn, Bool.false_and, Bool.false_eq_true, if_false]
  obtain ⟨U, hU⟩ : ∃ U, U = 1 / 4 * (-B / A) ^ 2 - C / A := ⟨_, rfl⟩
  obtain ⟨c, hc⟩ : ∃ c, c = -B / A * (1 / 2) := ⟨_, rfl⟩
  rw [hquad, ← hU, ← hc, mul_eq_zero, or_iff_right hA0]
  split_ifs with h
  · constructor
    · intro hx; simp at hx
    · intro hx
      have := sq_nonneg (x - c)
      linarith
  · have hU0 : 0 ≤ U := not_lt.mp h
    have hs := SqrtLaws.sqrt_mul_self U hU0
    simp only [List.mem_cons, List.not_mem_nil, or_false]
    constructor
    · rintro (rfl | rfl)
      · linear_combination hs
      · linear_combination hs
    · intro hx
      have : (x - (c - HasSqrt.sqrt U)) * (x - (c + HasSqrt.sqrt U)) = 0 := by
        linear_combination hx - hs
      rcases mul_eq_zero.mp this with h' | h'
      · left; linarith
      · right; linarith

/-- C18: in the tolerance band of the discriminant exactly one value is returned,
with residual at most `|A| * 1e-10`. -/
theorem C18_double_root (A B C : K) (hA : 1 / 10 ^ 10 < |A|)
    (hD : |(B / (2 * A)) ^ 2 - C / A| ≤ 1 / 10 ^ 10) :
    ∃ x, solveQuadratic A B C = [x] ∧ |A * x ^ 2 + B * x + C| ≤ |A| * (1 / 10 ^ 10) := by
  have hA0 : A ≠ 0 := by
    rintro rfl; rw [abs_zero] at hA
    exact absurd hA (not_lt.mpr (by positivity))
  have hAn : nearZero A = false := (nearZero_false_iff A).mpr hA
  have hu : (1 / 4 * (-B / A) ^ 2 - C / A) = (B / (2 * A)) ^ 2 - C / A := by
    field_simp; ring
  have hDn : nearZero (1 / 4 * (-B / A) ^ 2 - C / A) = true := by
    rw [hu]; exact (nearZero_iff _).mpr hD
  refine ⟨-B / A * (1 / 2), ?_, ?_⟩
  · unfold solveQuadratic
    simp only [hAn, hDn, Bool.false_and, Bool.false_eq_true, if_false, if_true]
  · have : A * (-B / A * (1 / 2)) ^ 2 + B * (-B / A * (1 / 2)) + C =
        -(A * ((B / (2 * A)) ^ 2 - C / A)) := by
      field_simp; ring
    rw [this, abs_neg, abs_mul]
    exact mul_le_mul_of_nonneg_left hD (abs_nonneg A)

/-- C18: with a negligible leading coefficient the linear equation is solved; the
residual of the quadratic is the dropped term `A x^2`.  With both coefficients
negligible nothing is returned. -/
theorem C18_linear (A B C : K) (hA : |A| ≤ 1 / 10 ^ 10) :
    (1 / 10 ^ 10 < |B| → ∃ x, solveQuadratic A B C = [x] ∧ B * x + C = 0 ∧
      A * x ^ 2 + B * x + C = A * x ^ 2) ∧
    (|B| ≤ 1 / 10 ^ 10 → solveQuadratic A B C = []) := by
  have hAn : nearZero A = true := (nearZero_iff A).mpr hA
  constructor
  · intro hB
    have hB0 : B ≠ 0 := by
      rintro rfl; rw [abs_zero] at hB
      exact absurd hB (not_lt.mpr (by positivity))
    have hBn : nearZero B = false := (nearZero_false_iff B).mpr hB
    refine ⟨-C / B, ?_, ?_, ?_⟩
    · unfold solveQuadratic; simp [hAn, hBn]
    · field_simp; ring
    · field_simp; ring
  · intro hB
    have hBn : nearZero B = true := (nearZero_iff B).mpr hB
    unfold solveQuadratic; simp [hAn, hBn]

end C18

/-- C18, a case in the band: `x^2 + 1e-11` has no real root, yet 0 is returned. -/
theorem C18_band_invents_root :
    solveQuadratic (1 : ℚ) 0 (1 / 10 ^ 11) = [0] ∧ ∀ x : ℚ, 1 * x ^ 2 + 0 * x + 1 / 10 ^ 11 ≠ 0 := by
  constructor
  · decide +kernel
  · intro x
    have := sq_nonneg x
    have h : (0 : ℚ) < 1 / 10 ^ 11 := by norm_num
    linarith

example : (1 : ℝ) / 10 ^ 10 < |(6 : ℝ)| ∧
    (1 : ℝ) / 10 ^ 10 < |((-18 : ℝ) / (2 * 6)) ^ 2 - 12 / 6| := by
  constructor <;> rw [abs_of_pos] <;> norm_num

example : solveQuadratic (6 : ℚ) (-18) 12 = [1, 2] := by decide +kernel

/-! ### C19 -/

/-- squared distance of two vertices -/
theorem dist2_uniform (v w : VView K) (hv : Uniform v) (hw : Uniform w) (t : K) :
    v.distance2At w t = .ok (distSq (move v.origin v.velocity t) (move w.origin w.velocity t)) := by
  unfold VView.distance2At
  rw [C17_position v hv, C17_position w hw]
  rfl

/-- C19: if the relative speed is not negligible, `collapse_time_edge` is a time at
which the distance of the two vertices is minimal among all times. -/
theorem C19_closest_approach (v w : VView K) (hv : Uniform v) (hw : Uniform w)
    (hd : 1 / 10 ^ 10 < distSq v.velocity w.velocity) (t d d0 : K)
    (e : v.distance2At w t = .ok d) (e0 : v.distance2At w (collapseTimeEdge v w) = .ok d0) :
    d0 ≤ d := by
  rw [dist2_uniform v w hv hw, Except.ok.injEq] at e e0
  subst e e0
  have hn : nearZero (dot2 (sub2 v.velocity w.velocity) (sub2 v.velocity w.velocity)) = false := by
    rw [nearZero_false_iff]
    refine lt_of_lt_of_le hd (le_trans (le_of_eq ?_) (le_abs_self _))
    simp only [distSq, dot2, sub2]; ring
  unfold collapseTimeEdge
  simp only [hn, if_true]
  obtain ⟨D, hD⟩ : ∃ D, D = dot2 (sub2 v.velocity w.velocity) (sub2 v.velocity w.velocity) :=
    ⟨_, rfl⟩
  obtain ⟨N, hN⟩ : ∃ N, N = dot2 (sub2 v.velocity w.velocity) (sub2 w.origin v.origin) := ⟨_, rfl⟩
  have hDpos : 0 < D := by
    have h10 : (0 : K) < 1 / 10 ^ 10 := by positivity
    have : distSq v.velocity w.velocity = D := by
      rw [hD]; simp only [distSq, dot2, sub2]; ring
    linarith
  rw [← hD, ← hN]
  have key : distSq (move v.origin v.velocity t) (move w.origin w.velocity t) -
      distSq (move v.origin v.velocity (N / D)) (move w.origin w.velocity (N / D)) =
      D * (t - N / D) ^ 2 := by
    have hND : D * (N / D) = N := by field_simp
    have e1 : ∀ t, distSq (move v.origin v.velocity t) (move w.origin w.velocity t) =
        D * t ^ 2 - 2 * N * t + distSq v.origin w.origin := by
      intro t
      rw [hD, hN]; simp only [distSq, dot2, sub2, move]; ring
    rw [e1, e1]
    linear_combination (2 * t - 2 * (N / D)) * hND
  have := mul_nonneg hDpos.le (sq_nonneg (t - N / D))
  linarith

/-- C19: it does not depend on the order of the arguments. -/
theorem C19_symmetric (v w : VView K) : collapseTimeEdge v w = collapseTimeEdge w v := by
  have h1 : dot2 (sub2 v.velocity w.velocity) (sub2 v.velocity w.velocity) =
      dot2 (sub2 w.velocity v.velocity) (sub2 w.velocity v.velocity) := by
    simp only [dot2, sub2]; ring
  have h2 : dot2 (sub2 v.velocity w.velocity) (sub2 w.origin v.origin) =
      dot2 (sub2 w.velocity v.velocity) (sub2 v.origin w.origin) := by
    simp only [dot2, sub2]; ring
  unfold collapseTimeEdge
  simp only [h1, h2]

/-- C19: if the two vertices ever meet (and their relative speed is not negligible),
it is the only meeting time. -/
theorem C19_meeting_time (v w : VView K) (hv : Uniform v) (hw : Uniform w)
    (hd : 1 / 10 ^ 10 < distSq v.velocity w.velocity) (t : K) (p : Pt K)
    (e1 : v.positionAt t = .ok p) (e2 : w.positionAt t = .ok p) :
    collapseTimeEdge v w = t := by
  rw [C17_position v hv, Except.ok.injEq] at e1
  rw [C17_position w hw, Except.ok.injEq] at e2
  have hn : nearZero (dot2 (sub2 v.velocity w.velocity) (sub2 v.velocity w.velocity)) = false := by
    rw [nearZero_false_iff]
    refine lt_of_lt_of_le hd (le_trans (le_of_eq ?_) (le_abs_self _))
    simp only [distSq, dot2, sub2]; ring
  unfold collapseTimeEdge
  simp only [hn, if_true]
  have hx := congrArg Prod.fst (e1.trans e2.symm)
  have hy := congrArg Prod.snd (e1.trans e2.symm)
  simp only [move] at hx hy
  have h10 : (0 : K) < 1 / 10 ^ 10 := by positivity
  have hpos : 0 < dot2 (sub2 v.velocity w.velocity) (sub2 v.velocity w.velocity) := by
    have : distSq v.velocity w.velocity =
        dot2 (sub2 v.velocity w.velocity) (sub2 v.velocity w.velocity) := by
      simp only [distSq, dot2, sub2]; ring
    linarith
  rw [div_eq_iff hpos.ne']
  simp only [dot2, sub2]
  linear_combination (-(v.velocity.1 - w.velocity.1)) * hx - (v.velocity.2 - w.velocity.2) * hy

/-- C19: with negligible relative speed the answer is the time -1, which is before the
start of the simulation. -/
theorem C19_parallel (v w : VView K) (hd : distSq v.velocity w.velocity ≤ 1 / 10 ^ 10) :
    collapseTimeEdge v w = -1 := by
  have hn : nearZero (dot2 (sub2 v.velocity w.velocity) (sub2 v.velocity w.velocity)) = true := by
    rw [nearZero_iff, abs_of_nonneg]
    · refine le_trans (le_of_eq ?_) hd
      simp only [distSq, dot2, sub2]; ring
    · simp only [dot2, sub2]
      exact add_nonneg (mul_self_nonneg _) (mul_self_nonneg _)
  unfold collapseTimeEdge
  simp [hn]

example : collapseTimeEdge (exV 0 0 1 0) (exV 4 0 (-1) 0) = 2 := by decide +kernel
example : (1 : ℚ) / 10 ^ 10 < distSq (exV 0 0 1 0).velocity (exV 4 0 (-1) 0).velocity := by
  decide +kernel

/-! ### C20 -/

/-- C20: a returned crash time is the (only) time at which the apex is on the moving
support line of the edge. -/
theorem C20_crash_time [HasSqrt K] [SqrtUnit K] (org dst apx : VView K) (l : Line2 K)
    (hl : org.ur = some l) (hunit : l.w.1 ^ 2 + l.w.2 ^ 2 = 1)
    (hon : l.signedDistance org.origin = 0) (hapx : Uniform apx) (t : K)
    (h : vertexCrashTime org dst apx = .ok (some t)) (u : K) (p : Pt K) (lu : Line2 K)
    (hp : apx.positionAt u = .ok p) (hlu : l.atTime u = .ok lu) :
    lu.signedDistance p = 0 ↔ u = t := by
  rw [C17_position apx hapx, Except.ok.injEq] at hp
  rw [atTime_unit l u hunit, Except.ok.injEq] at hlu
  subst hp hlu
  unfold vertexCrashTime at h
  simp only [hl] at h
  cases hdu : dst.ul with
  | none => rw [hdu] at h; simp at h
  | some l2 =>
    rw [hdu] at h
    simp only at h
    split_ifs at h with h1 h2
    on_goal 2 => simp at h
    simp only [Except.ok.injEq, Option.some.injEq] at h
    have hden : 1 - dot2 apx.velocity l.w ≠ 0 := by
      intro e; rw [e, nearZero_zero] at h2; simp at h2
    rw [← h, eq_div_iff hden]
    simp only [Line2.signedDistance, dot2, sub2, move] at hon ⊢
    constructor
    · intro e; linear_combination hon - e
    · intro e; linear_combination hon - e

/-- C20: when `None` is returned the apex keeps its distance to the moving line up to a
rate of `1e-10`. -/
theorem C20_no_crash [HasSqrt K] [SqrtUnit K] (org dst apx : VView K) (l : Line2 K)
    (hl : org.ur = some l) (hunit : l.w.1 ^ 2 + l.w.2 ^ 2 = 1) (hapx : Uniform apx)
    (h : vertexCrashTime org dst apx = .ok none) (u : K) (p : Pt K) (lu : Line2 K)
    (hp : apx.positionAt u = .ok p) (hlu : l.atTime u = .ok lu) :
    |lu.signedDistance p - l.signedDistance apx.origin| ≤ |u| * (1 / 10 ^ 10) := by
  rw [C17_position apx hapx, Except.ok.injEq] at hp
  rw [atTime_unit l u hunit, Except.ok.injEq] at hlu
  subst hp hlu
  unfold vertexCrashTime at h
  simp only [hl] at h
  cases hdu : dst.ul with
  | none => rw [hdu] at h; simp at h
  | some l2 =>
    rw [hdu] at h
    simp only at h
    split_ifs at h with h1 h2
    on_goal 1 => simp at h
    have h2' : nearZero (1 - dot2 apx.velocity l.w) = true := by
      cases hz : nearZero (1 - dot2 apx.velocity l.w) with
      | true => rfl
      | false => exact absurd hz h2
    have h3 := (nearZero_iff _).mp h2'
    have : (⟨l.w, l.b - u⟩ : Line2 K).signedDistance (move apx.origin apx.velocity u) -
        l.signedDistance apx.origin = -(u * (1 - dot2 apx.velocity l.w)) := by
      simp only [Line2.signedDistance, dot2, move]; ring
    rw [this, abs_neg, abs_mul]
    exact mul_le_mul_of_nonneg_left h3 (abs_nonneg u)

/-- C20: the two end points of a wavefront edge must carry equal support lines. -/
theorem C20_different_lines (org dst apx : VView K) (l1 l2 : Line2 K) (h1 : org.ur = some l1)
    (h2 : dst.ul = some l2) :
    (∃ r, vertexCrashTime org dst apx = .ok r) ↔ l1 = l2 := by
  unfold vertexCrashTime
  simp only [h1, h2]
  by_cases h : l1 = l2
  · simp only [h, ne_eq, not_true, if_false, iff_true]
    split_ifs <;> exact ⟨_, rfl⟩
  · simp [h]

/-- C20: without support line the assertion fires. -/
theorem C20_no_line (org dst apx : VView K) (h1 : org.ur = none) :
    vertexCrashTime org dst apx = .error .assertionError := by
  unfold vertexCrashTime; simp [h1]

example : vertexCrashTime
    { exV 0 0 1 1 with ur := some ⟨(0, 1), 0⟩ } { exV 4 0 (-1) 1 with ul := some ⟨(0, 1), 0⟩ }
    (exV 2 6 0 (-1)) = .ok (some 3) := by decide +kernel

end Grassfire
