/-
Properties C45, C49 and C50: regression.py.
-/
import Verif.Regression
import Verif.Proofs.CalcLemmas
import Verif.Spec.RatSqrt
import Mathlib.Tactic.FieldSimp
import Mathlib.Tactic.LinearCombination
import Mathlib.Tactic.Positivity
import Mathlib.Algebra.Order.BigOperators.Group.List

set_option linter.unusedSectionVars false

namespace Grassfire

variable {K : Type} [Field K] [LinearOrder K] [IsStrictOrderedRing K]

/-- Specification: `v` is an eigenvector of the matrix `(a b; c d)` for the eigenvalue `l`. -/
def IsEigen (a b c d l : K) (v : Pt K) : Prop :=
  v ≠ (0, 0) ∧ a * v.1 + b * v.2 = l * v.1 ∧ c * v.1 + d * v.2 = l * v.2

section C45
variable [HasSqrt K] [SqrtLaws K]

/-- the computed values, before taking absolute values -/
theorem eig_ok (a b c d : K) (hd : 0 ≤ (a - d) ^ 2 + 4 * (b * c)) :
    ∃ l1 l2 : K, l1 + l2 = a + d ∧ l1 * l2 = a * d - b * c ∧ l2 ≤ l1 ∧
      eig2x2 a b c d = .ok ((|l1|, |l2|),
        if !nearZero c then ((l1 - d, c), (l2 - d, c))
        else if !nearZero b then ((b, l1 - a), (b, l2 - a))
        else ((1, 0), (0, 1))) := by
  have h0 : (0 : K) ≤ 1 / 4 * (a + d) ^ 2 - (a * d - b * c) := by
    have : 1 / 4 * (a + d) ^ 2 - (a * d - b * c) = 1 / 4 * ((a - d) ^ 2 + 4 * (b * c)) := by ring
    rw [this]; positivity
  have hs := SqrtLaws.sqrt_mul_self _ h0
  have hn := SqrtLaws.sqrt_nonneg _ h0
  set r := HasSqrt.sqrt (1 / 4 * (a + d) ^ 2 - (a * d - b * c)) with hr
  refine ⟨1 / 2 * (a + d) + r, 1 / 2 * (a + d) - r, by ring, ?_, by linarith, ?_⟩
  · linear_combination -hs
  · unfold eig2x2 psqrt
    dsimp only
    rw [max_eq_right h0, if_neg (not_lt.2 h0), ← hr]
    rfl

/-- C45: for a matrix with real, non-negative eigenvalues (non-negative trace and determinant) the
two eigenvalues are returned, the larger one first. -/
theorem C45_values (a b c d : K) (hd : 0 ≤ (a - d) ^ 2 + 4 * (b * c)) (ht : 0 ≤ a + d)
    (hdet : 0 ≤ a * d - b * c) :
    ∃ l1 l2 v, eig2x2 a b c d = .ok ((l1, l2), v) ∧ l2 ≤ l1 ∧ 0 ≤ l2 ∧
      ∀ l : K, (a - l) * (d - l) - b * c = 0 ↔ l = l1 ∨ l = l2 := by
  obtain ⟨l1, l2, h1, h2, h3, h4⟩ := eig_ok a b c d hd
  have hl2 : 0 ≤ l2 := by
    by_contra hneg
    push Not at hneg
    have hl1 : 0 < l1 := by linarith
    have : l1 * l2 < 0 := mul_neg_of_pos_of_neg hl1 hneg
    linarith
  have hl1 : 0 ≤ l1 := hl2.trans h3
  rw [abs_of_nonneg hl1, abs_of_nonneg hl2] at h4
  refine ⟨l1, l2, _, h4, h3, hl2, fun l => ?_⟩
  have : (a - l) * (d - l) - b * c = (l - l1) * (l - l2) := by
    linear_combination l * h1 - h2
  rw [this, mul_eq_zero, sub_eq_zero, sub_eq_zero]

/-- C45, the part that holds for the vectors: with an off-diagonal entry that is not negligible, the
returned vectors are eigenvectors for the returned eigenvalues, in the same order.  Missing: a
diagonal matrix whose second entry is the larger one (`C45_diagonal_swapped`), and
off-diagonal entries that are negligible but not zero. -/
theorem C45_vectors_partial (a b c d : K) (hd : 0 ≤ (a - d) ^ 2 + 4 * (b * c)) (ht : 0 ≤ a + d)
    (hdet : 0 ≤ a * d - b * c)
    (h : nearZero c = false ∨ (c = 0 ∧ nearZero b = false) ∨ (c = 0 ∧ b = 0 ∧ d ≤ a)) :
    ∃ l1 l2 v1 v2, eig2x2 a b c d = .ok ((l1, l2), (v1, v2)) ∧
      IsEigen a b c d l1 v1 ∧ IsEigen a b c d l2 v2 := by
  obtain ⟨l1, l2, h1, h2, h3, h4⟩ := eig_ok a b c d hd
  have hl2 : 0 ≤ l2 := by
    by_contra hneg
    push Not at hneg
    have hl1 : 0 < l1 := by linarith
    have : l1 * l2 < 0 := mul_neg_of_pos_of_neg hl1 hneg
    linarith
  have hl1 : 0 ≤ l1 := hl2.trans h3
  rw [abs_of_nonneg hl1, abs_of_nonneg hl2] at h4
  have nz0 : nearZero (0 : K) = true := (nearZero_iff 0).2 (by simp)
  have nz : ∀ x : K, nearZero x = false → x ≠ 0 := by
    rintro x hx rfl
    rw [nz0] at hx
    cases hx
  have e1 : l1 * l1 = (a + d) * l1 - (a * d - b * c) := by linear_combination l1 * h1 - h2
  have e2 : l2 * l2 = (a + d) * l2 - (a * d - b * c) := by linear_combination l2 * h1 - h2
  rcases h with hc | ⟨rfl, hb⟩ | ⟨rfl, rfl, hda⟩
  · rw [hc] at h4
    refine ⟨_, _, _, _, h4, ⟨?_, ?_, ?_⟩, ⟨?_, ?_, ?_⟩⟩
    · intro he; exact nz c hc (Prod.mk.inj he).2
    · dsimp only; linear_combination -e1
    · dsimp only; ring
    · intro he; exact nz c hc (Prod.mk.inj he).2
    · dsimp only; linear_combination -e2
    · dsimp only; ring
  · rw [nz0, hb] at h4
    refine ⟨_, _, _, _, h4, ⟨?_, ?_, ?_⟩, ⟨?_, ?_, ?_⟩⟩
    · intro he; exact nz b hb (Prod.mk.inj he).1
    · dsimp only; ring
    · dsimp only; linear_combination -e1
    · intro he; exact nz b hb (Prod.mk.inj he).1
    · dsimp only; ring
    · dsimp only; linear_combination -e2
  · rw [nz0] at h4
    have : l1 = a ∧ l2 = d := by
      have hp : (l1 - a) * (l1 - d) = 0 := by linear_combination e1
      rcases mul_eq_zero.1 hp with hp | hp
      · exact ⟨by linarith, by linarith⟩
      · exact ⟨by linarith, by linarith⟩
    obtain ⟨rfl, rfl⟩ := this
    refine ⟨_, _, _, _, h4, ⟨?_, ?_, ?_⟩, ⟨?_, ?_, ?_⟩⟩
    · intro he; exact one_ne_zero (Prod.mk.inj he).1
    · simp
    · simp
    · intro he; exact one_ne_zero (Prod.mk.inj he).2
    · simp
    · simp

/-- C45, negation: for every diagonal matrix whose second entry is the larger one, the vectors come
in the wrong order: neither belongs to the eigenvalue at its place. -/
theorem C45_diagonal_swapped (a d : K) (ha : 0 ≤ a) (had : a < d) :
    eig2x2 a 0 0 d = .ok ((d, a), ((1, 0), (0, 1))) ∧
    ¬ IsEigen a 0 0 d d (1, 0) ∧ ¬ IsEigen a 0 0 d a (0, 1) := by
  have nz0 : nearZero (0 : K) = true := (nearZero_iff 0).2 (by simp)
  obtain ⟨l1, l2, h1, h2, h3, h4⟩ := eig_ok a 0 0 d (by positivity)
  have : l1 = d ∧ l2 = a := by
    have hp : (l1 - a) * (l1 - d) = 0 := by linear_combination l1 * h1 - h2
    rcases mul_eq_zero.1 hp with hp | hp
    · exact ⟨by linarith, by linarith⟩
    · exact ⟨by linarith, by linarith⟩
  obtain ⟨rfl, rfl⟩ := this
  rw [abs_of_nonneg ha, abs_of_nonneg (ha.trans had.le), nz0] at h4
  refine ⟨h4, ?_, ?_⟩
  · rintro ⟨_, h, _⟩; simp at h; exact had.ne h
  · rintro ⟨_, _, h⟩; simp at h; exact had.ne h.symm

/-- C45, negation: with a negative eigenvalue a number is returned that is not an eigenvalue. -/
theorem C45_negative : ∃ v, eig2x2 (-1 : K) 0 0 (-1) = .ok ((1, 1), v) ∧
    ((-1 : K) - 1) * (-1 - 1) - 0 * 0 ≠ 0 := by
  obtain ⟨l1, l2, h1, h2, h3, h4⟩ := eig_ok (-1 : K) 0 0 (-1) (by norm_num)
  have hp : (l1 + 1) * (l1 + 1) = 0 := by linear_combination l1 * h1 - h2
  have hl1 : l1 = -1 := by
    rcases mul_eq_zero.1 hp with hp | hp <;> linarith
  have hl2 : l2 = -1 := by linarith
  subst hl1 hl2
  refine ⟨_, by rw [h4]; simp only [abs_neg, abs_one]; rfl, by norm_num⟩

/-- The hypotheses of the theorems are met: eigenvalues 4 and 1. -/
example : eig2x2 (2 : ℚ) 1 2 3 = .ok ((4, 1), ((1, 2), (-2, 2))) := by decide +kernel

end C45

/-! ### C49 -/

/-- C49: under python 3 the regression never delivers a result: ValueError without points, TypeError
(a `map` object has no length) for all other inputs. -/
theorem C49_regress_fails [HasSqrt K] (pts : List (Pt K)) :
    regress pts = .error (if pts = [] then .valueError else .typeError) ∧
    areResidualsNearZero pts = .error (if pts = [] then .valueError else .typeError) := by
  have key : regress pts = .error (if pts = [] then .valueError else .typeError) := by
    cases pts with
    | nil => rfl
    | cons p ps =>
      have hm : ∀ l : List K, l ≠ [] → ∃ m, mean (.list l) = .ok m := by
        intro l hl
        have h0 : (l.length : K) ≠ 0 := by
          rw [Nat.cast_ne_zero]; exact fun h => hl (List.length_eq_zero_iff.1 h)
        refine ⟨l.sum / l.length, ?_⟩
        unfold mean generalisedSum
        have : l.length ≠ 0 := fun h => hl (List.length_eq_zero_iff.1 h)
        simp [Seq.len, Seq.items, bind, Except.bind, pure, Except.pure, hl, pdiv]
      obtain ⟨m1, h1⟩ := hm ((p :: ps).map (·.1)) (by simp)
      obtain ⟨m2, h2⟩ := hm ((p :: ps).map (·.2)) (by simp)
      unfold regress splitXY adjust
      simp only [List.length_map, if_true, h1, h2, bind, Except.bind, pure, Except.pure]
      rfl
  refine ⟨key, ?_⟩
  unfold areResidualsNearZero
  rw [key]
  rfl

/-- C49: neither do the covariances: whatever data are given, a `zip` object has no length. -/
theorem C49_covariance_fails (xs ys : List K) (mx my : Option K) :
    (∃ e, cov (.list xs) (.list ys) mx my = .error e) ∧
    (∃ e, pcov (.list xs) (.list ys) mx my = .error e) := by
  have key : ∃ e, sumProducts (.list xs) mx (.list ys) my = .error e := by
    unfold sumProducts
    cases orMean (.list xs) mx with
    | error e => exact ⟨e, rfl⟩
    | ok a =>
      cases orMean (.list ys) my with
      | error e => exact ⟨e, rfl⟩
      | ok b => exact ⟨.typeError, rfl⟩
  obtain ⟨e, he⟩ := key
  unfold cov pcov
  rw [he]
  exact ⟨⟨e, rfl⟩, ⟨e, rfl⟩⟩

/-! ### C50 -/

theorem mean_ok (l : List K) (hl : l ≠ []) : mean (.list l) = .ok (l.sum / l.length) := by
  have h0 : (l.length : K) ≠ 0 := by
    rw [Nat.cast_ne_zero]; exact fun h => hl (List.length_eq_zero_iff.1 h)
  unfold mean generalisedSum
  simp [Seq.len, Seq.items, bind, Except.bind, pure, Except.pure, hl, pdiv]

/-- C50: the mean of a non-empty list lies between any bounds of its elements, and the deviations
from it add up to 0. -/
theorem C50_mean (l : List K) (hl : l ≠ []) : ∃ m, mean (.list l) = .ok m ∧
    (∀ a, (∀ x ∈ l, a ≤ x) → a ≤ m) ∧ (∀ b, (∀ x ∈ l, x ≤ b) → m ≤ b) ∧
    (l.map fun x => x - m).sum = 0 := by
  have hpos : (0 : K) < l.length := by
    rw [Nat.cast_pos]; exact List.length_pos_iff.2 hl
  refine ⟨_, mean_ok l hl, fun a ha => ?_, fun b hb => ?_, ?_⟩
  · rw [le_div_iff₀ hpos, mul_comm, ← nsmul_eq_mul]
    exact List.card_nsmul_le_sum l a ha
  · rw [div_le_iff₀ hpos, mul_comm, ← nsmul_eq_mul]
    exact List.sum_le_card_nsmul l b hb
  · have : ∀ (l : List K) (m : K), (l.map fun x => x - m).sum = l.sum - l.length * m := by
      intro l m
      induction l with
      | nil => simp
      | cons x xs ih =>
        simp only [List.map_cons, List.sum_cons, ih, List.length_cons, Nat.cast_add, Nat.cast_one]
        ring
    rw [this]
    field_simp
    ring

/-- C50: the mean of nothing is an error. -/
theorem C50_mean_empty : mean (.list ([] : List K)) = .error .valueError := rfl

theorem sum_sq_dev_nonneg (l : List K) (m : K) : 0 ≤ (l.map fun x => (x - m) ^ 2).sum :=
  List.sum_nonneg fun y hy => by
    obtain ⟨x, _, rfl⟩ := List.mem_map.1 hy
    positivity

theorem sum_sq_dev_eq_zero (l : List K) (m : K) :
    (l.map fun x => (x - m) ^ 2).sum = 0 ↔ ∀ x ∈ l, x = m := by
  induction l with
  | nil => simp
  | cons x xs ih =>
    rw [List.map_cons, List.sum_cons,
      add_eq_zero_iff_of_nonneg (by positivity) (sum_sq_dev_nonneg xs m), ih]
    simp [sub_eq_zero]

/-- C50: the sample variance of at least two values is not negative, and it is 0 exactly when all
values are equal; with fewer values it is an error. -/
theorem C50_variance (l : List K) :
    (l.length < 2 → variance (.list l) none = .error .valueError) ∧
    (2 ≤ l.length → ∃ v, variance (.list l) none = .ok v ∧ 0 ≤ v ∧
      (v = 0 ↔ ∀ x ∈ l, ∀ y ∈ l, x = y)) := by
  constructor
  · intro h
    match l, h with
    | [], _ => rfl
    | [x], _ =>
      unfold variance sumSquares orMean
      rw [mean_ok [x] (by simp)]
      rfl
    | _ :: _ :: _, h => simp at h
  · intro h
    have hl : l ≠ [] := by rintro rfl; simp at h
    set m := l.sum / (l.length : K) with hm
    have hden : (0 : K) < (l.length : K) - 1 := by
      have : (2 : K) ≤ (l.length : K) := by exact_mod_cast h
      linarith
    refine ⟨(l.map fun x => (x - m) ^ 2).sum / ((l.length : K) - 1), ?_, ?_, ?_⟩
    · unfold variance sumSquares orMean
      rw [mean_ok l hl, ← hm]
      unfold generalisedSum
      simp only [Seq.len, Seq.items, bind, Except.bind, pure, Except.pure]
      rw [if_neg (by omega), pdiv, if_neg hden.ne']
    · exact div_nonneg (sum_sq_dev_nonneg l m) hden.le
    · rw [div_eq_zero_iff, or_iff_left hden.ne', sum_sq_dev_eq_zero]
      constructor
      · intro h x hx y hy; rw [h x hx, h y hy]
      · intro h
        obtain ⟨m', h1, h2, h3, _⟩ := C50_mean l hl
        rw [mean_ok l hl] at h1
        cases h1
        intro x hx
        exact le_antisymm (h2 x fun y hy => (h x hx y hy).le) (h3 x fun y hy => (h x hx y hy).ge)

example : variance (.list [(1 : ℚ), 2, 3, 6]) none = .ok (14 / 3) := by decide +kernel

end Grassfire
