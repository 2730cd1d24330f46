/-
Property C46: `r_squared` of calc.py.
-/
import Verif.Proofs.RSquared

namespace Grassfire

variable {K : Type} [Field K] [LinearOrder K] [IsStrictOrderedRing K] [HasSqrt K] [SqrtLaws K]

/-- Specification: all points lie on one straight line `p x + q y = r`. -/
def OnOneLine (pts : List (Pt K)) : Prop :=
  ∃ p q r : K, (p ≠ 0 ∨ q ≠ 0) ∧ ∀ t ∈ pts, p * t.1 + q * t.2 = r

/-- C46: `r_squared` never raises and its result lies in `[-1, 1]`. -/
theorem C46_r_squared_range (pts : List (Pt K)) :
    ∃ c, rSquared pts = .ok c ∧ -1 ≤ c ∧ c ≤ 1 := by
  rw [rSquared_eq]
  split_ifs with h
  · exact ⟨0, rfl, by norm_num, by norm_num⟩
  · push Not at h
    have h0 := SqrtLaws.sqrt_nonneg _ h.le
    have h1 := SqrtLaws.sqrt_mul_self _ h.le
    set s := HasSqrt.sqrt (dxx pts * dyy pts) with hs
    have hs0 : 0 < s := by
      rcases h0.eq_or_lt with h2 | h2
      · rw [← h2, zero_mul] at h1; exact absurd h1 h.ne
      · exact h2
    have hcs := cauchy_schwarz pts
    have habs : |dxy pts| ≤ s := abs_le_of_sq_le_sq (by nlinarith) h0
    refine ⟨dxy pts / s, by simp [pdiv, hs0.ne'], ?_, ?_⟩
    · rw [le_div_iff₀ hs0]; have := neg_abs_le (dxy pts); linarith
    · rw [div_le_iff₀ hs0]; have := le_abs_self (dxy pts); linarith

/-- C46: when the points vary in both coordinates, the result is 1 or -1 exactly
for points on a straight line. -/
theorem C46_r_squared_line (pts : List (Pt K))
    (hx : ∃ a ∈ pts, ∃ b ∈ pts, a.1 ≠ b.1) (hy : ∃ a ∈ pts, ∃ b ∈ pts, a.2 ≠ b.2) :
    (rSquared pts = .ok 1 ∨ rSquared pts = .ok (-1)) ↔ OnOneLine pts := by
  have hx' := (dxx_pos_iff pts).mpr hx
  have hy' := (dyy_pos_iff pts).mpr hy
  have h : 0 < dxx pts * dyy pts := mul_pos hx' hy'
  unfold OnOneLine
  rw [← cs_eq_iff pts hx' hy', rSquared_eq, if_neg (not_le.mpr h)]
  have h0 := SqrtLaws.sqrt_nonneg _ h.le
  have h1 := SqrtLaws.sqrt_mul_self _ h.le
  set s := HasSqrt.sqrt (dxx pts * dyy pts) with hs
  have hs0 : s ≠ 0 := by
    rintro h2; rw [h2, zero_mul] at h1; exact h.ne h1
  simp only [pdiv, if_neg hs0, Except.ok.injEq]
  rw [div_eq_iff hs0, div_eq_iff hs0, ← h1, one_mul, neg_one_mul, ← sq]
  exact sq_eq_sq_iff_eq_or_eq_neg.symm

omit [SqrtLaws K] in
/-- C46: without variation in one of the coordinates the result is 0 (so a
horizontal or vertical line does *not* give 1). -/
theorem C46_r_squared_degenerate (pts : List (Pt K))
    (h : (∀ a ∈ pts, ∀ b ∈ pts, a.1 = b.1) ∨ (∀ a ∈ pts, ∀ b ∈ pts, a.2 = b.2)) :
    rSquared pts = .ok 0 := by
  rw [rSquared_eq, if_pos]
  rcases h with h | h
  · have : ¬ 0 < dxx pts := by
      rw [dxx_pos_iff]; push Not; exact h
    have : dxx pts = 0 := le_antisymm (not_lt.mp this) (dxx_nonneg _)
    rw [this, zero_mul]
  · have : ¬ 0 < dyy pts := by
      rw [dyy_pos_iff]; push Not; exact h
    have : dyy pts = 0 := le_antisymm (not_lt.mp this) (dyy_nonneg _)
    rw [this, mul_zero]

example : rSquared [((0 : ℝ), (0 : ℝ)), (1, 2), (3, 6)] = .ok 1 ∨
    rSquared [((0 : ℝ), (0 : ℝ)), (1, 2), (3, 6)] = .ok (-1) :=
  (C46_r_squared_line _ ⟨(0, 0), by simp, (1, 2), by simp, by norm_num⟩
    ⟨(0, 0), by simp, (1, 2), by simp, by norm_num⟩).mpr
    ⟨2, -1, 0, Or.inl (by norm_num), by
      intro t ht
      simp only [List.mem_cons, List.not_mem_nil, or_false] at ht
      rcases ht with rfl | rfl | rfl <;> norm_num⟩

example : rSquared [((0 : ℝ), (5 : ℝ)), (1, 5)] = .ok 0 :=
  C46_r_squared_degenerate _ (Or.inr (by simp))

end Grassfire
