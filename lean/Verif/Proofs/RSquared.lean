/-
Helper lemmas for `r_squared` (calc.py): sums over lists of points.
-/
import Verif.Proofs.CalcLemmas
import Mathlib.Tactic.LinearCombination

set_option linter.unusedSectionVars false

namespace Grassfire

variable {K : Type} [Field K] [LinearOrder K] [IsStrictOrderedRing K]

theorem sum_quad (L : List (Pt K)) (p q r n x y : K) :
    (L.map fun t => (p * (n * t.1 - x) + q * (n * t.2 - y)) ^ 2 * r).sum =
      r * (p ^ 2 * (n ^ 2 * (L.map fun t => t.1 ^ 2).sum - 2 * n * x * (L.map Prod.fst).sum
          + L.length * x ^ 2)
        + 2 * p * q * (n ^ 2 * (L.map fun t => t.1 * t.2).sum - n * x * (L.map Prod.snd).sum
          - n * y * (L.map Prod.fst).sum + L.length * (x * y))
        + q ^ 2 * (n ^ 2 * (L.map fun t => t.2 ^ 2).sum - 2 * n * y * (L.map Prod.snd).sum
          + L.length * y ^ 2)) := by
  induction L with
  | nil => simp
  | cons t L ih =>
    simp only [List.map_cons, List.sum_cons, List.length_cons, Nat.cast_add, Nat.cast_one]
    rw [ih]
    ring

theorem sum_sq_nonneg (L : List (Pt K)) (f : Pt K → K) : 0 ≤ (L.map fun t => f t ^ 2).sum := by
  induction L with
  | nil => simp
  | cons t L ih =>
    simp only [List.map_cons, List.sum_cons]
    have := sq_nonneg (f t)
    linarith

theorem sum_sq_eq_zero (L : List (Pt K)) (f : Pt K → K) (h : (L.map fun t => f t ^ 2).sum = 0) :
    ∀ t ∈ L, f t = 0 := by
  induction L with
  | nil => simp
  | cons t L ih =>
    simp only [List.map_cons, List.sum_cons] at h
    have h1 := sq_nonneg (f t)
    have h2 := sum_sq_nonneg L f
    intro u hu
    rcases List.mem_cons.mp hu with rfl | hu
    · have : f u ^ 2 = 0 := by linarith
      exact pow_eq_zero_iff (two_ne_zero) |>.mp this
    · exact ih (by linarith) u hu

theorem zip_map_prod (L : List (Pt K)) :
    (((L.map Prod.fst).zip (L.map Prod.snd)).map fun p => p.1 * p.2)
      = L.map fun t => t.1 * t.2 := by
  induction L with
  | nil => rfl
  | cons t L ih => simp [ih]

/-- `n*Sxx - Sx*Sx`, `n*Syy - Sy*Sy`, `n*Sxy - Sx*Sy`. -/
def dxx (L : List (Pt K)) : K :=
  L.length * (L.map fun t => t.1 ^ 2).sum - (L.map Prod.fst).sum * (L.map Prod.fst).sum
def dyy (L : List (Pt K)) : K :=
  L.length * (L.map fun t => t.2 ^ 2).sum - (L.map Prod.snd).sum * (L.map Prod.snd).sum
def dxy (L : List (Pt K)) : K :=
  L.length * (L.map fun t => t.1 * t.2).sum - (L.map Prod.fst).sum * (L.map Prod.snd).sum

/-- centred coordinates, scaled by the number of points -/
def cx (L : List (Pt K)) (t : Pt K) : K := L.length * t.1 - (L.map Prod.fst).sum
def cy (L : List (Pt K)) (t : Pt K) : K := L.length * t.2 - (L.map Prod.snd).sum

theorem sum_centred (L : List (Pt K)) (p q : K) :
    (L.map fun t => (p * cx L t + q * cy L t) ^ 2).sum =
      L.length * (p ^ 2 * dxx L + 2 * p * q * dxy L + q ^ 2 * dyy L) := by
  have := sum_quad L p q 1 (L.length : K) (L.map Prod.fst).sum (L.map Prod.snd).sum
  simp only [mul_one, one_mul] at this
  unfold cx cy dxx dxy dyy
  rw [this]
  ring

theorem quad_nonneg (L : List (Pt K)) (p q : K) :
    0 ≤ p ^ 2 * dxx L + 2 * p * q * dxy L + q ^ 2 * dyy L := by
  by_cases hL : L = []
  · subst hL; simp [dxx, dxy, dyy]
  · have h := sum_sq_nonneg L (fun t => p * cx L t + q * cy L t)
    rw [sum_centred] at h
    have hn : (0 : K) < L.length := by
      exact_mod_cast List.length_pos_iff.mpr hL
    exact nonneg_of_mul_nonneg_right h hn

theorem quad_zero (L : List (Pt K)) (p q : K) :
    p ^ 2 * dxx L + 2 * p * q * dxy L + q ^ 2 * dyy L = 0 ↔
      ∀ t ∈ L, p * cx L t + q * cy L t = 0 := by
  constructor
  · intro h
    apply sum_sq_eq_zero L (fun t => p * cx L t + q * cy L t)
    rw [sum_centred, h, mul_zero]
  · intro h
    by_cases hL : L = []
    · subst hL; simp [dxx, dxy, dyy]
    have h2 := sum_centred L p q
    have h3 : (L.map fun t => (p * cx L t + q * cy L t) ^ 2).sum = 0 := by
      apply List.sum_eq_zero
      intro x hx
      obtain ⟨t, ht, rfl⟩ := List.mem_map.mp hx
      rw [h t ht]; ring
    have hn : (0 : K) < L.length := by
      exact_mod_cast List.length_pos_iff.mpr hL
    rw [h3] at h2
    rcases mul_eq_zero.mp h2.symm with h | h
    · exact absurd h hn.ne'
    · exact h

theorem dxx_nonneg (L : List (Pt K)) : 0 ≤ dxx L := by
  have := quad_nonneg L 1 0; simpa using this

theorem dyy_nonneg (L : List (Pt K)) : 0 ≤ dyy L := by
  have := quad_nonneg L 0 1; simpa using this

theorem cauchy_schwarz (L : List (Pt K)) : dxy L ^ 2 ≤ dxx L * dyy L := by
  have h1 := quad_nonneg L (dyy L) (-dxy L)
  have h0 := dyy_nonneg L
  rcases h0.eq_or_lt with h | h
  · have h2 := quad_nonneg L 1 (dxy L * (dxx L + 1))
    have h3 := quad_nonneg L 1 (- dxy L * (dxx L + 1))
    have hx := dxx_nonneg L
    rw [← h] at h1 h2 h3 ⊢
    have : dxy L ^ 2 * 2 * (dxx L + 1) ≤ dxx L := by nlinarith
    have h4 : 0 ≤ dxy L ^ 2 := sq_nonneg _
    by_contra hc
    push Not at hc
    rw [mul_zero] at hc
    have h5 := quad_nonneg L 1 (- (dxx L + 1) / dxy L)
    rw [← h] at h5
    have hne : dxy L ≠ 0 := by
      intro h; rw [h] at hc; simp at hc
    have h6 : 1 ^ 2 * dxx L + 2 * 1 * (-(dxx L + 1) / dxy L) * dxy L +
        (-(dxx L + 1) / dxy L) ^ 2 * 0 = - dxx L - 2 := by
      field_simp; ring
    rw [h6] at h5
    linarith
  · have : 0 ≤ dyy L * (dxx L * dyy L - dxy L ^ 2) := by nlinarith
    have := nonneg_of_mul_nonneg_right this h
    linarith

/-- positive spread iff two points differ in that coordinate -/
theorem dxx_pos_iff (L : List (Pt K)) : 0 < dxx L ↔ ∃ a ∈ L, ∃ b ∈ L, a.1 ≠ b.1 := by
  have hz := quad_zero L 1 0
  simp only [one_pow, one_mul, mul_zero, zero_mul, add_zero, ne_eq, OfNat.ofNat_ne_zero,
    not_false_eq_true, zero_pow] at hz
  constructor
  · intro h
    by_contra hc
    push Not at hc
    apply h.ne'
    rw [hz]
    intro t ht
    unfold cx
    have : (L.map Prod.fst).sum = L.length * t.1 := by
      have : L.map Prod.fst = L.map (fun _ => t.1) := by
        apply List.map_congr_left
        intro a ha; exact hc a ha t ht
      rw [this]; simp
    rw [this, sub_self]
  · rintro ⟨a, ha, b, hb, hab⟩
    refine lt_of_le_of_ne (dxx_nonneg L) (fun h => hab ?_)
    have hz' := hz.mp h.symm
    have h1 := hz' a ha
    have h2 := hz' b hb
    unfold cx at h1 h2
    have hn : (L.length : K) ≠ 0 := by
      have : L ≠ [] := List.ne_nil_of_mem ha
      exact_mod_cast (List.length_pos_iff.mpr this).ne'
    have : (L.length : K) * a.1 = L.length * b.1 := by linarith
    exact mul_left_cancel₀ hn this

theorem dyy_pos_iff (L : List (Pt K)) : 0 < dyy L ↔ ∃ a ∈ L, ∃ b ∈ L, a.2 ≠ b.2 := by
  have h := dxx_pos_iff (L.map Prod.swap)
  have e : dxx (L.map Prod.swap) = dyy L := by
    unfold dxx dyy
    simp [Function.comp_def]
  rw [e] at h
  rw [h]
  simp only [List.mem_map]
  constructor
  · rintro ⟨_, ⟨a, ha, rfl⟩, _, ⟨b, hb, rfl⟩, h⟩
    exact ⟨a, ha, b, hb, h⟩
  · rintro ⟨a, ha, b, hb, h⟩
    exact ⟨_, ⟨a, ha, rfl⟩, _, ⟨b, hb, rfl⟩, h⟩

theorem cs_eq_iff (L : List (Pt K)) (hx : 0 < dxx L) (hy : 0 < dyy L) :
    dxy L ^ 2 = dxx L * dyy L ↔
      ∃ p q r : K, (p ≠ 0 ∨ q ≠ 0) ∧ ∀ t ∈ L, p * t.1 + q * t.2 = r := by
  constructor
  · intro h
    refine ⟨dyy L * L.length, - dxy L * L.length,
      dyy L * (L.map Prod.fst).sum - dxy L * (L.map Prod.snd).sum, ?_, ?_⟩
    · left
      refine mul_ne_zero hy.ne' ?_
      obtain ⟨a, ha, _⟩ := (dxx_pos_iff L).mp hx
      exact_mod_cast (List.length_pos_iff.mpr (List.ne_nil_of_mem ha)).ne'
    · have := (quad_zero L (dyy L) (- dxy L)).mp (by linear_combination (-dyy L) * h)
      intro t ht
      have := this t ht
      unfold cx cy at this
      linear_combination this
  · rintro ⟨p, q, r, hpq, h⟩
    have hz : ∀ t ∈ L, p * cx L t + q * cy L t = 0 := by
      intro t ht
      have hs : ∀ M : List (Pt K), (∀ u ∈ M, p * u.1 + q * u.2 = r) →
          p * (M.map Prod.fst).sum + q * (M.map Prod.snd).sum = M.length * r := by
        intro M
        induction M with
        | nil => simp
        | cons u M ih =>
          intro hM
          have h1 := hM u (by simp)
          have h2 := ih (fun v hv => hM v (by simp [hv]))
          simp only [List.map_cons, List.sum_cons, List.length_cons, Nat.cast_add, Nat.cast_one]
          linear_combination h1 + h2
      unfold cx cy
      linear_combination (L.length : K) * h t ht - hs L h
    have hq := (quad_zero L p q).mpr hz
    have hcs := cauchy_schwarz L
    rcases hpq with hp | hq0
    · have : (p * dxx L + q * dxy L) ^ 2 + q ^ 2 * (dxx L * dyy L - dxy L ^ 2) = 0 := by
        linear_combination dxx L * hq
      have h1 : (p * dxx L + q * dxy L) ^ 2 = 0 := by
        have a := sq_nonneg (p * dxx L + q * dxy L)
        have b : 0 ≤ q ^ 2 * (dxx L * dyy L - dxy L ^ 2) :=
          mul_nonneg (sq_nonneg _) (by linarith)
        linarith
      have h2 : q ^ 2 * (dxx L * dyy L - dxy L ^ 2) = 0 := by linarith
      rcases mul_eq_zero.mp h2 with h3 | h3
      · have hq1 : q = 0 := pow_eq_zero_iff two_ne_zero |>.mp h3
        rw [hq1] at h1
        have := pow_eq_zero_iff two_ne_zero |>.mp h1
        simp only [zero_mul, add_zero] at this
        rcases mul_eq_zero.mp this with h | h
        · exact absurd h hp
        · exact absurd h hx.ne'
      · linarith
    · have : (q * dyy L + p * dxy L) ^ 2 + p ^ 2 * (dxx L * dyy L - dxy L ^ 2) = 0 := by
        linear_combination dyy L * hq
      have h1 : (q * dyy L + p * dxy L) ^ 2 = 0 := by
        have a := sq_nonneg (q * dyy L + p * dxy L)
        have b : 0 ≤ p ^ 2 * (dxx L * dyy L - dxy L ^ 2) :=
          mul_nonneg (sq_nonneg _) (by linarith)
        linarith
      have h2 : p ^ 2 * (dxx L * dyy L - dxy L ^ 2) = 0 := by linarith
      rcases mul_eq_zero.mp h2 with h3 | h3
      · have hp1 : p = 0 := pow_eq_zero_iff two_ne_zero |>.mp h3
        rw [hp1] at h1
        have := pow_eq_zero_iff two_ne_zero |>.mp h1
        simp only [zero_mul, add_zero] at this
        rcases mul_eq_zero.mp this with h | h
        · exact absurd h hq0
        · exact absurd h hy.ne'
      · linarith

theorem rSquared_eq [HasSqrt K] (L : List (Pt K)) :
    rSquared L = if dxx L * dyy L ≤ 0 then .ok 0
      else pdiv (dxy L) (HasSqrt.sqrt (dxx L * dyy L)) := by
  unfold rSquared
  simp only [zip_map_prod, List.map_map]
  change (if dxx L * dyy L ≤ 0 then _ else _) = _
  split_ifs with h
  · rfl
  · change (psqrt (dxx L * dyy L) >>= fun den => pdiv (dxy L) den) = _
    unfold psqrt
    rw [if_neg (by push Not at h ⊢; exact h.le)]
    rfl

end Grassfire
