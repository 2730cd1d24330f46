/-
Properties of the helper functions of Verif/Helpers.lean (C80-C83).
-/
import Verif.Helpers
import Verif.Proofs.Line2dLemmas
import Verif.Props.Line2d
import Verif.Props.CollapseTimes
import Verif.Spec.RatSqrt
import Mathlib.Tactic.FieldSimp
import Mathlib.Tactic.LinearCombination

set_option linter.unusedSectionVars false

namespace Grassfire

variable {K : Type} [Field K] [LinearOrder K] [IsStrictOrderedRing K] [HasSqrt K]

/-! ### C80: compute_crossing_bisector -/

/-- C80: for two wavefront lines that cross, the vector runs from the place where they cross at the start to the place where
the two wavefronts cross at time `now`; for (almost) parallel lines it raises NotImplementedError. -/
theorem C80_crossing_bisector [SqrtUnit K] (l r : Line2 K) (now : K) (hl : UnitNormal l) (hr : UnitNormal r) :
    (|l.w.1 * r.w.2 - r.w.1 * l.w.2| ≤ 1 / 10 ^ 10 → computeCrossingBisector l r now = .error .notImplementedError) ∧
    (1 / 10 ^ 10 < |l.w.1 * r.w.2 - r.w.1 * l.w.2| → ∃ b, computeCrossingBisector l r now = .ok b ∧
      ∀ p, OnLine l p → OnLine r p →
        OnLine (Advanced l now) (p.1 + b.1, p.2 + b.2) ∧ OnLine (Advanced r now) (p.1 + b.1, p.2 + b.2)) := by
  constructor
  · intro hd
    have hz : nearZero (det2 l r) = true := (nearZero_iff _).2 hd
    unfold computeCrossingBisector
    rw [lli_parallel l r hz]
    split_ifs <;> rfl
  · intro hd
    have hz : ∀ s t : K, nearZero (det2 (⟨l.w, s⟩ : Line2 K) ⟨r.w, t⟩) = false := fun s t =>
      (nearZero_false_iff _).2 hd
    unfold computeCrossingBisector
    have e1 : dot2 l.w (mul2 l.w now) = now := by
      unfold dot2 mul2; unfold UnitNormal at hl; dsimp only; linear_combination now * hl
    have e2 : dot2 r.w (mul2 r.w now) = now := by
      unfold dot2 mul2; unfold UnitNormal at hr; dsimp only; linear_combination now * hr
    have c0 := lli_point l r (hz l.b r.b)
    have c1 := lli_point ⟨l.w, l.b - now⟩ ⟨r.w, r.b - now⟩ (hz _ _)
    obtain ⟨a1, a2, a3⟩ := C12_point _ _ _ c0
    obtain ⟨b1, b2, -⟩ := C12_point _ _ _ c1
    rw [c0]
    simp only [bind, Except.bind]
    rw [translated_unit l _ hl, e1]
    dsimp only
    rw [translated_unit r _ hr, e2]
    dsimp only
    rw [c1]
    refine ⟨_, rfl, fun p hp hq => ?_⟩
    have hpp := a3 p hp hq
    rw [← hpp]
    generalize ((l.w.2 * (r.b - now) - r.w.2 * (l.b - now)) / det2 (⟨l.w, l.b - now⟩ : Line2 K) ⟨r.w, r.b - now⟩,
      (r.w.1 * (l.b - now) - l.w.1 * (r.b - now)) / det2 (⟨l.w, l.b - now⟩ : Line2 K) ⟨r.w, r.b - now⟩) = q at b1 b2 ⊢
    have : ((p.1 + (sub2 q p).1, p.2 + (sub2 q p).2) : Pt K) = q := by
      unfold sub2; dsimp only; ext <;> ring
    rw [this]
    exact ⟨b1, b2⟩

/-- the two sides of a right angle -/
example : computeCrossingBisector (⟨(1, 0), 0⟩ : Line2 ℚ) ⟨(0, 1), 0⟩ 3 = .ok (3, 3) := by decide +kernel

/-! ### C81: signed_turn and get_bisector -/

/-- C81: the turn at `mid` on the way from `head` via `mid` to `tail` is the angle by which the direction turns: turning
`mid - head` by it gives the direction of `tail - mid`.  It is between -π and π; positive for a left turn, negative for a
right turn, 0 when going straight on and π when going back. -/
theorem C81_signed_turn (head mid tail : Pt ℝ) (u v : Pt ℝ) (hu : u = (mid.1 - head.1, mid.2 - head.2))
    (hv : v = (tail.1 - mid.1, tail.2 - mid.2)) :
    -Real.pi < signedTurn head mid tail ∧ signedTurn head mid tail ≤ Real.pi ∧
    (signedTurn head mid tail < 0 ↔ u.1 * v.2 - u.2 * v.1 < 0) ∧
    (0 < u.1 * v.2 - u.2 * v.1 → 0 < signedTurn head mid tail ∧ signedTurn head mid tail < Real.pi) ∧
    (signedTurn head mid tail = 0 ↔ u.1 * v.2 - u.2 * v.1 = 0 ∧ 0 ≤ u.1 * v.1 + u.2 * v.2) ∧
    (signedTurn head mid tail = Real.pi ↔ u.1 * v.2 - u.2 * v.1 = 0 ∧ u.1 * v.1 + u.2 * v.2 < 0) ∧
    Real.sqrt (u.1 ^ 2 + u.2 ^ 2) * v.1 = Real.sqrt (v.1 ^ 2 + v.2 ^ 2) *
      (Real.cos (signedTurn head mid tail) * u.1 - Real.sin (signedTurn head mid tail) * u.2) ∧
    Real.sqrt (u.1 ^ 2 + u.2 ^ 2) * v.2 = Real.sqrt (v.1 ^ 2 + v.2 ^ 2) *
      (Real.sin (signedTurn head mid tail) * u.1 + Real.cos (signedTurn head mid tail) * u.2) := by
  have he : signedTurn head mid tail = Complex.arg ⟨u.1 * v.1 + u.2 * v.2, u.1 * v.2 - u.2 * v.1⟩ := by
    subst hu hv; rfl
  rw [he]
  set z : ℂ := ⟨u.1 * v.1 + u.2 * v.2, u.1 * v.2 - u.2 * v.1⟩ with hz
  have hre : z.re = u.1 * v.1 + u.2 * v.2 := rfl
  have him : z.im = u.1 * v.2 - u.2 * v.1 := rfl
  have hu0 : 0 ≤ u.1 ^ 2 + u.2 ^ 2 := by positivity
  have hv0 : 0 ≤ v.1 ^ 2 + v.2 ^ 2 := by positivity
  have hn : ‖z‖ = Real.sqrt (u.1 ^ 2 + u.2 ^ 2) * Real.sqrt (v.1 ^ 2 + v.2 ^ 2) := by
    rw [← Real.sqrt_mul hu0, Complex.norm_def, Complex.normSq_apply, hre, him]
    congr 1; ring
  have hc := Complex.norm_mul_cos_arg z
  have hs := Complex.norm_mul_sin_arg z
  rw [hn, hre] at hc
  rw [hn, him] at hs
  have hsu := Real.mul_self_sqrt hu0
  refine ⟨Complex.neg_pi_lt_arg z, Complex.arg_le_pi z, Complex.arg_neg_iff, fun h => ?_, ?_, ?_, ?_, ?_⟩
  · have h0 : 0 ≤ z.arg := Complex.arg_nonneg_iff.2 (by rw [him]; exact h.le)
    refine ⟨lt_of_le_of_ne h0 fun e => ?_, lt_of_le_of_ne (Complex.arg_le_pi z) fun e => ?_⟩
    · have := (Complex.arg_eq_zero_iff.1 e.symm).2
      rw [him] at this; exact h.ne' this
    · have := (Complex.arg_eq_pi_iff.1 e).2
      rw [him] at this; exact h.ne' this
  · rw [Complex.arg_eq_zero_iff, hre, him, and_comm]
  · rw [Complex.arg_eq_pi_iff, hre, him, and_comm]
  · by_cases h0 : Real.sqrt (u.1 ^ 2 + u.2 ^ 2) = 0
    · have h1 : u.1 ^ 2 + u.2 ^ 2 = 0 := by rw [← hsu, h0]; ring
      have h2 : u.1 = 0 := by nlinarith [sq_nonneg u.1, sq_nonneg u.2]
      have h3 : u.2 = 0 := by nlinarith [sq_nonneg u.1, sq_nonneg u.2]
      rw [h0, h2, h3]; ring
    · refine mul_left_cancel₀ h0 ?_
      linear_combination v.1 * hsu - u.1 * hc + u.2 * hs
  · by_cases h0 : Real.sqrt (u.1 ^ 2 + u.2 ^ 2) = 0
    · have h1 : u.1 ^ 2 + u.2 ^ 2 = 0 := by rw [← hsu, h0]; ring
      have h2 : u.1 = 0 := by nlinarith [sq_nonneg u.1, sq_nonneg u.2]
      have h3 : u.2 = 0 := by nlinarith [sq_nonneg u.1, sq_nonneg u.2]
      rw [h0, h2, h3]; ring
    · refine mul_left_cancel₀ h0 ?_
      linear_combination v.2 * hsu - u.2 * hc - u.1 * hs

/-- a right angle to the left -/
example : signedTurn (0, 0) (1, 0) (1, 1) = Real.pi / 2 := by
  have : signedTurn (0, 0) (1, 0) (1, 1) = Complex.arg Complex.I := by
    unfold signedTurn sub2 dot2 Complex.I
    norm_num
  rw [this, Complex.arg_I]

/-- C81: `get_bisector` raises ZeroDivisionError exactly when one of the legs has length zero; otherwise the vector that it
returns makes the same angle, at most a right one, with both legs and lies between them; it is zero exactly when the
legs point in opposite directions. -/
theorem C81_corner_bisector [SqrtLaws K] (head mid tail a b : Pt K) (ha : a = (tail.1 - mid.1, tail.2 - mid.2))
    (hb : b = (head.1 - mid.1, head.2 - mid.2)) :
    (tail = mid ∨ head = mid → cornerBisector head mid tail = .error .zeroDivisionError) ∧
    (tail ≠ mid → head ≠ mid → ∃ c la lb, cornerBisector head mid tail = .ok c ∧
      0 < la ∧ la ^ 2 = a.1 ^ 2 + a.2 ^ 2 ∧ 0 < lb ∧ lb ^ 2 = b.1 ^ 2 + b.2 ^ 2 ∧
      lb * (a.1 * c.1 + a.2 * c.2) = la * (b.1 * c.1 + b.2 * c.2) ∧ 0 ≤ a.1 * c.1 + a.2 * c.2 ∧
      lb * (a.1 * c.2 - a.2 * c.1) = la * (c.1 * b.2 - c.2 * b.1) ∧
      (c = (0, 0) ↔ ∃ k > 0, a = (-k * b.1, -k * b.2))) := by
  have ea : sub2 tail mid = a := ha.symm
  have eb : sub2 head mid = b := hb.symm
  unfold cornerBisector
  dsimp only
  rw [ea, eb]
  have hz : ∀ v : Pt K, v = (0, 0) → unit2 v = .error .zeroDivisionError := by
    intro v hv
    have := (norm2d_eq_zero v).2 hv
    simp [unit2, div2, pdiv, this, bind, Except.bind]
  have hok : ∀ v : Pt K, v ≠ (0, 0) → unit2 v = .ok (v.1 / norm2d v, v.2 / norm2d v) := by
    intro v hv
    have : norm2d v ≠ 0 := fun e => hv ((norm2d_eq_zero v).1 e)
    simp [unit2, div2, pdiv, this, bind, Except.bind]
  have za : a = (0, 0) ↔ tail = mid := by
    rw [ha, Prod.ext_iff, Prod.ext_iff]; simp only [sub_eq_zero]
  have zb : b = (0, 0) ↔ head = mid := by
    rw [hb, Prod.ext_iff, Prod.ext_iff]; simp only [sub_eq_zero]
  refine ⟨?_, fun h1 h2 => ?_⟩
  · intro h
    by_cases h1 : tail = mid
    · rw [hz a (za.2 h1)]; rfl
    · rw [hok a (fun e => h1 (za.1 e)), hz b (zb.2 (h.resolve_left h1))]; rfl
  · have ha0 : a ≠ (0, 0) := fun e => h1 (za.1 e)
    have hb0 : b ≠ (0, 0) := fun e => h2 (zb.1 e)
    rw [hok a ha0, hok b hb0]
    have pa := norm2d_pos a ha0
    have pb := norm2d_pos b hb0
    have sa := norm2d_sq a
    have sb := norm2d_sq b
    generalize norm2d a = la at pa sa ⊢
    generalize norm2d b = lb at pb sb ⊢
    have na := pa.ne'
    have nb := pb.ne'
    have sa' : a.1 ^ 2 + a.2 ^ 2 = la ^ 2 := by linear_combination -sa
    have sb' : b.1 ^ 2 + b.2 ^ 2 = lb ^ 2 := by linear_combination -sb
    -- Cauchy-Schwarz
    have cs : -(la * lb) ≤ a.1 * b.1 + a.2 * b.2 := by
      refine neg_le_of_abs_le (abs_le_of_sq_le_sq ?_ (by positivity))
      nlinarith [sq_nonneg (a.1 * b.2 - a.2 * b.1)]
    have e1 : a.1 * (a.1 / la + b.1 / lb) + a.2 * (a.2 / la + b.2 / lb) = (la * lb + (a.1 * b.1 + a.2 * b.2)) / lb := by
      field_simp
      linear_combination lb * sa'
    have e2 : b.1 * (a.1 / la + b.1 / lb) + b.2 * (a.2 / la + b.2 / lb) = (la * lb + (a.1 * b.1 + a.2 * b.2)) / la := by
      field_simp
      linear_combination la * sb'
    refine ⟨_, la, lb, rfl, pa, sa'.symm, pb, sb'.symm, ?_, ?_, ?_, ?_⟩
    · unfold add2; dsimp only
      rw [e1, e2]; field_simp
    · unfold add2; dsimp only
      rw [e1]; exact div_nonneg (by linarith) pb.le
    · unfold add2; dsimp only
      field_simp; ring
    · unfold add2; dsimp only
      rw [Prod.ext_iff]
      dsimp only
      constructor
      · rintro ⟨x, y⟩
        refine ⟨la / lb, by positivity, ?_⟩
        ext
        · dsimp only; field_simp at x ⊢; linear_combination x
        · dsimp only; field_simp at y ⊢; linear_combination y
      · rintro ⟨k, hk, e⟩
        have x : a.1 = -k * b.1 := by rw [e]
        have y : a.2 = -k * b.2 := by rw [e]
        have hlen : la = k * lb := by
          have : la ^ 2 = (k * lb) ^ 2 := by rw [← sa', x, y]; linear_combination k ^ 2 * sb'
          exact (pow_left_inj₀ pa.le (by positivity) two_ne_zero).1 this
        rw [x, y, hlen]
        have := hk.ne'
        constructor <;> (field_simp; ring)

example : cornerBisector (0, 3) (0, 0) ((5, 0) : Pt ℚ) = .ok (1, 1) := by decide +kernel

/-! ### C82: solve_quadratic_whatevery -/

/-- C82: the roots of a proper quadratic equation, both of them, without tolerance; except for `A x² = 0`, where it raises
ZeroDivisionError although 0 is a root. -/
theorem C82_quadratic [SqrtLaws K] (A B C : K) (hA : 1 / 10 ^ 10 < |A|) :
    (¬ (B = 0 ∧ C = 0) → ∃ l, solveQuadraticWhatevery A B C = .ok l ∧ ∀ x, x ∈ l ↔ A * x ^ 2 + B * x + C = 0) ∧
    (B = 0 ∧ C = 0 → solveQuadraticWhatevery A B C = .error .zeroDivisionError) := by
  have hA0 : A ≠ 0 := by
    rintro rfl; rw [abs_zero] at hA
    exact absurd hA (not_lt.mpr (by positivity))
  have hAn : nearZero A = false := (nearZero_false_iff A).mpr hA
  have h2A : (2 * A : K) ≠ 0 := mul_ne_zero two_ne_zero hA0
  unfold solveQuadraticWhatevery psqrt
  rw [hAn]
  simp only [Bool.false_and, Bool.false_eq_true, if_false]
  constructor
  · intro hBC
    by_cases hD : B * B - 4 * A * C < 0
    · rw [if_pos hD]
      refine ⟨[], rfl, fun x => ⟨fun h => (by cases h), fun h => ?_⟩⟩
      have e : (2 * A * x + B) ^ 2 = B * B - 4 * A * C := by linear_combination 4 * A * h
      exact absurd (sq_nonneg (2 * A * x + B)) (not_le.2 (e ▸ hD))
    · rw [if_neg hD]
      dsimp only
      have hd := SqrtLaws.sqrt_mul_self _ (not_lt.1 hD)
      have hd0 := SqrtLaws.sqrt_nonneg _ (not_lt.1 hD)
      generalize HasSqrt.sqrt (B * B - 4 * A * C) = d at hd hd0 ⊢
      have fac : ∀ x, 4 * A * (A * x ^ 2 + B * x + C) = (2 * A * x + B - d) * (2 * A * x + B + d) := by
        intro x; linear_combination hd
      have roots : ∀ x, A * x ^ 2 + B * x + C = 0 ↔ x = (-B + d) / (2 * A) ∨ x = (-B - d) / (2 * A) := by
        intro x
        rw [← mul_right_inj' (mul_ne_zero four_ne_zero hA0 : (4 * A : K) ≠ 0), mul_zero, fac, mul_eq_zero,
          eq_div_iff h2A, eq_div_iff h2A]
        constructor
        · rintro (h | h)
          · left; linear_combination h
          · right; linear_combination h
        · rintro (h | h)
          · left; linear_combination h
          · right; linear_combination h
      by_cases hB : 0 < B
      · rw [if_pos hB]
        have hn : -B - d ≠ 0 := by intro e; linarith
        unfold pdiv
        rw [if_neg hn, if_neg h2A]
        refine ⟨_, rfl, fun x => ?_⟩
        rw [roots]
        have : 2 * C / (-B - d) = (-B + d) / (2 * A) := by
          rw [div_eq_div_iff hn h2A]; linear_combination hd
        rw [this]
        simp
      · rw [if_neg hB]
        have hn : -B + d ≠ 0 := by
          intro e
          have h1 : B = 0 := le_antisymm (not_lt.1 hB) (by linarith)
          have h2 : d = 0 := by linarith
          refine hBC ⟨h1, ?_⟩
          rw [h1, h2] at hd
          have h4 : 4 * A * C = 0 := by linear_combination hd
          exact (mul_eq_zero.1 h4).resolve_left (mul_ne_zero four_ne_zero hA0)
        unfold pdiv
        rw [if_neg hn, if_neg h2A]
        refine ⟨_, rfl, fun x => ?_⟩
        rw [roots]
        have : 2 * C / (-B + d) = (-B - d) / (2 * A) := by
          rw [div_eq_div_iff hn h2A]; linear_combination hd
        rw [this]
        simp
  · rintro ⟨rfl, rfl⟩
    have h0 : HasSqrt.sqrt (0 : K) = 0 := sqrt_zero_K
    simp [h0, pdiv, hA0, bind, Except.bind]

/-- C82: without quadratic term the root of the linear equation, and nothing when that is missing too -/
theorem C82_linear (A B C : K) (hA : |A| ≤ 1 / 10 ^ 10) :
    (1 / 10 ^ 10 < |B| → solveQuadraticWhatevery A B C = .ok [-C / B]) ∧
    (|B| ≤ 1 / 10 ^ 10 → solveQuadraticWhatevery A B C = .ok []) := by
  have hAn : nearZero A = true := (nearZero_iff A).mpr hA
  constructor
  · intro hB
    have hB0 : B ≠ 0 := by
      rintro rfl; rw [abs_zero] at hB
      exact absurd hB (not_lt.mpr (by positivity))
    simp [solveQuadraticWhatevery, hAn, (nearZero_false_iff B).mpr hB, pdiv, hB0, bind, Except.bind]
  · intro hB
    simp [solveQuadraticWhatevery, hAn, (nearZero_iff B).mpr hB]

/-- C82: where the discriminant is not judged to be zero by the tolerance, the two solvers find the same roots -/
theorem C82_agree [SqrtLaws K] (A B C : K) (hA : 1 / 10 ^ 10 < |A|)
    (hD : 1 / 10 ^ 10 < |(B / (2 * A)) ^ 2 - C / A|) :
    ∃ l, solveQuadraticWhatevery A B C = .ok l ∧ ∀ x, x ∈ l ↔ x ∈ solveQuadratic A B C := by
  have hBC : ¬ (B = 0 ∧ C = 0) := by
    rintro ⟨rfl, rfl⟩
    norm_num at hD
  obtain ⟨l, h1, h2⟩ := (C82_quadratic A B C hA).1 hBC
  exact ⟨l, h1, fun x => (h2 x).trans (C18_exact A B C hA hD x).symm⟩

example : solveQuadraticWhatevery (1 : ℚ) (-5) 6 = .ok [3, 2] := by decide +kernel

example : solveQuadraticWhatevery (1 : ℚ) 0 0 = .error .zeroDivisionError := by decide +kernel

/-! ### C83: helpers of initialize.py -/

/-- C83: the unit vector of an edge is the normal of its support line, and both fail for the same edges -/
theorem C83_unit_vector [SqrtLaws K] (dt : Dt K) (t : DT) (i : Fin 3) :
    makeUnitVector dt t i = (supportLine dt t i).map fun l => l.map (·.w) := by
  unfold makeUnitVector supportLine
  by_cases hc : dt.constrained t i = true
  · rw [if_pos hc, if_pos hc]
    cases h1 : dt.corner t (ccw i) with
    | none => rfl
    | some a =>
      cases h2 : dt.corner t (cw i) with
      | none => rfl
      | some b =>
        dsimp only
        unfold WaveFront.make
        dsimp only
        generalize dt.pos a = p
        generalize dt.pos b = q
        by_cases hpq : p = q
        · rw [(C10_from_points_raises p q).1 hpq]
          have : rot90ccw (sub2 q p) = (0, 0) := by
            rw [hpq]; unfold rot90ccw sub2; simp
          rw [this]
          have : norm2d ((0 : K), (0 : K)) = 0 := (norm2d_eq_zero _).mpr rfl
          simp [unit2, div2, pdiv, this, bind, Except.bind, Except.map]
        · obtain ⟨l, hl⟩ := (C10_from_points_raises p q).2 hpq
          have hne : rot90ccw (sub2 q p) ≠ (0, 0) := by
            intro e
            unfold rot90ccw sub2 at e
            rw [Prod.ext_iff] at e
            dsimp only at e
            exact hpq (Prod.ext (by linarith [e.2]) (by linarith [e.1]))
          have hn : norm2d (rot90ccw (sub2 q p)) ≠ 0 := fun e => hne ((norm2d_eq_zero _).1 e)
          have h0 : (0 : K) ≤ (q.1 - p.1) ^ 2 + (q.2 - p.2) ^ 2 := by positivity
          obtain ⟨-, hp, -, len, hlen, hsq, hr⟩ := C10_exact p q l hl
            (by rw [pow_two]; exact SqrtLaws.sqrt_mul_self _ h0) (SqrtLaws.sqrt_nonneg _ h0)
          have hnl : norm2d (rot90ccw (sub2 q p)) = len := by
            have s := norm2d_sq (rot90ccw (sub2 q p))
            have : norm2d (rot90ccw (sub2 q p)) ^ 2 = len ^ 2 := by
              rw [hsq, pow_two, s]; unfold rot90ccw sub2; dsimp only; ring
            exact (pow_left_inj₀ (norm2d_nonneg _) hlen.le two_ne_zero).1 this
          have w1 : l.w.1 * len = -(q.2 - p.2) := by
            have := hr (p.1 + 1, p.2)
            unfold Line2.signedDistance dot2 at this hp
            dsimp only at this
            linear_combination this - len * hp
          have w2 : l.w.2 * len = q.1 - p.1 := by
            have := hr (p.1, p.2 + 1)
            unfold Line2.signedDistance dot2 at this hp
            dsimp only at this
            linear_combination this - len * hp
          have hu : unit2 (rot90ccw (sub2 q p)) = .ok l.w := by
            simp only [unit2, div2, pdiv, hn, bind, Except.bind, if_false]
            rw [hnl]
            unfold rot90ccw sub2
            dsimp only
            rw [← w1, ← w2, mul_div_cancel_right₀ _ hlen.ne', mul_div_cancel_right₀ _ hlen.ne']
          rw [hu, hl]
          rfl
  · rw [if_neg hc, if_neg hc]
    rfl

omit [HasSqrt K] in
/-- C83: `is_quad` tells whether the turns at the second, third and fourth point are all to the left (or straight on) or
all to the right; a list of any other length is rejected. -/
theorem C83_is_quad (L : List (Pt K)) :
    (L.length ≠ 5 → isQuad L = .error .assertionError) ∧
    ∀ a b c d e, L = [a, b, c, d, e] → ∃ r, isQuad L = .ok r ∧ (r = true ↔
      (0 ≤ orient2d a b c ∧ 0 ≤ orient2d b c d ∧ 0 ≤ orient2d c d e) ∨
      (orient2d a b c < 0 ∧ orient2d b c d < 0 ∧ orient2d c d e < 0)) := by
  constructor
  · intro h
    match L, h with
    | [], _ => rfl
    | [_], _ => rfl
    | [_, _], _ => rfl
    | [_, _, _], _ => rfl
    | [_, _, _, _], _ => rfl
    | [_, _, _, _, _], h => exact absurd rfl h
    | _ :: _ :: _ :: _ :: _ :: _ :: _, _ => rfl
  · rintro a b c d e rfl
    refine ⟨_, rfl, ?_⟩
    simp only [List.map_cons, List.map_nil, List.all_cons, List.all_nil, Bool.and_true, Bool.and_eq_true, beq_iff_eq,
      decide_eq_decide, ge_iff_le]
    rw [← not_le, ← not_le, ← not_le]
    tauto

/-- C83: the turn at the first (= last) point is not looked at, so that `is_quad` accepts a closed ring that is not
convex: the dart with corners (0, 0), (-1, -1), (3, 0) and (-1, 1) -/
theorem C83_dart_witness :
    isQuad [((0 : ℚ), 0), (-1, -1), (3, 0), (-1, 1), (0, 0)] = .ok true ∧
    orient2d ((0 : ℚ), (0 : ℚ)) (-1, -1) (3, 0) > 0 ∧ orient2d ((-1 : ℚ), (1 : ℚ)) (0, 0) (-1, -1) < 0 := by
  decide +kernel

omit [HasSqrt K] [IsStrictOrderedRing K] in
theorem findOverlapLoop_ok {P Q : Pt K} {E : List (PlacedEdge K)} {i n : ℕ} (h : findOverlapLoop P Q E i = .ok n) :
    ∃ j e, n = i + j ∧ E[j]? = some e ∧ 0 ≤ orient2d P Q (e.corner (cw e.side)) ∧
      ∀ k < j, ∀ f, E[k]? = some f → orient2d P Q (f.corner (cw f.side)) < 0 := by
  induction E generalizing i with
  | nil => cases h
  | cons e es ih =>
    unfold findOverlapLoop at h
    split_ifs at h with hc
    · cases h
      exact ⟨0, e, rfl, rfl, hc, fun k hk => absurd hk (Nat.not_lt_zero k)⟩
    · obtain ⟨j, f, h1, h2, h3, h4⟩ := ih h
      refine ⟨j + 1, f, by omega, h2, h3, fun k hk g hg => ?_⟩
      cases k with
      | zero => cases hg; exact not_le.1 hc
      | succ k => exact h4 k (by omega) g hg

omit [HasSqrt K] [IsStrictOrderedRing K] in
theorem findOverlapLoop_error {P Q : Pt K} {E : List (PlacedEdge K)} {i : ℕ} {x : Err}
    (h : findOverlapLoop P Q E i = .error x) :
    x = .assertionError ∧ ∀ f ∈ E, orient2d P Q (f.corner (cw f.side)) < 0 := by
  induction E generalizing i with
  | nil => cases h; exact ⟨rfl, fun f hf => absurd hf List.not_mem_nil⟩
  | cons e es ih =>
    unfold findOverlapLoop at h
    split_ifs at h with hc
    obtain ⟨h1, h2⟩ := ih h
    exact ⟨h1, fun f hf => (List.mem_cons.1 hf).elim (fun q => q ▸ not_le.1 hc) (h2 f)⟩

omit [HasSqrt K] [IsStrictOrderedRing K] in
/-- C83: `find_overlapping_triangle` finds the first triangle around the centre of which the last corner is not to the
right of the line through the first edge; it raises AssertionError when there is none, and IndexError for an empty
list. -/
theorem C83_find_overlapping (E : List (PlacedEdge K)) :
    (E = [] → findOverlappingTriangle E = .error .indexError) ∧
    ∀ first, E[0]? = some first →
      (∀ n, findOverlappingTriangle E = .ok n → (∃ e, E[n]? = some e ∧
          0 ≤ orient2d (first.corner (first.side + 1)) (first.corner first.side) (e.corner (e.side + 2))) ∧
        ∀ k < n, ∀ f, E[k]? = some f →
          orient2d (first.corner (first.side + 1)) (first.corner first.side) (f.corner (f.side + 2)) < 0) ∧
      (∀ x, findOverlappingTriangle E = .error x → x = .assertionError ∧ ∀ f ∈ E,
          orient2d (first.corner (first.side + 1)) (first.corner first.side) (f.corner (f.side + 2)) < 0) := by
  cases E with
  | nil => exact ⟨fun _ => rfl, fun _ h => (by cases h)⟩
  | cons e es =>
    refine ⟨fun h => (by cases h), fun first hf => ?_⟩
    cases hf
    refine ⟨fun n hn => ?_, fun x hx => findOverlapLoop_error hx⟩
    obtain ⟨j, f, h1, h2, h3, h4⟩ := findOverlapLoop_ok hn
    rw [Nat.zero_add] at h1
    subst h1
    exact ⟨⟨f, h2, h3⟩, h4⟩

/-- three triangles around the origin; the second one reaches across the line -/
example : findOverlappingTriangle (K := ℚ) [⟨![(0, 0), (-1, 0), (0, -1)], 0⟩, ⟨![(0, 0), (0, -1), (2, 1)], 0⟩] =
    .ok 1 := by decide +kernel

end Grassfire
