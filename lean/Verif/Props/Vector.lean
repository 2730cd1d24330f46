/-
Properties C07, C08, C09: vectorops.py.
-/
import Verif.VectorOps
import Verif.Line2d
import Verif.Proofs.CalcLemmas
import Mathlib.Analysis.SpecialFunctions.Trigonometric.Bounds
import Mathlib.Tactic.LinearCombination
import Mathlib.Tactic.FieldSimp

set_option linter.unusedSectionVars false

namespace Grassfire
open VectorOps

/-! The definitions, unfolded for a vector operand (helper lemmas). -/
section unfold
variable {K : Type} [Field K] [LinearOrder K]
theorem sub_vec (a b : List K) : sub a (.vec b) = if a.length ≠ b.length then .error .valueError
    else .ok (List.zipWith (· - ·) a b) := rfl
theorem add_vec (a b : List K) : add a (.vec b) = if a.length ≠ b.length then .error .valueError
    else .ok (List.zipWith (· + ·) a b) := rfl
theorem mul_vec (a b : List K) : mul a (.vec b) = if a.length ≠ b.length then .error .valueError
    else .ok (List.zipWith (· * ·) a b) := rfl
theorem div_vec (a b : List K) : div a (.vec b) = if a.length ≠ b.length then .error .valueError
    else (a.zip b).mapM fun p => pdiv p.1 p.2 := rfl
end unfold

section C07
variable {K : Type} [Field K] [LinearOrder K] [IsStrictOrderedRing K]

/-- C07: unequal dimensions are rejected with a ValueError by all four
element-wise operations, by `dot` and by `cross`. -/
theorem C07_dimension_mismatch (a b : List K) (h : a.length ≠ b.length) :
    sub a (.vec b) = .error .valueError ∧ add a (.vec b) = .error .valueError ∧
    mul a (.vec b) = .error .valueError ∧ div a (.vec b) = .error .valueError ∧
    dot a b = .error .valueError ∧ cross a b = .error .valueError ∧
    makeVector a b = .error .valueError := by
  simp [sub, add, mul, div, dot, cross, makeVector, h]

example : sub [(1 : ℚ), 2] (.vec [1, 2, 3]) = .error .valueError :=
  (C07_dimension_mismatch _ _ (by decide)).1

/-- C07: for equal dimensions add/sub/mul succeed, keep the dimension and work
coordinate by coordinate. -/
theorem C07_elementwise (a b : List K) (h : a.length = b.length) :
    ∃ s d m, add a (.vec b) = .ok s ∧ sub a (.vec b) = .ok d ∧ mul a (.vec b) = .ok m ∧
      s.length = a.length ∧ d.length = a.length ∧ m.length = a.length ∧
      ∀ i (hi : i < a.length) (hb : i < b.length),
        s[i]? = some (a[i] + b[i]) ∧ d[i]? = some (a[i] - b[i]) ∧ m[i]? = some (a[i] * b[i]) := by
  refine ⟨List.zipWith (· + ·) a b, List.zipWith (· - ·) a b, List.zipWith (· * ·) a b,
    by simp [add, h], by simp [sub, h], by simp [mul, h], ?_, ?_, ?_, ?_⟩
  · simp [h]
  · simp [h]
  · simp [h]
  · intro i hi hb
    simp [hi, hb]

/-- C07: subtracting what was added gives the original vector back. -/
theorem C07_add_sub_cancel (a b s : List K) (h : add a (.vec b) = .ok s) :
    sub s (.vec b) = .ok a := by
  rw [add_vec] at h
  split_ifs at h with hl
  simp only [Except.ok.injEq] at h
  subst h
  push Not at hl
  rw [sub_vec, if_neg (by simp [hl])]
  congr 1
  induction a generalizing b with
  | nil => simp
  | cons x a ih =>
    cases b with
    | nil => simp at hl
    | cons y b => simp at hl ⊢; exact ih b hl

/-- C07: division by a vector with a zero coordinate raises ZeroDivisionError,
otherwise it succeeds and multiplying gives the original back. -/
theorem C07_div (a b : List K) (h : a.length = b.length) :
    ((0 : K) ∈ b → div a (.vec b) = .error .zeroDivisionError) ∧
    ((0 : K) ∉ b → ∃ q, div a (.vec b) = .ok q ∧ mul q (.vec b) = .ok a) := by
  rw [div_vec, if_neg (by simp [h])]
  induction a generalizing b with
  | nil =>
    have : b = [] := by simpa using h.symm
    subst this
    simp [mul, pure, Except.pure]
  | cons x a ih =>
    cases b with
    | nil => simp at h
    | cons y b =>
      have h' : a.length = b.length := by simpa using h
      obtain ⟨ih1, ih2⟩ := ih b h'
      constructor
      · intro h0
        by_cases hy : y = 0
        · simp [pdiv, hy, bind, Except.bind]
        · have : (0 : K) ∈ b := by
            rcases List.mem_cons.mp h0 with h1 | h1
            · exact absurd h1.symm hy
            · exact h1
          have := ih1 this
          simp only [List.zip_cons_cons, List.mapM_cons]
          rw [this]
          simp [pdiv, hy, bind, Except.bind]
      · intro h0
        have hy : y ≠ 0 := fun e => h0 (by simp [e])
        obtain ⟨q, e, hm⟩ := ih2 (fun e => h0 (by simp [e]))
        refine ⟨x / y :: q, ?_, ?_⟩
        · simp only [List.zip_cons_cons, List.mapM_cons]
          rw [e]
          simp [pdiv, hy, bind, Except.bind, pure, Except.pure]
        · rw [mul_vec] at hm ⊢
          split_ifs at hm with hl
          simp only [Except.ok.injEq] at hm
          push Not at hl
          rw [if_neg (by simpa using hl)]
          simp [hm, hy]

/-- C07: `dot` is symmetric. -/
theorem C07_dot_comm (a b : List K) : dot a b = dot b a := by
  unfold dot
  by_cases h : a.length = b.length
  · rw [if_neg (by simp [h]), if_neg (by simp [h])]
    congr 1
    induction a generalizing b with
    | nil =>
      have : b = [] := by simpa using h.symm
      simp [this]
    | cons x a ih =>
      cases b with
      | nil => simp at h
      | cons y b =>
        simp only [List.zip_cons_cons, List.map_cons, List.sum_cons, mul_comm y x]
        rw [ih b (by simpa using h)]
  · rw [if_pos h, if_pos (fun e => h e.symm)]

/-- C07: `dot` is linear in its first argument (hence, with symmetry, bilinear). -/
theorem C07_dot_add (a a' b s : List K) (c : K) (ca : List K) (h : a'.length = b.length)
    (hc : mul a (.scalar c) = .ok ca) (hs : add ca (.vec a') = .ok s) :
    ∃ x y, dot a b = .ok x ∧ dot a' b = .ok y ∧ dot s b = .ok (c * x + y) := by
  unfold mul at hc
  simp only [Except.ok.injEq] at hc
  subst hc
  rw [add_vec] at hs
  split_ifs at hs with hl
  simp only [Except.ok.injEq] at hs
  subst hs
  push Not at hl
  have hab : a.length = b.length := by simpa [h] using hl
  refine ⟨_, _, by rw [dot, if_neg (by simp [hab])], by rw [dot, if_neg (by simp [h])], ?_⟩
  rw [dot, if_neg (by simp [hab, h])]
  congr 1
  clear hl
  induction a generalizing a' b with
  | nil =>
    have : b = [] := by simpa using hab.symm
    subst this
    simp
  | cons x a ih =>
    cases b with
    | nil => simp at hab
    | cons y b =>
      cases a' with
      | nil => simp at h
      | cons z a' =>
        simp only [List.map_cons, List.zipWith_cons_cons, List.zip_cons_cons, List.sum_cons]
        rw [ih a' b (by simpa using h) (by simpa using hab)]
        ring

/-- C07: `norm2(v)` never raises, is the sum of the squares and is zero only for
the zero vector. -/
theorem C07_norm2 (v : List K) :
    ∃ n, norm2 v = .ok n ∧ n = (v.map fun x => x ^ 2).sum ∧ 0 ≤ n ∧
      (n = 0 ↔ ∀ x ∈ v, x = 0) := by
  refine ⟨_, by rw [norm2, dot, if_neg (by simp)], ?_⟩
  induction v with
  | nil => simp
  | cons x v ih =>
    obtain ⟨h1, h2, h3⟩ := ih
    simp only [List.zip_cons_cons, List.map_cons, List.sum_cons, List.mem_cons, forall_eq_or_imp]
    have hx := mul_self_nonneg x
    refine ⟨by rw [h1]; ring, by linarith, ?_⟩
    rw [← h3]
    constructor
    · intro h
      have h0 : x * x = 0 := by linarith
      exact ⟨mul_self_eq_zero.mp h0, by linarith⟩
    · rintro ⟨rfl, h⟩
      rw [h]; ring

/-- C07: the cross product exists exactly in dimensions 2 and 3 and changes sign
when the operands are swapped. -/
theorem C07_cross (a b : List K) (h : a.length = b.length) :
    (a.length ≠ 2 → a.length ≠ 3 → cross a b = .error .valueError) ∧
    (a.length = 2 → ∃ c, cross a b = .ok (.scalar c) ∧ cross b a = .ok (.scalar (-c))) ∧
    (a.length = 3 → ∃ x y z, cross a b = .ok (.vec x y z) ∧
      cross b a = .ok (.vec (-x) (-y) (-z)) ∧
      dot [x, y, z] a = .ok 0 ∧ dot [x, y, z] b = .ok 0) := by
  refine ⟨?_, ?_, ?_⟩
  · intro h2 h3
    unfold cross
    rw [if_neg (by simp [h])]
    split
    · simp at h3
    · simp at h2
    · rfl
  · intro h2
    rw [h2] at h
    obtain ⟨a0, a1, rfl⟩ := List.length_eq_two.mp h2
    obtain ⟨b0, b1, rfl⟩ := List.length_eq_two.mp h.symm
    exact ⟨a0 * b1 - a1 * b0, rfl, by simp [cross]; ring⟩
  · intro h3
    rw [h3] at h
    obtain ⟨a0, a1, a2, rfl⟩ := List.length_eq_three.mp h3
    obtain ⟨b0, b1, b2, rfl⟩ := List.length_eq_three.mp h.symm
    refine ⟨_, _, _, rfl, ?_, ?_, ?_⟩
    · simp only [cross]
      simp only [List.length_cons, ne_eq, not_true_eq_false, if_false, Except.ok.injEq,
        CrossResult.vec.injEq]
      refine ⟨by ring, by ring, by ring⟩
    · simp [dot]; ring
    · simp [dot]; ring

/-- C07: the quarter turns are inverse to each other, keep lengths, are orthogonal
to the input and turn to the left / to the right (sign of the cross product). -/
theorem C07_rotate90 (v : Pt K) :
    VectorOps.rotate90cw (VectorOps.rotate90ccw v) = v ∧
    VectorOps.rotate90ccw (VectorOps.rotate90cw v) = v ∧
    dot [(VectorOps.rotate90ccw v).1, (VectorOps.rotate90ccw v).2] [v.1, v.2] = .ok 0 ∧
    dot [(VectorOps.rotate90cw v).1, (VectorOps.rotate90cw v).2] [v.1, v.2] = .ok 0 ∧
    norm2 [(VectorOps.rotate90ccw v).1, (VectorOps.rotate90ccw v).2] = norm2 [v.1, v.2] ∧
    norm2 [(VectorOps.rotate90cw v).1, (VectorOps.rotate90cw v).2] = norm2 [v.1, v.2] ∧
    cross [v.1, v.2] [(VectorOps.rotate90ccw v).1, (VectorOps.rotate90ccw v).2]
      = .ok (.scalar (v.1 ^ 2 + v.2 ^ 2)) ∧
    cross [v.1, v.2] [(VectorOps.rotate90cw v).1, (VectorOps.rotate90cw v).2]
      = .ok (.scalar (-(v.1 ^ 2 + v.2 ^ 2))) := by
  refine ⟨?_, ?_, ?_, ?_, ?_, ?_, ?_, ?_⟩
  · simp [VectorOps.rotate90cw, VectorOps.rotate90ccw]
  · simp [VectorOps.rotate90cw, VectorOps.rotate90ccw]
  · simp [VectorOps.rotate90ccw, dot]; ring
  · simp [VectorOps.rotate90cw, dot]; ring
  · simp [VectorOps.rotate90ccw, norm2, dot]; ring
  · simp [VectorOps.rotate90cw, norm2, dot]; ring
  · simp [VectorOps.rotate90ccw, cross]; ring
  · simp [VectorOps.rotate90cw, cross]; ring

example : VectorOps.rotate90ccw ((3 : ℚ), (4 : ℚ)) = (-4, 3) := by decide +kernel

end C07

section C08
variable {K : Type} [Field K] [LinearOrder K] [IsStrictOrderedRing K] [HasSqrt K] [SqrtLaws K]

/-- C08: `unit(v)` raises (ZeroDivisionError) iff `v` is a non-empty zero vector;
otherwise the result has norm 1 (unless the vector has dimension zero) and
`norm(v)` times the result is `v`. -/
theorem C08_unit (v : List K) (hv : v ≠ []) :
    ((∀ x ∈ v, x = 0) → unit v = .error .zeroDivisionError) ∧
    (¬ (∀ x ∈ v, x = 0) → ∃ n u, VectorOps.norm v = .ok n ∧ 0 < n ∧ unit v = .ok u ∧ norm2 u = .ok 1 ∧
        mul u (.scalar n) = .ok v) := by
  obtain ⟨n2, e, hsum, h0, hz⟩ := C07_norm2 v
  have hnorm : VectorOps.norm v = .ok (HasSqrt.sqrt n2) := by
    unfold VectorOps.norm; rw [e]; simp [bind, Except.bind, psqrt, not_lt.mpr h0]
  have hs0 := SqrtLaws.sqrt_nonneg n2 h0
  have hs1 := SqrtLaws.sqrt_mul_self n2 h0
  set s : K := HasSqrt.sqrt n2 with hs
  constructor
  · intro hall
    have : n2 = 0 := hz.mpr hall
    have hs2 : s = 0 := by
      rw [this] at hs1; exact mul_self_eq_zero.mp hs1
    unfold unit
    rw [hnorm]
    cases v with
    | nil => exact absurd rfl hv
    | cons x v => simp [bind, Except.bind, div, hs2, pdiv]
  · intro hall
    have hn : n2 ≠ 0 := fun h => hall (hz.mp h)
    have hs2 : s ≠ 0 := by
      intro h; rw [h, zero_mul] at hs1; exact hn hs1.symm
    have hmap : ∀ l : List K, (l.mapM fun ai => pdiv ai s) = .ok (l.map fun ai => ai / s) := by
      intro l
      induction l with
      | nil => rfl
      | cons x l ih =>
        simp only [List.mapM_cons, List.map_cons]
        rw [ih]
        simp [pdiv, hs2, bind, Except.bind, pure, Except.pure]
    refine ⟨s, v.map fun ai => ai / s, hnorm, lt_of_le_of_ne hs0 (Ne.symm hs2), ?_, ?_, ?_⟩
    · unfold unit; rw [hnorm]; simp only [bind, Except.bind, div]; exact hmap v
    · obtain ⟨m, em, hm, _⟩ := C07_norm2 (v.map fun ai => ai / s)
      rw [em, hm]
      congr 1
      have : ∀ l : List K, (((l.map fun ai => ai / s).map fun x => x ^ 2).sum)
          = (l.map fun x => x ^ 2).sum / (s * s) := by
        intro l
        induction l with
        | nil => simp
        | cons x l ih =>
          simp only [List.map_cons, List.sum_cons, ih]
          field_simp
      rw [this, ← hsum, hs1, div_self hn]
    · simp only [mul, List.map_map, Except.ok.injEq]
      conv_rhs => rw [← List.map_id v]
      apply List.map_congr_left
      intro x _
      simp [hs2]

example : ∃ n u, VectorOps.norm [(3 : ℝ), 4] = .ok n ∧ 0 < n ∧ unit [(3 : ℝ), 4] = .ok u ∧
    norm2 u = .ok 1 ∧ mul u (.scalar n) = .ok [(3 : ℝ), 4] :=
  (C08_unit [(3 : ℝ), 4] (by simp)).2 (by simp)

/-- C08: the 2D version that `Line2` uses: it raises exactly for the zero vector,
otherwise the result has squared norm 1, and is parallel to the input with a
positive factor. -/
theorem C08_unit_2d (v : Pt K) :
    (v = (0, 0) → unit2 v = .error .zeroDivisionError) ∧
    (v ≠ (0, 0) → ∃ u, unit2 v = .ok u ∧ u.1 ^ 2 + u.2 ^ 2 = 1 ∧
      ∃ n, 0 < n ∧ n ^ 2 = v.1 ^ 2 + v.2 ^ 2 ∧ v = (u.1 * n, u.2 * n)) := by
  obtain ⟨x, y⟩ := v
  have h0 : 0 ≤ normSq2 (x, y) := by
    unfold normSq2 dot2; nlinarith [mul_self_nonneg x, mul_self_nonneg y]
  have hs0 := SqrtLaws.sqrt_nonneg _ h0
  have hs1 := SqrtLaws.sqrt_mul_self _ h0
  constructor
  · intro h
    have : norm2d (x, y) = 0 := by
      rw [h] at hs1 ⊢
      have : normSq2 ((0 : K), (0 : K)) = 0 := by simp [normSq2, dot2]
      unfold norm2d
      rw [this] at hs1 ⊢
      exact mul_self_eq_zero.mp hs1
    simp [unit2, div2, this, pdiv, bind, Except.bind]
  · intro h
    have hne : norm2d (x, y) ≠ 0 := by
      intro hc
      unfold norm2d at hc
      rw [hc, zero_mul] at hs1
      unfold normSq2 dot2 at hs1
      simp only at hs1
      have hx : x * x = 0 := by nlinarith [mul_self_nonneg x, mul_self_nonneg y]
      have hy : y * y = 0 := by nlinarith [mul_self_nonneg x, mul_self_nonneg y]
      exact h (by rw [mul_self_eq_zero.mp hx, mul_self_eq_zero.mp hy])
    have hsq : norm2d (x, y) * norm2d (x, y) = x * x + y * y := hs1
    refine ⟨(x / norm2d (x, y), y / norm2d (x, y)), ?_, ?_, norm2d (x, y), ?_, ?_, ?_⟩
    · simp [unit2, div2, pdiv, hne, bind, Except.bind]
    · field_simp
      nlinarith
    · exact lt_of_le_of_ne hs0 (Ne.symm hne)
    · simp only; nlinarith
    · simp [hne]

end C08

section C09

theorem cos_179_9999 : Real.cos (179.9999 * (Real.pi / 180)) =
    - Real.cos (0.0001 * (Real.pi / 180)) := by
  rw [← Real.cos_pi_sub]
  congr 1
  ring

/-- C09: for unit vectors `u1`, `u2` at an angle of at most 179.9999 degrees the
bisector is a vector with inner product 1 with both (a point that moves with it
keeps up with both wavefronts), and its speed is at least 1. -/
theorem C09_bisector (u1 u2 : Pt ℝ) (h1 : u1.1 ^ 2 + u1.2 ^ 2 = 1) (h2 : u2.1 ^ 2 + u2.2 ^ 2 = 1)
    (hang : Real.cos (179.9999 * (Real.pi / 180)) ≤ u1.1 * u2.1 + u1.2 * u2.2) :
    ∃ b, bisector u1 u2 = .ok b ∧ b.1 * u1.1 + b.2 * u1.2 = 1 ∧ b.1 * u2.1 + b.2 * u2.2 = 1 ∧
      1 ≤ b.1 ^ 2 + b.2 ^ 2 := by
  obtain ⟨x1, y1⟩ := u1
  obtain ⟨x2, y2⟩ := u2
  simp only at h1 h2 hang
  set d := x1 * x2 + y1 * y2 with hd
  have hpi := Real.pi_pos
  have hpi3 := Real.two_le_pi
  have hd1 : d ≤ 1 := by nlinarith [sq_nonneg (x1 - x2), sq_nonneg (y1 - y2)]
  have hd0 : -1 ≤ d := by nlinarith [sq_nonneg (x1 + x2), sq_nonneg (y1 + y2)]
  -- quantitative bound: d is well above -1
  have hgap : 2 / Real.pi ^ 2 * (0.0001 * (Real.pi / 180)) ^ 2 ≤ 1 + d := by
    have hq := Real.cos_le_one_sub_mul_cos_sq (x := 0.0001 * (Real.pi / 180))
      (by rw [abs_of_nonneg (by positivity)]; nlinarith)
    rw [cos_179_9999] at hang
    linarith
  have hgap' : (6e-13 : ℝ) ≤ 1 + d := by
    have : 2 / Real.pi ^ 2 * (0.0001 * (Real.pi / 180)) ^ 2 = 2 * (0.0001 / 180) ^ 2 := by
      field_simp
    rw [this] at hgap
    norm_num at hgap ⊢
    linarith
  have hclamp : max (-1) (min 1 d) = d := by
    rw [min_eq_right hd1, max_eq_right hd0]
  have hnd : ¬ ((nearZero (x1 + x2) && nearZero (y1 + y2)) = true) := by
    rw [Bool.and_eq_true, nearZero_iff, nearZero_iff]
    rintro ⟨ha, hb⟩
    have ha2 := sq_le_sq' (by linarith [neg_abs_le (x1 + x2)] : -(1 / 10 ^ 10 : ℝ) ≤ x1 + x2)
      ((le_abs_self _).trans ha)
    have hb2 := sq_le_sq' (by linarith [neg_abs_le (y1 + y2)] : -(1 / 10 ^ 10 : ℝ) ≤ y1 + y2)
      ((le_abs_self _).trans hb)
    have : (x1 + x2) ^ 2 + (y1 + y2) ^ 2 = 2 + 2 * d := by
      rw [hd]; linear_combination h1 + h2
    norm_num at ha2 hb2 hgap'
    linarith
  have hang2 : Real.arccos d ≤ 179.9999 * (Real.pi / 180) := by
    have h := Real.arccos_le_arccos hang
    rwa [Real.arccos_cos (by positivity) (by nlinarith)] at h
  have hnp : ¬ (nearZero (Real.arccos d - Real.pi) = true) := by
    rw [nearZero_iff, abs_sub_comm]
    intro hc
    have := (le_abs_self _).trans hc
    norm_num at this hang2
    linarith
  have hmag : Real.sin (0.5 * Real.pi + 0.5 * Real.arccos d) = Real.sqrt ((1 + d) / 2) := by
    have e : (0.5 * Real.pi + 0.5 * Real.arccos d : ℝ) = Real.arccos d / 2 + Real.pi / 2 := by
      norm_num; ring
    rw [e, Real.sin_add_pi_div_two, Real.cos_half (by linarith [Real.arccos_nonneg d])
      (Real.arccos_le_pi d), Real.cos_arccos hd0 hd1]
  have hpos : 0 < (1 + d) / 2 := by norm_num at hgap'; linarith
  set s := Real.sqrt ((1 + d) / 2) with hs
  have hs0 : 0 < s := Real.sqrt_pos.mpr hpos
  have hss : s * s = (1 + d) / 2 := Real.mul_self_sqrt hpos.le
  have hn2 : norm2 [x1 + x2, y1 + y2] = .ok (2 + 2 * d) := by
    simp [norm2, dot]
    rw [hd]; linear_combination h1 + h2
  set n := Real.sqrt (2 + 2 * d) with hn
  have hn0 : 0 < n := Real.sqrt_pos.mpr (by linarith)
  have hnn : n * n = 2 + 2 * d := Real.mul_self_sqrt (by linarith)
  have hns : n = 2 * s := by nlinarith
  have hnorm : VectorOps.norm [x1 + x2, y1 + y2] = .ok n := by
    unfold VectorOps.norm; rw [hn2]
    simp only [bind, Except.bind, psqrt]
    rw [if_neg (by linarith)]
    rfl
  have hunit : unit [x1 + x2, y1 + y2] = .ok [(x1 + x2) / n, (y1 + y2) / n] := by
    unfold unit; rw [hnorm]
    simp [bind, Except.bind, div, pdiv, hn0.ne', pure, Except.pure]
  refine ⟨((x1 + x2) / n / s, (y1 + y2) / n / s), ?_, ?_, ?_, ?_⟩
  · unfold bisector angleUnit
    simp only
    rw [← hd, hclamp, if_neg (by
      rintro (h | h | h)
      · exact hnd h
      · exact hnp h
      · exact absurd h (not_lt.mpr hang)), hunit, hmag]
    simp [bind, Except.bind, div, pdiv, hs0.ne', pure, Except.pure]
  · simp only
    rw [hns]
    have h3 : (x1 + x2) * x1 + (y1 + y2) * y1 = 1 + d := by
      rw [hd]; linear_combination h1
    have h4 : (x1 + x2) / (2 * s) / s * x1 + (y1 + y2) / (2 * s) / s * y1 =
        ((x1 + x2) * x1 + (y1 + y2) * y1) / (2 * (s * s)) := by
      field_simp
    rw [h4, h3, hss]
    have : (1 + d) ≠ 0 := by linarith
    field_simp
  · simp only
    rw [hns]
    have h3 : (x1 + x2) * x2 + (y1 + y2) * y2 = 1 + d := by
      rw [hd]; linear_combination h2
    have h4 : (x1 + x2) / (2 * s) / s * x2 + (y1 + y2) / (2 * s) / s * y2 =
        ((x1 + x2) * x2 + (y1 + y2) * y2) / (2 * (s * s)) := by
      field_simp
    rw [h4, h3, hss]
    have : (1 + d) ≠ 0 := by linarith
    field_simp
  · simp only
    rw [hns]
    have h3 : (x1 + x2) ^ 2 + (y1 + y2) ^ 2 = 2 + 2 * d := by
      rw [hd]; linear_combination h1 + h2
    have h4 : ((x1 + x2) / (2 * s) / s) ^ 2 + ((y1 + y2) / (2 * s) / s) ^ 2 =
        ((x1 + x2) ^ 2 + (y1 + y2) ^ 2) / (4 * (s * s) * (s * s)) := by
      field_simp
      ring
    rw [h4, h3, hss, le_div_iff₀ (by positivity)]
    nlinarith

/-- C09: for unit vectors at an angle of more than 179.9999 degrees the result is
`(0, 0)` (the code's mark for "parallel wavefronts"). -/
theorem C09_bisector_opposite (u1 u2 : Pt ℝ) (h1 : u1.1 ^ 2 + u1.2 ^ 2 = 1)
    (h2 : u2.1 ^ 2 + u2.2 ^ 2 = 1)
    (hang : u1.1 * u2.1 + u1.2 * u2.2 < Real.cos (179.9999 * (Real.pi / 180))) :
    bisector u1 u2 = .ok (0, 0) := by
  obtain ⟨x1, y1⟩ := u1
  obtain ⟨x2, y2⟩ := u2
  simp only at h1 h2 hang
  have hd0 : -1 ≤ x1 * x2 + y1 * y2 := by nlinarith [sq_nonneg (x1 + x2), sq_nonneg (y1 + y2)]
  have hd1 : x1 * x2 + y1 * y2 ≤ 1 := by nlinarith [sq_nonneg (x1 - x2), sq_nonneg (y1 - y2)]
  unfold bisector angleUnit
  simp only
  rw [min_eq_right hd1, max_eq_right hd0, if_pos]
  exact Or.inr (Or.inr hang)

example : ∃ b, bisector (0, 1) (1, 0) = .ok b ∧ b.1 * 0 + b.2 * 1 = 1 ∧
    b.1 * 1 + b.2 * 0 = 1 ∧ 1 ≤ b.1 ^ 2 + b.2 ^ 2 :=
  C09_bisector (0, 1) (1, 0) (by norm_num) (by norm_num) (by
    simp only [zero_mul, mul_zero, add_zero]
    rw [cos_179_9999]
    have hpi := Real.pi_pos
    have h4 := Real.pi_le_four
    have : 0 ≤ Real.cos (0.0001 * (Real.pi / 180)) :=
      Real.cos_nonneg_of_neg_pi_div_two_le_of_le
        (by norm_num; linarith) (by norm_num; linarith)
    linarith)

example : bisector (0, 1) (0, -1) = .ok (0, 0) := by
  apply C09_bisector_opposite
  · norm_num
  · norm_num
  · rw [cos_179_9999]
    simp only [mul_neg, mul_one, mul_zero, zero_add, neg_lt_neg_iff]
    have hpi := Real.pi_pos
    have h4 := Real.pi_le_four
    have h := Real.cos_lt_cos_of_nonneg_of_le_pi (x := 0) (y := 0.0001 * (Real.pi / 180))
      (le_refl _) (by norm_num; linarith) (by positivity)
    simpa using h

end C09

end Grassfire
