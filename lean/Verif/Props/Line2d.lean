/-
Properties C10 - C14: lines, wavefronts and their intersections (line2d.py).

Specification vocabulary used in the statements: a line is `w . p + b = 0`, it is
`UnitNormal` when `w` has length one; `OnLine l p` says that the point satisfies
the equation.
-/
import Verif.Proofs.Line2dLemmas

set_option linter.unusedSectionVars false

namespace Grassfire

variable {K : Type} [Field K] [LinearOrder K] [IsStrictOrderedRing K] [HasSqrt K]

/-- Specification: the normal of the line has length 1. -/
def UnitNormal (l : Line2 K) : Prop := l.w.1 ^ 2 + l.w.2 ^ 2 = 1

/-- Specification: the point satisfies the equation of the line. -/
def OnLine (l : Line2 K) (p : Pt K) : Prop := l.w.1 * p.1 + l.w.2 * p.2 + l.b = 0

/-- Specification: the line `l` advanced by the distance `t` along its normal. -/
def Advanced (l : Line2 K) (t : K) : Line2 K := ⟨l.w, l.b - t⟩

/-! ### C10 -/

section lengths

variable [SqrtLaws K]

/-- C10: the construction raises (ZeroDivisionError) iff the two points coincide. -/
theorem C10_from_points_raises (p q : Pt K) :
    (p = q → Line2.fromPoints p q = .error .zeroDivisionError) ∧
    (p ≠ q → ∃ l, Line2.fromPoints p q = .ok l) := by
  obtain ⟨px, py⟩ := p
  obtain ⟨qx, qy⟩ := q
  constructor
  · intro h
    obtain ⟨rfl, rfl⟩ := Prod.mk.inj h
    simp [Line2.fromPoints, coefficientsFromPoints, make_zero, bind, Except.bind]
  · intro h
    have hc : ((coefficientsFromPoints (px, py) (qx, qy)).1,
        (coefficientsFromPoints (px, py) (qx, qy)).2.1) ≠ ((0 : K), (0 : K)) := by
      unfold coefficientsFromPoints
      simp only
      split_ifs with h1 h2 h3 h4 h5 h6 <;> simp
      · exact h (by rw [h1, h3])
      · exact h1 h6.symm
      · intro h7; exact absurd (by linarith : py = qy) h1
    unfold Line2.fromPoints
    generalize coefficientsFromPoints (px, py) (qx, qy) = co at hc ⊢
    obtain ⟨a, b, c⟩ := co
    simp only at hc ⊢
    rw [make_eq _ _ hc]
    simp only [bind, Except.bind]
    rw [if_neg (fun e => h e.symm)]
    exact ⟨_, rfl⟩

omit [SqrtLaws K] in
/-- C10, for any square root that is exact for 1 and for the length of the segment: the line from `p`
to `q` has a unit normal, contains both points, and the
signed distance of any point `r` times `|pq|` is twice the signed area of the
triangle `p q r`; so the left side is the positive one. -/
theorem C10_exact [SqrtUnit K] (p q : Pt K) (l : Line2 K) (h : Line2.fromPoints p q = .ok l)
    (hx : HasSqrt.sqrt ((q.1 - p.1) ^ 2 + (q.2 - p.2) ^ 2) ^ 2 = (q.1 - p.1) ^ 2 + (q.2 - p.2) ^ 2)
    (hx0 : 0 ≤ HasSqrt.sqrt ((q.1 - p.1) ^ 2 + (q.2 - p.2) ^ 2)) :
    UnitNormal l ∧ l.signedDistance p = 0 ∧ l.signedDistance q = 0 ∧
    ∃ len, 0 < len ∧ len ^ 2 = (q.1 - p.1) ^ 2 + (q.2 - p.2) ^ 2 ∧
      ∀ r : Pt K, l.signedDistance r * len =
        (q.1 - p.1) * (r.2 - p.2) - (q.2 - p.2) * (r.1 - p.1) := by
  have hpq : p ≠ q := by
    rintro rfl
    unfold Line2.fromPoints at h
    dsimp only at h
    generalize Line2.make (K := K) _ _ = m at h
    cases m with
    | error e => cases h
    | ok m =>
      simp only [bind, Except.bind] at h
      rw [if_pos trivial] at h
      cases h
  obtain ⟨px, py⟩ := p
  obtain ⟨qx, qy⟩ := q
  -- the coefficients are a positive multiple of (py - qy, qx - px)
  have key : ∃ a b c k : K, coefficientsFromPoints (px, py) (qx, qy) = (a, b, c) ∧ 0 < k ∧
      k * a = py - qy ∧ k * b = qx - px ∧ k * c = -px * (py - qy) - py * (qx - px) ∧
      (a ^ 2 + b ^ 2 = 1 ∨ (a ^ 2 + b ^ 2 = (qx - px) ^ 2 + (qy - py) ^ 2)) := by
    unfold coefficientsFromPoints
    simp only
    split_ifs with h1 h2 h3 h4 h5 h6
    · exact ⟨_, _, _, qx - px, rfl, by linarith, by rw [h1]; ring, by ring, by rw [h1]; ring, .inl (by ring)⟩
    · exact absurd (by rw [h1, h3]) hpq
    · refine ⟨_, _, _, px - qx, rfl, ?_, by rw [h1]; ring, by ring, by rw [h1]; ring, .inl (by ring)⟩
      have := lt_of_le_of_ne (not_lt.mp h2) h3
      linarith
    · exact ⟨_, _, _, qy - py, rfl, by linarith, by ring, by rw [h4]; ring, by rw [h4]; ring, .inl (by ring)⟩
    · exact absurd h6.symm h1
    · refine ⟨_, _, _, py - qy, rfl, ?_, by ring, by rw [h4]; ring, by rw [h4]; ring, .inl (by ring)⟩
      have := lt_of_le_of_ne (not_lt.mp h5) h6
      linarith
    · exact ⟨_, _, _, 1, rfl, one_pos, by ring, by ring, by ring, .inr (by ring)⟩
  obtain ⟨a, b, c, k, hco, hk, ha, hb, hc, hone⟩ := key
  unfold Line2.fromPoints at h
  rw [hco] at h
  simp only at h
  obtain ⟨ln, hm⟩ : ∃ ln, Line2.make (a, b) c = .ok ln := by
    cases hm : Line2.make (a, b) c with
    | error e => rw [hm] at h; cases h
    | ok ln => exact ⟨ln, rfl⟩
  rw [hm] at h
  simp only [bind, Except.bind] at h
  rw [if_neg (fun e => hpq e.symm)] at h
  cases h
  have hsq : norm2d ((a, b) : Pt K) * norm2d ((a, b) : Pt K) = a * a + b * b ∧ 0 ≤ norm2d ((a, b) : Pt K) := by
    unfold norm2d normSq2 dot2
    dsimp only
    rcases hone with e | e
    · rw [show a * a + b * b = 1 by linear_combination e, SqrtUnit.sqrt_one]
      exact ⟨by ring, zero_le_one⟩
    · rw [show a * a + b * b = (qx - px) ^ 2 + (qy - py) ^ 2 by linear_combination e]
      dsimp only at hx hx0
      exact ⟨by rw [← pow_two]; exact hx, hx0⟩
  obtain ⟨hsq, hn⟩ := hsq
  have hn0 : norm2d ((a, b) : Pt K) ≠ 0 := by
    intro e
    unfold Line2.make unit2 div2 pdiv at hm
    simp [e, bind, Except.bind] at hm
  have hn := lt_of_le_of_ne hn (Ne.symm hn0)
  have hl : l = ⟨(a / norm2d ((a, b) : Pt K), b / norm2d ((a, b) : Pt K)), c / norm2d ((a, b) : Pt K)⟩ := by
    simp [Line2.make, unit2, div2, pdiv, hn0, bind, Except.bind] at hm
    exact hm.symm
  subst hl
  generalize norm2d ((a, b) : Pt K) = n at hn hn0 hsq
  refine ⟨?_, ?_, ?_, k * n, mul_pos hk hn, ?_, ?_⟩
  · unfold UnitNormal
    simp only
    field_simp
    nlinarith
  · simp only [Line2.signedDistance, dot2]
    have : a * px + b * py + c = 0 := by
      have h0 : k * (a * px + b * py + c) = 0 := by linear_combination px * ha + py * hb + hc
      exact (mul_eq_zero.mp h0).resolve_left hk.ne'
    field_simp
    linear_combination this
  · simp only [Line2.signedDistance, dot2]
    have : a * qx + b * qy + c = 0 := by
      have h0 : k * (a * qx + b * qy + c) = 0 := by linear_combination qx * ha + qy * hb + hc
      exact (mul_eq_zero.mp h0).resolve_left hk.ne'
    field_simp
    linear_combination this
  · simp only
    have e : (k * n) ^ 2 = (k * a) ^ 2 + (k * b) ^ 2 := by linear_combination k ^ 2 * hsq
    rw [e, ha, hb]; ring
  · intro r
    simp only [Line2.signedDistance, dot2]
    field_simp
    linear_combination r.1 * ha + r.2 * hb + hc

/-- C10: the line from `p` to `q` has a unit normal, contains both points, and the
signed distance of any point `r` times `|pq|` is twice the signed area of the
triangle `p q r`; so the left side is the positive one. -/
theorem C10_from_points (p q : Pt K) (l : Line2 K) (h : Line2.fromPoints p q = .ok l) :
    UnitNormal l ∧ l.signedDistance p = 0 ∧ l.signedDistance q = 0 ∧
    ∃ len, 0 < len ∧ len ^ 2 = (q.1 - p.1) ^ 2 + (q.2 - p.2) ^ 2 ∧
      ∀ r : Pt K, l.signedDistance r * len =
        (q.1 - p.1) * (r.2 - p.2) - (q.2 - p.2) * (r.1 - p.1) := by
  refine C10_exact p q l h ?_ (SqrtLaws.sqrt_nonneg _ (by positivity))
  rw [pow_two]
  exact SqrtLaws.sqrt_mul_self _ (by positivity)

end lengths

example : ∃ l, Line2.fromPoints ((0 : ℝ), (0 : ℝ)) (3, 4) = .ok l :=
  (C10_from_points_raises _ _).2 (by simp)

/-! ### C11 -/

section unit

variable [SqrtUnit K]

/-- C11: `at_time(t)` of a line with unit normal is the line advanced by `t`; the
signed distance of every point drops by exactly `t`. -/
theorem C11_at_time (l : Line2 K) (t : K) (h : UnitNormal l) :
    ∃ m, l.atTime t = .ok m ∧ m = Advanced l t ∧ UnitNormal m ∧
      ∀ p, m.signedDistance p = l.signedDistance p - t := by
  refine ⟨_, atTime_unit l t h, rfl, h, ?_⟩
  intro p
  unfold Line2.signedDistance
  ring

/-- C11: moving in two steps is moving by the sum, and time 0 changes nothing. -/
theorem C11_at_time_add (l m : Line2 K) (s t : K) (h : UnitNormal l) (hm : l.atTime s = .ok m) :
    m.atTime t = l.atTime (s + t) ∧ l.atTime 0 = .ok l := by
  rw [atTime_unit l s h] at hm
  simp only [Except.ok.injEq] at hm
  subst hm
  rw [atTime_unit ⟨l.w, l.b - s⟩ t h, atTime_unit l (s + t) h, atTime_unit l 0 h]
  constructor
  · congr 2; ring
  · simp

/-- C11: `through` and both `ends()` lie on the line, and the direction from start
to end has the normal on its left. -/
theorem C11_through_ends (l : Line2 K) (h : UnitNormal l) :
    OnLine l l.through ∧ OnLine l l.ends.1 ∧ OnLine l l.ends.2 ∧
    l.ends.2.1 - l.ends.1.1 = 2000 * l.w.2 ∧ l.ends.2.2 - l.ends.1.2 = -2000 * l.w.1 := by
  unfold UnitNormal at h
  simp only [OnLine, Line2.through, Line2.ends, mul2, add2, rot90ccw, rot90cw]
  refine ⟨?_, ?_, ?_, by ring, by ring⟩ <;> linear_combination (-l.b) * h

/-- C11: `perpendicular(p)` of a unit-normal line passes through `p`, has a unit
normal at right angles to the original one, turned counter-clockwise. -/
theorem C11_perpendicular (l : Line2 K) (p : Pt K) (h : UnitNormal l) :
    ∃ m, l.perpendicular p = .ok m ∧ UnitNormal m ∧ OnLine m p ∧ m.w = (-l.w.2, l.w.1) := by
  have hu : (-l.w.2) ^ 2 + l.w.1 ^ 2 = 1 := by unfold UnitNormal at h; linarith
  refine ⟨_, make_unit (-l.w.2, l.w.1) _ hu, hu, ?_, rfl⟩
  simp only [OnLine]
  ring

omit [SqrtUnit K] in
/-- C11: every point of `l.bisector(o)` has signed distances to the two lines that
are opposite (or, for lines with opposite normals, equal) -- so it is equally far
from both lines.  `bisector` raises only when the two lines are degenerate. -/
theorem C11_bisector [SqrtLaws K] (l o m : Line2 K) (hl : UnitNormal l) (ho : UnitNormal o)
    (h : l.bisector o = .ok m) (p : Pt K) (hp : OnLine m p) :
    |l.signedDistance p| = |o.signedDistance p| := by
  unfold UnitNormal at hl ho
  have h1 : HasSqrt.sqrt (l.w.1 * l.w.1 + l.w.2 * l.w.2) = 1 := by
    rw [show l.w.1 * l.w.1 + l.w.2 * l.w.2 = 1 by nlinarith, sqrt_one_K]
  have h2 : HasSqrt.sqrt (o.w.1 * o.w.1 + o.w.2 * o.w.2) = 1 := by
    rw [show o.w.1 * o.w.1 + o.w.2 * o.w.2 = 1 by nlinarith, sqrt_one_K]
  unfold Line2.bisector coefficientsBisector at h
  simp only [h1, h2, one_mul] at h
  by_cases hz : l.w.1 + o.w.1 = 0 ∧ l.w.2 + o.w.2 = 0
  · rw [if_pos hz] at h
    simp only at h
    have hne : (l.w.1 - o.w.1, l.w.2 - o.w.2) ≠ ((0 : K), (0 : K)) := by
      intro e
      obtain ⟨e1, e2⟩ := Prod.mk.inj e
      have : l.w.1 = 0 := by linarith [hz.1]
      have h2 : l.w.2 = 0 := by linarith [hz.2]
      rw [this, h2] at hl; simp at hl
    rw [make_eq _ _ hne] at h
    simp only [Except.ok.injEq] at h
    subst h
    have hn := norm2d_pos _ hne
    simp only [OnLine] at hp
    have : (l.w.1 - o.w.1) * p.1 + (l.w.2 - o.w.2) * p.2 + (l.b - o.b) = 0 := by
      field_simp at hp; linear_combination hp
    have e : l.signedDistance p = o.signedDistance p := by
      simp only [Line2.signedDistance, dot2]; linear_combination this
    rw [e]
  · rw [if_neg hz] at h
    simp only at h
    have hne : (l.w.1 + o.w.1, l.w.2 + o.w.2) ≠ ((0 : K), (0 : K)) := by
      intro e; exact hz (Prod.mk.inj e)
    rw [make_eq _ _ hne] at h
    simp only [Except.ok.injEq] at h
    subst h
    have hn := norm2d_pos _ hne
    simp only [OnLine] at hp
    have : (l.w.1 + o.w.1) * p.1 + (l.w.2 + o.w.2) * p.2 + (l.b + o.b) = 0 := by
      field_simp at hp; linear_combination hp
    have e : l.signedDistance p = - o.signedDistance p := by
      simp only [Line2.signedDistance, dot2]; linear_combination this
    rw [e, abs_neg]

omit [SqrtUnit K] in
/-- C11: `coefficients_bisector_of_lines` also takes lines whose normals do not have length 1: the result is a line,
of which every point is equally far from both (the quotients of the values at the point and of the lengths of the normals
have the same square). -/
theorem C11_bisector_coefficients [SqrtLaws K] (pa pb pc qa qb qc a b c : K) (hp : (pa, pb) ≠ ((0 : K), (0 : K)))
    (hq : (qa, qb) ≠ ((0 : K), (0 : K))) (h : coefficientsBisector pa pb pc qa qb qc = (a, b, c)) :
    (a, b) ≠ ((0 : K), (0 : K)) ∧ ∀ x y, a * x + b * y + c = 0 →
      (pa * x + pb * y + pc) ^ 2 / (pa ^ 2 + pb ^ 2) = (qa * x + qb * y + qc) ^ 2 / (qa ^ 2 + qb ^ 2) := by
  have pos : ∀ u v : K, (u, v) ≠ ((0 : K), (0 : K)) → 0 < u ^ 2 + v ^ 2 := by
    intro u v huv
    rcases (add_nonneg (sq_nonneg u) (sq_nonneg v)).lt_or_eq with h | h
    · exact h
    · have h1 : u ^ 2 = 0 := by nlinarith [sq_nonneg u, sq_nonneg v]
      have h2 : v ^ 2 = 0 := by nlinarith [sq_nonneg u, sq_nonneg v]
      exact absurd (by rw [pow_eq_zero_iff two_ne_zero |>.1 h1, pow_eq_zero_iff two_ne_zero |>.1 h2]) huv
  have p0 := pos _ _ hp
  have q0 := pos _ _ hq
  have e1 := SqrtLaws.sqrt_mul_self (pa * pa + pb * pb) (by nlinarith)
  have e2 := SqrtLaws.sqrt_mul_self (qa * qa + qb * qb) (by nlinarith)
  unfold coefficientsBisector at h
  generalize HasSqrt.sqrt (pa * pa + pb * pb) = n1 at *
  generalize HasSqrt.sqrt (qa * qa + qb * qb) = n2 at *
  dsimp only at h
  have n1z : n1 ≠ 0 := by rintro rfl; nlinarith
  have n2z : n2 ≠ 0 := by rintro rfl; nlinarith
  have key : ∀ x y σ : K, σ ^ 2 = 1 → n2 * (pa * x + pb * y + pc) = σ * (n1 * (qa * x + qb * y + qc)) →
      (pa * x + pb * y + pc) ^ 2 / (pa ^ 2 + pb ^ 2) = (qa * x + qb * y + qc) ^ 2 / (qa ^ 2 + qb ^ 2) := by
    intro x y σ hσ hxy
    rw [div_eq_div_iff p0.ne' q0.ne']
    have : (n2 * (pa * x + pb * y + pc)) ^ 2 = σ ^ 2 * (n1 * (qa * x + qb * y + qc)) ^ 2 := by rw [hxy]; ring
    rw [hσ] at this
    linear_combination this - (pa * x + pb * y + pc) ^ 2 * e2 + (qa * x + qb * y + qc) ^ 2 * e1
  split_ifs at h with hz
  · obtain ⟨rfl, rfl, rfl⟩ := Prod.mk.inj h |>.imp_right fun z => Prod.mk.inj z
    refine ⟨fun z => hp ?_, fun x y hxy => key x y 1 (by ring) (by linear_combination hxy)⟩
    obtain ⟨z1, z2⟩ := Prod.mk.inj z
    have w1 : n2 * pa = 0 := by linear_combination (hz.1 + z1) / 2
    have w2 : n2 * pb = 0 := by linear_combination (hz.2 + z2) / 2
    rw [(mul_eq_zero.1 w1).resolve_left n2z, (mul_eq_zero.1 w2).resolve_left n2z]
  · obtain ⟨rfl, rfl, rfl⟩ := Prod.mk.inj h |>.imp_right fun z => Prod.mk.inj z
    exact ⟨fun z => hz (Prod.mk.inj z), fun x y hxy => key x y (-1) (by ring) (by linear_combination hxy)⟩

/-- a line with a normal of length 5 and one with a normal of length 1 -/
example : ∃ a b c, coefficientsBisector (3 : ℝ) 4 0 1 0 0 = (a, b, c) ∧ ((3 : ℝ), (4 : ℝ)) ≠ (0, 0) ∧
    ((1 : ℝ), (0 : ℝ)) ≠ (0, 0) := ⟨_, _, _, rfl, by simp, by simp⟩

/-- C11: `y_at_x` gives the point of the line above `x`, and raises exactly for
vertical lines. -/
theorem C11_y_at_x (l : Line2 K) (x : K) :
    (l.w.2 = 0 → l.yAtX x = .error .zeroDivisionError) ∧
    (l.w.2 ≠ 0 → ∃ y, l.yAtX x = .ok y ∧ OnLine l (x, y)) := by
  unfold Line2.yAtX pdiv
  constructor
  · intro h; simp [h]
  · intro h
    refine ⟨_, by rw [if_neg h], ?_⟩
    simp only [OnLine]
    field_simp
    ring

example : UnitNormal (⟨(3 / 5, 4 / 5), 7⟩ : Line2 ℝ) := by
  unfold UnitNormal; norm_num

/-! ### C12 -/

/-- C12: when the classification is "point", the reported point lies on both lines
and is the only such point. -/
theorem C12_point (l m : Line2 K) (p : Pt K) (h : lineLineIntersect l m = .ok (.point p)) :
    OnLine l p ∧ OnLine m p ∧ ∀ q, OnLine l q → OnLine m q → q = p := by
  cases hz : nearZero (det2 l m) with
  | true =>
    rw [lli_parallel l m hz] at h
    split_ifs at h <;> simp at h
  | false =>
    have hne : det2 l m ≠ 0 := by
      intro e; rw [e, nearZero_zero] at hz; simp at hz
    rw [lli_point l m hz] at h
    simp only [Except.ok.injEq, LLI.point.injEq] at h
    subst h
    have hd : det2 l m = l.w.1 * m.w.2 - m.w.1 * l.w.2 := rfl
    refine ⟨?_, ?_, ?_⟩
    · simp only [OnLine]
      field_simp
      rw [hd]; ring
    · simp only [OnLine]
      field_simp
      rw [hd]; ring
    · intro q h1 h2
      unfold OnLine at h1 h2
      obtain ⟨x, y⟩ := q
      simp only at h1 h2
      rw [Prod.mk.injEq]
      constructor
      · rw [eq_div_iff hne, hd]; linear_combination m.w.2 * h1 - l.w.2 * h2
      · rw [eq_div_iff hne, hd]; linear_combination l.w.1 * h2 - m.w.1 * h1

/-- C12: the classification never raises; which of the three cases is reported is
decided by the determinant of the normals (tolerance 1e-10) and, for parallel
lines, by the offsets.  In particular exactly coincident lines are reported as
"line", and the result for "line" is the first argument. -/
theorem C12_classification (l m : Line2 K) :
    ((∃ p, lineLineIntersect l m = .ok (.point p)) ↔
        1 / 10 ^ 10 < |l.w.1 * m.w.2 - m.w.1 * l.w.2|) ∧
    (lineLineIntersect l m = .ok (.line l) ↔
        |l.w.1 * m.w.2 - m.w.1 * l.w.2| ≤ 1 / 10 ^ 10 ∧
        |l.w.1 * m.b - m.w.1 * l.b| ≤ 1 / 10 ^ 10 ∧ |l.w.2 * m.b - m.w.2 * l.b| ≤ 1 / 10 ^ 10) ∧
    (lineLineIntersect l m = .ok .noIntersection ↔
        |l.w.1 * m.w.2 - m.w.1 * l.w.2| ≤ 1 / 10 ^ 10 ∧
        ¬ (|l.w.1 * m.b - m.w.1 * l.b| ≤ 1 / 10 ^ 10 ∧ |l.w.2 * m.b - m.w.2 * l.b| ≤ 1 / 10 ^ 10)) := by
  have hd : det2 l m = l.w.1 * m.w.2 - m.w.1 * l.w.2 := rfl
  rw [← hd]
  cases hz : nearZero (det2 l m) with
  | true =>
    have hz' := (nearZero_iff _).mp hz
    rw [lli_parallel l m hz]
    have hn : ¬ (1 / 10 ^ 10 < |det2 l m|) := not_lt.mpr hz'
    simp only [hn, hz', true_and, iff_false]
    by_cases hc : |l.w.1 * m.b - m.w.1 * l.b| ≤ 1 / 10 ^ 10 ∧ |l.w.2 * m.b - m.w.2 * l.b| ≤ 1 / 10 ^ 10
    · have : (nearZero (l.w.1 * m.b - m.w.1 * l.b) && nearZero (l.w.2 * m.b - m.w.2 * l.b)) = true := by
        rw [Bool.and_eq_true, nearZero_iff, nearZero_iff]; exact hc
      rw [if_pos this]
      simp only [hc, and_self]
      simp
    · have : ¬ (nearZero (l.w.1 * m.b - m.w.1 * l.b) && nearZero (l.w.2 * m.b - m.w.2 * l.b)) = true := by
        rw [Bool.and_eq_true, nearZero_iff, nearZero_iff]; exact hc
      rw [if_neg this]
      simp only [hc]
      simp
  | false =>
    have hz' := (nearZero_false_iff _).mp hz
    rw [lli_point l m hz]
    have hn : ¬ (|det2 l m| ≤ 1 / 10 ^ 10) := not_le.mpr hz'
    simp only [hz', hn, false_and, iff_true, iff_false]
    refine ⟨⟨_, rfl⟩, by simp, by simp⟩

/-- C12: the classification (and the intersection point) does not depend on the
order of the two lines. -/
theorem C12_symmetric (l m : Line2 K) (p : Pt K) :
    (lineLineIntersect l m = .ok (.point p) ↔ lineLineIntersect m l = .ok (.point p)) ∧
    (lineLineIntersect l m = .ok (.line l) ↔ lineLineIntersect m l = .ok (.line m)) ∧
    (lineLineIntersect l m = .ok .noIntersection ↔ lineLineIntersect m l = .ok .noIntersection) := by
  have e1 : |m.w.1 * l.w.2 - l.w.1 * m.w.2| = |l.w.1 * m.w.2 - m.w.1 * l.w.2| := abs_sub_comm _ _
  have e2 : |m.w.1 * l.b - l.w.1 * m.b| = |l.w.1 * m.b - m.w.1 * l.b| := abs_sub_comm _ _
  have e3 : |m.w.2 * l.b - l.w.2 * m.b| = |l.w.2 * m.b - m.w.2 * l.b| := abs_sub_comm _ _
  have key : ∀ (l m : Line2 K) (p : Pt K), lineLineIntersect l m = .ok (.point p) →
      lineLineIntersect m l = .ok (.point p) := by
    intro l m p h
    have h1 := (C12_classification l m).1.mp ⟨p, h⟩
    rw [abs_sub_comm] at h1
    obtain ⟨q, hq⟩ := (C12_classification m l).1.mpr h1
    have h2 := C12_point l m p h
    have h3 := C12_point m l q hq
    rw [hq, h2.2.2 q h3.2.1 h3.1]
  refine ⟨⟨key l m p, key m l p⟩, ?_, ?_⟩
  · rw [(C12_classification l m).2.1, (C12_classification m l).2.1, e1, e2, e3]
  · rw [(C12_classification l m).2.2, (C12_classification m l).2.2, e1, e2, e3]

/-- C12: exactly coincident lines are classified as "line"; parallel unit-normal
lines whose offsets differ by more than 2e-10 as "no intersection". -/
theorem C12_parallel (l m : Line2 K) (hl : UnitNormal l) (hw : l.w = m.w) :
    (l.b = m.b → lineLineIntersect l m = .ok (.line l)) ∧
    (2 / 10 ^ 10 < |l.b - m.b| → lineLineIntersect l m = .ok .noIntersection) := by
  have h0 : l.w.1 * m.w.2 - m.w.1 * l.w.2 = 0 := by rw [← hw]; ring
  constructor
  · intro hb
    rw [(C12_classification l m).2.1, h0, ← hw, ← hb]
    simp [mul_comm]
  · intro hb
    rw [(C12_classification l m).2.2, h0, ← hw]
    refine ⟨by simp, ?_⟩
    rintro ⟨h1, h2⟩
    rw [← mul_sub, abs_mul, abs_sub_comm] at h1 h2
    unfold UnitNormal at hl
    have a1 := abs_nonneg l.w.1
    have a2 := abs_nonneg l.w.2
    have hs : 1 ≤ |l.w.1| + |l.w.2| := by
      have e1 := sq_abs l.w.1
      have e2 := sq_abs l.w.2
      nlinarith [mul_nonneg a1 a2]
    have h3 : 1 * |l.b - m.b| ≤ (|l.w.1| + |l.w.2|) * |l.b - m.b| :=
      mul_le_mul_of_nonneg_right hs (abs_nonneg _)
    have h4 : (2 : K) / 10 ^ 10 = 1 / 10 ^ 10 + 1 / 10 ^ 10 := by ring
    nlinarith

example : ∃ p, lineLineIntersect (⟨(1, 0), -2⟩ : Line2 ℚ) ⟨(0, 1), 3⟩ = .ok (.point p) :=
  ⟨(2, -3), by decide +kernel⟩

/-! ### C13 -/

/-- C13: two wavefronts with unit normals that are not parallel (beyond the
tolerance).  `get_bisector` returns a velocity `b`; at every time `t`
`get_intersection_at_t(t)` returns the unique point on both advanced lines; and
that point moves with velocity `b`. -/
theorem C13_wavefront_vertex (l r : Line2 K) (hl : UnitNormal l) (hr : UnitNormal r)
    (hd : 1 / 10 ^ 10 < |l.w.1 * r.w.2 - r.w.1 * l.w.2|) :
    ∃ b p0, getBisector l r = .ok b ∧ getIntersectionAtT l r 0 = .ok p0 ∧
      ∀ t, ∃ p, getIntersectionAtT l r t = .ok p ∧
        OnLine (Advanced l t) p ∧ OnLine (Advanced r t) p ∧
        p = (p0.1 + t * b.1, p0.2 + t * b.2) := by
  have hz : ∀ s t : K, nearZero (det2 (⟨l.w, s⟩ : Line2 K) ⟨r.w, t⟩) = false := by
    intro s t; rw [nearZero_false_iff]; exact hd
  have hne : l.w.1 * r.w.2 - r.w.1 * l.w.2 ≠ 0 := by
    intro e; rw [e, abs_zero] at hd
    have : (0 : K) < 1 / 10 ^ 10 := by positivity
    linarith
  have hint : ∀ t, getIntersectionAtT l r t =
      .ok ((l.w.2 * (r.b - t) - r.w.2 * (l.b - t)) / (l.w.1 * r.w.2 - r.w.1 * l.w.2),
      (r.w.1 * (l.b - t) - l.w.1 * (r.b - t)) / (l.w.1 * r.w.2 - r.w.1 * l.w.2)) := by
    intro t
    unfold getIntersectionAtT
    rw [atTime_unit l t hl, atTime_unit r t hr]
    simp only [bind, Except.bind]
    rw [lli_point _ _ (hz _ _)]
    rfl
  have hb : getBisector l r = .ok ((r.w.2 - l.w.2) / (l.w.1 * r.w.2 - r.w.1 * l.w.2),
      (l.w.1 - r.w.1) / (l.w.1 * r.w.2 - r.w.1 * l.w.2)) := by
    unfold getBisector
    rw [lli_point l r (hz l.b r.b)]
    simp only [bind, Except.bind]
    rw [translated_unit l _ hl, translated_unit r _ hr]
    simp only
    rw [lli_point _ _ (hz _ _)]
    simp only [sub2, det2, Except.ok.injEq, Prod.mk.injEq]
    have e1 : dot2 l.w l.w = 1 := by unfold dot2; unfold UnitNormal at hl; nlinarith
    have e2 : dot2 r.w r.w = 1 := by unfold dot2; unfold UnitNormal at hr; nlinarith
    rw [e1, e2]
    constructor
    · rw [← sub_div]; congr 1; ring
    · rw [← sub_div]; congr 1; ring
  refine ⟨_, _, hb, hint 0, ?_⟩
  intro t
  specialize hint t
  obtain ⟨D, hD⟩ : ∃ D, D = l.w.1 * r.w.2 - r.w.1 * l.w.2 := ⟨_, rfl⟩
  rw [← hD] at hint hne ⊢
  refine ⟨_, hint, ?_, ?_, ?_⟩
  · simp only [OnLine, Advanced]; field_simp; rw [hD]; ring
  · simp only [OnLine, Advanced]; field_simp; rw [hD]; ring
  · simp only [Prod.mk.injEq]
    constructor
    · field_simp; ring
    · field_simp; ring

/-- C13: for (numerically) parallel wavefronts `get_intersection_at_t` raises
ValueError, and `get_bisector` is the mean of the normals for coinciding lines and
their sum for disjoint ones. -/
theorem C13_parallel_wavefronts (l r : Line2 K) (t : K) (hl : UnitNormal l) (hr : UnitNormal r)
    (hd : |l.w.1 * r.w.2 - r.w.1 * l.w.2| ≤ 1 / 10 ^ 10) :
    getIntersectionAtT l r t = .error .valueError ∧
    (getBisector l r = .ok ((l.w.1 + r.w.1) / 2, (l.w.2 + r.w.2) / 2) ∨
     getBisector l r = .ok (l.w.1 + r.w.1, l.w.2 + r.w.2)) := by
  have hz : ∀ s t : K, nearZero (det2 (⟨l.w, s⟩ : Line2 K) ⟨r.w, t⟩) = true := by
    intro s t; rw [nearZero_iff]; exact hd
  constructor
  · unfold getIntersectionAtT
    rw [atTime_unit l t hl, atTime_unit r t hr]
    simp only [bind, Except.bind]
    rw [lli_parallel _ _ (hz _ _)]
    split_ifs <;> rfl
  · unfold getBisector
    rw [lli_parallel l r (hz l.b r.b)]
    split_ifs
    · left
      simp only [bind, Except.bind, add2, mul2, Except.ok.injEq, Prod.mk.injEq]
      constructor <;> ring
    · right; rfl

example : ∃ b p0, getBisector (⟨(0, 1), 0⟩ : Line2 ℝ) ⟨(1, 0), 0⟩ = .ok b ∧
    getIntersectionAtT (⟨(0, 1), 0⟩ : Line2 ℝ) ⟨(1, 0), 0⟩ 0 = .ok p0 := by
  obtain ⟨b, p0, h1, h2, _⟩ := C13_wavefront_vertex (⟨(0, 1), 0⟩ : Line2 ℝ) ⟨(1, 0), 0⟩
    (by simp [UnitNormal]) (by simp [UnitNormal]) (by norm_num)
  exact ⟨b, p0, h1, h2⟩

end unit

/-! ### C14 -/

/-- C14 (violated): `get_intersection()` raises TypeError for every pair of
wavefronts, in particular for those for which `get_intersection_at_t(0)` succeeds. -/
theorem C14_get_intersection_always_raises (l r : Line2 K) :
    getIntersection l r = .error .typeError := rfl

/-- C14 (violated): consequently `create_bevel_wavefront` never succeeds. -/
theorem C14_create_bevel_wavefront_never_succeeds (first last : WaveFront K) :
    ∃ e, createBevelWavefront first last = .error e := by
  unfold createBevelWavefront
  cases h1 : passert (decide (first.start = last.stop)) with
  | error e => exact ⟨e, rfl⟩
  | ok _ =>
    cases h2 : first.line.perpendicular first.start with
    | error e => exact ⟨e, rfl⟩
    | ok perp =>
      cases h3 : WaveFront.make first.start first.start (some perp) with
      | error e => exact ⟨e, by simp [bind, Except.bind, h3]⟩
      | ok wf =>
        cases h4 : getBisector first.line wf.line with
        | error e => exact ⟨e, by simp [bind, Except.bind, h3, h4]⟩
        | ok b =>
          exact ⟨.typeError, by
            simp [bind, Except.bind, h3, h4, C14_get_intersection_always_raises]⟩

end Grassfire
