/-
Lemmas for C23: sign of a quadratic between its roots, and completeness of the
area collapse times.
-/
import Verif.Proofs.EventShape
import Verif.Proofs.Line2dLemmas
import Mathlib.Tactic.LinearCombination
import Mathlib.Tactic.FieldSimp
import Mathlib.Tactic.Ring

set_option linter.unusedSectionVars false

namespace Grassfire

variable {K : Type} [Field K] [LinearOrder K] [IsStrictOrderedRing K] [HasSqrt K] [SqrtLaws K]

/-- A quadratic that is positive at `a` and has no root in `[a, b]` is positive at `b`.
(Holds in every ordered field with square roots.) -/
theorem quad_pos_of_no_root (A B C a b : K) (hab : a ≤ b) (ha : 0 < A * a ^ 2 + B * a + C)
    (hno : ∀ x, a ≤ x → x ≤ b → A * x ^ 2 + B * x + C ≠ 0) :
    0 < A * b ^ 2 + B * b + C := by
  by_contra hc
  have hb : A * b ^ 2 + B * b + C < 0 := lt_of_le_of_ne (not_lt.mp hc) (hno b hab le_rfl)
  by_cases hA : A = 0
  · subst hA
    have hB : B ≠ 0 := by rintro rfl; linarith
    have hx : ∀ x : K, 0 * x ^ 2 + B * x + C = B * (x + C / B) := by
      intro x; field_simp; ring
    rw [hx] at ha hb
    have hroot := hno (-(C / B))
    rw [hx] at hroot
    rcases lt_or_gt_of_ne hB with hneg | hpos
    · have h1 : a + C / B < 0 := by
        by_contra h; push Not at h
        have := mul_nonpos_of_nonpos_of_nonneg hneg.le h
        linarith
      have h2 : 0 < b + C / B := by
        by_contra h; push Not at h
        have := mul_nonneg_of_nonpos_of_nonpos hneg.le h
        linarith
      exact hroot (by linarith) (by linarith) (by ring)
    · have h1 : 0 < a + C / B := (pos_iff_pos_of_mul_pos ha).mp hpos
      have h2 : b + C / B < 0 := by
        by_contra h; push Not at h
        have := mul_nonneg hpos.le h
        linarith
      linarith
  · obtain ⟨c, hcdef⟩ : ∃ c, c = -B / (2 * A) := ⟨_, rfl⟩
    obtain ⟨U, hU⟩ : ∃ U, U = c ^ 2 - C / A := ⟨_, rfl⟩
    have hq : ∀ x, A * x ^ 2 + B * x + C = A * ((x - c) ^ 2 - U) := by
      intro x; rw [hU, hcdef]; field_simp; ring
    rw [hq] at ha hb
    have hU0 : 0 ≤ U := by
      by_contra h; push Not at h
      have g1 : 0 < (a - c) ^ 2 - U := by have := sq_nonneg (a - c); linarith
      have g2 : 0 < (b - c) ^ 2 - U := by have := sq_nonneg (b - c); linarith
      have := (pos_iff_pos_of_mul_pos ha).mpr g1
      have := mul_pos this g2
      linarith
    obtain ⟨s, hs⟩ : ∃ s, s = HasSqrt.sqrt U := ⟨_, rfl⟩
    have hss : s * s = U := by rw [hs]; exact SqrtLaws.sqrt_mul_self U hU0
    have hr1 := hno (c - s)
    have hr2 := hno (c + s)
    have z1 : A * (c - s) ^ 2 + B * (c - s) + C = 0 := by
      rw [hq]; linear_combination A * hss
    have z2 : A * (c + s) ^ 2 + B * (c + s) + C = 0 := by
      rw [hq]; linear_combination A * hss
    have f1 : 0 < (a - (c - s)) * (b - (c - s)) := by
      by_cases h : a ≤ c - s
      · have h' : ¬ c - s ≤ b := fun h' => hr1 h h' z1
        push Not at h'
        exact mul_pos_of_neg_of_neg (by linarith) (by linarith)
      · push Not at h
        exact mul_pos (by linarith) (by linarith)
    have f2 : 0 < (a - (c + s)) * (b - (c + s)) := by
      by_cases h : a ≤ c + s
      · have h' : ¬ c + s ≤ b := fun h' => hr2 h h' z2
        push Not at h'
        exact mul_pos_of_neg_of_neg (by linarith) (by linarith)
      · push Not at h
        exact mul_pos (by linarith) (by linarith)
    have hprod := mul_neg_of_pos_of_neg ha hb
    have e : A * ((a - c) ^ 2 - U) * (A * ((b - c) ^ 2 - U)) =
        (A * A) * ((a - (c - s)) * (b - (c - s)) * ((a - (c + s)) * (b - (c + s)))) := by
      rw [← hss]; ring
    rw [e] at hprod
    have := mul_nonneg (mul_self_nonneg A) (mul_pos f1 f2).le
    linarith

/-- outside the tolerance cases of `solve_quadratic` -/
def ExactCoeffs (A B C : K) : Prop :=
  (1 / 10 ^ 10 < |A| ∧ 1 / 10 ^ 10 < |(B / (2 * A)) ^ 2 - C / A|) ∨
  (A = 0 ∧ (B = 0 ∨ 1 / 10 ^ 10 < |B|))

theorem sqrt_pos_of_pos (x : K) (h : 0 < x) : 0 < HasSqrt.sqrt x := by
  have h1 := SqrtLaws.sqrt_nonneg x h.le
  have h2 := SqrtLaws.sqrt_mul_self x h.le
  rcases h1.lt_or_eq with h3 | h3
  · exact h3
  · rw [← h3] at h2; simp at h2; linarith

/-- every root is found -/
theorem solveQuadratic_complete (A B C x : K) (h : ExactCoeffs A B C)
    (hne : ∃ y, A * y ^ 2 + B * y + C ≠ 0)
    (hx : A * x ^ 2 + B * x + C = 0) : x ∈ solveQuadratic A B C := by
  rcases h with ⟨hA, hD⟩ | ⟨hA, hB⟩
  · have hA0 : A ≠ 0 := by
      rintro rfl; rw [abs_zero] at hA
      exact absurd hA (not_lt.mpr (by positivity))
    have hAn : nearZero A = false := (nearZero_false_iff A).mpr hA
    have hu : (1 / 4 * (-B / A) ^ 2 - C / A) = (B / (2 * A)) ^ 2 - C / A := by
      field_simp; ring
    have hDn : nearZero (1 / 4 * (-B / A) ^ 2 - C / A) = false := by
      rw [hu]; exact (nearZero_false_iff _).mpr hD
    have hquad : A * x ^ 2 + B * x + C =
        A * ((x - -B / A * (1 / 2)) ^ 2 - (1 / 4 * (-B / A) ^ 2 - C / A)) := by
      field_simp; ring
    unfold solveQuadratic
    simp only [hAn, hDn, Bool.false_and, Bool.false_eq_true, if_false]
    obtain ⟨U, hU⟩ : ∃ U, U = 1 / 4 * (-B / A) ^ 2 - C / A := ⟨_, rfl⟩
    obtain ⟨c, hc⟩ : ∃ c, c = -B / A * (1 / 2) := ⟨_, rfl⟩
    rw [hquad, ← hU, ← hc, mul_eq_zero, or_iff_right hA0] at hx
    rw [← hU, ← hc]
    split_ifs with h
    · have := sq_nonneg (x - c)
      linarith
    · have hs := SqrtLaws.sqrt_mul_self U (not_lt.mp h)
      simp only [List.mem_cons, List.not_mem_nil, or_false]
      have : (x - (c - HasSqrt.sqrt U)) * (x - (c + HasSqrt.sqrt U)) = 0 := by
        linear_combination hx - hs
      rcases mul_eq_zero.mp this with h' | h'
      · left; linarith
      · right; linarith
  · subst hA
    have hAn : nearZero (0 : K) = true := nearZero_zero
    rcases hB with hB | hB
    · subst hB
      obtain ⟨y, hy⟩ := hne
      exfalso
      apply hy
      simp only [zero_mul, zero_add] at hx ⊢
      exact hx
    · have hB0 : B ≠ 0 := by
        rintro rfl; rw [abs_zero] at hB
        exact absurd hB (not_lt.mpr (by positivity))
      have hBn : nearZero B = false := (nearZero_false_iff B).mpr hB
      unfold solveQuadratic
      simp only [hAn, hBn, Bool.not_false, Bool.and_self, if_true, List.mem_singleton]
      rw [eq_div_iff hB0]
      linear_combination hx

/-- What `compute_event_0triangle` does in terms of the list of area collapse times. -/
theorem computeEvent0_times (t : TView K) (now : K) (sv : Sieve) (r : Option (EvCore K))
    (h : computeEvent0 t now sv = .ok r) :
    (∃ e, r = some e ∧ e.time = now ∧
      ∃ x ∈ areaCollapseTimes (t.v 0) (t.v 1) (t.v 2), nearZero |x - now| = true) ∨
    ((∀ x ∈ areaCollapseTimes (t.v 0) (t.v 1) (t.v 2), nearZero |x - now| = false) ∧
      ((r = none ∧ sv.apply ((areaCollapseTimes (t.v 0) (t.v 1) (t.v 2)).map some) now = none) ∨
       (∃ e, r = some e ∧
        (sv.apply ((areaCollapseTimes (t.v 0) (t.v 1) (t.v 2)).map some) now = none ∨
         ∃ ta, sv.apply ((areaCollapseTimes (t.v 0) (t.v 1) (t.v 2)).map some) now = some ta ∧
          e.time ≤ ta + 1 / 10 ^ 10 ∧ (e.tp ≠ .edge → e.time = ta))))) := by
  unfold computeEvent0 at h
  simp only [bind_ok_iff, passert_ok_iff, decide_eq_true_eq] at h
  obtain ⟨-, h0, h⟩ := h
  have hflip : ∀ time r, flipLongest t time = .ok r → ∃ e, r = some e ∧ e.time = time := by
    intro time r h
    unfold flipLongest at h
    simp only [bind_ok_iff, Except.ok.injEq] at h
    obtain ⟨d, _, s, _, h⟩ := h
    exact ⟨_, h.symm, rfl⟩
  have hedge : ∀ time r, edgeCollapse0 t time = .ok r →
      ∃ e, r = some e ∧ e.time = time ∧ e.tp = .edge := by
    intro time r h
    unfold edgeCollapse0 at h
    simp only [bind_ok_iff] at h
    obtain ⟨d, _, h⟩ := h
    split at h
    · exact ⟨_, (Except.ok.inj h).symm, rfl, rfl⟩
    · exact ⟨_, (Except.ok.inj h).symm, rfl, rfl⟩
    · cases h
  split_ifs at h with hd
  · left
    rw [List.any_eq_true] at hd
    unfold degenerateNow0 at h
    simp only [bind_ok_iff] at h
    obtain ⟨d, _, h⟩ := h
    split at h
    · exact ⟨_, (Except.ok.inj h).symm, rfl, hd⟩
    · cases h
    · obtain ⟨e, he, ht⟩ := hflip now r h
      exact ⟨e, he, ht, hd⟩
  · right
    constructor
    · intro x hx
      cases hz : nearZero |x - now| with
      | false => rfl
      | true => exact absurd (List.any_eq_true.mpr ⟨x, hx, hz⟩) hd
    · simp only [bind_ok_iff] at h
      obtain ⟨d2, hd2, d, hd1, h⟩ := h
      have h10 : (0 : K) < 1 / 10 ^ 10 := by positivity
      split at h
      · rename_i h1 h2
        exact Or.inl ⟨(Except.ok.inj h).symm, h2⟩
      · rename_i te ta hte hta
        right
        split_ifs at h with c1 c2
        · rw [nearZero_iff, abs_abs] at c1
          have hle : te ≤ ta + 1 / 10 ^ 10 := by
            have := neg_le_of_abs_le c1; linarith
          simp only [bind_ok_iff] at h
          obtain ⟨d3, _, h⟩ := h
          split at h
          · exact ⟨_, (Except.ok.inj h).symm, Or.inr ⟨ta, hta, hle, fun h => absurd rfl h⟩⟩
          · exact ⟨_, (Except.ok.inj h).symm, Or.inr ⟨ta, hta, hle, fun h => absurd rfl h⟩⟩
          · obtain ⟨e, he, ht⟩ := hflip ta r h
            exact ⟨e, he, Or.inr ⟨ta, hta, by linarith, fun _ => ht⟩⟩
        · obtain ⟨e, he, ht⟩ := hflip ta r h
          exact ⟨e, he, Or.inr ⟨ta, hta, by linarith, fun _ => ht⟩⟩
        · obtain ⟨e, he, ht, htp⟩ := hedge te r h
          exact ⟨e, he, Or.inr ⟨ta, hta, by linarith [not_lt.mp c2], fun h => absurd htp h⟩⟩
      · rename_i te hte hta
        right
        obtain ⟨e, he, ht, htp⟩ := hedge te r h
        exact ⟨e, he, Or.inl hta⟩
      · rename_i ta hte hta
        right
        obtain ⟨e, he, ht⟩ := hflip ta r h
        exact ⟨e, he, Or.inr ⟨ta, hta, by linarith, fun _ => ht⟩⟩

/-- both sieves agree with "least value >= now" when nothing is within 1e-10 of now -/
theorem sieve_gap (sv : Sieve) (L : List K) (now : K) (hL : ∀ x ∈ L, nearZero |x - now| = false) :
    (sv.apply (L.map some) now = none → ∀ x ∈ L, x < now) ∧
    (∀ ta, sv.apply (L.map some) now = some ta → ∀ x ∈ L, now ≤ x → ta ≤ x) := by
  have hfar : ∀ x ∈ L, now ≤ x → now < x ∧ 1 / 10 ^ 10 < |x - now| := by
    intro x hx hn
    have := (nearZero_false_iff _).mp (hL x hx)
    rw [abs_abs] at this
    refine ⟨lt_of_le_of_ne hn ?_, this⟩
    rintro rfl
    rw [sub_self, abs_zero] at this
    exact absurd this (not_lt.mpr (by positivity))
  have hmem : ∀ x ∈ L, some x ∈ L.map some := fun x hx => List.mem_map_of_mem hx
  cases sv with
  | gte =>
    constructor
    · intro h x hx; exact findGte_none _ now h x (hmem x hx)
    · intro ta h x hx hn; exact (findGte_some _ now ta h).2.2 x (hmem x hx) hn
  | gt =>
    constructor
    · intro h x hx
      by_contra hc
      push Not at hc
      have hf := hfar x hx hc
      have := findGt_none _ now h x (hmem x hx) hf.1
      exact absurd hf.2 (not_lt.mpr this)
    · intro ta h x hx hn
      have hf := hfar x hx hn
      exact (findGt_some _ now ta h).2.2.2 x (hmem x hx) hf.1 hf.2

end Grassfire
