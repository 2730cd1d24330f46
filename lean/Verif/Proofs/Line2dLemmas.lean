/-
Helper lemmas about the model of line2d.py.
-/
import Verif.Line2d
import Verif.Proofs.CalcLemmas
import Mathlib.Tactic.LinearCombination
import Mathlib.Tactic.FieldSimp

set_option linter.unusedSectionVars false

namespace Grassfire

variable {K : Type} [Field K] [LinearOrder K] [IsStrictOrderedRing K] [HasSqrt K]

section laws

variable [SqrtLaws K]

theorem sqrt_zero_K : HasSqrt.sqrt (0 : K) = 0 :=
  mul_self_eq_zero.mp (SqrtLaws.sqrt_mul_self 0 (le_refl _))

theorem sqrt_one_K : HasSqrt.sqrt (1 : K) = 1 := by
  have h0 := SqrtLaws.sqrt_nonneg (1 : K) zero_le_one
  have h1 := SqrtLaws.sqrt_mul_self (1 : K) zero_le_one
  rcases mul_self_eq_one_iff.mp h1 with h | h
  · exact h
  · rw [h] at h0; linarith

theorem sqrt_pos_K (x : K) (h : 0 < x) : 0 < HasSqrt.sqrt x := by
  have h0 := SqrtLaws.sqrt_nonneg x h.le
  have h1 := SqrtLaws.sqrt_mul_self x h.le
  rcases h0.eq_or_lt with h2 | h2
  · rw [← h2, zero_mul] at h1; exact absurd h1 h.ne
  · exact h2

theorem sqrt_of_mul_self (x s : K) (hs : 0 ≤ s) (h : s * s = x) : HasSqrt.sqrt x = s := by
  have hx : 0 ≤ x := h ▸ mul_self_nonneg s
  have h0 := SqrtLaws.sqrt_nonneg x hx
  have h1 := SqrtLaws.sqrt_mul_self x hx
  rcases mul_self_eq_mul_self_iff.mp (h1.trans h.symm) with h2 | h2
  · exact h2
  · have : s = 0 := by linarith
    rw [this] at h2 ⊢; linarith

theorem normSq2_nonneg (v : Pt K) : 0 ≤ normSq2 v := by
  unfold normSq2 dot2; nlinarith [mul_self_nonneg v.1, mul_self_nonneg v.2]

theorem normSq2_eq_zero (v : Pt K) : normSq2 v = 0 ↔ v = (0, 0) := by
  obtain ⟨x, y⟩ := v
  unfold normSq2 dot2
  simp only [Prod.mk.injEq]
  constructor
  · intro h
    have hx : x * x = 0 := by nlinarith [mul_self_nonneg x, mul_self_nonneg y]
    have hy : y * y = 0 := by nlinarith [mul_self_nonneg x, mul_self_nonneg y]
    exact ⟨mul_self_eq_zero.mp hx, mul_self_eq_zero.mp hy⟩
  · rintro ⟨rfl, rfl⟩; ring

theorem norm2d_eq_zero (v : Pt K) : norm2d v = 0 ↔ v = (0, 0) := by
  rw [← normSq2_eq_zero]
  unfold norm2d
  constructor
  · intro h
    have := SqrtLaws.sqrt_mul_self _ (normSq2_nonneg v)
    rw [h, zero_mul] at this; exact this.symm
  · intro h; rw [h]; exact sqrt_zero_K

theorem norm2d_sq (v : Pt K) : norm2d v * norm2d v = v.1 * v.1 + v.2 * v.2 :=
  SqrtLaws.sqrt_mul_self _ (normSq2_nonneg v)

theorem norm2d_nonneg (v : Pt K) : 0 ≤ norm2d v := SqrtLaws.sqrt_nonneg _ (normSq2_nonneg v)

theorem norm2d_pos (v : Pt K) (h : v ≠ (0, 0)) : 0 < norm2d v :=
  lt_of_le_of_ne (norm2d_nonneg v) (fun e => h ((norm2d_eq_zero v).mp e.symm))

/-- the normalising constructor of `Line2` -/
theorem make_eq (w : Pt K) (b : K) (h : w ≠ (0, 0)) :
    Line2.make w b = .ok ⟨(w.1 / norm2d w, w.2 / norm2d w), b / norm2d w⟩ := by
  have hn : norm2d w ≠ 0 := fun e => h ((norm2d_eq_zero w).mp e)
  simp [Line2.make, unit2, div2, pdiv, hn, bind, Except.bind]

theorem make_zero (b : K) : Line2.make ((0 : K), (0 : K)) b = .error .zeroDivisionError := by
  have hn : norm2d ((0 : K), (0 : K)) = 0 := (norm2d_eq_zero _).mpr rfl
  simp [Line2.make, pdiv, hn, bind, Except.bind]

/-- the square root of 1 is all that is needed for lines with a unit normal -/
instance : SqrtUnit K := ⟨sqrt_one_K⟩

end laws

section unit

variable [SqrtUnit K]

theorem make_unit (w : Pt K) (b : K) (h : w.1 ^ 2 + w.2 ^ 2 = 1) :
    Line2.make w b = .ok ⟨w, b⟩ := by
  have hn : norm2d w = 1 := by
    unfold norm2d
    have : normSq2 w = 1 := by unfold normSq2 dot2; nlinarith
    rw [this, SqrtUnit.sqrt_one]
  simp [Line2.make, unit2, div2, pdiv, hn, bind, Except.bind]

theorem translated_unit (l : Line2 K) (v : Pt K) (h : l.w.1 ^ 2 + l.w.2 ^ 2 = 1) :
    l.translated v = .ok ⟨l.w, l.b - dot2 l.w v⟩ := by
  unfold Line2.translated
  simp only
  split_ifs with hd
  · exact make_unit _ _ h
  · rfl

theorem atTime_unit (l : Line2 K) (t : K) (h : l.w.1 ^ 2 + l.w.2 ^ 2 = 1) :
    l.atTime t = .ok ⟨l.w, l.b - t⟩ := by
  unfold Line2.atTime
  split_ifs with ht
  · subst ht; simp
  · rw [translated_unit l _ h]
    congr 2
    unfold dot2 mul2
    simp only
    linear_combination (-t) * h

end unit

/-- the determinant of the two normals -/
def det2 (l m : Line2 K) : K := l.w.1 * m.w.2 - m.w.1 * l.w.2

theorem lli_point (l m : Line2 K) (h : nearZero (det2 l m) = false) :
    lineLineIntersect l m = .ok (.point ((l.w.2 * m.b - m.w.2 * l.b) / det2 l m,
      (m.w.1 * l.b - l.w.1 * m.b) / det2 l m)) := by
  have hne : det2 l m ≠ 0 := by
    intro e; rw [e, nearZero_zero] at h; simp at h
  unfold lineLineIntersect
  obtain ⟨⟨a1, b1⟩, c1⟩ := l
  obtain ⟨⟨a2, b2⟩, c2⟩ := m
  simp only [det2] at h hne ⊢
  simp [h, pdiv, hne, bind, Except.bind]

theorem lli_parallel (l m : Line2 K) (h : nearZero (det2 l m) = true) :
    lineLineIntersect l m = if nearZero (l.w.1 * m.b - m.w.1 * l.b) &&
      nearZero (l.w.2 * m.b - m.w.2 * l.b) then .ok (.line l) else .ok .noIntersection := by
  unfold lineLineIntersect
  obtain ⟨⟨a1, b1⟩, c1⟩ := l
  obtain ⟨⟨a2, b2⟩, c2⟩ := m
  simp only [det2] at h ⊢
  simp [h]

end Grassfire
