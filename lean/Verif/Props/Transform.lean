/-
Properties C15 and C16: scaling to the unit box (transform.py) and the
coordinate check of calc_skel.
-/
import Verif.Proofs.TransformLemmas
import Mathlib.Tactic.Linarith
import Mathlib.Tactic.Ring
import Mathlib.Tactic.FieldSimp
import Mathlib.Tactic.NormNum

set_option linter.unusedSectionVars false

namespace Grassfire

section C15
variable {K : Type} [Field K] [LinearOrder K] [IsStrictOrderedRing K]

/-- C15: with a non-zero scale both round trips are the identity (and `forward`
does not raise). -/
theorem C15_round_trip (t : Transform K) (h1 : t.scale.1 ≠ 0) (h2 : t.scale.2 ≠ 0) (p : Pt K) :
    (∃ q, t.forward p = .ok q ∧ t.backward q = p) ∧ t.forward (t.backward p) = .ok p := by
  constructor
  · refine ⟨((p.1 - t.translate.1) / t.scale.1, (p.2 - t.translate.2) / t.scale.2), ?_, ?_⟩
    · simp [Transform.forward, pdiv, h1, h2, bind, Except.bind]
    · simp [Transform.backward, h1, h2]
  · simp [Transform.forward, Transform.backward, pdiv, h1, h2, bind, Except.bind]

/-- C15: `forward` raises ZeroDivisionError exactly when a scale is zero. -/
theorem C15_zero_scale (t : Transform K) (p : Pt K) (e : Err) :
    t.forward p = .error e ↔ e = .zeroDivisionError ∧ (t.scale.1 = 0 ∨ t.scale.2 = 0) := by
  unfold Transform.forward pdiv
  by_cases h1 : t.scale.1 = 0
  · simp [h1, bind, Except.bind, eq_comm]
  · by_cases h2 : t.scale.2 = 0
    · simp [h1, h2, bind, Except.bind, eq_comm]
    · simp [h1, h2, bind, Except.bind]

/-- C15: with one common scale `s` all squared distances are divided by `s^2`. -/
theorem C15_similarity (t : Transform K) (hs : t.scale.1 = t.scale.2) (p q p' q' : Pt K)
    (hp : t.forward p = .ok p') (hq : t.forward q = .ok q') :
    (p.1 - q.1) ^ 2 + (p.2 - q.2) ^ 2 =
      t.scale.1 ^ 2 * ((p'.1 - q'.1) ^ 2 + (p'.2 - q'.2) ^ 2) := by
  unfold Transform.forward pdiv at hp hq
  rw [← hs] at hp hq
  by_cases h1 : t.scale.1 = 0
  · simp [h1, bind, Except.bind] at hp
  · simp only [h1, if_false, bind, Except.bind, Except.ok.injEq] at hp hq
    subst hp; subst hq
    simp only
    field_simp
    ring

example : ∃ q, (⟨(2, 2), (1, 1)⟩ : Transform ℚ).forward (5, 7) = .ok q := ⟨(2, 3), by decide +kernel⟩

end C15

section C16

/-- C16: `get_box` raises AssertionError for an empty list; otherwise it returns
the tight box: every point is inside and each of the four sides is touched.  Only
comparisons are involved, so this holds for any totally ordered numbers,
including (non-NaN) floats. -/
theorem C16_get_box {α : Type} [LinearOrder α] (pts : List (α × α)) :
    (pts = [] → getBox pts = .error .assertionError) ∧
    (pts ≠ [] → ∃ ll ur, getBox pts = .ok (ll, ur) ∧
      (∀ p ∈ pts, ll.1 ≤ p.1 ∧ ll.2 ≤ p.2 ∧ p.1 ≤ ur.1 ∧ p.2 ≤ ur.2) ∧
      (∃ p ∈ pts, p.1 = ll.1) ∧ (∃ p ∈ pts, p.2 = ll.2) ∧
      (∃ p ∈ pts, p.1 = ur.1) ∧ (∃ p ∈ pts, p.2 = ur.2)) := by
  constructor
  · rintro rfl; rfl
  · intro h
    cases pts with
    | nil => exact absurd rfl h
    | cons p it =>
      obtain ⟨h1, h2, h3, h4, h5⟩ := boxLoop_spec it [p] p p ⟨p, by simp, rfl⟩ ⟨p, by simp, rfl⟩
        ⟨p, by simp, rfl⟩ ⟨p, by simp, rfl⟩ (by simp)
      exact ⟨_, _, rfl, h5, h1, h2, h3, h4⟩

variable {K : Type} [Field K] [LinearOrder K] [IsStrictOrderedRing K]

/-- C16: when the points are not all the same point, the transform computed from
their box is invertible, has one scale for both axes and maps every point into
`[-1,1] x [-1,1]` (hence inside the `[-2,2]` range that calc_skel asserts). -/
theorem C16_unit_box (pts : List (Pt K)) (ll ur : Pt K) (hbox : getBox pts = .ok (ll, ur))
    (hne : ∃ p ∈ pts, ∃ q ∈ pts, p ≠ q) :
    (getTransform (ll, ur)).scale.1 = (getTransform (ll, ur)).scale.2 ∧
    0 < (getTransform (ll, ur)).scale.1 ∧
    ∀ p ∈ pts, ∃ q, (getTransform (ll, ur)).forward p = .ok q ∧
      -1 ≤ q.1 ∧ q.1 ≤ 1 ∧ -1 ≤ q.2 ∧ q.2 ≤ 1 := by
  have hp0 : pts ≠ [] := by
    obtain ⟨p, hp, _⟩ := hne; exact List.ne_nil_of_mem hp
  obtain ⟨ll', ur', e, hin, -⟩ := (C16_get_box pts).2 hp0
  rw [hbox] at e
  simp only [Except.ok.injEq, Prod.mk.injEq] at e
  obtain ⟨rfl, rfl⟩ := e
  obtain ⟨lx, ly⟩ := ll
  obtain ⟨ux, uy⟩ := ur
  have hs : 0 < max ((ux - lx) / 2) ((uy - ly) / 2) := by
    obtain ⟨p, hp, q, hq, hpq⟩ := hne
    obtain ⟨a, b, c, d⟩ := hin p hp
    obtain ⟨a', b', c', d'⟩ := hin q hq
    simp only at a b c d a' b' c' d'
    by_contra hc
    rw [not_lt, max_le_iff] at hc
    apply hpq
    have h1 := hc.1
    have h2 := hc.2
    exact Prod.ext (by linarith) (by linarith)
  refine ⟨rfl, hs, ?_⟩
  intro p hp
  obtain ⟨a, b, c, d⟩ := hin p hp
  simp only at a b c d
  have hx : (ux - lx) / 2 ≤ max ((ux - lx) / 2) ((uy - ly) / 2) := le_max_left _ _
  have hy : (uy - ly) / 2 ≤ max ((ux - lx) / 2) ((uy - ly) / 2) := le_max_right _ _
  simp only [Transform.forward, getTransform, pdiv, hs.ne', if_false, bind, Except.bind]
  refine ⟨_, rfl, ?_, ?_, ?_, ?_⟩
  · simp only; rw [le_div_iff₀ hs]; linarith
  · simp only; rw [div_le_iff₀ hs]; linarith
  · simp only; rw [le_div_iff₀ hs]; linarith
  · simp only; rw [div_le_iff₀ hs]; linarith

/-- C16: a list that repeats a single point gives scale 0, so that `forward` raises
ZeroDivisionError for every point. -/
theorem C16_single_point (p : Pt K) (n : ℕ) (q : Pt K) :
    ∃ b, getBox (p :: List.replicate n p) = .ok b ∧
      (getTransform b).forward q = .error .zeroDivisionError := by
  obtain ⟨ll, ur, e, hin, ⟨a, ha, ha'⟩, ⟨b, hb, hb'⟩, ⟨c, hc, hc'⟩, ⟨d, hd, hd'⟩⟩ :=
    (C16_get_box (p :: List.replicate n p)).2 (by simp)
  have hall : ∀ x ∈ p :: List.replicate n p, x = p := by
    intro x hx
    rcases List.mem_cons.mp hx with h | h
    · exact h
    · exact List.eq_of_mem_replicate h
  rw [hall a ha] at ha'
  rw [hall b hb] at hb'
  rw [hall c hc] at hc'
  rw [hall d hd] at hd'
  refine ⟨_, e, ?_⟩
  obtain ⟨lx, ly⟩ := ll
  obtain ⟨ux, uy⟩ := ur
  simp only at ha' hb' hc' hd'
  subst ha' hb' hc' hd'
  rw [C15_zero_scale]
  exact ⟨rfl, Or.inl (by simp [getTransform])⟩

example : ∃ q, (getTransform (((70000 : ℚ), (100000 : ℚ)), (75000, 125000))).forward
    (70000, 100000) = .ok q ∧ q = (-1 / 5, -1) := ⟨(-1 / 5, -1), by decide +kernel, rfl⟩

end C16

end Grassfire
