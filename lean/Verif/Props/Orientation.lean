/-
Property C76: a triangle does not turn over before its event.
-/
import Verif.Proofs.OrientationRoots
import Verif.Spec.RealTrig

set_option linter.unusedSectionVars false

namespace Grassfire

open Spec

variable {K : Type} [Field K] [LinearOrder K] [IsStrictOrderedRing K] [HasSqrt K]

/-- C76: when the corners of the triangle are in line at a time `x` that the sieve lets through, then
`compute_collapse_time` finds an event for the triangle, not later than `x`: whatever its number of wavefront edges is.
(Except for triangles whose corners always are in line.) -/
theorem C76_degenerate [SqrtUnit K] (T : TView K) (now : K) (sv : Sieve) (r : Option (EvCore K))
    (h : computeCollapse T now sv = .ok r) (hact : T.stopped = false)
    (hk : ∀ i, (T.v i).kinetic = true ∧ (T.v i).infFast = false) (hc : ClearMotion T)
    (x : K) (hx : Admitted sv now x) (hx0 : 0 ≤ x) (hz : areaAt T x = 0) (hne : ∃ y, areaAt T y ≠ 0) :
    ∃ e, r = some e ∧ e.time ≤ x :=
  area_root h hact hk hc hx hx0 hz hne

/-- C76: a triangle with any number of wavefront edges that is counter-clockwise at `now` stays so until its event, and
forever when it has none; at the time of the event it is counter-clockwise, or degenerate.  (`find_gt`, which is only used
at the start, does not see what happens within 1e-10.) -/
theorem C76_orientation [SqrtUnit K] (T : TView K) (now : K) (sv : Sieve) (r : Option (EvCore K))
    (h : computeCollapse T now sv = .ok r) (hact : T.stopped = false)
    (hk : ∀ i, (T.v i).kinetic = true ∧ (T.v i).infFast = false) (hc : ClearMotion T) (hnow : 0 ≤ now)
    (hccw : 0 < areaAt T now)
    (hsv : sv = .gt → ∀ x, now ≤ x → x ≤ now + 1 / 10 ^ 10 → areaAt T x ≠ 0)
    (u : K) (hu : now ≤ u) (hlt : ∀ e, r = some e → u ≤ e.time) :
    0 ≤ areaAt T u ∧ ((∀ e, r = some e → u < e.time) → 0 < areaAt T u) := by
  have adm : ∀ x, now ≤ x → areaAt T x = 0 → Admitted sv now x := by
    intro x h1 h2
    cases sv with
    | gte => exact h1
    | gt =>
      by_contra q
      exact hsv rfl x h1 (not_lt.1 q) h2
  have hroot : ∀ x, now ≤ x → areaAt T x = 0 → ∃ e, r = some e ∧ e.time ≤ x := fun x h1 h2 =>
    area_root h hact hk hc (adm x h1 h2) (hnow.trans h1) h2 ⟨now, hccw.ne'⟩
  have key := area_no_root hc hu hccw fun x h1 h2 h3 => by
    obtain ⟨e, he, hle⟩ := hroot x h1 h3
    exact absurd (hlt e he) (not_le.2 (hle.trans_lt h2))
  refine ⟨key.1, fun hl => key.2 fun q => ?_⟩
  obtain ⟨e, he, hle⟩ := hroot u hu q
  exact absurd (hl e he) (not_lt.2 hle)

/-! ### the hypotheses are met -/

/-- a vertex of the examples -/
noncomputable def rV (x y dx dy : ℝ) (l : Option (Line2 ℝ)) : VView ℝ :=
  { kinetic := true, origin := (x, y), velocity := (dx, dy), infFast := false, startPos := some (x, y), ul := l, ur := l }

/-- a triangle with one wavefront edge, which moves up while the apex moves down: they meet at t = 3 -/
noncomputable def rOne : TView ℝ :=
  { v := ![rV 0 0 (1 / 2) 1 (some ⟨(0, 1), 0⟩), rV 4 0 (-1 / 2) 1 (some ⟨(0, 1), 0⟩), rV 2 6 0 (-1) none]
    noNeighbour := ![false, false, true]
    stopped := false }

theorem rOne_only (j : Fin 3) : rOne.noNeighbour j = true ↔ j = 2 := by fin_cases j <;> simp [rOne]

theorem rOne_rides : Rides rOne 2 ⟨(0, 1), 0⟩ := by
  refine ⟨by norm_num, rfl, fun u => ⟨?_, ?_⟩⟩
  · show AtDistance _ u (cornerAt rOne 0 u)
    simp [AtDistance, cornerAt, move, rOne, rV]
  · show AtDistance _ u (cornerAt rOne 1 u)
    simp [AtDistance, cornerAt, move, rOne, rV]

theorem rOne_clear : ClearMotion rOne where
  rides i hi := by obtain rfl := (rOne_only i).1 hi; exact ⟨_, rOne_rides⟩
  side i hi := by
    obtain rfl := (rOne_only i).1 hi
    left
    show (1 : ℝ) / 10 ^ 10 < distSq (rOne.v 0).velocity (rOne.v 1).velocity
    simp only [distSq, rOne, rV, Matrix.cons_val_zero, Matrix.cons_val_one]
    norm_num
  apex i l hi hl := by
    obtain rfl := (rOne_only i).1 ((hi i).2 rfl)
    have hline : (rOne.v 0).ur = some l := hl.line
    obtain rfl : (⟨(0, 1), 0⟩ : Line2 ℝ) = l := by simpa [rOne, rV] using hline
    left
    simp only [dot2, rOne, rV, Matrix.cons_val]
    norm_num
  apart := by
    rintro ⟨k, hk⟩
    have h0 := (hk 0).1 (by simp [rOne])
    have h1 := (hk 1).1 (by simp [rOne])
    rw [← h0] at h1
    exact absurd h1 (by decide)
  zero h := by have := h 0; simp [rOne] at this
  coeffs h := by have := h 2; simp [rOne] at this
  near h := by have := h 2; simp [rOne] at this
  roots h := by have := h 2; simp [rOne] at this

theorem rOne_area (u : ℝ) : areaAt rOne u = (4 - u) * (6 - 2 * u) := by
  simp only [areaAt, area2, cornerAt, move, rOne, rV, Matrix.cons_val]
  ring

-- degenerate at t = 3: there is an event, at t = 3 or earlier
example (r : Option (EvCore ℝ)) (h : computeCollapse rOne 0 .gte = .ok r) : ∃ e, r = some e ∧ e.time ≤ 3 :=
  C76_degenerate rOne 0 .gte r h rfl (fun i => by fin_cases i <;> exact ⟨rfl, rfl⟩) rOne_clear 3
    (show (0 : ℝ) ≤ 3 by norm_num) (by norm_num) (by rw [rOne_area]; norm_num) ⟨0, by rw [rOne_area]; norm_num⟩

-- counter-clockwise until the event
example (r : Option (EvCore ℝ)) (h : computeCollapse rOne 0 .gte = .ok r) (u : ℝ) (hu : 0 ≤ u)
    (hlt : ∀ e, r = some e → u ≤ e.time) : 0 ≤ areaAt rOne u :=
  (C76_orientation rOne 0 .gte r h rfl (fun i => by fin_cases i <;> exact ⟨rfl, rfl⟩) rOne_clear le_rfl
    (by rw [rOne_area]; norm_num) (fun q => by cases q) u hu hlt).1

-- the same triangle with rational numbers: the event is found, at t = 3
example : computeCollapse exOne 0 .gte = .ok (some ⟨3, [2], .split, 1⟩) := by decide +kernel

end Grassfire
