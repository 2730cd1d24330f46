/-
C78: what events announce does happen.
-/
import Verif.Proofs.Meetings
import Verif.Props.Upright

set_option linter.unusedSectionVars false

namespace Grassfire

open Spec

variable {K : Type} [Field K] [LinearOrder K] [IsStrictOrderedRing K] [HasSqrt K]

/-- **C78.** What the event that `compute_collapse_time` returns for a triangle announces does happen: at its time the
ends of the sides that are to collapse are at the same place; the apex of a split or flip event is on the side. -/
theorem C78_computed (T : TView K) (t0 : K) (sv : Sieve) (e : EvCore K) (h : computeCollapse T t0 sv = .ok (some e))
    (hk : ∀ i, (T.v i).kinetic = true ∧ (T.v i).infFast = false) (hc : ClearMotion T) (hs : Solvable T)
    (hsh : SharpAt T e.time) (he : 0 ≤ e.time) : Happens T e := by
  have hact : T.stopped = false := by
    cases q : T.stopped with
    | false => rfl
    | true => unfold computeCollapse at h; rw [if_pos q] at h; cases h
  have hun : ∀ i, Uniform (T.v i) := fun i => .inl (hk i)
  have hf : T.isFinite = true := by unfold TView.isFinite; rw [(hk 0).1, (hk 1).1, (hk 2).1]; rfl
  replace h := computeCollapse_finite h hact hf
  unfold computeFinite at h
  rcases nn_cases T.noNeighbour with h0 | ⟨w, hw⟩ | ⟨k, hk'⟩ | h3
  · have htp : T.type = 0 := by unfold TView.type count3; simp [h0]
    rw [if_pos htp] at h
    exact happens_zero h hun hc hs hsh h0 he
  · have htp : T.type = 1 := by
      have n0 : ∀ j, j ≠ w → T.noNeighbour j = false := fun j hj => by
        cases q : T.noNeighbour j with
        | false => rfl
        | true => exact absurd ((hw j).1 q) hj
      have nw := (hw w).2 rfl
      unfold TView.type count3
      fin_cases w
      · simp [show T.noNeighbour 0 = true from nw, n0 1 (by decide), n0 2 (by decide)]
      · simp [show T.noNeighbour 1 = true from nw, n0 0 (by decide), n0 2 (by decide)]
      · simp [show T.noNeighbour 2 = true from nw, n0 0 (by decide), n0 1 (by decide)]
    rw [if_neg (by omega), if_pos htp] at h
    exact happens_one h hun hc hs hsh hw he
  · have htp : T.type = 2 := by
      have n0 : ∀ j, j ≠ k → T.noNeighbour j = true := fun j hj => by
        cases q : T.noNeighbour j with
        | true => rfl
        | false => exact absurd ((hk' j).1 q) hj
      have nk := (hk' k).2 rfl
      unfold TView.type count3
      fin_cases k
      · simp [show T.noNeighbour 0 = false from nk, n0 1 (by decide), n0 2 (by decide)]
      · simp [show T.noNeighbour 1 = false from nk, n0 0 (by decide), n0 2 (by decide)]
      · simp [show T.noNeighbour 2 = false from nk, n0 0 (by decide), n0 1 (by decide)]
    rw [if_neg (by omega), if_neg (by omega), if_pos htp] at h
    exact happens_two h hun hc hs hsh hk' he
  · have htp : T.type = 3 := by unfold TView.type count3; simp [h3]
    rw [if_neg (by omega), if_neg (by omega), if_neg (by omega), if_pos htp] at h
    exact happens_three h hc hs h3 he

/-- **C78.** So does what the event that `compute_new_edge_collapse_event` makes announces, for a triangle of which a
side has vanished. -/
theorem C78_immediate (T : TView K) (x : K) (e : EvCore K) (h : newEdgeCollapse T x = .ok e)
    (hk : ∀ i, (T.v i).kinetic = true ∧ (T.v i).infFast = false) (hsh : SharpAt T x)
    (hj : ∃ j, cornerAt T (j + 1) x = cornerAt T (j + 2) x) : Happens T e ∧ e.time = x ∧ e.tp = .edge ∧
      ∀ i, i ∈ e.side ↔ cornerAt T (i + 1) x = cornerAt T (i + 2) x := by
  have hun : ∀ i, Uniform (T.v i) := fun i => .inl (hk i)
  obtain ⟨j, hj⟩ := hj
  unfold newEdgeCollapse at h
  obtain ⟨d, hd, h⟩ := bind_ok_iff.1 h
  obtain rfl := Except.ok.inj h
  have hiff : ∀ i, i ∈ where3 (fun i => nearZero (d i - min3 d)) ↔ cornerAt T (i + 1) x = cornerAt T (i + 2) x := by
    intro i
    rw [mem_where3, min_zero hun hsh hj hd, sub_zero]
    refine ⟨near_vanish hun hsh (area_of_meet hj) hd, fun q => ?_⟩
    rw [dists_at hun hd, (hsh.lengths (area_of_meet hj) i).2.1 (lengthSq_zero q)]
    exact nearZero_zero
  exact ⟨edge_happens fun i hi => (hiff i).1 hi, rfl, rfl, hiff⟩

/-- **C78.** The apex of a split event is on the wavefront that it hits: at distance `e.time` of the wavefront edge's
line. -/
theorem C78_split (T : TView K) (e : EvCore K) (hc : ClearMotion T) (h : Happens T e) (hs : e.tp = .split) (i : Fin 3)
    (hi : i ∈ e.side) : ∃ l, (T.v (i + 1)).ur = some l ∧ AtDistance l e.time (cornerAt T i e.time) := by
  obtain ⟨hn, r, -, -, hr⟩ := h.split hs i hi
  obtain ⟨l, hl⟩ := hc.rides i hn
  obtain ⟨h1, h2⟩ := hl.on e.time
  refine ⟨l, hl.line, ?_⟩
  rw [hr]
  unfold AtDistance at *
  dsimp only
  linear_combination (1 - r) * h1 + r * h2

/-! ### the hypotheses are met -/

theorem coeffs_unique (T : TView K) {A B C : K} (h : ∀ x, A * x ^ 2 + B * x + C = areaAt T x) :
    areaCollapseTimeCoeff (T.v 0) (T.v 1) (T.v 2) = (A, B, C) := by
  obtain ⟨A', B', C', h1, h2⟩ := areaAt_quadratic T
  rw [h1]
  have e0 := (h 0).trans (h2 0).symm
  have e1 := (h 1).trans (h2 1).symm
  have e2 := (h (-1)).trans (h2 (-1)).symm
  have hC : C' = C := by linarith
  have hA : A' = A := by linarith
  have hB : B' = B := by linarith
  rw [hA, hB, hC]

/-- the computed lengths are as `SharpAt` requires when square roots are exact -/
theorem lengths_exact [SqrtLaws K] (T : TView K) (x : K) (i : Fin 3) : 0 ≤ HasSqrt.sqrt (lengthSq T i x) ∧
    (lengthSq T i x = 0 → HasSqrt.sqrt (lengthSq T i x) = 0) ∧
    (HasSqrt.sqrt (lengthSq T i x) ≤ 1 / 10 ^ 10 → lengthSq T i x ≤ 1 / 10 ^ 10) ∧
    ∀ j, HasSqrt.sqrt (lengthSq T i x) ≤ HasSqrt.sqrt (lengthSq T j x) → lengthSq T i x ≤ lengthSq T j x := by
  have h0 := lengthSq_nonneg T i x
  have h1 := SqrtLaws.sqrt_nonneg _ h0
  have h2 := SqrtLaws.sqrt_mul_self _ h0
  refine ⟨h1, fun q => ?_, fun q => ?_, fun j q => ?_⟩
  · rw [q] at h2 ⊢
    exact mul_self_eq_zero.1 h2
  · rw [← h2]
    calc HasSqrt.sqrt (lengthSq T i x) * HasSqrt.sqrt (lengthSq T i x) ≤ 1 / 10 ^ 10 * (1 / 10 ^ 10) :=
          mul_le_mul q q h1 (by positivity)
      _ ≤ 1 / 10 ^ 10 := by norm_num
  · rw [← h2, ← SqrtLaws.sqrt_mul_self _ (lengthSq_nonneg T j x)]
    exact mul_le_mul q q h1 (h1.trans q)

/-- check of `Solvable` -/
def solvableCheck (T : TView ℚ) : Bool :=
  let c := areaCollapseTimeCoeff (T.v 0) (T.v 1) (T.v 2)
  let A := c.1
  let B := c.2.1
  let C := c.2.2
  let D := (B / (2 * A)) ^ 2 - C / A
  decide (A ≠ 0 ∨ B ≠ 0 ∨ C ≠ 0) &&
  decide ((1 / 10 ^ 10 < |A| ∧ (D = 0 ∨ 1 / 10 ^ 10 < |D|)) ∨ (A = 0 ∧ (B = 0 ∨ 1 / 10 ^ 10 < |B|))) &&
  decide (A ≠ 0 → 0 < D → HasSqrt.sqrt D * HasSqrt.sqrt D = D)

theorem solvable_of_check {T : TView ℚ} (h : solvableCheck T = true) : Solvable T := by
  unfold solvableCheck at h
  simp only [Bool.and_eq_true, decide_eq_true_eq] at h
  obtain ⟨⟨h1, h2⟩, h3⟩ := h
  refine ⟨?_, fun A B C hq => ?_, fun A B C hq => ?_⟩
  · by_contra q
    push Not at q
    have := coeffs_unique T (A := 0) (B := 0) (C := 0) fun x => by rw [q]; ring
    rw [this] at h1
    simp at h1
  · rw [coeffs_unique T hq] at h2
    exact h2
  · rw [coeffs_unique T hq] at h3
    exact h3

/-- check of `SharpAt`, for times at which the corners are in line -/
def sharpCheck (T : TView ℚ) (x : ℚ) : Bool :=
  decide (areaAt T x = 0) &&
  decide (∀ i, lengthSq T i x ≤ 1 / 10 ^ 10 → cornerAt T (i + 1) x = cornerAt T (i + 2) x) &&
  decide (∀ i, 0 ≤ HasSqrt.sqrt (lengthSq T i x) ∧ (lengthSq T i x = 0 → HasSqrt.sqrt (lengthSq T i x) = 0) ∧
    (HasSqrt.sqrt (lengthSq T i x) ≤ 1 / 10 ^ 10 → lengthSq T i x ≤ 1 / 10 ^ 10) ∧
    ∀ j, HasSqrt.sqrt (lengthSq T i x) ≤ HasSqrt.sqrt (lengthSq T j x) → lengthSq T i x ≤ lengthSq T j x)

theorem current_of_root {T : TView K} (hs : Solvable T) {x : K} (hx : areaAt T x = 0) (y : K) (hy : areaAt T y = 0)
    (h : |y - x| ≤ 1 / 10 ^ 10) : y = x := (roots_far hs hx hy h).symm

theorem sharp_of_check {T : TView ℚ} {x : ℚ} (hs : Solvable T) (h : sharpCheck T x = true) : SharpAt T x := by
  unfold sharpCheck at h
  simp only [Bool.and_eq_true, decide_eq_true_eq] at h
  obtain ⟨⟨h1, h2⟩, h3⟩ := h
  exact ⟨fun y hy hl => current_of_root hs h1 y hy hl, fun _ => h2, fun _ => h3⟩

/-- the apex of `exOne` hits the wavefront edge at time 3 -/
example : computeCollapse exOne 0 .gte = .ok (some ⟨3, [2], .split, 1⟩) ∧ ClearMotion exOne ∧ Solvable exOne ∧
    SharpAt exOne 3 ∧ Happens exOne ⟨3, [2], .split, 1⟩ := by
  have h1 : computeCollapse exOne 0 .gte = .ok (some ⟨3, [2], .split, 1⟩) := by decide +kernel
  have h2 : ClearMotion exOne := clear_of_check (by decide +kernel)
  have h3 : Solvable exOne := solvable_of_check (by decide +kernel)
  have h4 : SharpAt exOne 3 := sharp_of_check h3 (by decide +kernel)
  exact ⟨h1, h2, h3, h4, C78_computed _ _ _ _ h1 (fun i => by fin_cases i <;> exact ⟨rfl, rfl⟩) h2 h3 h4 (by norm_num)⟩

/-- a triangle with two wavefront edges (sides 2 and 0); side 2 vanishes at time 3 -/
def exTwoSides : TView ℚ :=
  exT { exV 0 0 1 1 with ur := some ⟨(0, 1), 0⟩ }
    { exV 4 0 (-1 / 3) 1 with ul := some ⟨(0, 1), 0⟩, ur := some ⟨(-3 / 5, 4 / 5), 12 / 5⟩ }
    { exV 8 3 1 2 with ul := some ⟨(-3 / 5, 4 / 5), 12 / 5⟩ } true false true

example : computeCollapse exTwoSides 0 .gte = .ok (some ⟨3, [2], .edge, 2⟩) ∧ ClearMotion exTwoSides ∧
    Solvable exTwoSides ∧ SharpAt exTwoSides 3 := by
  have h3 : Solvable exTwoSides := solvable_of_check (by decide +kernel)
  exact ⟨by decide +kernel, clear_of_check (by decide +kernel), h3, sharp_of_check h3 (by decide +kernel)⟩

/-- a triangle that shrinks to its centre, at time 1 -/
def exThreeSides : TView ℚ :=
  exT { exV 0 0 1 1 with ul := some ⟨(1, 0), 0⟩, ur := some ⟨(0, 1), 0⟩ }
    { exV 4 0 (-3) 1 with ul := some ⟨(0, 1), 0⟩, ur := some ⟨(-3 / 5, -4 / 5), 12 / 5⟩ }
    { exV 0 3 1 (-2) with ul := some ⟨(-3 / 5, -4 / 5), 12 / 5⟩, ur := some ⟨(1, 0), 0⟩ } true true true

example : computeCollapse exThreeSides 0 .gte = .ok (some ⟨1, [0, 1, 2], .edge, 3⟩) ∧ ClearMotion exThreeSides ∧
    Solvable exThreeSides ∧ SharpAt exThreeSides 1 := by
  have h3 : Solvable exThreeSides := solvable_of_check (by decide +kernel)
  exact ⟨by decide +kernel, clear_of_check (by decide +kernel), h3, sharp_of_check h3 (by decide +kernel)⟩

-- an event for a triangle of which a side has vanished
example : newEdgeCollapse exTwoSides 3 = .ok ⟨3, [2], .edge, 2⟩ ∧
    cornerAt exTwoSides (2 + 1) 3 = cornerAt exTwoSides (2 + 2) 3 := by decide +kernel

/-- a triangle without wavefront edge; the corner (2, 6) reaches the opposite side at time 3 -/
noncomputable def rZero : TView ℝ :=
  { v := ![rV 0 0 0 1 none, rV 4 0 0 1 none, rV 2 6 0 (-1) none]
    noNeighbour := ![false, false, false]
    stopped := false }

theorem rZero_area (u : ℝ) : areaAt rZero u = 24 - 8 * u := by
  simp only [areaAt, area2, cornerAt, move, rZero, rV, Matrix.cons_val]
  ring

theorem rZero_coeffs {A B C : ℝ} (h : ∀ x, A * x ^ 2 + B * x + C = areaAt rZero x) : A = 0 ∧ B = -8 ∧ C = 24 := by
  have h0 := h 0
  have h1 := h 1
  have h2 := h (-1)
  rw [rZero_area] at h0 h1 h2
  refine ⟨?_, ?_, ?_⟩ <;> linarith

theorem rZero_solvable : Solvable rZero where
  nonzero := ⟨0, by rw [rZero_area]; norm_num⟩
  coeffs A B C h := by
    obtain ⟨rfl, rfl, rfl⟩ := rZero_coeffs h
    right
    norm_num
  root A B C h hA := absurd (rZero_coeffs h).1 hA

theorem rZero_length (x : ℝ) : lengthSq rZero 0 x = 4 + (6 - 2 * x) ^ 2 ∧ lengthSq rZero 1 x = 4 + (6 - 2 * x) ^ 2 ∧
    lengthSq rZero 2 x = 16 := by
  refine ⟨?_, ?_, ?_⟩
  · show distSq (cornerAt rZero 1 x) (cornerAt rZero 2 x) = _
    simp only [distSq, cornerAt, move, rZero, rV, Matrix.cons_val]
    ring
  · show distSq (cornerAt rZero 2 x) (cornerAt rZero 0 x) = _
    simp only [distSq, cornerAt, move, rZero, rV, Matrix.cons_val]
    ring
  · show distSq (cornerAt rZero 0 x) (cornerAt rZero 1 x) = _
    simp only [distSq, cornerAt, move, rZero, rV, Matrix.cons_val]
    ring

theorem rZero_long (i : Fin 3) (x : ℝ) : 4 ≤ lengthSq rZero i x := by
  obtain ⟨h0, h1, h2⟩ := rZero_length x
  fin_cases i
  · show 4 ≤ lengthSq rZero 0 x
    rw [h0]; nlinarith
  · show 4 ≤ lengthSq rZero 1 x
    rw [h1]; nlinarith
  · show 4 ≤ lengthSq rZero 2 x
    rw [h2]; norm_num

theorem rZero_sharp : SharpAt rZero 3 where
  current y hy _ := by rw [rZero_area] at hy; linarith
  short _ i hi := by have := rZero_long i 3; norm_num at hi; linarith
  lengths _ i := lengths_exact rZero 3 i

theorem rZero_clear : ClearMotion rZero where
  rides i hi := by fin_cases i <;> simp [rZero] at hi
  side i hi := by fin_cases i <;> simp [rZero] at hi
  apex i l hi hl := by have := (hi i).2 rfl; fin_cases i <;> simp [rZero] at this
  apart := by
    rintro ⟨k, hk⟩
    have h0 := (hk 0).1 (by simp [rZero])
    have h1 := (hk 1).1 (by simp [rZero])
    rw [← h0] at h1
    exact absurd h1 (by decide)
  zero h := by have := h 0; simp [rZero] at this
  coeffs _ A B C h := by
    obtain ⟨rfl, rfl, rfl⟩ := rZero_coeffs h
    right
    norm_num
  near _ i x hx _ := by
    have := rZero_long i x
    unfold lengthSq at this
    norm_num at hx
    linarith
  roots _ := inferInstance

-- its event, if it is at time 3, is not an edge event, and the corner is on the side that is flipped
example (e : EvCore ℝ) (h : computeCollapse rZero 0 .gte = .ok (some e)) (he : e.time = 3) : Happens rZero e :=
  C78_computed rZero 0 .gte e h (fun i => by fin_cases i <;> exact ⟨rfl, rfl⟩) rZero_clear rZero_solvable
    (he ▸ rZero_sharp) (by rw [he]; norm_num)

end Grassfire
