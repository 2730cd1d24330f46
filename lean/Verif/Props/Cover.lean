/-
Property C96: what is inside the wavefront at time `x` is at least `x` away from the outside.
-/
import Verif.Proofs.Cover

set_option linter.unusedSectionVars false

namespace Grassfire

open Spec

variable {K : Type} [Field K] [LinearOrder K] [IsStrictOrderedRing K] [HasSqrt K] [SqrtUnit K] [HasTrig K]

variable {dt : Dt K} {depth : ℕ} {skel s0 : St K} {n : ℕ} {now : K} {s s1 : St K} {trace : List (Event K × K)}

theorem Spec.Settled.before {x y : K} (h : Settled s now x) (hy : y ≤ x) : Settled s now y :=
  h.imp hy.trans_lt fun h => ⟨h.1, fun f hf => hy.trans_lt (h.2 f hf)⟩

/-- **C96.** In general position, the winding numbers of the wavefront at time 0 are those of the boundary of the input. -/
theorem C96_zero (h : GeneralRun dt depth skel s0 n now s trace) (hl : LoneEvents depth s0 n) (hset : Settled s now 0)
    (o : Pt K) : winding s 0 o = dtWinding dt o := by
  classical
  obtain ⟨-, s1, h1, -⟩ := id h.run
  obtain ⟨m, hm, y, u, tr', hu, hy, q1, q2, hS, hG⟩ := h.settle h1 le_rfl hset
  have e := (winding_still s 0 o).trans (by
    unfold frontSum
    simp only [mul_zero, sub_zero]
    exact h.front_sum hl h1 hm hu hy hS hG fun _ p q => (crosses p q o : K))
  refine Int.cast_injective (α := K) (e.trans ?_)
  obtain ⟨⟨w1, w2⟩, con⟩ := h.zero_state h1 hm hu hy
  have F := h.fresh0
  unfold dtWinding
  rw [Finset.sum_sigma', Int.cast_sum]
  have live : ∀ t ∈ s0.skTriangles, Live u t := fun t ht => by
    obtain ⟨l1, l2⟩ := F.live t ht
    exact ⟨by rw [w1]; exact l1, by rw [w2]; exact l2⟩
  refine Finset.sum_bij' (fun a _ => ⟨a.1, a.2⟩) (fun a _ => (a.1, a.2)) ?_ ?_ (fun _ _ => rfl) (fun _ _ => rfl) ?_
  · intro a ha
    obtain ⟨m1, m2, m3⟩ := mem_rim.1 ha
    rw [List.mem_toFinset] at m1
    simp only [Finset.mem_sigma, Finset.mem_filter, Finset.mem_range, Finset.mem_univ, true_and]
    exact ⟨(F.internal a.1).1 m1, (con _ m1 _).1.1 m3⟩
  · intro a ha
    simp only [Finset.mem_sigma, Finset.mem_filter, Finset.mem_range, Finset.mem_univ, true_and] at ha
    have m1 := (F.internal a.1).2 ha.1
    exact mem_rim.2 ⟨List.mem_toFinset.2 m1, live _ m1, (con _ m1 _).1.2 ha.2⟩
  · intro a ha
    obtain ⟨m1, -, -⟩ := mem_rim.1 ha
    rw [List.mem_toFinset] at m1
    have key : ∀ i, whereAt u 0 ((u.tri a.1).vertices i) = ((dt.corner a.1 i).map dt.pos).getD (0, 0) := by
      intro i
      obtain ⟨v, e1, e2⟩ := (con a.1 m1 i).2
      unfold whereAt
      rw [e1, e2]
      rfl
    rw [key, key]

/-- **C96.** Winding numbers do not grow, not even for a point that moves, as long as it is not faster than the wavefront.
In particular (`o' = o`) what is inside the wavefront at a later time was inside before. -/
theorem C96_clearance (h : GeneralRun dt depth skel s0 n now s trace) (hl : LoneEvents depth s0 n) {x x' : K} (hx : 0 ≤ x)
    (hxx : x ≤ x') (hset : Settled s now x') {o o' : Pt K} (ho : distSq o o' ≤ (x' - x) ^ 2) :
    winding s x' o' ≤ winding s x o := by
  rcases hxx.lt_or_eq with hlt | rfl
  · have hne : x' - x ≠ 0 := (sub_pos.2 hlt).ne'
    let d : Pt K := ((o'.1 - o.1) / (x' - x), (o'.2 - o.2) / (x' - x))
    have d1 : (x' - x) * d.1 = o'.1 - o.1 := mul_div_cancel₀ _ hne
    have d2 : (x' - x) * d.2 = o'.2 - o.2 := mul_div_cancel₀ _ hne
    have hd : d.1 ^ 2 + d.2 ^ 2 ≤ 1 := by
      have : (x' - x) ^ 2 * (d.1 ^ 2 + d.2 ^ 2) ≤ (x' - x) ^ 2 * 1 := by
        refine le_trans (le_of_eq ?_) (ho.trans_eq (mul_one _).symm)
        unfold distSq
        linear_combination ((x' - x) * d.1 + (o'.1 - o.1)) * d1 + ((x' - x) * d.2 + (o'.2 - o.2)) * d2
      exact le_of_mul_le_mul_left this (by positivity)
    have L := h.later (crossing_sideSum (o.1 - x * d.1, o.2 - x * d.2)) hd hl hx hxx hset
    rw [← winding_sum, ← winding_sum] at L
    dsimp only at L
    have e1 : (o.1 - x * d.1 + x * d.1, o.2 - x * d.2 + x * d.2) = o := Prod.ext (by simp) (by simp)
    have e2 : (o.1 - x * d.1 + x' * d.1, o.2 - x * d.2 + x' * d.2) = o' :=
      Prod.ext (by linear_combination d1) (by linear_combination d2)
    rw [e1, e2] at L
    exact Int.cast_le.1 L
  · have : o' = o := by
      rw [sub_self] at ho
      unfold distSq at ho
      have a1 := sq_nonneg (o'.1 - o.1)
      have a2 := sq_nonneg (o'.2 - o.2)
      have z : (0 : K) ^ 2 = 0 := by norm_num
      rw [z] at ho
      refine Prod.ext ?_ ?_
      · exact sub_eq_zero.1 (pow_eq_zero_iff (two_ne_zero)|>.1 (by nlinarith : (o'.1 - o.1) ^ 2 = 0))
      · exact sub_eq_zero.1 (pow_eq_zero_iff (two_ne_zero)|>.1 (by nlinarith : (o'.2 - o.2) ^ 2 = 0))
    rw [this]

/-- **C96.** Around a point inside the wavefront at time `x`, the whole disc with radius `x` is inside the input. -/
theorem C96_disc (h : GeneralRun dt depth skel s0 n now s trace) (hl : LoneEvents depth s0 n) {x : K} (hx : 0 ≤ x)
    (hset : Settled s now x) {o : Pt K} (ho : 0 < winding s x o) (o' : Pt K) (hd : distSq o' o ≤ x ^ 2) :
    0 < dtWinding dt o' := by
  have := C96_clearance h hl le_rfl hx hset (o := o') (o' := o) (by rw [sub_zero]; exact hd)
  rw [C96_zero h hl (hset.before hx)] at this
  exact ho.trans_le this

/-- **C96.** Winding numbers are never negative, and when those of the input are 0 or 1, they are 0 or 1 at all times. -/
theorem C96_range (h : GeneralRun dt depth skel s0 n now s trace) (hl : LoneEvents depth s0 n) {x : K} (hx : 0 ≤ x)
    (hset : Settled s now x) (o : Pt K) :
    0 ≤ winding s x o ∧ (dtWinding dt o ≤ 1 → winding s x o = 0 ∨ winding s x o = 1) := by
  classical
  have h0 : 0 ≤ winding s x o := by
    obtain ⟨-, s1, h1, -⟩ := id h.run
    obtain ⟨m, hm, y, u, tr', hu, hy, q1, q2, hS, hG⟩ := h.settle h1 hx hset
    rw [h.winding_at hl h1 hm hu hy hS hG]
    refine Finset.sum_nonneg fun t ht => (countIn_range ?_).1
    have U := h.prefix hm h1 hu
    obtain ⟨t1, t2⟩ := Finset.mem_filter.1 ht
    obtain ⟨-, -, hk, -⟩ := U.frame
    obtain ⟨x', hx', hm'⟩ := sooner q2
    exact (U.lasting q1 hm' (List.mem_toFinset.1 t1) t2 x hy hx').le.trans_eq (areaOf_view (hk t t1 t2) x).symm
  refine ⟨h0, fun h1 => ?_⟩
  have := C96_clearance h hl le_rfl hx hset (o := o) (o' := o) (by
    rw [sub_zero]
    unfold distSq
    simp only [sub_self]
    have := sq_nonneg x
    linarith)
  rw [C96_zero h hl (hset.before hx)] at this
  omega

/-! ### the hypotheses are met -/

theorem crosses_le (p q o : Pt K) : crosses p q o ≤ if p.1 ≤ o.1 ∧ o.1 < q.1 then 1 else 0 := by
  unfold crosses
  split_ifs <;> simp_all

/-- The pentagon does not overlap itself. -/
theorem Sample.notch_winding (o : Pt ℚ) : dtWinding Sample.notchDt o ≤ 1 := by
  have e1 : (Finset.range Sample.notchDt.nT).filter (fun t => Sample.notchDt.internal t = true) = {0, 1, 2} := by decide +kernel
  have c0 : (Finset.univ : Finset (Fin 3)).filter (fun i => Sample.notchDt.constrained 0 i = true) = {2} := by decide +kernel
  have c1 : (Finset.univ : Finset (Fin 3)).filter (fun i => Sample.notchDt.constrained 1 i = true) = {0, 2} := by decide +kernel
  have c2 : (Finset.univ : Finset (Fin 3)).filter (fun i => Sample.notchDt.constrained 2 i = true) = {0, 1} := by decide +kernel
  unfold dtWinding
  rw [e1, Finset.sum_insert (by decide), Finset.sum_insert (by decide), Finset.sum_singleton, c0, c1, c2, Finset.sum_singleton,
    Finset.sum_pair (by decide), Finset.sum_pair (by decide)]
  show crosses (0, 0) (4, 0) o + (crosses (4, 29 / 4) (-5, 1 / 2) o + crosses (4, 0) (4, 29 / 4) o +
    (crosses (-5, 1 / 2) (-345 / 112, -115 / 28) o + crosses (-345 / 112, -115 / 28) (0, 0) o)) ≤ 1
  have b1 := crosses_le (K := ℚ) (0, 0) (4, 0) o
  have b2 := crosses_le (K := ℚ) (4, 29 / 4) (-5, 1 / 2) o
  have b3 := crosses_le (K := ℚ) (4, 0) (4, 29 / 4) o
  have b4 := crosses_le (K := ℚ) (-5, 1 / 2) (-345 / 112, -115 / 28) o
  have b5 := crosses_le (K := ℚ) (-345 / 112, -115 / 28) (0, 0) o
  dsimp only at b1 b2 b3 b4 b5
  rw [if_neg (by rintro ⟨a, b⟩; linarith)] at b2 b3
  split_ifs at b1 b4 b5 <;> first | omega | (exfalso; simp_all; linarith)

/-- Winding numbers of the pentagon around some points: in the beginning, and after its split. -/
example : ∃ s tr, GeneralRun Sample.notchDt 100 Sample.notchSkeleton Sample.notchStart 4 (29 / 12) s tr ∧
    LoneEvents 100 Sample.notchStart 4 ∧ (∀ o, dtWinding Sample.notchDt o ≤ 1) ∧ Settled s (29 / 12) (9 / 5) ∧
    [winding s 0 (-3, 0), winding s 0 (-1, 0), winding s 0 (2, 2), winding s 0 (2, -1)] = [1, 1, 1, 0] ∧
    [winding s (9 / 5) (-3, 0), winding s (9 / 5) (-1, 0), winding s (9 / 5) (2, 2), winding s (9 / 5) (2, -1)] =
      [0, 0, 1, 0] := by
  obtain ⟨s, tr, hs, hi, hq, h⟩ := Sample.notch_done
  have hl := Sample.notch_input.lone 4
  have hv : (stateAt 100 Sample.notchFirst 4).map (fun r =>
      [winding r.2 0 (-3, 0), winding r.2 0 (-1, 0), winding r.2 0 (2, 2), winding r.2 0 (2, -1),
      winding r.2 (9 / 5) (-3, 0), winding r.2 (9 / 5) (-1, 0), winding r.2 (9 / 5) (2, 2), winding r.2 (9 / 5) (2, -1)]) =
      some [1, 1, 1, 0, 0, 0, 1, 0] := by decide +kernel
  rw [hs] at hv
  have hv := Option.some.inj hv
  simp only [List.cons.injEq, and_true] at hv
  obtain ⟨v1, v2, v3, v4, v5, v6, v7, v8⟩ := hv
  refine ⟨s, tr, h, hl, Sample.notch_winding, .inl (by norm_num), ?_, ?_⟩
  · rw [v1, v2, v3, v4]
  · rw [v5, v6, v7, v8]

end Grassfire
