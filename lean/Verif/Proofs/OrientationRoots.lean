/-
When the area of a triangle is zero then its event is not later, for C76.
-/
import Verif.Proofs.OrientationLemmas

set_option linter.unusedSectionVars false

namespace Grassfire

open Spec

variable {K : Type} [Field K] [LinearOrder K] [IsStrictOrderedRing K] [HasSqrt K]

/-- two roots of a quadratic that is solved exactly are not close to each other -/
theorem roots_apart {A B C x y : K} (h : ExactCoeffs A B C) (hne : ∃ z, A * z ^ 2 + B * z + C ≠ 0)
    (hx : A * x ^ 2 + B * x + C = 0) (hy : A * y ^ 2 + B * y + C = 0) (hxy : |y - x| ≤ 1 / 10 ^ 10) : x = y := by
  by_contra hc
  have hd : x - y ≠ 0 := sub_ne_zero.2 hc
  have hsum : A * (x + y) + B = 0 := by
    have : (x - y) * (A * (x + y) + B) = 0 := by linear_combination hx - hy
    exact (mul_eq_zero.1 this).resolve_left hd
  rcases h with ⟨hA, hD⟩ | ⟨rfl, hB⟩
  · have hA0 : A ≠ 0 := by
      rintro rfl
      rw [abs_zero] at hA
      exact absurd hA (not_lt.mpr (by positivity))
    have hB : B = -(A * (x + y)) := by linarith
    have hC : C = A * (x * y) := by rw [hB] at hx; linarith
    have hDe : (B / (2 * A)) ^ 2 - C / A = ((y - x) / 2) ^ 2 := by
      rw [hB, hC]; field_simp; ring
    rw [hDe, abs_of_nonneg (sq_nonneg _)] at hD
    have h1 : |(y - x) / 2| ≤ 1 / 10 ^ 10 := by
      rw [abs_div, abs_two]
      have := abs_nonneg (y - x)
      linarith
    have h2 : ((y - x) / 2) ^ 2 ≤ (1 / 10 ^ 10) ^ 2 := by
      rw [← sq_abs ((y - x) / 2)]
      exact pow_le_pow_left₀ (abs_nonneg _) h1 2
    have h3 : ((1 : K) / 10 ^ 10) ^ 2 ≤ 1 / 10 ^ 10 := by norm_num
    linarith
  · have hB0 : B = 0 := by linarith
    obtain ⟨z, hz⟩ := hne
    apply hz
    rw [hB0] at hx ⊢
    linarith

theorem edge_near {T : TView K} (hc : ClearMotion T) (hun : ∀ i, Uniform (T.v i)) (h0 : ∀ j, T.noNeighbour j = false)
    (i : Fin 3) (hm : Moving (T.v (i + 1)) (T.v (i + 2)))
    (hd : distSq (cornerAt T (i + 1) (collapseTimeEdge (T.v (i + 1)) (T.v (i + 2))))
      (cornerAt T (i + 2) (collapseTimeEdge (T.v (i + 1)) (T.v (i + 2)))) ≤ 1 / 10 ^ 20) :
    cornerAt T (i + 1) (collapseTimeEdge (T.v (i + 1)) (T.v (i + 2))) =
      cornerAt T (i + 2) (collapseTimeEdge (T.v (i + 1)) (T.v (i + 2))) :=
  hc.near h0 i _ hd fun y => C19_closest_approach _ _ (hun _) (hun _) hm y _ _
    (dist2_uniform _ _ (hun _) (hun _) y) (dist2_uniform _ _ (hun _) (hun _) _)

theorem area_of_meet {T : TView K} {i : Fin 3} {u : K} (h : cornerAt T (i + 1) u = cornerAt T (i + 2) u) :
    areaAt T u = 0 := by
  rw [areaAt_turn T i u, h]
  unfold area2
  ring

theorem near_sqrt [SqrtLaws K] {d r : K} (hd : 0 ≤ d) (h : psqrt d = .ok r) (hn : nearZero r = true) :
    d ≤ 1 / 10 ^ 20 := by
  unfold psqrt at h
  rw [if_neg (not_lt.2 hd)] at h
  have hr := Except.ok.inj h
  rw [nearZero_iff, ← hr, abs_of_nonneg (SqrtLaws.sqrt_nonneg _ hd)] at hn
  rw [← SqrtLaws.sqrt_mul_self _ hd]
  calc HasSqrt.sqrt d * HasSqrt.sqrt d ≤ 1 / 10 ^ 10 * (1 / 10 ^ 10) :=
        mul_le_mul hn hn (SqrtLaws.sqrt_nonneg _ hd) (by positivity)
    _ = 1 / 10 ^ 20 := by norm_num

/-- the time of an edge collapse that `compute_event_0triangle` considers is a root of the area, or -1 -/
theorem edge_root [SqrtLaws K] {T : TView K} (hc : ClearMotion T) (hun : ∀ i, Uniform (T.v i))
    (h0 : ∀ j, T.noNeighbour j = false) (i : Fin 3) {d r : K}
    (hd : (T.v (i + 1)).distance2At (T.v (i + 2)) (collapseTimeEdge (T.v (i + 1)) (T.v (i + 2))) = .ok d)
    (hr : psqrt d = .ok r) (hn : nearZero r = true) :
    collapseTimeEdge (T.v (i + 1)) (T.v (i + 2)) = -1 ∨ areaAt T (collapseTimeEdge (T.v (i + 1)) (T.v (i + 2))) = 0 := by
  rw [dist2_uniform _ _ (hun _) (hun _)] at hd
  have hd' := Except.ok.inj hd
  have hd0 : 0 ≤ d := by rw [← hd']; unfold distSq; positivity
  by_cases hm : Moving (T.v (i + 1)) (T.v (i + 2))
  · exact .inr (area_of_meet (edge_near hc hun h0 i hm (by
      have := near_sqrt hd0 hr hn
      rw [← hd'] at this
      exact this)))
  · exact .inl (C19_parallel _ _ (not_lt.1 hm))

theorem root_zero [SqrtLaws K] {T : TView K} {t0 : K} {sv : Sieve} {r : Option (EvCore K)}
    (h : computeEvent0 T t0 sv = .ok r) (hun : ∀ i, Uniform (T.v i)) (hc : ClearMotion T) (h0 : ∀ j, T.noNeighbour j = false)
    {x : K} (hx : Admitted sv t0 x) (hx0 : 0 ≤ x) (hz : areaAt T x = 0) (hne : ∃ y, areaAt T y ≠ 0) :
    ∃ e, r = some e ∧ e.time ≤ x := by
  obtain ⟨A, B, C, hABC, hq⟩ := areaAt_quadratic T
  have hex : ExactCoeffs A B C := hc.coeffs h0 A B C hq
  have hne' : ∃ y, A * y ^ 2 + B * y + C ≠ 0 := by
    obtain ⟨y, hy⟩ := hne
    exact ⟨y, by rw [hq]; exact hy⟩
  have hxm : some x ∈ (areaCollapseTimes (T.v 0) (T.v 1) (T.v 2)).map some := by
    refine List.mem_map_of_mem ?_
    unfold areaCollapseTimes
    rw [hABC]
    dsimp only
    rw [mem_pySorted]
    exact solveQuadratic_complete A B C x hex hne' (by rw [hq]; exact hz)
  rcases computeEvent0_times T t0 sv r h with ⟨e, he, ht, -⟩ | ⟨-, hcase⟩
  · exact ⟨e, he, ht ▸ later_le hx⟩
  unfold computeEvent0 at h
  obtain ⟨_, -, h⟩ := bind_ok_iff.1 h
  dsimp only at h
  split_ifs at h with hdeg
  · unfold degenerateNow0 at h
    obtain ⟨d, -, h⟩ := bind_ok_iff.1 h
    dsimp only at h
    split at h
    · exact ⟨_, (Except.ok.inj h).symm, later_le hx⟩
    · cases h
    · unfold flipLongest at h
      obtain ⟨d, -, h⟩ := bind_ok_iff.1 h
      obtain ⟨s, -, h⟩ := bind_ok_iff.1 h
      exact ⟨_, (Except.ok.inj h).symm, later_le hx⟩
  obtain ⟨d2, hd2, h⟩ := bind_ok_iff.1 h
  obtain ⟨d, hd, h⟩ := bind_ok_iff.1 h
  have hflip : ∀ time r, flipLongest T time = .ok r → ∃ e, r = some e ∧ e.time = time := by
    intro time r h
    unfold flipLongest at h
    obtain ⟨d, -, h⟩ := bind_ok_iff.1 h
    obtain ⟨s, -, h⟩ := bind_ok_iff.1 h
    exact ⟨_, (Except.ok.inj h).symm, rfl⟩
  split at h
  · rename_i h1 h2
    exact absurd hx (sieve_not h2 hxm)
  · rename_i te ta hte hta
    have hle := sieve_le hta hxm hx
    split_ifs at h with c1 c2
    · rw [nearZero_iff, abs_abs] at c1
      have htex : te ≤ x := by
        by_contra hlt
        push Not at hlt
        have hroot : te = -1 ∨ areaAt T te = 0 := by
          have := sieve_mem hte
          rw [List.mem_map] at this
          obtain ⟨i, hi, hti⟩ := this
          rw [mem_where3] at hi
          obtain rfl := Option.some.inj hti
          have q1 := list3_ok hd2 i
          have q2 := list3_ok hd i
          fin_cases i
          · exact edge_root hc hun h0 2 q1 q2 hi
          · exact edge_root hc hun h0 0 q1 q2 hi
          · exact edge_root hc hun h0 1 q1 q2 hi
        rcases hroot with q | q
        · rw [q] at hlt
          linarith
        · refine hlt.ne (roots_apart hex hne' (by rw [hq]; exact hz) (by rw [hq]; exact q) ?_)
          rw [abs_of_pos (sub_pos.2 hlt)]
          have := neg_le_of_abs_le c1
          linarith
      obtain ⟨d3, -, h⟩ := bind_ok_iff.1 h
      split at h
      · exact ⟨_, (Except.ok.inj h).symm, htex⟩
      · exact ⟨_, (Except.ok.inj h).symm, htex⟩
      · obtain ⟨e, he, ht⟩ := hflip ta r h
        exact ⟨e, he, ht ▸ hle⟩
    · obtain ⟨e, he, ht⟩ := hflip ta r h
      exact ⟨e, he, ht ▸ hle⟩
    · unfold edgeCollapse0 at h
      obtain ⟨d3, -, h⟩ := bind_ok_iff.1 h
      split at h
      · exact ⟨_, (Except.ok.inj h).symm, (not_lt.1 c2).trans hle⟩
      · exact ⟨_, (Except.ok.inj h).symm, (not_lt.1 c2).trans hle⟩
      · cases h
  · rename_i te hte hta
    exact absurd hx (sieve_not hta hxm)
  · rename_i ta hte hta
    obtain ⟨e, he, ht⟩ := hflip ta r h
    exact ⟨e, he, ht ▸ sieve_le hta hxm hx⟩

theorem nn_cases (b : Fin 3 → Bool) : (∀ j, b j = false) ∨ (∃ w, ∀ j, b j = true ↔ j = w) ∨
    (∃ k, ∀ j, b j = false ↔ j = k) ∨ ∀ j, b j = true := by
  cases h0 : b 0 <;> cases h1 : b 1 <;> cases h2 : b 2
  · exact .inl fun j => by fin_cases j <;> assumption
  · exact .inr (.inl ⟨2, fun j => by fin_cases j <;> simp [h0, h1, h2]⟩)
  · exact .inr (.inl ⟨1, fun j => by fin_cases j <;> simp [h0, h1, h2]⟩)
  · exact .inr (.inr (.inl ⟨0, fun j => by fin_cases j <;> simp [h0, h1, h2]⟩))
  · exact .inr (.inl ⟨0, fun j => by fin_cases j <;> simp [h0, h1, h2]⟩)
  · exact .inr (.inr (.inl ⟨1, fun j => by fin_cases j <;> simp [h0, h1, h2]⟩))
  · exact .inr (.inr (.inl ⟨2, fun j => by fin_cases j <;> simp [h0, h1, h2]⟩))
  · exact .inr (.inr (.inr fun j => by fin_cases j <;> assumption))

/-- a side that changes and vanishes at `x` vanishes at the time of `collapse_time_edge` only -/
theorem moving_of_zero {T : TView K} (hc : ClearMotion T) {i : Fin 3} {l : Line2 K} (hi : T.noNeighbour i = true) {x : K}
    (hz : sideLen T i l x = 0) (hne : ∃ y, sideLen T i l y ≠ 0) : Moving (T.v (i + 1)) (T.v (i + 2)) := by
  rcases hc.side i hi with h | h
  · exact h
  · obtain ⟨y, hy⟩ := hne
    exact absurd ((sideLen_const h y x).trans hz) hy

/-- the time of `collapse_time_edge` for a wavefront side: the side vanishes then, or it is -1 -/
theorem edge_time_cases {T : TView K} (hc : ClearMotion T) (i : Fin 3) (hi : T.noNeighbour i = true) :
    collapseTimeEdge (T.v (i + 1)) (T.v (i + 2)) = -1 ∨
    cornerAt T (i + 1) (collapseTimeEdge (T.v (i + 1)) (T.v (i + 2))) =
      cornerAt T (i + 2) (collapseTimeEdge (T.v (i + 1)) (T.v (i + 2))) := by
  by_cases hm : Moving (T.v (i + 1)) (T.v (i + 2))
  · obtain ⟨l, hl⟩ := hc.rides i hi
    exact .inr (hl.edge_time hm)
  · exact .inl (C19_parallel _ _ (not_lt.1 hm))

/-- C76, main part: when the area of the triangle is zero at time `x`, then it has an event, not later than `x` -/
theorem area_root [SqrtUnit K] {T : TView K} {t0 : K} {sv : Sieve} {r : Option (EvCore K)}
    (h : computeCollapse T t0 sv = .ok r) (hact : T.stopped = false)
    (hk : ∀ i, (T.v i).kinetic = true ∧ (T.v i).infFast = false) (hc : ClearMotion T)
    {x : K} (hx : Admitted sv t0 x) (hx0 : 0 ≤ x) (hz : areaAt T x = 0) (hne : ∃ y, areaAt T y ≠ 0) :
    ∃ e, r = some e ∧ e.time ≤ x := by
  have hun : ∀ i, Uniform (T.v i) := fun i => .inl (hk i)
  have hf : T.isFinite = true := by unfold TView.isFinite; rw [(hk 0).1, (hk 1).1, (hk 2).1]; rfl
  rcases nn_cases T.noNeighbour with h0 | ⟨w, hw⟩ | ⟨k, hk'⟩ | h3
  · have htp : T.type = 0 := by unfold TView.type count3; simp [h0]
    replace h := computeCollapse_finite h hact hf
    unfold computeFinite at h
    rw [if_pos htp] at h
    have := hc.roots h0
    exact root_zero h hun hc h0 hx hx0 hz hne
  · obtain ⟨l, hl⟩ := hc.rides w ((hw w).2 rfl)
    have hon : l.signedDistance (T.v (w + 1)).origin = 0 := by
      have := (hl.on 0).1
      unfold AtDistance cornerAt move at this
      unfold Line2.signedDistance dot2
      linear_combination this
    refine one_triangle_event T t0 sv r h hact hf w hw hun l hl.line hl.unit hon x hx ?_
    rw [areaAt_one hl] at hz
    obtain ⟨y, hy⟩ := hne
    rw [areaAt_one hl] at hy
    rcases mul_eq_zero.1 hz with q | q
    · exact .inl ⟨moving_of_zero hc ((hw w).2 rfl) q ⟨y, left_ne_zero_of_mul hy⟩, Rides.meet hun (sideLen_zero hl q)⟩
    · refine .inr ⟨?_, cornerAt T w x, ⟨l.w, l.b - x⟩, C17_position _ (hun _) x, atTime_unit l x hl.unit, ?_⟩
      · rcases hc.apex w l hw hl with a | a
        · exact a
        · exact absurd ((heightOf_const a y x).trans q) (right_ne_zero_of_mul hy)
      · unfold heightOf at q
        unfold Line2.signedDistance dot2
        dsimp only
        linear_combination q
  · have n1 : T.noNeighbour (k + 1) = true := by
      by_contra q
      exact absurd ((hk' (k + 1)).1 (by simpa using q)) ((by decide : ∀ z : Fin 3, z + 1 ≠ z) k)
    have n2 : T.noNeighbour (k + 2) = true := by
      by_contra q
      exact absurd ((hk' (k + 2)).1 (by simpa using q)) ((by decide : ∀ z : Fin 3, z + 2 ≠ z) k)
    have htp : T.type = 2 := by
      have nk : T.noNeighbour k = false := (hk' k).2 rfl
      unfold TView.type count3
      fin_cases k
      · simp_all
      · have a : T.noNeighbour 2 = true := n1
        have b : T.noNeighbour 0 = true := n2
        have c : T.noNeighbour 1 = false := nk
        simp [a, b, c]
      · have a : T.noNeighbour 0 = true := n1
        have b : T.noNeighbour 1 = true := n2
        have c : T.noNeighbour 2 = false := nk
        simp [a, b, c]
    obtain ⟨l, hl⟩ := hc.rides _ n1
    obtain ⟨m, hm⟩ := hc.rides _ n2
    obtain ⟨y, hy⟩ := hne
    rw [areaAt_two hl hm] at hz hy
    have key : ∃ i, T.noNeighbour i = true ∧ cornerAt T (i + 1) x = cornerAt T (i + 2) x ∧
        Moving (T.v (i + 1)) (T.v (i + 2)) := by
      rcases mul_eq_zero.1 hz with q | q
      · rcases mul_eq_zero.1 q with q | q
        · exact ⟨k + 1, n1, sideLen_zero hl q,
            moving_of_zero hc n1 q ⟨y, left_ne_zero_of_mul (left_ne_zero_of_mul hy)⟩⟩
        · exact ⟨k + 2, n2, sideLen_zero hm q,
            moving_of_zero hc n2 q ⟨y, right_ne_zero_of_mul (left_ne_zero_of_mul hy)⟩⟩
      · exact absurd q (right_ne_zero_of_mul hy)
    obtain ⟨i, hi, hmeet, hmov⟩ := key
    refine C64_two_triangle T t0 sv r h hact hf htp hun i hi hmov x hx (Rides.meet hun hmeet) fun j hj hjn hna => ?_
    rcases edge_time_cases hc j hjn with q | q
    · rw [q]
      have h1 : |(x + -1) / 2| ≤ (x + 1) / 2 := abs_le.2 ⟨by linarith, by linarith⟩
      have h2 : (1 : K) / 10 ^ 7 * |(x + -1) / 2| ≤ 1 / 10 ^ 7 * ((x + 1) / 2) :=
        mul_le_mul_of_nonneg_left h1 (by positivity)
      have h3 : (1 : K) / 10 ^ 7 * ((x + 1) / 2) < x + 1 := by
        have : (0 : K) < x + 1 := by linarith
        have h4 : (1 : K) / 10 ^ 7 < 1 := by norm_num
        nlinarith
      linarith
    · refine hc.apart ⟨k, hk'⟩ j i _ x hjn hi q hmeet ?_
      by_contra hlt
      push Not at hlt
      apply hna
      cases sv with
      | gte => exact le_trans hx hlt
      | gt => exact lt_of_lt_of_le hx hlt
  · have htp : T.type = 3 := by unfold TView.type count3; simp [h3]
    obtain ⟨l, hl⟩ := hc.rides _ (h3 (0 + 1))
    obtain ⟨m, hm⟩ := hc.rides _ (h3 (0 + 2))
    obtain ⟨y, hy⟩ := hne
    rw [areaAt_two hl hm] at hz hy
    have key : ∃ i, T.noNeighbour i = true ∧ cornerAt T (i + 1) x = cornerAt T (i + 2) x ∧
        Moving (T.v (i + 1)) (T.v (i + 2)) := by
      rcases mul_eq_zero.1 hz with q | q
      · rcases mul_eq_zero.1 q with q | q
        · exact ⟨0 + 1, h3 _, sideLen_zero hl q,
            moving_of_zero hc (h3 _) q ⟨y, left_ne_zero_of_mul (left_ne_zero_of_mul hy)⟩⟩
        · exact ⟨0 + 2, h3 _, sideLen_zero hm q,
            moving_of_zero hc (h3 _) q ⟨y, right_ne_zero_of_mul (left_ne_zero_of_mul hy)⟩⟩
      · exact absurd q (right_ne_zero_of_mul hy)
    obtain ⟨i, -, hmeet, hmov⟩ := key
    refine C64_three_triangle T t0 sv r h hact hf htp hun i hmov (fun j _ hj => ?_) x hx (Rides.meet hun hmeet)
    rcases edge_time_cases hc j (h3 j) with q | q
    · rw [hj] at q
      linarith
    · rw [hj] at q
      exact hc.zero h3 j q

/-- a linear function without root keeps its sign -/
theorem linear_sign {a b now u : K} (hu : now ≤ u) (hno : ∀ x, now ≤ x → x ≤ u → a * x + b ≠ 0) :
    (0 < a * now + b ↔ 0 < a * u + b) := by
  have key : ∀ p q : K, 0 < a * p + b → a * q + b ≤ 0 → a ≠ 0 ∧ a * (-b / a) + b = 0 ∧
      (p ≤ q → p ≤ -b / a ∧ -b / a ≤ q) ∧ (q ≤ p → q ≤ -b / a ∧ -b / a ≤ p) := by
    intro p q hp hq
    have ha : a ≠ 0 := by rintro rfl; rw [zero_mul, zero_add] at hp hq; exact absurd hp (not_lt.2 hq)
    have hr : a * (-b / a) = -b := by rw [mul_comm, div_mul_cancel₀ _ ha]
    generalize -b / a = r at hr
    refine ⟨ha, by rw [hr]; ring, fun hpq => ?_, fun hpq => ?_⟩
    · have : a < 0 := by
        by_contra h
        have := mul_le_mul_of_nonneg_left hpq (not_lt.1 h)
        linarith
      constructor <;> by_contra h <;> have := mul_lt_mul_of_neg_left (not_le.1 h) this <;> linarith
    · have : 0 < a := by
        by_contra h
        have := mul_le_mul_of_nonpos_left hpq (not_lt.1 h)
        linarith
      constructor <;> by_contra h <;> have := mul_lt_mul_of_pos_left (not_le.1 h) this <;> linarith
  constructor
  · intro h
    by_contra q
    obtain ⟨-, h2, h3, -⟩ := key _ _ h (not_lt.1 q)
    exact hno _ (h3 hu).1 (h3 hu).2 h2
  · intro h
    by_contra q
    obtain ⟨-, h2, -, h3⟩ := key _ _ h (not_lt.1 q)
    exact hno _ (h3 hu).1 (h3 hu).2 h2

/-- an area that has not been zero has not changed its sign -/
theorem area_no_root {T : TView K} (hc : ClearMotion T) {now u : K} (hu : now ≤ u) (h0 : 0 < areaAt T now)
    (hno : ∀ x, now ≤ x → x < u → areaAt T x ≠ 0) : 0 ≤ areaAt T u ∧ (areaAt T u ≠ 0 → 0 < areaAt T u) := by
  by_cases hz : areaAt T u = 0
  · exact ⟨hz.ge, fun q => absurd hz q⟩
  replace hno : ∀ x, now ≤ x → x ≤ u → areaAt T x ≠ 0 := by
    intro x h1 h2
    rcases h2.lt_or_eq with q | q
    · exact hno x h1 q
    · rw [q]; exact hz
  suffices h : 0 < areaAt T u from ⟨h.le, fun _ => h⟩
  by_cases hn : ∃ i, T.noNeighbour i = true
  · obtain ⟨i, hi⟩ := hn
    obtain ⟨l, hl⟩ := hc.rides i hi
    obtain ⟨a, b, hab⟩ : ∃ a b, ∀ x, sideLen T i l x = a * x + b := by
      refine ⟨((T.v (i + 2)).velocity.1 - (T.v (i + 1)).velocity.1) * l.w.2 -
        ((T.v (i + 2)).velocity.2 - (T.v (i + 1)).velocity.2) * l.w.1, sideLen T i l 0, fun x => ?_⟩
      unfold sideLen cornerAt move
      ring
    obtain ⟨c, d, hcd⟩ : ∃ c d, ∀ x, heightOf T i l x = c * x + d := by
      refine ⟨l.w.1 * (T.v i).velocity.1 + l.w.2 * (T.v i).velocity.2 - 1, heightOf T i l 0, fun x => ?_⟩
      unfold heightOf cornerAt move
      ring
    have hA : ∀ x, areaAt T x = (a * x + b) * (c * x + d) := fun x => by rw [areaAt_one hl, hab, hcd]
    have s1 := linear_sign (a := a) (b := b) hu fun x h1 h2 q => hno x h1 h2 (by rw [hA, q, zero_mul])
    have s2 := linear_sign (a := c) (b := d) hu fun x h1 h2 q => hno x h1 h2 (by rw [hA, q, mul_zero])
    rw [hA] at h0 ⊢
    have hz1 : a * u + b ≠ 0 := fun q => hz (by rw [hA, q, zero_mul])
    have hz2 : c * u + d ≠ 0 := fun q => hz (by rw [hA, q, mul_zero])
    rcases pos_and_pos_or_neg_and_neg_of_mul_pos h0 with ⟨p, q⟩ | ⟨p, q⟩
    · exact mul_pos (s1.1 p) (s2.1 q)
    · refine mul_pos_of_neg_of_neg (lt_of_le_of_ne (not_lt.1 fun z => ?_) hz1) (lt_of_le_of_ne (not_lt.1 fun z => ?_) hz2)
      · exact absurd (s1.2 z) (not_lt.2 p.le)
      · exact absurd (s2.2 z) (not_lt.2 q.le)
  · have := hc.roots fun j => by
      cases q : T.noNeighbour j with
      | false => rfl
      | true => exact absurd ⟨j, q⟩ hn
    obtain ⟨A, B, C, -, hq⟩ := areaAt_quadratic T
    have := quad_pos_of_no_root A B C now u hu (by rw [hq]; exact h0) (fun x h1 h2 => by rw [hq]; exact hno x h1 h2)
    rw [hq] at this
    exact this

end Grassfire
