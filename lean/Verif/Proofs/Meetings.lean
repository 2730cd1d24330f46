/-
What events announce does happen (lemmas for C78).
-/
import Verif.Proofs.OrientationRoots
import Verif.Spec.Meetings

set_option linter.unusedSectionVars false

namespace Grassfire

open Spec

variable {K : Type} [Field K] [LinearOrder K] [IsStrictOrderedRing K] [HasSqrt K]

theorem placed_corners {T : TView K} (hun : ∀ i, Uniform (T.v i)) (x : K) : Placed T x fun i => cornerAt T i x :=
  fun i => C17_position _ (hun i) x

theorem lengthSq_nonneg (T : TView K) (i : Fin 3) (x : K) : 0 ≤ lengthSq T i x := by
  unfold lengthSq distSq
  positivity

theorem dists2_at {T : TView K} (hun : ∀ i, Uniform (T.v i)) {x : K} {d : Fin 3 → K} (h : T.dists2 x = .ok d)
    (i : Fin 3) : d i = lengthSq T i x := dists2_sq (placed_corners hun x) h i

theorem dists_at {T : TView K} (hun : ∀ i, Uniform (T.v i)) {x : K} {d : Fin 3 → K} (h : T.dists x = .ok d)
    (i : Fin 3) : d i = HasSqrt.sqrt (lengthSq T i x) := by
  unfold TView.dists at h
  obtain ⟨d2, h2, h⟩ := bind_ok_iff.1 h
  have hs := list3_ok h i
  rw [dists2_at hun h2] at hs
  unfold psqrt at hs
  rw [if_neg (not_lt.2 (lengthSq_nonneg T i x))] at hs
  exact (Except.ok.inj hs).symm

/-- three points in line, of which `b` and `c` are farthest from each other -/
theorem between_of_longest {a b c : Pt K} (hz : area2 a b c = 0) (h1 : distSq a b ≤ distSq b c)
    (h2 : distSq c a ≤ distSq b c) : ∃ r, 0 ≤ r ∧ r ≤ 1 ∧ a = (b.1 + r * (c.1 - b.1), b.2 + r * (c.2 - b.2)) := by
  obtain ⟨a1, a2⟩ := a
  obtain ⟨b1, b2⟩ := b
  obtain ⟨c1, c2⟩ := c
  unfold area2 at hz
  unfold distSq at h1 h2
  dsimp only at *
  by_cases hq : (b1 - c1) ^ 2 + (b2 - c2) ^ 2 = 0
  · rw [hq] at h1 h2
    have e1 : a1 - b1 = 0 := by nlinarith [sq_nonneg (a1 - b1), sq_nonneg (a2 - b2)]
    have e2 : a2 - b2 = 0 := by nlinarith [sq_nonneg (a1 - b1), sq_nonneg (a2 - b2)]
    exact ⟨0, le_rfl, zero_le_one, Prod.ext (by dsimp only; linarith) (by dsimp only; linarith)⟩
  have hpos : 0 < (b1 - c1) ^ 2 + (b2 - c2) ^ 2 := lt_of_le_of_ne (by positivity) (Ne.symm hq)
  obtain ⟨r, hr⟩ : ∃ r, r * ((b1 - c1) ^ 2 + (b2 - c2) ^ 2) = (a1 - b1) * (c1 - b1) + (a2 - b2) * (c2 - b2) :=
    ⟨((a1 - b1) * (c1 - b1) + (a2 - b2) * (c2 - b2)) / ((b1 - c1) ^ 2 + (b2 - c2) ^ 2), div_mul_cancel₀ _ hq⟩
  have e1 : a1 = b1 + r * (c1 - b1) := by
    have : (a1 - (b1 + r * (c1 - b1))) * ((b1 - c1) ^ 2 + (b2 - c2) ^ 2) = 0 := by
      linear_combination -(c1 - b1) * hr - (c2 - b2) * hz
    have := (mul_eq_zero.1 this).resolve_right hq
    linarith
  have e2 : a2 = b2 + r * (c2 - b2) := by
    have : (a2 - (b2 + r * (c2 - b2))) * ((b1 - c1) ^ 2 + (b2 - c2) ^ 2) = 0 := by
      linear_combination -(c2 - b2) * hr + (c1 - b1) * hz
    have := (mul_eq_zero.1 this).resolve_right hq
    linarith
  have k1 : r ^ 2 * ((b1 - c1) ^ 2 + (b2 - c2) ^ 2) ≤ (b1 - c1) ^ 2 + (b2 - c2) ^ 2 := by
    refine le_trans (le_of_eq ?_) h1
    rw [e1, e2]; ring
  have k2 : (1 - r) ^ 2 * ((b1 - c1) ^ 2 + (b2 - c2) ^ 2) ≤ (b1 - c1) ^ 2 + (b2 - c2) ^ 2 := by
    refine le_trans (le_of_eq ?_) h2
    rw [e1, e2]; ring
  have k1' : r ^ 2 ≤ 1 := by
    by_contra q
    push Not at q
    have := mul_lt_mul_of_pos_right q hpos
    linarith
  have k2' : (1 - r) ^ 2 ≤ 1 := by
    by_contra q
    push Not at q
    have := mul_lt_mul_of_pos_right q hpos
    linarith
  exact ⟨r, by nlinarith, by nlinarith, Prod.ext e1 e2⟩

theorem longest_on {T : TView K} {i : Fin 3} {x : K} (hz : areaAt T x = 0) (h : ∀ j, lengthSq T j x ≤ lengthSq T i x) :
    OnSide T i x := by
  rw [areaAt_turn T i x] at hz
  have h1 := h (i + 2)
  have h2 := h (i + 1)
  unfold lengthSq at h1 h2
  rw [(by decide : ∀ z : Fin 3, z + 2 + 1 = z) i, (by decide : ∀ z : Fin 3, z + 2 + 2 = z + 1) i] at h1
  rw [(by decide : ∀ z : Fin 3, z + 1 + 1 = z + 2) i, (by decide : ∀ z : Fin 3, z + 1 + 2 = z) i] at h2
  exact between_of_longest hz h1 h2

/-- roots that are computed are roots -/
theorem solved_root {T : TView K} (h : Solvable T) {x : K}
    (hx : x ∈ areaCollapseTimes (T.v 0) (T.v 1) (T.v 2)) : areaAt T x = 0 := by
  obtain ⟨A, B, C, hABC, hq⟩ := areaAt_quadratic T
  unfold areaCollapseTimes at hx
  rw [hABC] at hx
  dsimp only at hx
  rw [mem_pySorted] at hx
  rw [← hq]
  unfold solveQuadratic at hx
  rcases h.coeffs A B C hq with ⟨hA, hD⟩ | ⟨hA, hB⟩
  · have hA0 : A ≠ 0 := by
      rintro rfl; rw [abs_zero] at hA
      exact absurd hA (not_lt.mpr (by positivity))
    have hAn : nearZero A = false := (nearZero_false_iff A).mpr hA
    have hu : (1 / 4 * (-B / A) ^ 2 - C / A) = (B / (2 * A)) ^ 2 - C / A := by
      rw [div_pow, div_pow, mul_pow, neg_sq]
      field_simp
      ring
    rcases hD with hD | hD
    · simp only [hAn, Bool.false_and, Bool.false_eq_true, if_false, hu, hD, nearZero_zero, if_true, List.mem_cons,
        List.not_mem_nil, or_false] at hx
      rw [hx]
      have : A * (-B / A * (1 / 2)) ^ 2 + B * (-B / A * (1 / 2)) + C = -A * ((B / (2 * A)) ^ 2 - C / A) := by
        field_simp
        ring
      rw [this, hD, mul_zero]
    have hDn : nearZero ((B / (2 * A)) ^ 2 - C / A) = false := (nearZero_false_iff _).2 hD
    simp only [hAn, Bool.false_and, Bool.false_eq_true, if_false, hu, hDn] at hx
    split_ifs at hx with c
    · cases hx
    · have hpos : 0 < (B / (2 * A)) ^ 2 - C / A := by
        refine lt_of_le_of_ne (not_lt.1 c) fun q => ?_
        rw [← q, abs_zero] at hD
        exact absurd hD (not_lt.mpr (by positivity))
      have hr := h.root A B C hq hA0 hpos
      have key : ∀ y : K, y * y = (B / (2 * A)) ^ 2 - C / A → A * (-B / A * (1 / 2) + y) ^ 2 +
          B * (-B / A * (1 / 2) + y) + C = 0 := by
        intro y hy
        have : A * (-B / A * (1 / 2) + y) ^ 2 + B * (-B / A * (1 / 2) + y) + C =
            A * (y * y - ((B / (2 * A)) ^ 2 - C / A)) := by
          field_simp
          ring
        rw [this, hy, sub_self, mul_zero]
      simp only [List.mem_cons, List.not_mem_nil, or_false] at hx
      rcases hx with rfl | rfl
      · rw [sub_eq_add_neg]
        exact key _ (by rw [neg_mul_neg]; exact hr)
      · exact key _ hr
  · subst hA
    have hz : nearZero (0 : K) = true := nearZero_zero
    rcases hB with rfl | hB
    · simp only [hz, Bool.not_true, Bool.and_false, Bool.false_eq_true, if_false, Bool.and_self, if_true,
        List.not_mem_nil] at hx
    · have hBn : nearZero B = false := (nearZero_false_iff B).2 hB
      simp only [hz, hBn, Bool.not_false, Bool.and_self, if_true, List.mem_cons, List.not_mem_nil, or_false] at hx
      have hB0 : B ≠ 0 := by
        rintro rfl; rw [abs_zero] at hB
        exact absurd hB (not_lt.mpr (by positivity))
      rw [hx, mul_div_cancel₀ _ hB0]
      ring

/-- as `compute_event_3triangle` takes the corners -/
theorem solved_turn {T : TView K} (h : Solvable T) {x : K}
    (hx : x ∈ areaCollapseTimes (T.v 1) (T.v 2) (T.v 0)) : areaAt T x = 0 := by
  refine solved_root h ?_
  have : areaCollapseTimeCoeff (T.v 1) (T.v 2) (T.v 0) = areaCollapseTimeCoeff (T.v 0) (T.v 1) (T.v 2) := by
    unfold areaCollapseTimeCoeff
    dsimp only
    refine Prod.ext ?_ (Prod.ext ?_ ?_) <;> dsimp only <;> ring
  unfold areaCollapseTimes at hx ⊢
  rw [this] at hx
  exact hx

theorem root_of_sieve {T : TView K} (h : Solvable T) {sv : Sieve} {t0 x : K}
    (hx : sv.apply ((areaCollapseTimes (T.v 0) (T.v 1) (T.v 2)).map some) t0 = some x) : areaAt T x = 0 := by
  obtain ⟨y, hy, q⟩ := List.mem_map.1 (sieve_mem hx)
  obtain rfl := Option.some.inj q
  exact solved_root h hy

/-- two roots are not close to each other -/
theorem roots_far {T : TView K} (hs : Solvable T) {x y : K} (hx : areaAt T x = 0) (hy : areaAt T y = 0)
    (hxy : |y - x| ≤ 1 / 10 ^ 10) : x = y := by
  obtain ⟨A, B, C, -, hq⟩ := areaAt_quadratic T
  obtain ⟨z, hz⟩ := hs.nonzero
  rcases hs.coeffs A B C hq with ⟨hA, hD | hD⟩ | h
  · by_contra hc
    have hd : x - y ≠ 0 := sub_ne_zero.2 hc
    rw [← hq] at hx hy
    have hsum : A * (x + y) + B = 0 := by
      have : (x - y) * (A * (x + y) + B) = 0 := by linear_combination hx - hy
      exact (mul_eq_zero.1 this).resolve_left hd
    have hA0 : A ≠ 0 := by
      rintro rfl
      rw [abs_zero] at hA
      exact absurd hA (not_lt.mpr (by positivity))
    have hB : B = -(A * (x + y)) := by linarith
    have hC : C = A * (x * y) := by rw [hB] at hx; linarith
    have hDe : (B / (2 * A)) ^ 2 - C / A = ((x - y) / 2) ^ 2 := by
      rw [hB, hC]; field_simp; ring
    rw [hDe] at hD
    have := pow_eq_zero_iff (two_ne_zero) |>.1 hD
    exact hd (by linarith)
  · exact roots_apart (.inl ⟨hA, hD⟩) ⟨z, by rw [hq]; exact hz⟩ (by rw [hq]; exact hx) (by rw [hq]; exact hy) hxy
  · exact roots_apart (.inr h) ⟨z, by rw [hq]; exact hz⟩ (by rw [hq]; exact hx) (by rw [hq]; exact hy) hxy

/-! ### sides -/

theorem flip_happens {T : TView K} (hun : ∀ i, Uniform (T.v i)) {x : K} {e : EvCore K} (hz : areaAt T x = 0)
    (h : flipLongest T x = .ok (some e)) : Happens T e := by
  unfold flipLongest at h
  obtain ⟨d, hd, h⟩ := bind_ok_iff.1 h
  obtain ⟨s, hs, h⟩ := bind_ok_iff.1 h
  obtain rfl := ok_some_inj h
  refine ⟨fun q => (by cases q), fun q => (by cases q), fun _ i hi => ?_⟩
  obtain rfl : i = s := by simpa using hi
  refine longest_on hz fun j => ?_
  rw [← dists2_at hun hd, ← dists2_at hun hd]
  exact index_max hs j

theorem edge_happens {T : TView K} {x : K} {S : List (Fin 3)} {n : ℕ}
    (h : ∀ i ∈ S, cornerAt T (i + 1) x = cornerAt T (i + 2) x) : Happens T ⟨x, S, .edge, n⟩ :=
  ⟨fun _ => h, fun q => (by cases q), fun q => (by cases q)⟩

/-- sides whose computed length is near zero vanish -/
theorem near_vanish {T : TView K} (hun : ∀ i, Uniform (T.v i)) {x : K} (hsh : SharpAt T x) (hz : areaAt T x = 0)
    {d : Fin 3 → K} (hd : T.dists x = .ok d) {i : Fin 3} (hi : nearZero (d i) = true) :
    cornerAt T (i + 1) x = cornerAt T (i + 2) x := by
  obtain ⟨h1, -, h3, -⟩ := hsh.lengths hz i
  rw [dists_at hun hd, nearZero_iff, abs_of_nonneg h1] at hi
  exact hsh.short hz i (h3 hi)

theorem near_vanish2 {T : TView K} (hun : ∀ i, Uniform (T.v i)) {x : K} (hsh : SharpAt T x) (hz : areaAt T x = 0)
    {d : Fin 3 → K} (hd : T.dists2 x = .ok d) {i : Fin 3} (hi : nearZero (d i) = true) :
    cornerAt T (i + 1) x = cornerAt T (i + 2) x := by
  rw [dists2_at hun hd, nearZero_iff, abs_of_nonneg (lengthSq_nonneg T i x)] at hi
  exact hsh.short hz i hi

theorem lengthSq_zero {T : TView K} {i : Fin 3} {x : K} (h : cornerAt T (i + 1) x = cornerAt T (i + 2) x) :
    lengthSq T i x = 0 := by
  unfold lengthSq distSq
  rw [h]
  ring

/-- when a side vanishes then the smallest length is zero -/
theorem min_zero {T : TView K} (hun : ∀ i, Uniform (T.v i)) {x : K} (hsh : SharpAt T x) {j : Fin 3}
    (hj : cornerAt T (j + 1) x = cornerAt T (j + 2) x) {d : Fin 3 → K} (hd : T.dists x = .ok d) : min3 d = 0 := by
  have hz := area_of_meet hj
  obtain ⟨k, hk⟩ := min3_mem d
  have h1 : d j = 0 := by
    rw [dists_at hun hd]
    exact (hsh.lengths hz j).2.1 (lengthSq_zero hj)
  have h2 : 0 ≤ d k := by rw [dists_at hun hd]; exact (hsh.lengths hz k).1
  have h3 := min3_le d j
  rw [h1] at h3
  rw [hk] at h2
  exact le_antisymm h3 h2

theorem min_zero2 {T : TView K} (hun : ∀ i, Uniform (T.v i)) {x : K} {j : Fin 3}
    (hj : cornerAt T (j + 1) x = cornerAt T (j + 2) x) {d : Fin 3 → K} (hd : T.dists2 x = .ok d) : min3 d = 0 := by
  obtain ⟨k, hk⟩ := min3_mem d
  have h1 : d j = 0 := by rw [dists2_at hun hd]; exact lengthSq_zero hj
  have h2 : 0 ≤ d k := by rw [dists2_at hun hd]; exact lengthSq_nonneg _ _ _
  have h3 := min3_le d j
  rw [h1] at h3
  rw [hk] at h2
  exact le_antisymm h3 h2

/-- the event at a longest side -/
theorem longest_happens {T : TView K} (hun : ∀ i, Uniform (T.v i)) {x : K} (hsh : SharpAt T x) (hz : areaAt T x = 0)
    {d : Fin 3 → K} (hd : T.dists x = .ok d) {s : Fin 3} (hs : indexE d (max3 d) = .ok s) : OnSide T s x := by
  refine longest_on hz fun j => ?_
  refine (hsh.lengths hz j).2.2.2 s ?_
  rw [← dists_at hun hd, ← dists_at hun hd]
  exact index_max hs j

/-! ### triangles without wavefront edge -/

theorem happens_zero {T : TView K} {t0 : K} {sv : Sieve} {e : EvCore K}
    (h : computeEvent0 T t0 sv = .ok (some e)) (hun : ∀ i, Uniform (T.v i)) (hc : ClearMotion T) (hs : Solvable T)
    (hsh : SharpAt T e.time) (h0 : ∀ j, T.noNeighbour j = false) (he : 0 ≤ e.time) : Happens T e := by
  have := hc.roots h0
  unfold computeEvent0 at h
  obtain ⟨_, -, h⟩ := bind_ok_iff.1 h
  dsimp only at h
  split_ifs at h with hdeg
  · rw [List.any_eq_true] at hdeg
    obtain ⟨y, hy, hyn⟩ := hdeg
    have hyz := solved_root hs hy
    rw [nearZero_iff, abs_abs] at hyn
    unfold degenerateNow0 at h
    obtain ⟨d, hd, h⟩ := bind_ok_iff.1 h
    dsimp only at h
    split at h
    · rename_i s hw
      obtain rfl := ok_some_inj h
      obtain rfl := hsh.current y hyz hyn
      refine edge_happens fun i hi => near_vanish hun hsh hyz hd ?_
      rw [← hw, mem_where3] at hi
      exact hi
    · cases h
    · have htime : e.time = t0 := by
        unfold flipLongest at h
        obtain ⟨d, -, h⟩ := bind_ok_iff.1 h
        obtain ⟨s, -, h⟩ := bind_ok_iff.1 h
        rw [← ok_some_inj h]
      rw [htime] at hsh
      obtain rfl := hsh.current y hyz hyn
      exact flip_happens hun hyz h
  obtain ⟨d2, hd2, h⟩ := bind_ok_iff.1 h
  obtain ⟨d, hd, h⟩ := bind_ok_iff.1 h
  have hedge : ∀ te, sv.apply (List.map (fun i => some ((![collapseTimeEdge (T.v 0) (T.v 1), collapseTimeEdge (T.v 1) (T.v 2),
      collapseTimeEdge (T.v 2) (T.v 0)] : Fin 3 → K) i)) (where3 fun i => nearZero (d i))) t0 = some te → te = -1 ∨
      ∃ i, cornerAt T (i + 1) te = cornerAt T (i + 2) te := by
    intro te hte
    have := sieve_mem hte
    rw [List.mem_map] at this
    obtain ⟨i, hi, hti⟩ := this
    rw [mem_where3] at hi
    obtain rfl := Option.some.inj hti
    have q1 := list3_ok hd2 i
    have q2 := list3_ok hd i
    have key : ∀ j : Fin 3, ∀ a r, (T.v (j + 1)).distance2At (T.v (j + 2)) (collapseTimeEdge (T.v (j + 1)) (T.v (j + 2))) =
        .ok a → psqrt a = .ok r → nearZero r = true → collapseTimeEdge (T.v (j + 1)) (T.v (j + 2)) = -1 ∨
        cornerAt T (j + 1) (collapseTimeEdge (T.v (j + 1)) (T.v (j + 2))) =
          cornerAt T (j + 2) (collapseTimeEdge (T.v (j + 1)) (T.v (j + 2))) := by
      intro j a r ha hr hn
      rw [dist2_uniform _ _ (hun _) (hun _)] at ha
      have ha' := Except.ok.inj ha
      have ha0 : 0 ≤ a := by rw [← ha']; unfold distSq; positivity
      by_cases hm : Moving (T.v (j + 1)) (T.v (j + 2))
      · exact .inr (edge_near hc hun h0 j hm (by
          have := near_sqrt ha0 hr hn
          rw [← ha'] at this
          exact this))
      · exact .inl (C19_parallel _ _ (not_lt.1 hm))
    fin_cases i
    · exact (key 2 _ _ q1 q2 hi).imp_right fun z => ⟨2, z⟩
    · exact (key 0 _ _ q1 q2 hi).imp_right fun z => ⟨0, z⟩
    · exact (key 1 _ _ q1 q2 hi).imp_right fun z => ⟨1, z⟩
  have hflip : ∀ time, flipLongest T time = .ok (some e) → e.time = time := by
    intro time h
    unfold flipLongest at h
    obtain ⟨d, -, h⟩ := bind_ok_iff.1 h
    obtain ⟨s, -, h⟩ := bind_ok_iff.1 h
    rw [← ok_some_inj h]
  have hcol : ∀ te, (te = -1 ∨ ∃ i, cornerAt T (i + 1) te = cornerAt T (i + 2) te) →
      edgeCollapse0 T te = .ok (some e) → Happens T e := by
    intro te hte h
    unfold edgeCollapse0 at h
    obtain ⟨d3, hd3, h⟩ := bind_ok_iff.1 h
    have key : ∀ S, where3 (fun i => nearZero (d3 i)) = S → e = ⟨te, S, .edge, T.type⟩ → Happens T e := by
      rintro S hw rfl
      rcases hte with rfl | ⟨j, hj⟩
      · exact absurd he (not_le.2 (by norm_num))
      refine edge_happens fun i hi => near_vanish2 hun hsh (area_of_meet hj) hd3 ?_
      rw [← hw, mem_where3] at hi
      exact hi
    split at h
    · rename_i a b c hw
      refine key _ ?_ (ok_some_inj h).symm
      have hsub := where3_sublist fun i => nearZero (d3 i)
      exact hsub.eq_of_length (by rw [hw]; rfl)
    · rename_i a hw
      exact key _ hw (ok_some_inj h).symm
    · cases h
  split at h
  · cases h
  · rename_i te ta hte hta
    have hta0 := root_of_sieve hs hta
    have hte0 := hedge te hte
    split_ifs at h with c1 c2
    · rw [nearZero_iff, abs_abs] at c1
      have heq : te = -1 ∨ te = ta := by
        refine hte0.imp_right fun ⟨j, hj⟩ => ?_
        exact roots_far hs (area_of_meet hj) hta0 c1
      obtain ⟨d3, hd3, h⟩ := bind_ok_iff.1 h
      have key : ∀ S, where3 (fun i => nearZero (d3 i - min3 d3)) = S → e = ⟨te, S, .edge, T.type⟩ → Happens T e := by
        rintro S hw rfl
        rcases hte0 with rfl | ⟨j, hj⟩
        · exact absurd he (not_le.2 (by norm_num))
        refine edge_happens fun i hi => near_vanish2 hun hsh (area_of_meet hj) hd3 ?_
        rw [← hw, mem_where3, min_zero2 hun hj hd3, sub_zero] at hi
        exact hi
      split at h
      · rename_i a b c hw
        refine key _ ?_ (ok_some_inj h).symm
        have hsub := where3_sublist fun i => nearZero (d3 i - min3 d3)
        exact hsub.eq_of_length (by rw [hw]; rfl)
      · rename_i a hw
        exact key _ hw (ok_some_inj h).symm
      · exact flip_happens hun hta0 h
    · exact flip_happens hun hta0 h
    · exact hcol te hte0 h
  · rename_i te hte hta
    exact hcol te (hedge te hte) h
  · rename_i ta hte hta
    exact flip_happens hun (root_of_sieve hs hta) h

/-! ### triangles with one wavefront edge -/

theorem max3_mem' (d : Fin 3 → K) : ∃ k, d k = max3 d := by
  unfold max3
  rcases max_choice (max (d 0) (d 1)) (d 2) with h | h
  · rcases max_choice (d 0) (d 1) with h' | h'
    · exact ⟨0, by rw [h, h']⟩
    · exact ⟨1, by rw [h, h']⟩
  · exact ⟨2, by rw [h]⟩

/-- the time of the crash of the apex: it is on the wavefront then -/
theorem crash_height {T : TView K} {w : Fin 3} {l : Line2 K} (hl : Rides T w l) {r : Option K}
    (h : vertexCrashTime (T.v (w + 1)) (T.v (w + 2)) (T.v w) = .ok r) :
    (∃ x, r = some x ∧ heightOf T w l x = 0 ∧ dot2 (T.v w).velocity l.w ≠ 1) ∨
    (r = none ∧ |1 - dot2 (T.v w).velocity l.w| ≤ 1 / 10 ^ 10) := by
  unfold vertexCrashTime at h
  rw [hl.line] at h
  dsimp only at h
  split at h
  · cases h
  · split_ifs at h with c1 c2
    · left
      refine ⟨_, (Except.ok.inj h).symm, ?_, ?_⟩
      · have hne : 1 - dot2 (T.v w).velocity l.w ≠ 0 := by
          intro q
          rw [q, nearZero_zero] at c2
          cases c2
        have hx := div_mul_cancel₀ (dot2 (sub2 (T.v w).origin (T.v (w + 1)).origin) l.w) hne
        obtain ⟨h0, -⟩ := hl.on 0
        generalize dot2 (sub2 (T.v w).origin (T.v (w + 1)).origin) l.w / (1 - dot2 (T.v w).velocity l.w) = x at hx
        unfold AtDistance cornerAt move at h0
        unfold heightOf cornerAt move
        unfold dot2 sub2 at hx
        dsimp only at *
        linear_combination h0 - hx
      · intro q
        rw [q, sub_self, nearZero_zero] at c2
        cases c2
    · right
      refine ⟨(Except.ok.inj h).symm, ?_⟩
      by_contra q
      exact c2 ((nearZero_false_iff _).2 (not_le.1 q))

theorem height_unique {T : TView K} {w : Fin 3} {l : Line2 K} (h : dot2 (T.v w).velocity l.w ≠ 1) {x y : K}
    (hx : heightOf T w l x = 0) (hy : heightOf T w l y = 0) : x = y := by
  have : (x - y) * (dot2 (T.v w).velocity l.w - 1) = 0 := by
    unfold heightOf cornerAt move at hx hy
    unfold dot2
    linear_combination hx - hy
  rcases mul_eq_zero.1 this with q | q
  · linarith
  · exact absurd (by linarith) h

theorem happens_one {T : TView K} {t0 : K} {sv : Sieve} {e : EvCore K}
    (h : computeEvent1 T t0 sv = .ok (some e)) (hun : ∀ i, Uniform (T.v i)) (hc : ClearMotion T) (hs : Solvable T)
    (hsh : SharpAt T e.time) {w : Fin 3} (hw : ∀ j, T.noNeighbour j = true ↔ j = w) (he : 0 ≤ e.time) : Happens T e := by
  have hwn : T.noNeighbour w = true := (hw w).2 rfl
  obtain ⟨l, hl⟩ := hc.rides w hwn
  unfold computeEvent1 at h
  obtain ⟨_, -, h⟩ := bind_ok_iff.1 h
  obtain ⟨w', hw', h⟩ := bind_ok_iff.1 h
  obtain rfl : w' = w := (hw w').1 (indexE_ok hw').1
  dsimp only at h
  obtain ⟨tv, htv, h⟩ := bind_ok_iff.1 h
  replace htv := crash_height hl htv
  have hpos : ∀ {S n d}, e = ⟨-1, S, n, d⟩ → False := by
    rintro S n d rfl
    exact absurd he (not_le.2 (by norm_num))
  have harea : ∀ x, tv = some x → areaAt T x = 0 := by
    intro x hx
    rcases htv with ⟨y, hy, q, -⟩ | ⟨hy, -⟩
    · obtain rfl := Option.some.inj (hy.symm.trans hx)
      rw [areaAt_one hl, q, mul_zero]
    · rw [hx] at hy; cases hy
  -- a root of the area is one of the two times
  have hroot : ∀ x, areaAt T x = 0 → collapseTimeEdge (T.v (w' + 1)) (T.v (w' + 2)) = x ∨ tv = some x := by
    intro x hx
    obtain ⟨y, hy⟩ := hs.nonzero
    rw [areaAt_one hl] at hx hy
    rcases mul_eq_zero.1 hx with q | q
    · have hm := moving_of_zero hc hwn q ⟨y, left_ne_zero_of_mul hy⟩
      exact .inl (meet_time (Rides.meet hun (sideLen_zero hl q)) (hun _) (hun _) hm)
    · right
      rcases htv with ⟨z, hz, hz0, hne⟩ | ⟨-, hz⟩
      · rw [hz, height_unique hne hz0 q]
      · rcases hc.apex w' l hw hl with a | a
        · exact absurd a (not_lt.2 hz)
        · exact absurd ((heightOf_const a y x).trans q) (right_ne_zero_of_mul hy)
  split_ifs at h with hnow
  · obtain ⟨x, rfl⟩ : ∃ x, tv = some x := by
      cases tv with
      | none => cases hnow
      | some x => exact ⟨x, rfl⟩
    dsimp only at hnow
    rw [nearZero_iff, abs_abs] at hnow
    have hz := harea x rfl
    have htime : e.time = t0 := by
      obtain ⟨e', he', ht⟩ := crashNow1_some h
      rw [Option.some.inj he']
      exact ht
    rw [htime] at hsh
    obtain rfl := hsh.current x hz hnow
    unfold crashNow1 at h
    obtain ⟨d, hd, h⟩ := bind_ok_iff.1 h
    split at h
    · rename_i s hs'
      obtain rfl := ok_some_inj h
      refine edge_happens fun i hi => near_vanish hun hsh hz hd ?_
      rw [← hs', mem_where3] at hi
      exact hi
    · obtain ⟨lo, hlo, h⟩ := bind_ok_iff.1 h
      obtain rfl := ok_some_inj h
      have hon := longest_happens hun hsh hz hd hlo
      constructor
      · intro q
        dsimp only at q
        split_ifs at q
      · intro q i hi
        obtain rfl : i = lo := by simpa using hi
        dsimp only at q
        split_ifs at q with c
        · exact ⟨c ▸ hwn, hon⟩
      · intro q i hi
        obtain rfl : i = lo := by simpa using hi
        exact hon
  split at h
  · -- case A
    rename_i h1 h2
    exfalso
    unfold case1A at h
    dsimp only at h
    split at h
    · cases h
    · rename_i x hx
      have hadm := sieve_later hx
      obtain ⟨y, hy, q⟩ := List.mem_map.1 (sieve_mem hx)
      obtain rfl := Option.some.inj q
      have hz : areaAt T y = 0 := by
        refine solved_root hs ?_
        unfold areaCollapseTimes
        dsimp only
        rw [mem_pySorted]
        exact hy
      rcases hroot y hz with q | q
      · exact sieve_not h1 (u := y) (by rw [← q]; exact List.mem_singleton.2 rfl) hadm
      · exact sieve_not h2 (u := y) (by rw [← q]; exact List.mem_singleton.2 rfl) hadm
  · -- case B
    rename_i tv' h1 h2
    have htv' : tv = some tv' := by
      have := sieve_mem h2
      rw [List.mem_singleton] at this
      exact this.symm
    have hz := harea tv' htv'
    unfold case1B at h
    dsimp only at h
    generalize hta : sv.apply ((areaCollapseTimes (T.v 0) (T.v 1) (T.v 2)).map some) t0 = ta at h
    have htime : time1B ta tv' = tv' := by
      unfold time1B
      cases ta with
      | none => rfl
      | some a =>
        dsimp only
        split_ifs with c
        · exfalso
          rcases hroot a (root_of_sieve hs hta) with q | q
          · exact sieve_not h1 (u := a) (by rw [← q]; exact List.mem_singleton.2 rfl) (sieve_later hta)
          · rw [htv'] at q
            exact c.ne (Option.some.inj q).symm
        · rfl
    rw [htime] at h
    obtain ⟨d, hd, h⟩ := bind_ok_iff.1 h
    split_ifs at h with c1 c2
    · obtain rfl := ok_some_inj h
      refine ⟨fun q => (by cases q), fun _ i hi => ?_, fun q => (by cases q)⟩
      obtain rfl : i = w' := by simpa using hi
      refine ⟨hwn, longest_on hz fun j => ?_⟩
      obtain ⟨k, hk⟩ := max3_mem' d
      have hki : k ∈ where3 (fun i => nearZero (d i - max3 d)) := by
        rw [mem_where3, hk, sub_self]
        exact nearZero_zero
      rw [c1] at hki
      obtain rfl : k = i := by simpa using hki
      refine (hsh.lengths hz j).2.2.2 k ?_
      dsimp only
      rw [← dists_at hun hd, ← dists_at hun hd, hk]
      exact le_max3 d j
    · obtain ⟨s, hsd, h⟩ := bind_ok_iff.1 h
      obtain rfl := ok_some_inj h
      refine edge_happens fun i hi => near_vanish hun hsh hz hd ?_
      obtain rfl : i = s := by simpa using hi
      obtain ⟨k, hk⟩ : ∃ k, k ∈ where3 fun i => nearZero (d i) := by
        rcases hq : where3 fun i => nearZero (d i) with _ | ⟨k, _⟩
        · rw [hq] at c2; cases c2
        · exact ⟨k, by simp⟩
      rw [mem_where3, nearZero_iff] at hk
      have h0 : ∀ j, 0 ≤ d j := fun j => by rw [dists_at hun hd]; exact (hsh.lengths hz j).1
      rw [abs_of_nonneg (h0 k)] at hk
      rw [nearZero_iff, abs_of_nonneg (h0 i)]
      exact (index_min hsd k).trans hk
    · obtain ⟨s, hsd, h⟩ := bind_ok_iff.1 h
      obtain rfl := ok_some_inj h
      refine ⟨fun q => (by cases q), fun q => (by cases q), fun _ i hi => ?_⟩
      obtain rfl : i = s := by simpa using hi
      exact longest_happens hun hsh hz hd hsd
  · -- case C
    rename_i te h1 h2
    obtain rfl := ok_some_inj h
    have hte : collapseTimeEdge (T.v (w' + 1)) (T.v (w' + 2)) = te := by
      have := sieve_mem h1
      rw [List.mem_singleton] at this
      exact (Option.some.inj this).symm
    refine edge_happens fun i hi => ?_
    obtain rfl : i = w' := by simpa using hi
    rcases edge_time_cases hc i hwn with q | q
    · rw [hte] at q
      subst q
      exact (hpos rfl).elim
    · rw [hte] at q
      exact q
  · -- case D
    rename_i te tv' h1 h2
    have hte : collapseTimeEdge (T.v (w' + 1)) (T.v (w' + 2)) = te := by
      have := sieve_mem h1
      rw [List.mem_singleton] at this
      exact (Option.some.inj this).symm
    have htv' : tv = some tv' := by
      have := sieve_mem h2
      rw [List.mem_singleton] at this
      exact this.symm
    have hz := harea tv' htv'
    unfold case1D at h
    split_ifs at h with c1 c2
    · obtain ⟨d, hd, h⟩ := bind_ok_iff.1 h
      obtain ⟨s, hsd, h⟩ := bind_ok_iff.1 h
      obtain rfl := ok_some_inj h
      refine edge_happens fun i hi => ?_
      obtain rfl : i = s := by simpa using hi
      rcases edge_time_cases hc w' hwn with q | q
      · rw [hte] at q
        subst q
        exact (hpos rfl).elim
      · rw [hte] at q
        refine near_vanish2 hun hsh (area_of_meet q) hd ?_
        rw [(indexE_ok hsd).1, min_zero2 hun q hd]
        exact nearZero_zero
    · obtain ⟨d, hd, h⟩ := bind_ok_iff.1 h
      split at h
      · rename_i s hs'
        obtain rfl := ok_some_inj h
        refine edge_happens fun i hi => near_vanish hun hsh hz hd ?_
        rw [← hs', mem_where3] at hi
        exact hi
      · rename_i a b c hs'
        obtain rfl := ok_some_inj h
        refine edge_happens fun i hi => near_vanish hun hsh hz hd ?_
        have hsub := where3_sublist fun i => nearZero (d i)
        rw [← hsub.eq_of_length (by rw [hs']; rfl), mem_where3] at hi
        exact hi
      · obtain ⟨s, hsd, h⟩ := bind_ok_iff.1 h
        obtain rfl := ok_some_inj h
        have hon := longest_happens hun hsh hz hd hsd
        constructor
        · intro q
          dsimp only at q
          split_ifs at q
        · intro q i hi
          obtain rfl : i = s := by simpa using hi
          dsimp only at q
          split_ifs at q with c
          · exact ⟨c, hon⟩
        · intro q i hi
          obtain rfl : i = s := by simpa using hi
          exact hon

/-! ### triangles with two and with three wavefront edges -/

/-- when the corners of a triangle with two wavefront edges are in line, one of the two vanishes -/
theorem root_vanish {T : TView K} (hs : Solvable T) {k : Fin 3} {l m : Line2 K} (hl : Rides T (k + 1) l)
    (hm : Rides T (k + 2) m) {x : K} (hz : areaAt T x = 0) : ∃ i, cornerAt T (i + 1) x = cornerAt T (i + 2) x := by
  obtain ⟨y, hy⟩ := hs.nonzero
  rw [areaAt_two hl hm] at hz hy
  rcases mul_eq_zero.1 hz with q | q
  · rcases mul_eq_zero.1 q with q | q
    · exact ⟨_, sideLen_zero hl q⟩
    · exact ⟨_, sideLen_zero hm q⟩
  · exact absurd q (right_ne_zero_of_mul hy)

/-- when one of three wavefront edges vanishes, all do -/
theorem all_vanish {T : TView K} (hs : Solvable T) (hr : ∀ i, ∃ l, Rides T i l) {x : K} {j : Fin 3}
    (hj : cornerAt T (j + 1) x = cornerAt T (j + 2) x) (i : Fin 3) : cornerAt T (i + 1) x = cornerAt T (i + 2) x := by
  obtain ⟨l, hl⟩ := hr (j + 1)
  obtain ⟨m, hm⟩ := hr (j + 2)
  obtain ⟨y, hy⟩ := hs.nonzero
  rw [areaAt_two hl hm] at hy
  have hcr := right_ne_zero_of_mul hy
  obtain ⟨a, b⟩ := side_along hl x
  obtain ⟨c, d⟩ := side_along hm x
  have e1 : j + 1 + 2 = j := (by decide : ∀ x : Fin 3, x + 1 + 2 = x) j
  have e2 : j + 1 + 1 = j + 2 := (by decide : ∀ x : Fin 3, x + 1 + 1 = x + 2) j
  have e3 : j + 2 + 1 = j := (by decide : ∀ x : Fin 3, x + 2 + 1 = x) j
  have e4 : j + 2 + 2 = j + 1 := (by decide : ∀ x : Fin 3, x + 2 + 2 = x + 1) j
  have hll : sideLen T (j + 1) l x = 0 := by
    rw [e1, e2, ← hj] at a b
    rw [e3, e4] at c d
    have : sideLen T (j + 1) l x * (l.w.1 * m.w.2 - l.w.2 * m.w.1) = 0 := by
      linear_combination m.w.1 * a + m.w.2 * b + m.w.1 * c + m.w.2 * d
    exact (mul_eq_zero.1 this).resolve_right hcr
  have h1 := sideLen_zero hl hll
  rw [e1, e2] at h1
  have hall : ∀ k, cornerAt T k x = cornerAt T j x := by
    intro k
    rcases (by decide : ∀ j k : Fin 3, k = j ∨ k = j + 1 ∨ k = j + 2) j k with q | q | q
    · rw [q]
    · rw [q, hj, h1]
    · rw [q, h1]
  exact (hall _).trans (hall _).symm

theorem happens_two {T : TView K} {t0 : K} {sv : Sieve} {e : EvCore K}
    (h : computeEvent2 T t0 sv = .ok (some e)) (hun : ∀ i, Uniform (T.v i)) (hc : ClearMotion T) (hs : Solvable T)
    (hsh : SharpAt T e.time) {k : Fin 3} (hk : ∀ j, T.noNeighbour j = false ↔ j = k) (he : 0 ≤ e.time) : Happens T e := by
  have n1 : T.noNeighbour (k + 1) = true := by
    by_contra q
    exact absurd ((hk (k + 1)).1 (by simpa using q)) ((by decide : ∀ z : Fin 3, z + 1 ≠ z) k)
  have n2 : T.noNeighbour (k + 2) = true := by
    by_contra q
    exact absurd ((hk (k + 2)).1 (by simpa using q)) ((by decide : ∀ z : Fin 3, z + 2 ≠ z) k)
  obtain ⟨l, hl⟩ := hc.rides _ n1
  obtain ⟨m, hm⟩ := hc.rides _ n2
  unfold computeEvent2 at h
  obtain ⟨_, -, h⟩ := bind_ok_iff.1 h
  dsimp only at h
  generalize hT : ((if T.noNeighbour 2 = true then [some (collapseTimeEdge (T.v 0) (T.v 1))] else []) ++
    (if T.noNeighbour 0 = true then [some (collapseTimeEdge (T.v 1) (T.v 2))] else []) ++
    (if T.noNeighbour 1 = true then [some (collapseTimeEdge (T.v 2) (T.v 0))] else [])) = L at h
  have hfrom : ∀ x, some x ∈ L → ∃ j, T.noNeighbour j = true ∧ collapseTimeEdge (T.v (j + 1)) (T.v (j + 2)) = x := by
    intro x hx
    rw [← hT] at hx
    simp only [List.mem_append] at hx
    rcases hx with (hx | hx) | hx
    · split_ifs at hx with c
      · exact ⟨2, c, by simpa [eq_comm] using hx⟩
      · simp at hx
    · split_ifs at hx with c
      · exact ⟨0, c, by simpa [eq_comm] using hx⟩
      · simp at hx
    · split_ifs at hx with c
      · exact ⟨1, c, by simpa [eq_comm] using hx⟩
      · simp at hx
  have hin : ∃ u, some u ∈ L := by
    rw [← hT]
    fin_cases k
    · exact ⟨_, by rw [if_pos (show T.noNeighbour 1 = true from n1)]; simp; exact .inr (.inr rfl)⟩
    · exact ⟨_, by rw [if_pos (show T.noNeighbour 2 = true from n1)]; simp; exact .inl rfl⟩
    · exact ⟨_, by rw [if_pos (show T.noNeighbour 0 = true from n1)]; simp; exact .inr (.inl rfl)⟩
  obtain ⟨out, hout, h⟩ := bind_ok_iff.1 h
  obtain ⟨out', hout', -, hsub, -⟩ := C05_get_unique_times_partial L hin
  obtain rfl : out = out' := Except.ok.inj (hout.symm.trans hout')
  split at h
  · cases h
  rename_i x htime
  have hx : x = -1 ∨ ∃ i, cornerAt T (i + 1) x = cornerAt T (i + 2) x := by
    split at htime
    · exact .inr (root_vanish hs hl hm (root_of_sieve hs htime))
    · obtain ⟨y, hy, q⟩ := List.mem_map.1 (sieve_mem htime)
      obtain rfl := Option.some.inj q
      obtain ⟨j, hj, hjt⟩ := hfrom y (hsub y hy)
      rcases edge_time_cases hc j hj with q | q
      · exact .inl (hjt ▸ q)
      · exact .inr ⟨j, hjt ▸ q⟩
  obtain ⟨d, hd, h⟩ := bind_ok_iff.1 h
  have key : ∀ S, (∀ i ∈ S, nearZero (d i - min3 d) = true) → e = ⟨x, S, .edge, T.type⟩ → Happens T e := by
    rintro S hS rfl
    rcases hx with rfl | ⟨j, hj⟩
    · exact absurd he (not_le.2 (by norm_num))
    refine edge_happens fun i hi => near_vanish hun hsh (area_of_meet hj) hd ?_
    have := hS i hi
    rw [min_zero hun hsh hj hd, sub_zero] at this
    exact this
  have hd' : ∀ i, (![d 0 - min3 d, d 1 - min3 d, d 2 - min3 d] : Fin 3 → K) i = d i - min3 d := by
    intro i; fin_cases i <;> rfl
  split at h
  · rename_i a b c hw
    refine key _ (fun i hi => ?_) (ok_some_inj h).symm
    have hsub := where3_sublist fun i => nearZero ((![d 0 - min3 d, d 1 - min3 d, d 2 - min3 d] : Fin 3 → K) i)
    rw [← hsub.eq_of_length (by rw [hw]; rfl), mem_where3, hd'] at hi
    exact hi
  · cases h
  · obtain ⟨s, hsd, h⟩ := bind_ok_iff.1 h
    refine key _ (fun i hi => ?_) (ok_some_inj h).symm
    obtain rfl : i = s := by simpa using hi
    obtain ⟨j, hj⟩ := min3_mem d
    have h1 := index_min hsd j
    rw [hd', hd', hj, sub_self] at h1
    have h2 := min3_le d i
    rw [nearZero_iff, le_antisymm h1 (by linarith), abs_zero]
    positivity
  · cases h

theorem happens_three {T : TView K} {t0 : K} {sv : Sieve} {e : EvCore K}
    (h : computeEvent3 T t0 sv = .ok (some e)) (hc : ClearMotion T) (hs : Solvable T)
    (h3 : ∀ j, T.noNeighbour j = true) (he : 0 ≤ e.time) : Happens T e := by
  unfold computeEvent3 at h
  dsimp only at h
  obtain ⟨_, -, h⟩ := bind_ok_iff.1 h
  obtain ⟨_, -, h⟩ := bind_ok_iff.1 h
  obtain ⟨_, -, h⟩ := bind_ok_iff.1 h
  have hr : ∀ i, ∃ l, Rides T i l := fun i => hc.rides i (h3 i)
  have key : ∀ x S, (∃ j, cornerAt T (j + 1) x = cornerAt T (j + 2) x) → e = ⟨x, S, .edge, T.type⟩ → Happens T e := by
    rintro x S ⟨j, hj⟩ rfl
    exact edge_happens fun i _ => all_vanish hs hr hj i
  have htr : ∀ {o : Option K} {x}, truthy o = some x → o = some x := by
    intro o x ho
    unfold truthy at ho
    cases o with
    | none => cases ho
    | some y =>
      dsimp only at ho
      split_ifs at ho
      exact ho
  split at h
  · rename_i te hte
    have hte := sieve_mem (htr hte)
    have heq := (ok_some_inj h).symm
    refine key te _ ?_ heq
    have hne : te ≠ -1 := by
      rintro rfl
      rw [heq] at he
      exact absurd he (not_le.2 (by norm_num))
    obtain ⟨j, hj⟩ : ∃ j : Fin 3, te = collapseTimeEdge (T.v (j + 1)) (T.v (j + 2)) := by
      simp only [List.mem_cons, Option.some.injEq, List.not_mem_nil, or_false] at hte
      rcases hte with q | q | q
      · exact ⟨0, q⟩
      · exact ⟨1, q⟩
      · exact ⟨2, q⟩
    rcases edge_time_cases hc j (h3 j) with q | q
    · exact absurd (hj.trans q) hne
    · rw [← hj] at q
      exact ⟨j, q⟩
  · split at h
    · rename_i ta hta
      refine key ta _ ?_ (ok_some_inj h).symm
      obtain ⟨l, hl⟩ := hr (0 + 1)
      obtain ⟨m, hm⟩ := hr (0 + 2)
      refine root_vanish hs hl hm ?_
      have hta := htr hta
      obtain ⟨y, hy, q⟩ := List.mem_map.1 (sieve_mem hta)
      obtain rfl := Option.some.inj q
      exact solved_turn hs hy
    · cases h

end Grassfire
