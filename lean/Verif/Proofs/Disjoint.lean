/-
Triangles and sides that do not overlap, for C97.
-/
import Verif.Props.Cover

set_option linter.unusedSectionVars false

namespace Grassfire

open Spec

variable {K : Type} [Field K] [LinearOrder K] [IsStrictOrderedRing K]

/-! ### points near a side of a triangle -/

/-- on which side of a side of a triangle a point is -/
def sideArea (u : St K) (x : K) (t : TId) (i : Fin 3) (o : Pt K) : K :=
  area2 (whereAt u x ((u.tri t).vertices (i + 1))) (whereAt u x ((u.tri t).vertices (i + 2))) o

/-- the point is inside the triangle -/
def InsideT (u : St K) (x : K) (t : TId) (o : Pt K) : Prop := ∀ i, 0 < sideArea u x t i o

/-- the point is on a side of the triangle, between its ends -/
structure EdgeT (u : St K) (x : K) (t : TId) (i : Fin 3) (o : Pt K) : Prop where
  on : sideArea u x t i o = 0
  next : 0 < sideArea u x t (i + 1) o
  prev : 0 < sideArea u x t (i + 2) o

/-- a point that moves -/
def going (r w : Pt K) (ε : K) : Pt K := (r.1 + ε * w.1, r.2 + ε * w.2)

/-- how fast -/
def sideTurn (u : St K) (x : K) (t : TId) (i : Fin 3) (w : Pt K) : K :=
  ((whereAt u x ((u.tri t).vertices (i + 2))).1 - (whereAt u x ((u.tri t).vertices (i + 1))).1) * w.2 -
  ((whereAt u x ((u.tri t).vertices (i + 2))).2 - (whereAt u x ((u.tri t).vertices (i + 1))).2) * w.1

theorem area2_going (a b r w : Pt K) (ε : K) :
    area2 a b (going r w ε) = area2 a b r + ε * ((b.1 - a.1) * w.2 - (b.2 - a.2) * w.1) := by
  unfold area2 going
  ring

theorem sideArea_going {u : St K} {x : K} {t : TId} {i : Fin 3} {r w : Pt K} {ε : K} :
    sideArea u x t i (going r w ε) = sideArea u x t i r + ε * sideTurn u x t i w := area2_going _ _ _ _ _

/-- for all that are small enough -/
def Small (P : K → Prop) : Prop := ∃ e > 0, ∀ ε, 0 < ε → ε ≤ e → P ε

theorem Small.and {P Q : K → Prop} (h : Small P) (h' : Small Q) : Small fun ε => P ε ∧ Q ε := by
  obtain ⟨e, h1, h2⟩ := h
  obtain ⟨e', h1', h2'⟩ := h'
  exact ⟨min e e', lt_min h1 h1', fun ε h3 h4 => ⟨h2 ε h3 (h4.trans (min_le_left _ _)), h2' ε h3 (h4.trans (min_le_right _ _))⟩⟩

theorem Small.mono {P Q : K → Prop} (h : Small P) (q : ∀ ε, 0 < ε → P ε → Q ε) : Small Q := by
  obtain ⟨e, h1, h2⟩ := h
  exact ⟨e, h1, fun ε h3 h4 => q ε h3 (h2 ε h3 h4)⟩

theorem Small.some {P : K → Prop} (h : Small P) : ∃ ε > 0, P ε := by
  obtain ⟨e, h1, h2⟩ := h
  exact ⟨e, h1, h2 e h1 le_rfl⟩

theorem small_pos {a b : K} (ha : 0 < a) : Small fun ε => 0 < a + ε * b := by
  have hb : 0 < 1 + |b| := by have := abs_nonneg b; linarith
  refine ⟨a / (1 + |b|), div_pos ha hb, fun ε h1 h2 => ?_⟩
  have h3 : ε * (1 + |b|) ≤ a := (le_div_iff₀ hb).1 h2
  have h4 : -(ε * |b|) ≤ ε * b := by
    have := mul_le_mul_of_nonneg_left (neg_abs_le b) h1.le
    linarith
  nlinarith

theorem small_fin {P : Fin 3 → K → Prop} (h : ∀ i, Small (P i)) : Small fun ε => ∀ i, P i ε := by
  refine ((h 0).and ((h 1).and (h 2))).mono fun ε _ q i => ?_
  fin_cases i
  · exact q.1
  · exact q.2.1
  · exact q.2.2

variable {u : St K} {x : K} {t : TId} {i : Fin 3} {r w o : Pt K}

theorem threeSides (P : Fin 3 → Prop) (i : Fin 3) (h0 : P i) (h1 : P (i + 1)) (h2 : P (i + 2)) (j : Fin 3) : P j := by
  rcases (by decide : ∀ i j : Fin 3, j = i ∨ j = i + 1 ∨ j = i + 2) i j with rfl | rfl | rfl <;> assumption

/-- from a side to the left is inside -/
theorem EdgeT.push (h : EdgeT u x t i r) (hw : 0 < sideTurn u x t i w) : Small fun ε => InsideT u x t (going r w ε) := by
  refine small_fin fun j => ?_
  refine threeSides (fun j => Small fun ε => 0 < sideArea u x t j (going r w ε)) i ?_ ?_ ?_ j
  · refine ⟨1, one_pos, fun ε h1 _ => ?_⟩
    dsimp only
    rw [sideArea_going, h.on, zero_add]
    exact mul_pos h1 hw
  · simp only [sideArea_going]
    exact small_pos h.next
  · simp only [sideArea_going]
    exact small_pos h.prev

/-- along a side is on the side -/
theorem EdgeT.slide (h : EdgeT u x t i r) (hw : sideTurn u x t i w = 0) : Small fun ε => EdgeT u x t i (going r w ε) := by
  refine ((small_pos (b := sideTurn u x t (i + 1) w) h.next).and (small_pos (b := sideTurn u x t (i + 2) w) h.prev)).mono
    fun ε _ q => ⟨?_, ?_, ?_⟩
  · rw [sideArea_going, h.on, hw, mul_zero, add_zero]
  · rw [sideArea_going]; exact q.1
  · rw [sideArea_going]; exact q.2

theorem InsideT.near (h : InsideT u x t r) : Small fun ε => InsideT u x t (going r w ε) := by
  refine small_fin fun j => ?_
  simp only [sideArea_going]
  exact small_pos (h j)

theorem InsideT.count (h : InsideT u x t o) : countIn (whereAt u x ((u.tri t).vertices 0)) (whereAt u x ((u.tri t).vertices 1))
    (whereAt u x ((u.tri t).vertices 2)) o = 1 := countIn_in (h 2) (h 0) (h 1)

theorem areaOf_side (i : Fin 3) : areaOf u x t = area2 (whereAt u x ((u.tri t).vertices (i + 1)))
    (whereAt u x ((u.tri t).vertices (i + 2))) (whereAt u x ((u.tri t).vertices i)) := by
  unfold areaOf
  fin_cases i
  · exact (area2_turn _ _ _).symm
  · exact area2_turn _ _ _
  · rfl

theorem sides_after (i : Fin 3) : i + 1 + 1 = i + 2 ∧ i + 1 + 2 = i ∧ i + 2 + 1 = i ∧ i + 2 + 2 = i + 1 := by
  revert i; decide

theorem amid_edge (hA : 0 < areaOf u x t)
    (h : Amid (whereAt u x ((u.tri t).vertices (i + 1))) (whereAt u x ((u.tri t).vertices (i + 2))) r) : EdgeT u x t i r := by
  obtain ⟨z, z0, z1, rfl⟩ := h
  obtain ⟨e1, e2, e3, e4⟩ := sides_after i
  rw [areaOf_side i] at hA
  have z1' : 0 < 1 - z := sub_pos.2 z1
  have m1 := mul_pos z0 hA
  have m2 := mul_pos z1' hA
  unfold area2 at m1 m2
  refine ⟨?_, ?_, ?_⟩
  · unfold sideArea area2
    ring
  · unfold sideArea area2
    rw [e1, e2]
    linear_combination m2
  · unfold sideArea area2
    rw [e3, e4]
    linear_combination m1

/-- the sides are on the border -/
theorem closed_edge (hA : 0 < areaOf u x t) {z : K} (z0 : 0 ≤ z) (z1 : z ≤ 1) {p q : Pt K}
    (hp : p = whereAt u x ((u.tri t).vertices (i + 1))) (hq : q = whereAt u x ((u.tri t).vertices (i + 2)))
    (hr : r = (p.1 + z * (q.1 - p.1), p.2 + z * (q.2 - p.2))) :
    sideArea u x t i r = 0 ∧ ∀ j, 0 ≤ sideArea u x t j r := by
  subst hp hq hr
  obtain ⟨e1, e2, e3, e4⟩ := sides_after i
  rw [areaOf_side i] at hA
  have m1 := mul_nonneg z0 hA.le
  have m2 := mul_nonneg (sub_nonneg.2 z1) hA.le
  unfold area2 at m1 m2
  have h0 : sideArea u x t i ((whereAt u x ((u.tri t).vertices (i + 1))).1 + z * ((whereAt u x ((u.tri t).vertices (i + 2))).1 -
      (whereAt u x ((u.tri t).vertices (i + 1))).1), (whereAt u x ((u.tri t).vertices (i + 1))).2 +
      z * ((whereAt u x ((u.tri t).vertices (i + 2))).2 - (whereAt u x ((u.tri t).vertices (i + 1))).2)) = 0 := by
    unfold sideArea area2
    ring
  refine ⟨h0, threeSides _ i h0.ge ?_ ?_⟩
  · unfold sideArea area2
    rw [e1, e2]
    linear_combination m2
  · unfold sideArea area2
    rw [e3, e4]
    linear_combination m1

/-- the way to the middle of a triangle -/
def inward (u : St K) (x : K) (t : TId) (r : Pt K) : Pt K :=
  ((whereAt u x ((u.tri t).vertices 0)).1 + (whereAt u x ((u.tri t).vertices 1)).1 + (whereAt u x ((u.tri t).vertices 2)).1 - 3 * r.1,
    (whereAt u x ((u.tri t).vertices 0)).2 + (whereAt u x ((u.tri t).vertices 1)).2 + (whereAt u x ((u.tri t).vertices 2)).2 - 3 * r.2)

theorem inward_inside (hA : 0 < areaOf u x t) (h : ∀ j, 0 ≤ sideArea u x t j r) :
    Small fun ε => InsideT u x t (going r (inward u x t r) ε) := by
  refine ⟨1 / 3, by norm_num, fun ε h1 h2 j => ?_⟩
  have m1 := mul_pos h1 hA
  have m2 := mul_nonneg (by linarith : 0 ≤ 1 - 3 * ε) (h j)
  have e : sideArea u x t j (going r (inward u x t r) ε) = (1 - 3 * ε) * sideArea u x t j r + ε * areaOf u x t := by
    unfold sideArea areaOf going inward area2
    rcases (by decide : ∀ j : Fin 3, j = 0 ∨ j = 1 ∨ j = 2) j with rfl | rfl | rfl
    · simp only [show (0 : Fin 3) + 1 = 1 from rfl, show (0 : Fin 3) + 2 = 2 from rfl]
      ring
    · simp only [show (1 : Fin 3) + 1 = 2 from rfl, show (1 : Fin 3) + 2 = 0 from rfl]
      ring
    · simp only [show (2 : Fin 3) + 1 = 0 from rfl, show (2 : Fin 3) + 2 = 1 from rfl]
      ring
  rw [e]
  linarith

/-! ### the wavefront -/

variable [HasSqrt K] [SqrtUnit K] [HasTrig K]

variable {dt : Dt K} {depth : ℕ} {skel s0 : St K} {n : ℕ} {now : K} {s s1 : St K} {trace : List (Event K × K)}

/-- the last state up to time `x` of an execution that ends in `s` -/
structure LastUpTo (depth : ℕ) (s1 : St K) (n : ℕ) (s : St K) (x : K) (m : ℕ) (y : K) (u : St K) (tr : List (Event K × K)) :
    Prop where
  hm : m ≤ n
  run : Run depth { s1 with immediate := [] } 0 m y u tr
  hy : y ≤ x
  hi : u.immediate = []
  hq : ∀ f ∈ u.queue, x < f.time
  since : Since (x < ·) u s
  grows : Grows u s

theorem GeneralRun.last (h : GeneralRun dt depth skel s0 n now s trace) (h1 : initEventList s0 = .ok ((), s1)) (hx : 0 ≤ x)
    (hset : Settled s now x) : ∃ m y u tr, LastUpTo depth s1 n s x m y u tr := by
  obtain ⟨m, hm, y, u, tr', hu, hy, q1, q2, hS, hG⟩ := h.settle h1 hx hset
  exact ⟨m, y, u, tr', hm, hu, hy, q1, q2, hS, hG⟩

variable {m : ℕ} {y : K} {tr : List (Event K × K)} {t' : TId} {i' : Fin 3}

/-- it is also the last state up to earlier times -/
theorem LastUpTo.earlier (L : LastUpTo depth s1 n s x m y u tr) {z : K} (hz : y ≤ z) (hzx : z ≤ x) :
    LastUpTo depth s1 n s z m y u tr :=
  ⟨L.hm, L.run, hz, L.hi, fun f hf => hzx.trans_lt (L.hq f hf), L.since.mono fun _ q => hzx.trans_lt q, L.grows⟩

theorem GeneralRun.areas_at (h : GeneralRun dt depth skel s0 n now s trace) (h1 : initEventList s0 = .ok ((), s1))
    (L : LastUpTo depth s1 n s x m y u tr) (ht : t ∈ s0.skTriangles) (hl : Live u t) : 0 < areaOf u x t := by
  have U := h.prefix L.hm h1 L.run
  obtain ⟨-, -, hk, -⟩ := U.frame
  obtain ⟨x', hx', hm'⟩ := sooner L.hq
  exact (U.lasting L.hi hm' ht hl x L.hy hx').trans_eq (areaOf_view (hk t (List.mem_toFinset.2 ht) hl) x).symm

/-- where a point is inside a triangle, and inside another -/
theorem GeneralRun.winding_ge (h : GeneralRun dt depth skel s0 n now s trace) (hl : LoneEvents depth s0 n)
    (h1 : initEventList s0 = .ok ((), s1)) (L : LastUpTo depth s1 n s x m y u tr) (ht : t ∈ s0.skTriangles) (hlt : Live u t)
    (ho : InsideT u x t o) :
    1 ≤ winding s x o ∧ ∀ t' ∈ s0.skTriangles, Live u t' → t' ≠ t → InsideT u x t' o → 2 ≤ winding s x o := by
  classical
  rw [h.winding_at hl h1 L.hm L.run L.hy L.since L.grows]
  have mem : ∀ t ∈ s0.skTriangles, Live u t → t ∈ s0.skTriangles.toFinset.filter (Live u) := fun t ht hl =>
    Finset.mem_filter.2 ⟨List.mem_toFinset.2 ht, hl⟩
  have pos : ∀ t ∈ s0.skTriangles.toFinset.filter (Live u), 0 ≤ countIn (whereAt u x ((u.tri t).vertices 0))
      (whereAt u x ((u.tri t).vertices 1)) (whereAt u x ((u.tri t).vertices 2)) o := fun t ht => by
    obtain ⟨a, b⟩ := Finset.mem_filter.1 ht
    exact (countIn_range (h.areas_at h1 L (List.mem_toFinset.1 a) b).le).1
  refine ⟨ho.count.ge.trans (Finset.single_le_sum pos (mem t ht hlt)), fun t' ht' hl' hne ho' => ?_⟩
  have e := Finset.sum_le_sum_of_subset_of_nonneg (f := fun t => countIn (whereAt u x ((u.tri t).vertices 0))
      (whereAt u x ((u.tri t).vertices 1)) (whereAt u x ((u.tri t).vertices 2)) o)
    (s := {t', t}) (t := s0.skTriangles.toFinset.filter (Live u)) (fun z hz => by
      rcases Finset.mem_insert.1 hz with rfl | hz
      · exact mem _ ht' hl'
      · rw [Finset.mem_singleton.1 hz]; exact mem _ ht hlt) fun z hz _ => pos z hz
  rw [Finset.sum_pair hne, ho.count, ho'.count] at e
  exact e

/-- a point that a side has just passed -/
theorem GeneralRun.winding_passed (h : GeneralRun dt depth skel s0 n now s trace) (hl : LoneEvents depth s0 n)
    (h1 : initEventList s0 = .ok ((), s1)) (L : LastUpTo depth s1 n s x m y u tr) (hyx : y < x) (ht : t ∈ s0.skTriangles)
    (hlt : Live u t) (hn : (u.tri t).neighbours i = none) (hw : sideTurn u x t i w < 0)
    (hr : Amid (whereAt u x ((u.tri t).vertices (i + 1))) (whereAt u x ((u.tri t).vertices (i + 2))) r) :
    Small fun ε => winding s x (going r w ε) + 1 ≤ winding s y (going r w ε) := by
  classical
  have U := h.prefix L.hm h1 L.run
  obtain ⟨hM, hc, hk, -⟩ := U.frame
  obtain ⟨G, e⟩ := U.between L.hi le_rfl hyx.le fun f hf => (L.hq f hf).le
  have ha : (t, i) ∈ rim s0.skTriangles.toFinset u := mem_rim.2 ⟨List.mem_toFinset.2 ht, hlt, hn⟩
  obtain ⟨e1, e2, e3, e4, e5, -, e7, -⟩ := e _ ha
  obtain ⟨t1, t2⟩ := trapezoid (d := (0, 0)) e2 e3 e4 e5 e1
  simp only [mul_zero, sub_zero, add_zero, mul_one] at t1 t2
  have A := h.areas_at h1 L ht hlt
  have hpos : 0 < ahead (G (t, i)) (whereAt u x ((u.tri t).vertices (i + 1))) (whereAt u x ((u.tri t).vertices (i + 2))) := by
    refine lt_of_le_of_ne e7 fun z => ?_
    have := area_from (o := whereAt u x ((u.tri t).vertices i)) e4 e5 e1
    dsimp only at this
    rw [← z, zero_mul, ← area2_turn, ← area2_turn] at this
    rw [areaOf_side i, area2_turn, area2_turn, this] at A
    exact lt_irrefl _ A
  have hquad := mul_pos (sub_pos.2 hyx) hpos
  rw [← t2] at hquad
  obtain ⟨z, z0, z1, rfl⟩ := hr
  have m1 := mul_pos (sub_pos.2 z1) hquad
  have m2 := mul_pos z0 hquad
  have k1 := small_pos (b := ((whereAt u x ((u.tri t).vertices (i + 2))).1 - (whereAt u y ((u.tri t).vertices (i + 1))).1) * w.2 -
      ((whereAt u x ((u.tri t).vertices (i + 2))).2 - (whereAt u y ((u.tri t).vertices (i + 1))).2) * w.1) m1
  have k2 := small_pos (b := ((whereAt u y ((u.tri t).vertices (i + 1))).1 - (whereAt u x ((u.tri t).vertices (i + 1))).1) * w.2 -
      ((whereAt u y ((u.tri t).vertices (i + 1))).2 - (whereAt u x ((u.tri t).vertices (i + 1))).2) * w.1) m2
  refine (k1.and k2).mono fun ε hε q => ?_
  generalize hr : ((whereAt u x ((u.tri t).vertices (i + 1))).1 + z * ((whereAt u x ((u.tri t).vertices (i + 2))).1 -
    (whereAt u x ((u.tri t).vertices (i + 1))).1), (whereAt u x ((u.tri t).vertices (i + 1))).2 +
    z * ((whereAt u x ((u.tri t).vertices (i + 2))).2 - (whereAt u x ((u.tri t).vertices (i + 1))).2)) = r
  have c1 : countIn (whereAt u y ((u.tri t).vertices (i + 1))) (whereAt u x ((u.tri t).vertices (i + 2)))
      (whereAt u x ((u.tri t).vertices (i + 1))) (going r w ε) = 1 := by
    refine countIn_in ?_ ?_ ?_
    · rw [area2_going]
      refine q.1.trans_eq ?_
      rw [← hr]
      unfold area2
      ring
    · rw [area2_going]
      have : 0 < ε * -sideTurn u x t i w := mul_pos hε (neg_pos.2 hw)
      unfold sideTurn at this
      refine this.trans_eq ?_
      rw [← hr]
      unfold area2
      ring
    · rw [area2_going]
      refine q.2.trans_eq ?_
      rw [← hr]
      unfold area2
      ring
  have E1 := (winding_still s x (going r w ε)).trans
    (h.sum_at (crossing_sideSum (going r w ε)) hl h1 L.hm L.run L.hy L.since L.grows)
  have L' := L.earlier le_rfl hyx.le
  have E2 := (winding_still s y (going r w ε)).trans
    (h.sum_at (crossing_sideSum (going r w ε)) hl h1 L'.hm L'.run L'.hy L'.since L'.grows)
  have E := liveSum_swept (d := (0, 0)) (crossing_sideSum (going r w ε)) hM hc y x
  rw [← E1, ← E2] at E
  have S := crossing_sideSum (K := K) (going r w ε)
  have key : (1 : K) ≤ winding s y (going r w ε) - winding s x (going r w ε) := by
    rw [E]
    refine le_trans ?_ (Finset.single_le_sum (fun a ha => ?_) ha)
    · have n1 : 0 ≤ countIn (whereAt u y ((u.tri t).vertices (i + 1))) (whereAt u y ((u.tri t).vertices (i + 2)))
          (whereAt u x ((u.tri t).vertices (i + 2))) (going r w ε) := by
        refine (countIn_range ?_).1
        rw [t1]
        exact mul_nonneg (sub_nonneg.2 hyx.le) (e _ ha).2.2.2.2.2.1
      unfold drift
      simp only [mul_zero, sub_zero]
      unfold countIn at n1 c1
      rw [← Int.cast_one, ← c1]
      have n2 : ((0 : ℤ) : K) ≤ _ := Int.cast_le.2 n1
      push_cast at n2 ⊢
      linarith
    · obtain ⟨e1, e2, e3, e4, e5, e6, e7, -⟩ := e a ha
      obtain ⟨t1, t2⟩ := trapezoid (d := (0, 0)) e2 e3 e4 e5 e1
      simp only [mul_zero, sub_zero, add_zero, mul_one] at t1 t2
      have k := sub_nonneg.2 hyx.le
      refine add_nonneg (S.nonneg _ _ _ ?_) (S.nonneg _ _ _ ?_)
      · unfold drift
        simp only [mul_zero, sub_zero]
        exact (mul_nonneg k e6).trans_eq t1.symm
      · unfold drift
        simp only [mul_zero, sub_zero]
        exact (mul_nonneg k e7).trans_eq t2.symm
  have : ((winding s x (going r w ε) + 1 : ℤ) : K) ≤ (winding s y (going r w ε) : ℤ) := by
    push_cast
    linarith
  exact Int.cast_le.1 this

end Grassfire
