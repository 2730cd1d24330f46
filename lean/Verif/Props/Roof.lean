/-
Property C99: the roof. Every point inside the input is passed by the wavefront once, at the time that is its distance to
the line of the edge of the input whose wavefront passes it.
-/
import Verif.Proofs.Roof
import Verif.Spec.Roof

set_option linter.unusedSectionVars false

namespace Grassfire

open Spec

variable {K : Type} [Field K] [LinearOrder K] [IsStrictOrderedRing K] [HasSqrt K] [SqrtUnit K] [HasTrig K]

variable {dt : Dt K} {depth : ℕ} {skel s0 : St K} {n : ℕ} {now : K} {s s1 : St K} {trace : List (Event K × K)}

/-- **C99.** In general position, when the boundary of the input winds around no point more than once: a point inside the
input that is not inside the wavefront any more at time `x'` has been passed at a time `T`.  Before, it was inside the
wavefront, afterwards it never is again.  `T` is the distance of the point to the line of an edge of the input; unless it is
the time of an event, the point is on a side of the wavefront at time `T` that moves away from this line. -/
theorem C99_roof (h : GeneralRun dt depth skel s0 n now s trace) (hl : LoneEvents depth s0 n)
    (hone : ∀ o, dtWinding dt o ≤ 1) {x' : K} (hx : 0 ≤ x') (hset : Settled s now x') {o : Pt K}
    (h0 : dtWinding dt o = 1) (hx' : winding s x' o = 0) : ∃ l T, PassedAt s x' o T ∧ InputLine dt l ∧
      AtDistance l T o ∧ ((∀ e ∈ trace, e.2 ≠ T) → ∃ v p q, OnFront s T v ∧ sideAt s T v = some (p, q) ∧ On p q o ∧
        AtDistance l T p ∧ AtDistance l T q ∧ 0 < ahead l p q) := by
  obtain ⟨-, s1, h1, -⟩ := id h.run
  have w0 : 1 ≤ winding s 0 o := by rw [C96_zero h hl (hset.before hx), h0]
  obtain ⟨m, y, u, tr, b, S⟩ := h.span hl h1 hx hset w0 (by rw [hx']; decide)
  have U := h.prefix S.hm h1 S.run
  have still : distSq o o = 0 := by
    unfold distSq
    ring
  have range : ∀ x, 0 ≤ x → x ≤ x' → winding s x o = 0 ∨ winding s x o = 1 := fun x p q =>
    (C96_range h hl p (hset.before q) o).2 (hone o)
  have down : ∀ x z, 0 ≤ x → x ≤ z → z ≤ x' → winding s z o ≤ winding s x o := fun x z p q r =>
    C96_clearance h hl p q (hset.before r) (by rw [still]; exact sq_nonneg _)
  have ex : ∀ a, ∃ l, a ∈ rim s0.skTriangles.toFinset u → Moves dt u y b a l := fun a => by
    by_cases ha : a ∈ rim s0.skTriangles.toFinset u
    · obtain ⟨l, hl⟩ := U.moves S.hi S.hq ha
      exact ⟨l, fun _ => hl⟩
    · exact ⟨⟨(0, 0), 0⟩, fun q => absurd q ha⟩
  choose L hL using ex
  classical
  let H := (rim s0.skTriangles.toFinset u).filter fun a => y ≤ passing (L a) o ∧ passing (L a) o ≤ b ∧
    On (whereAt u (passing (L a) o) ((u.tri a.1).vertices (a.2 + 1)))
      (whereAt u (passing (L a) o) ((u.tri a.1).vertices (a.2 + 2))) o
  obtain ⟨a0, m0, m1, m2, m3⟩ := U.hit hL S.lt.le le_rfl (S.less.trans_le S.one)
  obtain ⟨a, ha, least⟩ := Finset.exists_min_image H (fun a => passing (L a) o) ⟨a0, Finset.mem_filter.2 ⟨m0, m1, m2, m3⟩⟩
  obtain ⟨k0, k1, k2, k3⟩ := Finset.mem_filter.1 ha
  have M := hL a k0
  refine ⟨L a, passing (L a) o, ⟨S.pos.trans k1, k2.trans S.le, fun x x0 x1 => ?_, fun x x0 x1 => ?_⟩, M.input, rfl, fun ne => ?_⟩
  · refine (range x x0 (x1.le.trans (k2.trans S.le))).resolve_left fun w => ?_
    rcases le_or_gt y x with c | c
    · have e := h.around_at hl h1 (S.last x c (x1.trans_le k2)) o
      rw [w, Int.cast_zero] at e
      obtain ⟨a', n0, n1, n2, n3⟩ := U.hit hL c (x1.trans_le k2).le (by
        rw [← e]
        exact lt_of_lt_of_le zero_lt_one S.one)
      have := least a' (Finset.mem_filter.2 ⟨n0, n1, n2.trans (x1.trans_le k2).le, n3⟩)
      exact absurd (this.trans n2) (not_le.2 x1)
    · have e := h.around_at hl h1 (S.last y le_rfl S.lt) o
      have q := down x y x0 c.le (S.lt.le.trans S.le)
      rw [w] at q
      have q' : (winding s y o : K) ≤ 0 := by exact_mod_cast q
      rw [e] at q'
      exact absurd (S.one.trans q') (not_le.2 one_pos)
  · have hx0 : 0 ≤ x := (S.pos.trans k1).trans x0.le
    refine (range x hx0 x1).resolve_right fun w => ?_
    rcases k2.lt_or_eq with c | c
    · obtain ⟨f1, f2⟩ := h.side_is hl h1 (S.last _ k1 c) k0
      have := C98_apart h hl hone (S.pos.trans k1) x0 (hset.before x1) f1.1 f2 k3 (by rw [w]; decide)
      rw [still] at this
      exact absurd this (not_le.2 (pow_pos (sub_pos.2 x0) 2))
    · rw [c] at x0
      have q := down b x (S.pos.trans S.lt.le) x0.le x1
      have := S.zero
      omega
  · have LT : LastUpTo depth s1 n s (passing (L a) o) m y u tr := by
      rcases k2.lt_or_eq with c | c
      · exact S.last _ k1 c
      · rw [c]
        refine S.final.resolve_right ?_
        rintro ⟨e, he, q⟩
        exact ne e he (q.trans c.symm)
    obtain ⟨f1, f2⟩ := h.side_is hl h1 LT k0
    refine ⟨_, _, _, f1, f2, k3, M.first _, M.second _, ?_⟩
    refine lt_of_le_of_ne (M.nonneg _ k1 k2) fun z => ?_
    obtain ⟨r1, r2, -⟩ := mem_rim.1 k0
    have A := h.areas_at h1 LT (List.mem_toFinset.1 r1) r2
    rw [areaOf_side a.2, area2_turn, area_from (M.first _) (M.second _) M.unit, ← z, zero_mul] at A
    exact lt_irrefl _ A

/-- **C99.** When the loop has ended, the wavefront has passed every point inside the input. -/
theorem C99_all (h : GeneralRun dt depth skel s0 n now s trace) (hl : LoneEvents depth s0 n)
    (hone : ∀ o, dtWinding dt o ≤ 1) {s' : St K} (hend : loopStep depth (n + 1 : ℕ) now s = .ok (none, s')) {o : Pt K}
    (h0 : dtWinding dt o = 1) : ∃ l T, (∀ x', now ≤ x' → PassedAt s x' o T) ∧ InputLine dt l ∧ AtDistance l T o := by
  classical
  obtain ⟨-, none⟩ := C91_complete h hend
  obtain ⟨-, hi, hq⟩ := loopStep_none hend
  obtain ⟨-, s1, h1, hrun⟩ := id h.run
  obtain ⟨-, hI0⟩ := ready_start (C90_sharp h).1.start h1
  have hn : 0 ≤ now := (run_inv hrun hI0).2.1
  have zero : ∀ x, now ≤ x → winding s x o = 0 := fun x hx => by
    rw [h.winding_at hl h1 le_rfl hrun hx (sincePre.refl _) (growsPre.refl _)]
    refine Finset.sum_eq_zero fun t ht => ?_
    obtain ⟨t1, t2⟩ := Finset.mem_filter.1 ht
    exact absurd t2 (none t (List.mem_toFinset.1 t1))
  obtain ⟨l, T, P, I, D, -⟩ := C99_roof h hl hone hn (.inr ⟨hi, by rw [hq]; exact nofun⟩) h0 (zero now le_rfl)
  refine ⟨l, T, fun x' hx' => ⟨P.nonneg, P.le.trans hx', P.before, fun x x0 x1 => ?_⟩, I, D⟩
  rcases le_or_gt x now with c | c
  · exact P.after x x0 c
  · exact zero x c.le

/-- **C99.** The time at which a point is passed is determined. -/
theorem C99_unique {x' : K} {o : Pt K} {T T' : K} (h : PassedAt s x' o T) (h' : PassedAt s x' o T') : T = T' := by
  have main : ∀ {T T' : K}, PassedAt s x' o T → PassedAt s x' o T' → ¬ T < T' := by
    intro T T' h h' c
    obtain ⟨z, z0, z1⟩ := exists_between c
    have a := h.after z z0 (z1.le.trans h'.le)
    rw [h'.before z (h.nonneg.trans z0.le) z1] at a
    exact absurd a (by decide)
  exact le_antisymm (not_lt.1 (main h' h)) (not_lt.1 (main h h'))

/-- **C99.** The roof is nowhere steeper than the wavefront is fast: for two points the times differ by at most their
distance. -/
theorem C99_slope (h : GeneralRun dt depth skel s0 n now s trace) (hl : LoneEvents depth s0 n) {x' : K}
    (hset : Settled s now x') {o o' : Pt K} {T T' : K} (hT : PassedAt s x' o T) (hT' : PassedAt s x' o' T') :
    (T' - T) ^ 2 ≤ distSq o o' := by
  have main : ∀ {o o' : Pt K} {T T' : K}, PassedAt s x' o T → PassedAt s x' o' T' → T < T' → (T' - T) ^ 2 ≤ distSq o o' := by
    intro o o' T T' hT hT' c
    by_contra q
    have q := sub_pos.2 (not_le.1 q)
    have F : Tends (fun ε => (T' - ε - (T + ε)) ^ 2) ((T' - T) ^ 2) := by
      have k := ((Tends.const T').sub Tends.id).sub ((Tends.const T).add Tends.id)
      have := k.mul k
      rw [add_zero, sub_zero] at this
      simpa only [sq] using this
    obtain ⟨z, z0, z1⟩ := exists_between c
    obtain ⟨ε, e0, ⟨k1, k2⟩, k3⟩ := (((F.sub (.const (distSq o o'))).pos q).and (small_le z0)
      |>.and (small_le z1)).some
    have a1 := hT'.before (T' - ε) (by have := hT.nonneg; linarith) (sub_lt_self _ e0)
    have a2 := hT.after (T + ε) (lt_add_of_pos_right _ e0) (by have := hT'.le; linarith)
    have := C96_clearance h hl (x := T + ε) (x' := T' - ε) (by have := hT.nonneg; linarith) (by linarith)
      (hset.before (by have := hT'.le; linarith)) (sub_nonneg.1 k1.le)
    omega
  rcases lt_trichotomy T T' with c | rfl | c
  · exact main hT hT' c
  · rw [sub_self, zero_pow two_ne_zero]
    unfold distSq
    positivity
  · have := main hT' hT c
    unfold distSq at this ⊢
    linarith

/-! ### the hypotheses are met -/

/-- The pentagon: a point that has been passed before time 9/5, which is no time of an event, and the end of the loop. -/
example : ∃ s tr, GeneralRun Sample.notchDt 100 Sample.notchSkeleton Sample.notchStart 4 (29 / 12) s tr ∧
    LoneEvents 100 Sample.notchStart 4 ∧ (∀ o, dtWinding Sample.notchDt o ≤ 1) ∧ Settled s (29 / 12) (9 / 5) ∧
    dtWinding Sample.notchDt (-1, 0) = 1 ∧ winding s (9 / 5) (-1, 0) = 0 ∧
    loopStep 100 (4 + 1 : ℕ) (29 / 12) s = .ok (none, s) := by
  obtain ⟨s, tr, hs, hi, hq, h⟩ := Sample.notch_done
  have hv : (stateAt 100 Sample.notchFirst 4).map (fun r => winding r.2 (9 / 5) (-1, 0)) = some 0 := by decide +kernel
  rw [hs] at hv
  refine ⟨s, tr, h, Sample.notch_input.lone 4, Sample.notch_winding, .inl (by norm_num), by decide +kernel, Option.some.inj hv, ?_⟩
  unfold loopStep
  refine bind_run_ok.2 ⟨none, s, ?_, rfl⟩
  rcases takeEvent_run (29 / 12) s with ⟨x, q, z, -⟩ | ⟨x, q, -, z, -⟩ | ⟨-, -, z⟩
  · rw [hi] at z; cases z
  · rw [hq] at z; cases z
  · exact z

end Grassfire
