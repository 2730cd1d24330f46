/-
How often a point is inside triangles, for C96 and C97.
-/
import Verif.Proofs.Area
import Verif.Spec.Cover
import Mathlib.Tactic.FieldSimp

set_option linter.unusedSectionVars false

namespace Grassfire

open Spec

variable {K : Type} [Field K] [LinearOrder K] [IsStrictOrderedRing K]

/-! ### triangles -/

/-- how often a point is inside a triangle -/
def countIn (a b d o : Pt K) : ℤ := crosses a b o + crosses b d o + crosses d a o

theorem crosses_anti (p q o : Pt K) : crosses p q o + crosses q p o = 0 := by
  unfold crosses
  ring

theorem crosses_left {p q o : Pt K} (h : p.1 ≤ o.1) (h' : o.1 < q.1) : crosses p q o = if 0 ≤ area2 p q o then 1 else 0 := by
  unfold crosses
  simp [h, h', not_le.2 h', not_lt.2 h]

theorem crosses_right {p q o : Pt K} (h : q.1 ≤ o.1) (h' : o.1 < p.1) : crosses p q o = - if 0 ≤ area2 q p o then 1 else 0 := by
  rw [← crosses_left h h']
  have := crosses_anti p q o
  omega

theorem crosses_before {p q o : Pt K} (h : p.1 ≤ o.1) (h' : q.1 ≤ o.1) : crosses p q o = 0 := by
  unfold crosses
  simp [not_lt.2 h, not_lt.2 h']

theorem crosses_after {p q o : Pt K} (h : o.1 < p.1) (h' : o.1 < q.1) : crosses p q o = 0 := by
  unfold crosses
  simp [not_le.2 h, not_le.2 h']

theorem area2_swap (a b d : Pt K) : area2 b a d = -area2 a b d := by
  unfold area2
  ring

/-- one corner on the left, two on the right -/
theorem countIn_one {a b d o : Pt K} (ha : a.1 ≤ o.1) (hb : o.1 < b.1) (hd : o.1 < d.1) :
    countIn a b d o = (if 0 ≤ area2 a b o then 1 else 0) - (if 0 ≤ area2 a d o then 1 else 0) := by
  unfold countIn
  rw [crosses_left ha hb, crosses_after hb hd, crosses_right ha hd]
  ring

/-- one corner on the right, two on the left -/
theorem countIn_two {a b d o : Pt K} (ha : o.1 < a.1) (hb : b.1 ≤ o.1) (hd : d.1 ≤ o.1) :
    countIn a b d o = (if 0 ≤ area2 d a o then 1 else 0) - (if 0 ≤ area2 b a o then 1 else 0) := by
  unfold countIn
  rw [crosses_right hb ha, crosses_before hb hd, crosses_left hd ha]
  ring

theorem countIn_turn (a b d o : Pt K) : countIn b d a o = countIn a b d o := by
  unfold countIn
  ring

/-- up to the names of its corners, a triangle is like this -/
theorem columns (P : Pt K → Pt K → Pt K → Prop) (o : Pt K) (turn : ∀ a b d, P b d a → P a b d)
    (before : ∀ a b d : Pt K, a.1 ≤ o.1 → b.1 ≤ o.1 → d.1 ≤ o.1 → P a b d)
    (after : ∀ a b d : Pt K, o.1 < a.1 → o.1 < b.1 → o.1 < d.1 → P a b d)
    (one : ∀ a b d : Pt K, a.1 ≤ o.1 → o.1 < b.1 → o.1 < d.1 → P a b d)
    (two : ∀ a b d : Pt K, o.1 < a.1 → b.1 ≤ o.1 → d.1 ≤ o.1 → P a b d) (a b d : Pt K) : P a b d := by
  have turn' : ∀ a b d, P d a b → P a b d := fun a b d h => turn _ _ _ (turn _ _ _ h)
  rcases le_or_gt a.1 o.1 with ha | ha <;> rcases le_or_gt b.1 o.1 with hb | hb <;> rcases le_or_gt d.1 o.1 with hd | hd
  · exact before _ _ _ ha hb hd
  · exact turn' _ _ _ (two _ _ _ hd ha hb)
  · exact turn _ _ _ (two _ _ _ hb hd ha)
  · exact one _ _ _ ha hb hd
  · exact two _ _ _ ha hb hd
  · exact turn _ _ _ (one _ _ _ hb hd ha)
  · exact turn' _ _ _ (one _ _ _ hd ha hb)
  · exact after _ _ _ ha hb hd

theorem mulSign {k x : K} (hk : 0 < k) (h : 0 ≤ k * x) : 0 ≤ x := nonneg_of_mul_nonneg_right h hk

theorem countIn_range {a b d o : Pt K} (h : 0 ≤ area2 a b d) : 0 ≤ countIn a b d o ∧ countIn a b d o ≤ 1 := by
  refine columns (fun a b d => 0 ≤ area2 a b d → 0 ≤ countIn a b d o ∧ countIn a b d o ≤ 1) o ?_ ?_ ?_ ?_ ?_ a b d h
  · intro a b d q h
    rw [← countIn_turn]
    refine q (h.trans_eq ?_)
    unfold area2
    ring
  · intro a b d ha hb hd _
    unfold countIn
    rw [crosses_before ha hb, crosses_before hb hd, crosses_before hd ha]
    decide
  · intro a b d ha hb hd _
    unfold countIn
    rw [crosses_after ha hb, crosses_after hb hd, crosses_after hd ha]
    decide
  · intro a b d ha hb hd h
    rw [countIn_one ha hb hd]
    have e : (d.1 - a.1) * area2 a b o = (b.1 - a.1) * area2 a d o + (o.1 - a.1) * area2 a b d := by
      unfold area2
      ring
    have : 0 ≤ area2 a d o → 0 ≤ area2 a b o := fun q => mulSign (sub_pos.2 (ha.trans_lt hd)) (by
      rw [e]
      exact add_nonneg (mul_nonneg (sub_nonneg.2 (ha.trans hb.le)) q) (mul_nonneg (sub_nonneg.2 ha) h))
    split_ifs <;> simp_all
  · intro a b d ha hb hd h
    rw [countIn_two ha hb hd]
    have e : (a.1 - b.1) * area2 d a o = (a.1 - d.1) * area2 b a o + (a.1 - o.1) * area2 a b d := by
      unfold area2
      ring
    have : 0 ≤ area2 b a o → 0 ≤ area2 d a o := fun q => mulSign (sub_pos.2 (hb.trans_lt ha)) (by
      rw [e]
      exact add_nonneg (mul_nonneg (sub_nonneg.2 (hd.trans ha.le)) q) (mul_nonneg (sub_nonneg.2 ha.le) h))
    split_ifs <;> simp_all

theorem countIn_flat {a b d o : Pt K} (h : area2 a b d = 0) : countIn a b d o = 0 := by
  have h1 := countIn_range (o := o) h.ge
  have h' : 0 ≤ area2 b a d := by rw [area2_swap, h, neg_zero]
  have h2 := countIn_range (o := o) h'
  have e : countIn b a d o = -countIn a b d o := by
    unfold countIn
    have e1 := crosses_anti a b o
    have e2 := crosses_anti b d o
    have e3 := crosses_anti d a o
    omega
  omega

theorem countIn_in {a b d o : Pt K} (h1 : 0 < area2 a b o) (h2 : 0 < area2 b d o) (h3 : 0 < area2 d a o) :
    countIn a b d o = 1 := by
  refine columns (fun a b d => 0 < area2 a b o → 0 < area2 b d o → 0 < area2 d a o → countIn a b d o = 1) o
    ?_ ?_ ?_ ?_ ?_ a b d h1 h2 h3
  · intro a b d q h1 h2 h3
    rw [← countIn_turn]
    exact q h2 h3 h1
  · intro a b d ha hb hd h1 h2 h3
    exfalso
    have e : (o.1 - a.1) * area2 b d o + (o.1 - b.1) * area2 d a o + (o.1 - d.1) * area2 a b o = 0 := by
      unfold area2
      ring
    have f1 := mul_nonneg (sub_nonneg.2 ha) h2.le
    have f2 := mul_nonneg (sub_nonneg.2 hb) h3.le
    have f3 := mul_nonneg (sub_nonneg.2 hd) h1.le
    have g1 := (mul_eq_zero.1 (by linarith : (o.1 - a.1) * area2 b d o = 0)).resolve_right h2.ne'
    have g2 := (mul_eq_zero.1 (by linarith : (o.1 - b.1) * area2 d a o = 0)).resolve_right h3.ne'
    have : area2 a b o = 0 := by
      unfold area2
      linear_combination ((o.2 - a.2) * (g1 - g2) - (b.2 - a.2) * g1)
    exact h1.ne' this
  · intro a b d ha hb hd h1 h2 h3
    exfalso
    have e : (a.1 - o.1) * area2 b d o + (b.1 - o.1) * area2 d a o + (d.1 - o.1) * area2 a b o = 0 := by
      unfold area2
      ring
    have f1 := mul_pos (sub_pos.2 ha) h2
    have f2 := mul_pos (sub_pos.2 hb) h3
    have f3 := mul_pos (sub_pos.2 hd) h1
    linarith
  · intro a b d ha hb hd h1 h2 h3
    rw [countIn_one ha hb hd, if_pos h1.le, if_neg (by rw [area2_swap]; linarith)]
    rfl
  · intro a b d ha hb hd h1 h2 h3
    rw [countIn_two ha hb hd, if_pos h3.le, if_neg (by rw [area2_swap]; linarith)]
    rfl

theorem crossing_sideSum (o : Pt K) : SideSum (fun p q : Pt K => (crosses p q o : K)) := by
  have e : ∀ a b d : Pt K, (crosses a b o : K) + crosses b d o + crosses d a o = (countIn a b d o : ℤ) := by
    intro a b d
    unfold countIn
    push_cast
    rfl
  refine ⟨fun p q => ?_, fun a b d h => ?_, fun a b d h => ?_⟩
  · rw [← Int.cast_add, crosses_anti, Int.cast_zero]
  · rw [e, countIn_flat h, Int.cast_zero]
  · rw [e]
    exact Int.cast_nonneg (countIn_range h).1

theorem crosses_shift (p q o : Pt K) (a b : K) :
    crosses (p.1 - a, p.2 - b) (q.1 - a, q.2 - b) o = crosses p q (o.1 + a, o.2 + b) := by
  have e : ∀ p q : Pt K, area2 (p.1 - a, p.2 - b) (q.1 - a, q.2 - b) o = area2 p q (o.1 + a, o.2 + b) := by
    intro p q
    unfold area2
    dsimp only
    ring
  unfold crosses
  rw [e, e]
  dsimp only
  simp only [sub_le_iff_le_add, lt_sub_iff_add_lt]

/-! ### the wavefront -/

theorem winding_sum (s : St K) (x : K) (o d : Pt K) :
    (winding s x (o.1 + x * d.1, o.2 + x * d.2) : K) = frontSum (fun p q => (crosses p q o : K)) d s x := by
  unfold winding frontSum
  rw [Int.cast_list_sum, List.map_map]
  congr 1
  refine List.map_congr_left fun v _ => ?_
  dsimp only [Function.comp]
  cases sideAt s x v with
  | none => simp
  | some e =>
    simp only [Option.map_some, Option.getD_some]
    rw [crosses_shift]

variable [HasSqrt K] [SqrtUnit K] [HasTrig K]

variable {dt : Dt K} {depth : ℕ} {skel s0 : St K} {n : ℕ} {now : K} {s s1 : St K} {trace : List (Event K × K)}

theorem winding_still (s : St K) (x : K) (o : Pt K) :
    (winding s x o : K) = frontSum (fun p q => (crosses p q o : K)) (0, 0) s x := by
  rw [← winding_sum]
  simp only [mul_zero, add_zero]

/-- the winding number counts the triangles of the last state up to `x` -/
theorem GeneralRun.winding_at (h : GeneralRun dt depth skel s0 n now s trace) (hl : LoneEvents depth s0 n)
    (h1 : initEventList s0 = .ok ((), s1)) {m : ℕ} (hm : m ≤ n) {x y : K} {u : St K} {tr' : List (Event K × K)}
    (hu : Run depth { s1 with immediate := [] } 0 m y u tr') (hy : y ≤ x) (hS : Since (x < ·) u s) (hG : Grows u s)
    (o : Pt K) [DecidablePred (Live u)] : winding s x o = ∑ t ∈ s0.skTriangles.toFinset.filter (Live u),
      countIn (whereAt u x ((u.tri t).vertices 0)) (whereAt u x ((u.tri t).vertices 1)) (whereAt u x ((u.tri t).vertices 2)) o := by
  have e := (winding_still s x o).trans (h.sum_at (crossing_sideSum o) hl h1 hm hu hy hS hG)
  refine Int.cast_injective (α := K) (e.trans ?_)
  unfold liveSum
  rw [Int.cast_sum]
  refine Finset.sum_congr (by congr) fun t _ => ?_
  unfold sumOf drift countIn
  simp only [mul_zero, sub_zero]
  push_cast
  rfl

end Grassfire
