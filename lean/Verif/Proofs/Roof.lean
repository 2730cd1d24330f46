/-
When the wavefront passes a point, for C99.
-/
import Verif.Props.Planar

set_option linter.unusedSectionVars false

namespace Grassfire

open Spec

variable {K : Type} [Field K] [LinearOrder K] [IsStrictOrderedRing K]

/-! ### strips -/

/-- a point that counts for a triangle is in it or on its boundary -/
theorem countIn_closed {a b d o : Pt K} (h : 0 ≤ area2 a b d) (hc : countIn a b d o ≠ 0) :
    0 ≤ area2 a b o ∧ 0 ≤ area2 b d o ∧ 0 ≤ area2 d a o := by
  refine columns (fun a b d => 0 ≤ area2 a b d → countIn a b d o ≠ 0 →
    0 ≤ area2 a b o ∧ 0 ≤ area2 b d o ∧ 0 ≤ area2 d a o) o ?_ ?_ ?_ ?_ ?_ a b d h hc
  · intro a b d q h hc
    rw [← countIn_turn] at hc
    obtain ⟨q1, q2, q3⟩ := q (h.trans_eq (by unfold area2; ring)) hc
    exact ⟨q3, q1, q2⟩
  · intro a b d ha hb hd _ hc
    refine (hc ?_).elim
    unfold countIn
    rw [crosses_before ha hb, crosses_before hb hd, crosses_before hd ha]
    rfl
  · intro a b d ha hb hd _ hc
    refine (hc ?_).elim
    unfold countIn
    rw [crosses_after ha hb, crosses_after hb hd, crosses_after hd ha]
    rfl
  · intro a b d ha hb hd h hc
    have r := countIn_range (o := o) h
    rw [countIn_one ha hb hd] at r hc
    have e : (o.1 - a.1) * area2 b d o = (b.1 - o.1) * area2 d a o + (d.1 - o.1) * area2 a b o := by
      unfold area2
      ring
    have k1 : 0 ≤ area2 a b o := by
      by_contra c
      rw [if_neg c] at r hc
      split_ifs at r hc <;> omega
    have k2 : ¬ 0 ≤ area2 a d o := by
      intro c
      rw [if_pos c, if_pos k1] at hc
      exact hc rfl
    have k3 : 0 < area2 d a o := by
      rw [area2_swap]
      linarith
    refine ⟨k1, (pos_of_mul_pos_right (?_ : 0 < (o.1 - a.1) * area2 b d o) (sub_nonneg.2 ha)).le, k3.le⟩
    rw [e]
    exact add_pos_of_pos_of_nonneg (mul_pos (sub_pos.2 hb) k3) (mul_nonneg (sub_nonneg.2 hd.le) k1)
  · intro a b d ha hb hd h hc
    have r := countIn_range (o := o) h
    rw [countIn_two ha hb hd] at r hc
    have e : (a.1 - o.1) * area2 b d o = (o.1 - b.1) * area2 d a o + (o.1 - d.1) * area2 a b o := by
      unfold area2
      ring
    have k1 : 0 ≤ area2 d a o := by
      by_contra c
      rw [if_neg c] at r hc
      split_ifs at r hc <;> omega
    have k2 : ¬ 0 ≤ area2 b a o := by
      intro c
      rw [if_pos c, if_pos k1] at hc
      exact hc rfl
    have k3 : 0 < area2 a b o := by
      rw [area2_swap]
      linarith
    refine ⟨k3.le, mulSign (sub_pos.2 ha) ?_, k1⟩
    rw [e]
    exact add_nonneg (mul_nonneg (sub_nonneg.2 hb) k1) (mul_nonneg (sub_nonneg.2 hd) k3.le)

/-- the distance of a point to a line -/
def passing (l : Line2 K) (o : Pt K) : K := l.w.1 * o.1 + l.w.2 * o.2 + l.b

theorem along_line {l : Line2 K} {v e : Pt K} (hw : l.w.1 ^ 2 + l.w.2 ^ 2 = 1) (hv : l.w.1 * v.1 + l.w.2 * v.2 = 1)
    (he : l.w.1 * e.1 + l.w.2 * e.2 = 0) : e.1 * l.w.2 - e.2 * l.w.1 = v.2 * e.1 - v.1 * e.2 := by
  linear_combination (-(e.1 * l.w.2 - e.2 * l.w.1)) * hv + (v.1 * l.w.2 - v.2 * l.w.1) * he +
    (v.2 * e.1 - v.1 * e.2) * hw

/-- a point in the strip that a side sweeps over -/
theorem strip_closed {l : Line2 K} {p q p' q' o : Pt K} {y z : K} (hyz : y < z) (hw : l.w.1 ^ 2 + l.w.2 ^ 2 = 1)
    (h1 : AtDistance l y p) (h2 : AtDistance l y q) (h1' : AtDistance l z p') (h2' : AtDistance l z q')
    (A : 0 < ahead l p q) (A' : 0 ≤ ahead l p' q') (hc : countIn p q q' o + countIn p q' p' o ≠ 0) :
    y ≤ passing l o ∧ passing l o ≤ z ∧ 0 ≤ area2 q q' o ∧ 0 ≤ area2 p' p o := by
  have t1 := area_from (o := o) h1 h2 hw
  have t2 := area_from (o := o) h1' h2' hw
  have t3 := area_from (o := q') h1 h2 hw
  have t4 := area_from (o := p) h1' h2' hw
  change _ = _ * (passing l o - y) at t1
  change _ = _ * (passing l o - z) at t2
  have e3 : l.w.1 * q'.1 + l.w.2 * q'.2 + l.b - y = z - y := by rw [h2']
  have e4 : l.w.1 * p.1 + l.w.2 * p.2 + l.b - z = y - z := by rw [h1]
  rw [e3] at t3
  rw [e4] at t4
  have hd : 0 < z - y := sub_pos.2 hyz
  by_cases c : countIn p q q' o = 0
  · rw [c, zero_add] at hc
    have D : 0 ≤ area2 p q' p' := by
      have : area2 p q' p' = -area2 p p' q' := by unfold area2; ring
      rw [this, t4]
      nlinarith
    obtain ⟨c1, c2, c3⟩ := countIn_closed D hc
    have D' : area2 p q' p' ≠ 0 := fun z => hc (countIn_flat z)
    have a0 : 0 < ahead l p' q' := by
      refine lt_of_le_of_ne A' fun z => D' ?_
      have : area2 p q' p' = -area2 p p' q' := by unfold area2; ring
      rw [this, t4, ← z]
      ring
    have k2 : passing l o ≤ z := by
      have : area2 q' p' o = -area2 o p' q' := by unfold area2; ring
      rw [this, t2] at c2
      have : 0 ≤ ahead l p' q' * (z - passing l o) := by linarith
      exact sub_nonneg.1 (mulSign a0 this)
    have k1 : y ≤ passing l o := by
      have e : ahead l p' q' * (passing l o - y) = area2 p q' o + area2 p' p o := by
        have : area2 p q' o + area2 p' p o = area2 o p' q' - area2 p p' q' := by unfold area2; ring
        rw [this, t2, t4]
        ring
      exact sub_nonneg.1 (mulSign a0 (by rw [e]; exact add_nonneg c1 c3))
    refine ⟨k1, k2, ?_, c3⟩
    have e : area2 q q' o = area2 p q' o + ahead l p q * (z - passing l o) := by
      have : area2 q q' o = area2 p q' o + area2 q' p q - area2 o p q := by unfold area2; ring
      rw [this, t1, t3]
      ring
    rw [e]
    exact add_nonneg c1 (mul_nonneg A.le (sub_nonneg.2 k2))
  · have D : 0 ≤ area2 p q q' := by
      have : area2 p q q' = area2 q' p q := by unfold area2; ring
      rw [this, t3]
      positivity
    obtain ⟨c1, c2, c3⟩ := countIn_closed D c
    have k1 : y ≤ passing l o := by
      have : area2 p q o = area2 o p q := by unfold area2; ring
      rw [this, t1] at c1
      exact sub_nonneg.1 (mulSign A c1)
    have k2 : passing l o ≤ z := by
      have e : ahead l p q * (z - passing l o) = area2 q q' o + area2 q' p o := by
        have : area2 q q' o + area2 q' p o = area2 q' p q - area2 o p q := by unfold area2; ring
        rw [this, t1, t3]
        ring
      exact sub_nonneg.1 (mulSign A (by rw [e]; exact add_nonneg c2 c3))
    refine ⟨k1, k2, c2, ?_⟩
    have e : area2 p' p o = area2 q' p o + ahead l p' q' * (passing l o - y) := by
      have : area2 p' p o = area2 q' p o + area2 o p' q' - area2 p p' q' := by unfold area2; ring
      rw [this, t2, t4]
      ring
    rw [e]
    exact add_nonneg c3 (mul_nonneg A' (sub_nonneg.2 k1))

/-- it is on the side at the time of its distance -/
theorem strip_on {l : Line2 K} {p q vp vq o : Pt K} {y z : K} (hyz : y < z) (hw : l.w.1 ^ 2 + l.w.2 ^ 2 = 1)
    (h1 : ∀ ε, AtDistance l (y + ε) (going p vp ε)) (h2 : ∀ ε, AtDistance l (y + ε) (going q vq ε)) (A : 0 < ahead l p q)
    (A' : 0 ≤ ahead l (going p vp (z - y)) (going q vq (z - y)))
    (hc : countIn p q (going q vq (z - y)) o + countIn p (going q vq (z - y)) (going p vp (z - y)) o ≠ 0) :
    y ≤ passing l o ∧ passing l o ≤ z ∧ On (going p vp (passing l o - y)) (going q vq (passing l o - y)) o := by
  have z0 : ∀ p v : Pt K, going p v 0 = p := fun p v => by unfold going; simp
  have g1 := h1 0
  have g2 := h2 0
  rw [z0, add_zero] at g1 g2
  have ez : y + (z - y) = z := by ring
  have g1' := ez ▸ h1 (z - y)
  have g2' := ez ▸ h2 (z - y)
  obtain ⟨k1, k2, k3, k4⟩ := strip_closed hyz hw g1 g2 g1' g2' A A' hc
  refine ⟨k1, k2, ?_⟩
  have et : y + (passing l o - y) = passing l o := by ring
  have d1 := et ▸ h1 (passing l o - y)
  have d2 := et ▸ h2 (passing l o - y)
  have v1 := h1 1
  have v2 := h2 1
  have hd : 0 < z - y := sub_pos.2 hyz
  unfold AtDistance at d1 d2 v1 v2 g1 g2
  have w1 : l.w.1 * vp.1 + l.w.2 * vp.2 = 1 := by
    unfold going at v1
    dsimp only at v1
    linear_combination v1 - g1
  have w2 : l.w.1 * vq.1 + l.w.2 * vq.2 = 1 := by
    unfold going at v2
    dsimp only at v2
    linear_combination v2 - g2
  have s1 : (z - y) * ahead l (going p vp (passing l o - y)) o = area2 (going p vp (z - y)) p o := by
    have := along_line (v := vp) (e := (o.1 - (going p vp (passing l o - y)).1, o.2 - (going p vp (passing l o - y)).2)) hw w1
      (by unfold passing at d1 ⊢; dsimp only; linear_combination -d1)
    unfold ahead area2
    unfold going at this ⊢
    dsimp only at this ⊢
    linear_combination (z - y) * this
  have s2 : (z - y) * ahead l o (going q vq (passing l o - y)) = area2 q (going q vq (z - y)) o := by
    have := along_line (v := vq) (e := (o.1 - (going q vq (passing l o - y)).1, o.2 - (going q vq (passing l o - y)).2)) hw w2
      (by unfold passing at d2 ⊢; dsimp only; linear_combination -d2)
    unfold ahead area2
    unfold going at this ⊢
    dsimp only at this ⊢
    linear_combination -(z - y) * this
  have a1 : 0 ≤ ahead l (going p vp (passing l o - y)) o := mulSign hd (by rw [s1]; exact k4)
  have a2 : 0 ≤ ahead l o (going q vq (passing l o - y)) := mulSign hd (by rw [s2]; exact k3)
  generalize going p vp (passing l o - y) = a at *
  generalize going q vq (passing l o - y) = b at *
  have e1 : o = (a.1 + ahead l a o * l.w.2, a.2 - ahead l a o * l.w.1) := by
    unfold passing at d1
    have : l.w.1 * (o.1 - a.1) + l.w.2 * (o.2 - a.2) = 0 := by linear_combination -d1
    unfold ahead
    refine Prod.ext ?_ ?_ <;> dsimp only
    · linear_combination l.w.1 * this - (o.1 - a.1) * hw
    · linear_combination l.w.2 * this - (o.2 - a.2) * hw
  have e2 : b = (o.1 + ahead l o b * l.w.2, o.2 - ahead l o b * l.w.1) := by
    unfold passing at d2
    have : l.w.1 * (b.1 - o.1) + l.w.2 * (b.2 - o.2) = 0 := by linear_combination d2
    unfold ahead
    refine Prod.ext ?_ ?_ <;> dsimp only
    · linear_combination l.w.1 * this - (b.1 - o.1) * hw
    · linear_combination l.w.2 * this - (b.2 - o.2) * hw
  generalize ahead l a o = m at *
  generalize ahead l o b = k at *
  rcases (add_nonneg a1 a2).lt_or_eq with c | c
  · refine ⟨m / (m + k), div_nonneg a1 c.le, (div_le_one c).2 (by linarith), ?_⟩
    have f : m / (m + k) * (m + k) = m := div_mul_cancel₀ _ c.ne'
    have q1 := congrArg Prod.fst e1
    have q2 := congrArg Prod.snd e1
    have r1 := congrArg Prod.fst e2
    have r2 := congrArg Prod.snd e2
    dsimp only at q1 q2 r1 r2
    refine Prod.ext ?_ ?_ <;> dsimp only
    · rw [r1]
      linear_combination q1 - l.w.2 * f - m / (m + k) * q1
    · rw [r2]
      linear_combination q2 + l.w.1 * f - m / (m + k) * q2
  · have : m = 0 := by linarith
    refine ⟨0, le_rfl, zero_le_one, ?_⟩
    rw [e1, this]
    simp

/-! ### states -/

variable [HasSqrt K] [SqrtUnit K] [HasTrig K]

variable {dt : Dt K} {depth : ℕ} {skel s0 : St K} {n : ℕ} {now : K} {s s1 : St K} {trace : List (Event K × K)}

variable {m : ℕ} {x y : K} {u : St K} {tr : List (Event K × K)}

/-- how a side of the wavefront moves until the next event -/
structure Moves (dt : Dt K) (u : St K) (y b : K) (a : TId × Fin 3) (l : Line2 K) : Prop where
  input : InputLine dt l
  unit : l.w.1 ^ 2 + l.w.2 ^ 2 = 1
  first : ∀ z, AtDistance l z (whereAt u z ((u.tri a.1).vertices (a.2 + 1)))
  second : ∀ z, AtDistance l z (whereAt u z ((u.tri a.1).vertices (a.2 + 2)))
  nonneg : ∀ z, y ≤ z → z ≤ b →
    0 ≤ ahead l (whereAt u z ((u.tri a.1).vertices (a.2 + 1))) (whereAt u z ((u.tri a.1).vertices (a.2 + 2)))
  pos : ∀ z, y ≤ z → z < b →
    0 < ahead l (whereAt u z ((u.tri a.1).vertices (a.2 + 1))) (whereAt u z ((u.tri a.1).vertices (a.2 + 2)))

theorem GeneralRun.moves_of (h : GeneralRun dt depth skel s0 n now s trace) (hi : s.immediate = []) {b : K}
    (hq : ∀ f ∈ s.queue, b ≤ f.time) {a : TId × Fin 3} (ha : a ∈ rim s0.skTriangles.toFinset s) {l : Line2 K}
    (hR : Rides (viewT s a.1) a.2 l) : Moves dt s now b a l := by
  obtain ⟨hM, hc, hk, -⟩ := h.frame
  obtain ⟨m1, m2, m3⟩ := mem_rim.1 ha
  have F : ∀ z, now ≤ z → z ≤ b →
      0 ≤ ahead l (whereAt s z ((s.tri a.1).vertices (a.2 + 1))) (whereAt s z ((s.tri a.1).vertices (a.2 + 2))) := by
    intro z hz hz'
    exact h.forward_between (general_forward h) hi hq z hz hz' a.1 (List.mem_toFinset.1 m1) m2 a.2 m3 l
      (whereAt s z ((s.tri a.1).vertices (a.2 + 1))) (whereAt s z ((s.tri a.1).vertices (a.2 + 2))) (rides_rightLine hR)
      (by obtain ⟨-, k, e⟩ := hk a.1 m1 m2 (a.2 + 1); unfold whereAt placeAt; rw [e]; rfl)
      (by obtain ⟨-, k, e⟩ := hk a.1 m1 m2 (a.2 + 2); unfold whereAt placeAt; rw [e]; rfl)
  refine ⟨h.input m2 hR, hR.unit, fun z => ?_, fun z => ?_, F, fun z hz hz' => ?_⟩
  · rw [whereAt_corner (hk a.1 m1 m2 _)]; exact (hR.on z).1
  · rw [whereAt_corner (hk a.1 m1 m2 _)]; exact (hR.on z).2
  · have A := h.lasting hi hq (List.mem_toFinset.1 m1) m2 z hz hz'
    rw [area_front hR, ← whereAt_corner (hk a.1 m1 m2 _), ← whereAt_corner (hk a.1 m1 m2 _)] at A
    exact lt_of_le_of_ne (F z hz hz'.le) fun q => by rw [← q, zero_mul] at A; exact lt_irrefl _ A

theorem GeneralRun.moves (h : GeneralRun dt depth skel s0 n now s trace) (hi : s.immediate = []) {b : K}
    (hq : ∀ f ∈ s.queue, b ≤ f.time) {a : TId × Fin 3} (ha : a ∈ rim s0.skTriangles.toFinset s) :
    ∃ l, Moves dt s now b a l := by
  obtain ⟨-, -, -, hr⟩ := h.frame
  obtain ⟨m1, m2, m3⟩ := mem_rim.1 ha
  obtain ⟨l, hR⟩ := hr a.1 m1 m2 a.2 m3
  exact ⟨l, h.moves_of hi hq ha hR⟩

/-- the number of triangles around a point -/
noncomputable def around (s0 u : St K) (o : Pt K) (z : K) : K :=
  liveSum (fun p q => (crosses p q o : K)) (0, 0) s0.skTriangles.toFinset u z

/-- when it gets less, a side of the wavefront has passed the point -/
theorem GeneralRun.hit (h : GeneralRun dt depth skel s0 n now s trace) {b : K} {L : TId × Fin 3 → Line2 K}
    (hL : ∀ a ∈ rim s0.skTriangles.toFinset s, Moves dt s now b a (L a)) {z : K} (hz : now ≤ z) (hzb : z ≤ b) {o : Pt K}
    (hlt : around s0 s o z < around s0 s o now) : ∃ a ∈ rim s0.skTriangles.toFinset s, now ≤ passing (L a) o ∧
      passing (L a) o ≤ z ∧ On (whereAt s (passing (L a) o) ((s.tri a.1).vertices (a.2 + 1)))
        (whereAt s (passing (L a) o) ((s.tri a.1).vertices (a.2 + 2))) o := by
  have hz : now < z := lt_of_le_of_ne hz fun q => by rw [q] at hlt; exact lt_irrefl _ hlt
  obtain ⟨hM, hc, -⟩ := h.frame
  have e := liveSum_swept (d := (0, 0)) (crossing_sideSum o) hM hc now z
  have hpos := sub_pos.2 hlt
  unfold around at hpos
  rw [e] at hpos
  obtain ⟨a, ha, hne⟩ := Finset.exists_ne_zero_of_sum_ne_zero hpos.ne'
  have M := hL a ha
  obtain ⟨vp, hp⟩ := where_moves s ((s.tri a.1).vertices (a.2 + 1))
  obtain ⟨vq, hq⟩ := where_moves s ((s.tri a.1).vertices (a.2 + 2))
  have ez : ∀ z, now + (z - now) = z := fun z => by ring
  obtain ⟨k1, k2, k3⟩ := strip_on (l := L a) (o := o) (y := now) (z := z)
    (p := whereAt s now ((s.tri a.1).vertices (a.2 + 1)))
    (q := whereAt s now ((s.tri a.1).vertices (a.2 + 2))) (vp := vp) (vq := vq) hz M.unit
    (fun ε => by rw [← hp]; exact M.first _) (fun ε => by rw [← hq]; exact M.second _) (M.pos now le_rfl (hz.trans_le hzb))
    (by rw [← hp, ← hq, ez]; exact M.nonneg z hz.le hzb) (by
      rw [← hp, ← hq, ez]
      intro q
      apply hne
      unfold countIn at q
      have q := congrArg (Int.cast (R := K)) q
      push_cast at q
      unfold drift
      simp only [mul_zero, sub_zero]
      exact q)
  rw [← hp, ← hq, ez] at k3
  exact ⟨a, ha, k1, k2, k3⟩

theorem run_times {N : Prop} {s0 s : St K} {now0 : K} (hI : Inv N now0 s0) (hr : Run depth s0 now0 n now s trace)
    (hu : Run depth s0 now0 m y u tr) (hm : m ≤ n) : y ≤ now := by
  induction hr with
  | start =>
    obtain rfl : m = 0 := Nat.le_zero.1 hm
    obtain ⟨rfl, -⟩ := run_unique hu .start
    exact le_rfl
  | @step n now now' a b tr e hr hs ih =>
    rcases hm.lt_or_eq with k | rfl
    · exact (ih (Nat.lt_succ_iff.1 k)).trans (wp_ok (i_loopStep depth (n + 1 : ℕ) (run_inv hr hI).1) hs).2.2
    · obtain ⟨rfl, -⟩ := run_unique hu (.step hr hs)
      exact le_rfl

/-- the event at which it has got less -/
theorem GeneralRun.less (h1 : initEventList s0 = .ok ((), s1)) {o : Pt K} : ∀ {n : ℕ} {now : K} {s : St K}
    {trace : List (Event K × K)}, GeneralRun dt depth skel s0 n now s trace →
    1 ≤ around s0 { s1 with immediate := [] } o 0 → around s0 s o now < 1 → ∃ m y u tr e b u', m < n ∧
      Run depth { s1 with immediate := [] } 0 m y u tr ∧ loopStep depth (m + 1 : ℕ) y u = .ok (some (e, b), u') ∧
      1 ≤ around s0 u o y ∧ around s0 u o b < 1 ∧ around s0 u' o b < 1 := by
  intro n
  induction n with
  | zero =>
    intro now s trace h h0 hlt
    obtain ⟨-, z, hz, hr⟩ := id h.run
    rw [h1] at hz
    cases hz
    obtain ⟨rfl, rfl, -⟩ := run_unique hr .start
    exact absurd h0 (not_le.2 hlt)
  | succ n ih =>
    intro now s trace h h0 hlt
    obtain ⟨-, z, hz, hr⟩ := id h.run
    rw [h1] at hz
    cases hz
    cases hr with
    | @step _ now0 _ w _ tr0 e hr hs =>
      have hp := h.prefix (Nat.le_succ n) h1 hr
      have ec := h.conserved (d := (0, 0)) (crossing_sideSum o) h1 hr hs
      by_cases c : around s0 w o now0 < 1
      · obtain ⟨m, y, u, tr, e, b, u', k, r⟩ := ih hp h0 c
        exact ⟨m, y, u, tr, e, b, u', k.trans (Nat.lt_succ_self n), r⟩
      · refine ⟨n, now0, w, tr0, e, now, s, Nat.lt_succ_self n, hr, hs, not_lt.1 c, ?_, hlt⟩
        unfold around at hlt ⊢
        rw [← ec]
        exact hlt

theorem GeneralRun.around_at (h : GeneralRun dt depth skel s0 n now s trace) (hl : LoneEvents depth s0 n)
    (h1 : initEventList s0 = .ok ((), s1)) (L : LastUpTo depth s1 n s x m y u tr) (o : Pt K) :
    (winding s x o : K) = around s0 u o x :=
  (winding_still s x o).trans (h.sum_at (crossing_sideSum o) hl h1 L.hm L.run L.hy L.since L.grows)

/-- the time from one event to the next in which a point is passed -/
structure Span (depth : ℕ) (s0 s1 : St K) (n : ℕ) (s : St K) (trace : List (Event K × K)) (o : Pt K) (x' : K)
    (m : ℕ) (y : K) (u : St K) (tr : List (Event K × K)) (b : K) : Prop where
  hm : m ≤ n
  run : Run depth { s1 with immediate := [] } 0 m y u tr
  pos : 0 ≤ y
  lt : y < b
  le : b ≤ x'
  hi : u.immediate = []
  hq : ∀ f ∈ u.queue, b ≤ f.time
  one : 1 ≤ around s0 u o y
  less : around s0 u o b < 1
  last : ∀ z, y ≤ z → z < b → LastUpTo depth s1 n s z m y u tr
  final : LastUpTo depth s1 n s b m y u tr ∨ ∃ e ∈ trace, e.2 = b
  zero : winding s b o < 1

theorem GeneralRun.span (h : GeneralRun dt depth skel s0 n now s trace) (hl : LoneEvents depth s0 n)
    (h1 : initEventList s0 = .ok ((), s1)) {x' : K} (hx : 0 ≤ x') (hset : Settled s now x') {o : Pt K}
    (w0 : 1 ≤ winding s 0 o) (w1 : winding s x' o < 1) : ∃ m y u tr b, Span depth s0 s1 n s trace o x' m y u tr b := by
  obtain ⟨-, hI0⟩ := ready_start (C90_sharp h).1.start h1
  obtain ⟨-, z, hz, hrun⟩ := id h.run
  rw [h1] at hz
  cases hz
  have cast1 : ∀ {k : ℤ}, 1 ≤ k → (1 : K) ≤ k := fun q => by exact_mod_cast q
  have cast2 : ∀ {k : ℤ}, k < 1 → (k : K) < 1 := fun q => by exact_mod_cast q
  have hzero : 1 ≤ around s0 { s1 with immediate := [] } o 0 := by
    obtain ⟨m, y, u, tr, L⟩ := h.last h1 le_rfl (hset.before hx)
    obtain rfl : y = 0 := le_antisymm L.hy (run_inv L.run hI0).2.1
    refine (cast1 w0).trans ?_
    rw [h.around_at hl h1 L]
    exact (h.prefix L.hm h1 L.run).falls (d := (0, 0)) (crossing_sideSum o) (by norm_num) h1 (Nat.zero_le m) .start
  obtain ⟨m', y', u', tr', L'⟩ := h.last h1 hx hset
  have U' := h.prefix L'.hm h1 L'.run
  have w1' := cast2 w1
  rw [h.around_at hl h1 L'] at w1'
  by_cases c : around s0 u' o y' < 1
  · obtain ⟨k, y, u, tr, e, b, u1, hk, hu, hs, o1, o2, o3⟩ := U'.less h1 hzero c
    have U := U'.prefix hk.le h1 hu
    have hI := (run_inv hu hI0).1
    have hyb : y < b := lt_of_le_of_ne (wp_ok (i_loopStep depth (k + 1 : ℕ) hI) hs).2.2 fun q => by
      rw [← q] at o2
      exact absurd o1 (not_le.2 o2)
    obtain ⟨i1, i2⟩ := (taken_min hI hs).resolve_left hyb.ne'
    have hr1 := hu.step hs
    have hbx : b ≤ x' := (run_times hI0 L'.run hr1 hk).trans L'.hy
    have hy0 : 0 ≤ y := (run_inv hu hI0).2.1
    have hkn : k + 1 ≤ n := le_trans hk L'.hm
    have early : ∀ {z m2 y2 u2 tr2}, y ≤ z → LastUpTo depth s1 n s z m2 y2 u2 tr2 → ¬ m2 < k := by
      intro z m2 y2 u2 tr2 hz L2 q
      obtain ⟨e2, z2, u3, h3⟩ := run_next L2.run hu q
      have a1 := (h.prefix L2.hm h1 L2.run).after L2.hi L2.hq h3
      have a2 := run_times hI0 hu (L2.run.step h3) q
      linarith
    refine ⟨k, y, u, tr, b, (Nat.le_succ k).trans hkn, hu, hy0, hyb, hbx, i1, i2, o1, o2, fun z z1 z2 => ?_, .inr ?_, ?_⟩
    · obtain ⟨m2, y2, u2, tr2, L2⟩ := h.last h1 (hy0.trans z1) (hset.before (z2.le.trans hbx))
      obtain rfl : m2 = k := by
        refine le_antisymm ?_ (not_lt.1 (early z1 L2))
        by_contra q
        have := run_times hI0 L2.run hr1 (not_le.1 q)
        have := L2.hy
        linarith
      obtain ⟨rfl, rfl, rfl⟩ := run_unique hu L2.run
      exact L2
    · exact (run_time hrun hr1 hkn).resolve_left (hy0.trans_lt hyb).ne'
    · obtain ⟨m2, y2, u2, tr2, L2⟩ := h.last h1 (hy0.trans hyb.le) (hset.before hbx)
      have hk2 : k + 1 ≤ m2 := by
        rcases (not_lt.1 (early hyb.le L2)).lt_or_eq with q | rfl
        · exact q
        · obtain ⟨rfl, rfl, -⟩ := run_unique hu L2.run
          exact absurd ((h.prefix L2.hm h1 L2.run).after L2.hi L2.hq hs) (lt_irrefl _)
      obtain rfl : y2 = b := le_antisymm L2.hy (run_times hI0 L2.run hr1 hk2)
      have := (h.prefix L2.hm h1 L2.run).falls (d := (0, 0)) (crossing_sideSum o) (by norm_num) h1 hk2 hr1
      have e := h.around_at hl h1 L2 o
      have : (winding s y2 o : K) < 1 := by
        rw [e]
        exact this.trans_lt o3
      exact_mod_cast this
  · have hyx : y' < x' := lt_of_le_of_ne L'.hy fun q => by
      rw [q] at c
      exact c w1'
    exact ⟨m', y', u', tr', x', L'.hm, L'.run, (run_inv L'.run hI0).2.1, hyx, le_rfl, L'.hi, fun f hf => (L'.hq f hf).le,
      not_lt.1 c, w1', fun z z1 z2 => L'.earlier z1 z2.le, .inl L', w1⟩

/-- the sides without neighbour of the last state up to `x` are sides of the wavefront at time `x` -/
theorem GeneralRun.side_is (h : GeneralRun dt depth skel s0 n now s trace) (hl : LoneEvents depth s0 n)
    (h1 : initEventList s0 = .ok ((), s1)) (L : LastUpTo depth s1 n s x m y u tr) {a : TId × Fin 3}
    (ha : a ∈ rim s0.skTriangles.toFinset u) : OnFront s x ((u.tri a.1).vertices (a.2 + 2)) ∧
      sideAt s x ((u.tri a.1).vertices (a.2 + 2)) = some (whereAt u x ((u.tri a.1).vertices (a.2 + 1)),
        whereAt u x ((u.tri a.1).vertices (a.2 + 2))) := by
  have U := h.prefix L.hm h1 L.run
  obtain ⟨G, -⟩ := C90_sharp U
  have Lo := U.lone fun z hz k hk => hl z hz k (hk.trans L.hm)
  obtain ⟨-, -, hP, -⟩ := Lo.state
  have hsk : u.skTriangles = s0.skTriangles := U.run.triangles
  have hrun := (C90_exact U).2.2.2
  have hL := (C90_linked G).1
  obtain ⟨m1, m2, m3⟩ := mem_rim.1 ha
  rw [List.mem_toFinset] at m1
  have hb := hrun a.1 m1 m2 (a.2 + 2)
  have hc := hP.corners a.1 (by rw [hsk]; exact m1) m2 (a.2 + 2) hb.kinetic
  have ho := (h.onFront hl h1 L.hm L.run L.hy L.since L.grows _).2 ⟨hc, hb⟩
  have hf : FrontSide u a.1 a.2 _ _ := ⟨m2, m3, rfl, rfl⟩
  have hp := (hL.points _ _ _ _ hf).resolve_right fun q => q.2 hb
  refine ⟨ho, sideAt_of ho (h.neighbours h1 L.hm L.run L.hy L.since hp).2 ?_ ?_⟩
  · obtain ⟨hlt, k, e⟩ := (hrun a.1 m1 m2 (a.2 + 1)).kinetic
    exact grows_place L.grows hlt (by unfold whereAt placeAt; rw [e]; rfl)
  · obtain ⟨hlt, k, e⟩ := hb.kinetic
    exact grows_place L.grows hlt (by unfold whereAt placeAt; rw [e]; rfl)

end Grassfire
