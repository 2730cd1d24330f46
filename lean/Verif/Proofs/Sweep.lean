/-
What a vertex and the two sides at it pass, for C98.
-/
import Verif.Proofs.Onward

set_option linter.unusedSectionVars false

namespace Grassfire

open Spec

variable {K : Type} [Field K] [LinearOrder K] [IsStrictOrderedRing K]

/-! ### directions -/

/-- how fast the distance to a line grows in direction `g` -/
def gain (l : Line2 K) (g : Pt K) : K := l.w.1 * g.1 + l.w.2 * g.2

/-- direction `g` is to the left of direction `d` -/
def leftOf (d g : Pt K) : K := d.1 * g.2 - d.2 * g.1

theorem ahead_eq {l : Line2 K} {p q : Pt K} {z : K} (hw : l.w.1 ^ 2 + l.w.2 ^ 2 = 1) (hp : AtDistance l z p)
    (hq : AtDistance l z q) (h : ahead l p q = 0) : p = q := by
  unfold AtDistance at hp hq
  unfold ahead at h
  ext
  · linear_combination (p.1 - q.1) * (-hw) + l.w.1 * (hp - hq) - l.w.2 * h
  · linear_combination (p.2 - q.2) * (-hw) + l.w.2 * (hp - hq) + l.w.1 * h

theorem on_ahead {l : Line2 K} {a b o : Pt K} {z : K} (hw : l.w.1 ^ 2 + l.w.2 ^ 2 = 1) (d1 : AtDistance l z a)
    (d2 : AtDistance l z b) (d3 : AtDistance l z o) (a1 : 0 ≤ ahead l a o) (a2 : 0 ≤ ahead l o b) : On a b o := by
  unfold AtDistance at d1 d2 d3
  have e1 : o = (a.1 + ahead l a o * l.w.2, a.2 - ahead l a o * l.w.1) := by
    have : l.w.1 * (o.1 - a.1) + l.w.2 * (o.2 - a.2) = 0 := by linear_combination d3 - d1
    unfold ahead
    refine Prod.ext ?_ ?_ <;> dsimp only
    · linear_combination l.w.1 * this - (o.1 - a.1) * hw
    · linear_combination l.w.2 * this - (o.2 - a.2) * hw
  have e2 : b = (o.1 + ahead l o b * l.w.2, o.2 - ahead l o b * l.w.1) := by
    have : l.w.1 * (b.1 - o.1) + l.w.2 * (b.2 - o.2) = 0 := by linear_combination d2 - d3
    unfold ahead
    refine Prod.ext ?_ ?_ <;> dsimp only
    · linear_combination l.w.1 * this - (b.1 - o.1) * hw
    · linear_combination l.w.2 * this - (b.2 - o.2) * hw
  clear d1 d2 d3
  generalize ahead l a o = m at *
  generalize ahead l o b = k at *
  rcases (add_nonneg a1 a2).lt_or_eq with c | c
  · refine ⟨m / (m + k), div_nonneg a1 c.le, (div_le_one c).2 (by linarith), ?_⟩
    have f : m / (m + k) * (m + k) = m := div_mul_cancel₀ _ c.ne'
    have q1 := congrArg Prod.fst e1
    have q2 := congrArg Prod.snd e1
    have r1 := congrArg Prod.fst e2
    have r2 := congrArg Prod.snd e2
    dsimp only at q1 q2 r1 r2
    refine Prod.ext ?_ ?_ <;> dsimp only
    · rw [r1]
      linear_combination q1 - l.w.2 * f - m / (m + k) * q1
    · rw [r2]
      linear_combination q2 + l.w.1 * f - m / (m + k) * q2
  · have : m = 0 := by linarith
    refine ⟨0, le_rfl, zero_le_one, ?_⟩
    rw [e1, this]
    simp

theorem TendsP.ahead {l : Line2 K} {f g : K → Pt K} {p q : Pt K} (h1 : TendsP f p) (h2 : TendsP g q) :
    Tends (fun ε => Spec.ahead l (f ε) (g ε)) (Spec.ahead l p q) := by
  unfold Spec.ahead
  exact ((h2.1.sub h1.1).mul (.const _)).sub ((h2.2.sub h1.2).mul (.const _))

/-- points behind a vertex and to its right have been passed by the side that starts at it, ... -/
theorem sweep_first {l : Line2 K} {r d n e g : Pt K} {x : K} (hw : l.w.1 ^ 2 + l.w.2 ^ 2 = 1)
    (hr : ∀ ε, AtDistance l (x + ε) (going r d ε)) (hn : ∀ ε, AtDistance l (x + ε) (going n e ε)) (A : 0 < ahead l r n)
    (hg : leftOf d g ≤ 0) :
    Small fun δ => On (going r d (δ * gain l g)) (going n e (δ * gain l g)) (going r g δ) := by
  have r0 := hr 0
  have r1 := hr 1
  unfold AtDistance going at r0 r1
  dsimp only at r0 r1
  have w1 : l.w.1 * d.1 + l.w.2 * d.2 = 1 := by linear_combination r1 - r0
  have T : Tends (fun δ => ahead l (going r g δ) (going n (gain l g * e.1, gain l g * e.2) δ)) (ahead l r n) :=
    (TendsP.going _ _).ahead (TendsP.going _ _)
  refine (T.pos A).mono fun δ δ0 q => ?_
  have e1 : going n (gain l g * e.1, gain l g * e.2) δ = going n e (δ * gain l g) := by
    unfold going
    ext <;> dsimp only <;> ring
  rw [e1] at q
  refine on_ahead hw (hr _) (hn _) ?_ ?_ q.le
  · unfold AtDistance going gain
    dsimp only
    linear_combination r0
  · have k := along_line (v := d) (e := (g.1 - gain l g * d.1, g.2 - gain l g * d.2)) hw w1
      (by unfold gain; dsimp only; linear_combination (-(l.w.1 * g.1 + l.w.2 * g.2)) * w1)
    have : ahead l (going r d (δ * gain l g)) (going r g δ) = δ * -leftOf d g := by
      unfold ahead going leftOf
      dsimp only at k ⊢
      linear_combination δ * k
    rw [this]
    exact mul_nonneg δ0.le (neg_nonneg.2 hg)

/-- ... and those to its left by the side that ends at it -/
theorem sweep_second {l : Line2 K} {r d n e g : Pt K} {x : K} (hw : l.w.1 ^ 2 + l.w.2 ^ 2 = 1)
    (hr : ∀ ε, AtDistance l (x + ε) (going r d ε)) (hn : ∀ ε, AtDistance l (x + ε) (going n e ε)) (A : 0 < ahead l n r)
    (hg : 0 ≤ leftOf d g) :
    Small fun δ => On (going n e (δ * gain l g)) (going r d (δ * gain l g)) (going r g δ) := by
  have r0 := hr 0
  have r1 := hr 1
  unfold AtDistance going at r0 r1
  dsimp only at r0 r1
  have w1 : l.w.1 * d.1 + l.w.2 * d.2 = 1 := by linear_combination r1 - r0
  have T : Tends (fun δ => ahead l (going n (gain l g * e.1, gain l g * e.2) δ) (going r g δ)) (ahead l n r) :=
    (TendsP.going _ _).ahead (TendsP.going _ _)
  refine (T.pos A).mono fun δ δ0 q => ?_
  have e1 : going n (gain l g * e.1, gain l g * e.2) δ = going n e (δ * gain l g) := by
    unfold going
    ext <;> dsimp only <;> ring
  rw [e1] at q
  refine on_ahead hw (hn _) (hr _) ?_ q.le ?_
  · unfold AtDistance going gain
    dsimp only
    linear_combination r0
  · have k := along_line (v := d) (e := (g.1 - gain l g * d.1, g.2 - gain l g * d.2)) hw w1
      (by unfold gain; dsimp only; linear_combination (-(l.w.1 * g.1 + l.w.2 * g.2)) * w1)
    have : ahead l (going r g δ) (going r d (δ * gain l g)) = δ * leftOf d g := by
      unfold ahead going leftOf
      dsimp only at k ⊢
      linear_combination (-δ) * k
    rw [this]
    exact mul_nonneg δ0.le hg

/-! ### the triangles around a vertex -/

variable {u : St K} {z : K} {t : TId} {i : Fin 3} {c o : Pt K} {v : VId} {S : TId → Prop}

theorem corner_cross (t : TId) (i : Fin 3) (hi : (u.tri t).vertices i = v) : areaOf u z t * area2 (whereAt u z v) c o =
    sideArea u z t (i + 1) c * sideArea u z t (i + 2) o - sideArea u z t (i + 2) c * sideArea u z t (i + 1) o := by
  obtain ⟨e1, e2, e3, e4⟩ := sides_after i
  rw [areaOf_side i]
  unfold sideArea area2
  rw [e1, e2, e3, e4, hi]
  ring

/-- Around a vertex, from one side of the wavefront to the other, one comes past every point that is inside the side it is
nearer to than point `c`, which is inside both. -/
theorem fan_sector (hM : Mesh u) (hS : Closed S u) (hA : ∀ t, S t → Live u t → 0 < areaOf u z t)
    (hN : ∀ t, S t → Live u t → ∀ j, (u.tri t).vertices j = v → (u.tri t).neighbours (j + 2) = none →
      0 < sideArea u z t (j + 2) c ∧ (area2 (whereAt u z v) c o < 0 → 0 < sideArea u z t (j + 2) o))
    (hne : area2 (whereAt u z v) c o ≠ 0) {ot : Option TId} {l : List TId} (hw : FanWalk .cw v u.tri ot l) :
    ∀ t, ot = some t → S t → Live u t → ∀ i, (u.tri t).vertices i = v → 0 < sideArea u z t (i + 1) c →
      (0 < area2 (whereAt u z v) c o → 0 < sideArea u z t (i + 1) o) →
      ∃ t', S t' ∧ Live u t' ∧ ∃ j, (u.tri t').vertices j = v ∧ 0 < sideArea u z t' (j + 1) o ∧
        0 ≤ sideArea u z t' (j + 2) o := by
  induction hw with
  | stop => intro t h; cases h
  | @step t i l hi hw ih =>
    intro t' e st lt i' hi' pos pos'
    cases e
    obtain rfl : i = i' := hM.distinct t lt.1 (hi.trans hi'.symm)
    have X := corner_cross (u := u) (z := z) (c := c) (o := o) t i hi
    have A := hA t st lt
    have step : ∀ n, (u.tri t).neighbours (i + 2) = some n → S n ∧ Live u n ∧ ∃ j, (u.tri n).vertices j = v ∧
        ∀ r, sideArea u z n (j + 1) r = -sideArea u z t (i + 2) r := by
      intro n hn
      obtain ⟨ln, j, -, j1, j2⟩ := facing hM.consistent lt hn
      obtain ⟨e1, e2, e3, e4⟩ := sides_after i
      obtain ⟨f1, f2, f3, f4⟩ := sides_after j
      refine ⟨hS t (i + 2) n st hn, ln, j + 2, by rw [j2, e3, hi], fun r => ?_⟩
      rw [f3]
      unfold sideArea
      rw [j1, j2, area2_swap]
    rcases lt_or_gt_of_ne hne with k | k
    · rcases lt_or_ge (sideArea u z t (i + 2) c) 0 with c1 | c1
      · cases hn : (u.tri t).neighbours (i + 2) with
        | none => exact absurd (hN t st lt i hi hn).1 (not_lt.2 c1.le)
        | some n =>
          obtain ⟨a1, a2, j, a3, a4⟩ := step n hn
          exact ih n hn a1 a2 j a3 (by rw [a4]; exact neg_pos.2 c1) fun q => absurd q (not_lt.2 k.le)
      · rcases lt_or_ge (sideArea u z t (i + 2) o) 0 with c2 | c2
        · cases hn : (u.tri t).neighbours (i + 2) with
          | none => exact absurd ((hN t st lt i hi hn).2 k) (not_lt.2 c2.le)
          | some n =>
            obtain ⟨a1, a2, j, a3, a4⟩ := step n hn
            exact fan_find hM hS (fun t st lt j hj hn => (hN t st lt j hj hn).2 k) hw n hn a1 a2 j a3
              (by rw [a4]; exact neg_pos.2 c2)
        · refine ⟨t, st, lt, i, hi, ?_, c2⟩
          have l1 : areaOf u z t * area2 (whereAt u z v) c o < 0 := mul_neg_of_pos_of_neg A k
          have l2 := mul_nonneg pos.le c2
          have l3 : 0 < sideArea u z t (i + 2) c * sideArea u z t (i + 1) o := by linarith
          exact pos_of_mul_pos_right l3 c1
    · rcases lt_or_ge (sideArea u z t (i + 2) o) 0 with c2 | c2
      · have po := pos' k
        have c1 : sideArea u z t (i + 2) c < 0 := by
          have l1 : 0 < areaOf u z t * area2 (whereAt u z v) c o := mul_pos A k
          have l2 : sideArea u z t (i + 1) c * sideArea u z t (i + 2) o < 0 := mul_neg_of_pos_of_neg pos c2
          by_contra q
          have := mul_nonneg (not_lt.1 q) po.le
          linarith
        cases hn : (u.tri t).neighbours (i + 2) with
        | none => exact absurd (hN t st lt i hi hn).1 (not_lt.2 c1.le)
        | some n =>
          obtain ⟨a1, a2, j, a3, a4⟩ := step n hn
          exact ih n hn a1 a2 j a3 (by rw [a4]; exact neg_pos.2 c1) fun _ => by rw [a4]; exact neg_pos.2 c2
      · exact ⟨t, st, lt, i, hi, pos' k, c2⟩

end Grassfire
