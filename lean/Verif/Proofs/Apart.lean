/-
The wavefronts of two times keep apart, for C98.
-/
import Verif.Props.Simple

set_option linter.unusedSectionVars false

namespace Grassfire

open Spec

variable {K : Type} [Field K] [LinearOrder K] [IsStrictOrderedRing K]

/-! ### what changes little -/

/-- `f ε` is near `a` for small `ε` -/
def Tends (f : K → K) (a : K) : Prop := ∃ C, 0 ≤ C ∧ ∀ ε, 0 ≤ ε → ε ≤ 1 → |f ε - a| ≤ C * ε

theorem Tends.const (a : K) : Tends (fun _ => a) a := ⟨0, le_rfl, fun ε _ _ => by simp⟩

theorem Tends.id : Tends (fun ε : K => ε) 0 := ⟨1, zero_le_one, fun ε h _ => by rw [sub_zero, one_mul, abs_of_nonneg h]⟩

theorem Tends.add {f g : K → K} {a b : K} (h : Tends f a) (h' : Tends g b) : Tends (fun ε => f ε + g ε) (a + b) := by
  obtain ⟨C, c0, c1⟩ := h
  obtain ⟨D, d0, d1⟩ := h'
  refine ⟨C + D, add_nonneg c0 d0, fun ε e0 e1 => ?_⟩
  rw [add_sub_add_comm, add_mul]
  exact (abs_add_le _ _).trans (add_le_add (c1 ε e0 e1) (d1 ε e0 e1))

theorem Tends.mul {f g : K → K} {a b : K} (h : Tends f a) (h' : Tends g b) : Tends (fun ε => f ε * g ε) (a * b) := by
  obtain ⟨C, c0, c1⟩ := h
  obtain ⟨D, d0, d1⟩ := h'
  refine ⟨C * D + |a| * D + C * |b|, by positivity, fun ε e0 e1 => ?_⟩
  have e : f ε * g ε - a * b = (f ε - a) * (g ε - b) + a * (g ε - b) + (f ε - a) * b := by ring
  rw [e, add_mul, add_mul]
  have k1 := c1 ε e0 e1
  have k2 := d1 ε e0 e1
  refine (abs_add_le _ _).trans (add_le_add ((abs_add_le _ _).trans (add_le_add ?_ ?_)) ?_)
  · rw [abs_mul]
    calc |f ε - a| * |g ε - b| ≤ C * ε * (D * ε) := mul_le_mul k1 k2 (abs_nonneg _) (mul_nonneg c0 e0)
      _ = C * D * ε * ε := by ring
      _ ≤ C * D * ε * 1 := mul_le_mul_of_nonneg_left e1 (by positivity)
      _ = C * D * ε := mul_one _
  · rw [abs_mul, mul_assoc]
    exact mul_le_mul_of_nonneg_left k2 (abs_nonneg _)
  · rw [abs_mul, mul_right_comm]
    exact mul_le_mul_of_nonneg_right k1 (abs_nonneg _)

theorem Tends.neg {f : K → K} {a : K} (h : Tends f a) : Tends (fun ε => -f ε) (-a) := by
  obtain ⟨C, c0, c1⟩ := h
  refine ⟨C, c0, fun ε e0 e1 => ?_⟩
  rw [← abs_neg]
  convert c1 ε e0 e1 using 2
  ring

theorem Tends.sub {f g : K → K} {a b : K} (h : Tends f a) (h' : Tends g b) : Tends (fun ε => f ε - g ε) (a - b) := by
  simp only [sub_eq_add_neg]
  exact h.add h'.neg

theorem Tends.pos {f : K → K} {a : K} (h : Tends f a) (ha : 0 < a) : Small fun ε => 0 < f ε := by
  obtain ⟨C, c0, c1⟩ := h
  have hC : 0 < C + 1 := by linarith
  refine ⟨min 1 (a / (C + 1)), lt_min one_pos (div_pos ha hC), fun ε e0 e1 => ?_⟩
  have k := c1 ε e0.le (e1.trans (min_le_left _ _))
  have k1 : ε * (C + 1) ≤ a := (le_div_iff₀ hC).1 (e1.trans (min_le_right _ _))
  have k2 := (abs_le.1 k).1
  nlinarith

/-- a point that changes little -/
def TendsP (f : K → Pt K) (p : Pt K) : Prop := Tends (fun ε => (f ε).1) p.1 ∧ Tends (fun ε => (f ε).2) p.2

theorem TendsP.area {f g k : K → Pt K} {p q r : Pt K} (h1 : TendsP f p) (h2 : TendsP g q) (h3 : TendsP k r) :
    Tends (fun ε => area2 (f ε) (g ε) (k ε)) (area2 p q r) := by
  unfold area2
  exact ((h2.1.sub h1.1).mul (h3.2.sub h1.2)).sub ((h2.2.sub h1.2).mul (h3.1.sub h1.1))

theorem TendsP.dist {f g : K → Pt K} {p q : Pt K} (h1 : TendsP f p) (h2 : TendsP g q) :
    Tends (fun ε => distSq (f ε) (g ε)) (distSq p q) := by
  unfold distSq
  simp only [sq]
  exact ((h1.1.sub h2.1).mul (h1.1.sub h2.1)).add ((h1.2.sub h2.2).mul (h1.2.sub h2.2))

theorem TendsP.const (p : Pt K) : TendsP (fun _ => p) p := ⟨.const _, .const _⟩

theorem TendsP.going (r w : Pt K) : TendsP (Grassfire.going r w) r := by
  constructor
  · have := (Tends.const r.1).add (Tends.id.mul (Tends.const w.1))
    rw [zero_mul, add_zero] at this
    exact this
  · have := (Tends.const r.2).add (Tends.id.mul (Tends.const w.2))
    rw [zero_mul, add_zero] at this
    exact this

/-- a point on the line from `p` to `q` -/
def along (p q : Pt K) (z : K) : Pt K := (p.1 + z * (q.1 - p.1), p.2 + z * (q.2 - p.2))

theorem TendsP.along {f g : K → Pt K} {p q : Pt K} {k : K → K} {z : K} (h1 : TendsP f p) (h2 : TendsP g q) (h3 : Tends k z) :
    TendsP (fun ε => Grassfire.along (f ε) (g ε) (k ε)) (Grassfire.along p q z) :=
  ⟨h1.1.add (h3.mul (h2.1.sub h1.1)), h1.2.add (h3.mul (h2.2.sub h1.2))⟩

theorem small_le {a b : K} (h : a < b) : Small fun ε => a + ε < b := by
  refine ⟨(b - a) / 2, half_pos (sub_pos.2 h), fun ε e0 e1 => ?_⟩
  have := half_lt_self (sub_pos.2 h)
  linarith

/-- a vertex moves on a straight line -/
theorem where_moves (u : St K) (v : VId) : ∃ d : Pt K, ∀ x ε, whereAt u (x + ε) v = going (whereAt u x v) d ε := by
  unfold whereAt placeAt
  cases hk : u.vert v with
  | inf o => exact ⟨(0, 0), fun x ε => by unfold going; simp⟩
  | kin k =>
    refine ⟨k.velocity, fun x ε => ?_⟩
    unfold going
    dsimp only [Option.getD_some]
    unfold pointAt
    dsimp only
    ext
    · dsimp only; ring
    · dsimp only; ring

theorem where_after (u : St K) (x : K) (v : VId) : TendsP (fun ε => whereAt u (x + ε) v) (whereAt u x v) := by
  obtain ⟨d, hd⟩ := where_moves u v
  simp only [hd]
  exact TendsP.going _ _

theorem where_before (u : St K) (x : K) (v : VId) : TendsP (fun ε => whereAt u (x - ε) v) (whereAt u x v) := by
  obtain ⟨d, hd⟩ := where_moves u v
  have : ∀ ε, whereAt u (x - ε) v = going (whereAt u x v) (-d.1, -d.2) ε := by
    intro ε
    rw [sub_eq_add_neg, hd]
    unfold going
    ext
    · dsimp only; ring
    · dsimp only; ring
  simp only [this]
  exact TendsP.going _ _

/-! ### states -/

variable [HasSqrt K] [SqrtUnit K] [HasTrig K]

variable {dt : Dt K} {depth : ℕ} {skel s0 : St K} {n : ℕ} {now : K} {s s1 : St K} {trace : List (Event K × K)}

variable {m : ℕ} {x y : K} {u : St K} {tr : List (Event K × K)}

theorem settled_longer {N : Prop} (hr : Run depth { s1 with immediate := [] } 0 n now s tr)
    (hI : Inv N 0 { s1 with immediate := [] }) (hx : 0 ≤ x) (hs : Settled s now x) :
    ∃ m y u tr x1, x < x1 ∧ ∀ z, x ≤ z → z < x1 → LastUpTo depth s1 n s z m y u tr := by
  induction hr with
  | start =>
    obtain ⟨h1, h2⟩ := hs.resolve_left (not_lt.2 hx)
    obtain ⟨x1, h3, h4⟩ := sooner h2
    exact ⟨0, 0, _, [], x1, h3, fun z z1 z2 =>
      ⟨le_rfl, .start, hx.trans z1, h1, fun f hf => z2.trans_le (h4 f hf), sincePre.refl _, growsPre.refl _⟩⟩
  | @step n now now' s s' tr e hr h ih =>
    have hI1 := (run_inv hr hI).1
    have hS := si_iteration hI1 h
    have hG := g_loopStep _ _ _ _ _ _ h
    by_cases c : now' ≤ x
    · obtain ⟨h1, h2⟩ := hs.resolve_left (not_lt.2 c)
      obtain ⟨x1, h3, h4⟩ := sooner h2
      exact ⟨n + 1, now', s', _, x1, h3, fun z z1 z2 =>
        ⟨le_rfl, .step hr h, c.trans z1, h1, fun f hf => z2.trans_le (h4 f hf), sincePre.refl _, growsPre.refl _⟩⟩
    · push Not at c
      have hs' : Settled s now x := by
        rcases taken_min hI1 h with q | ⟨q1, q2⟩
        · exact .inl (q ▸ c)
        · exact .inr ⟨q1, fun f hf => lt_of_lt_of_le c (q2 f hf)⟩
      obtain ⟨m, y, u, tr', x1, r1, r2⟩ := ih hs'
      refine ⟨m, y, u, tr', min x1 now', lt_min r1 c, fun z z1 z2 => ?_⟩
      have L := r2 z z1 (z2.trans_le (min_le_left _ _))
      exact ⟨L.hm.trans (Nat.le_succ n), L.run, L.hy, L.hi, L.hq,
        sincePre.trans _ _ _ L.since (hS.mono fun t q => by rw [q]; exact z2.trans_le (min_le_right _ _)),
        growsPre.trans _ _ _ L.grows hG⟩

theorem GeneralRun.longer (h : GeneralRun dt depth skel s0 n now s trace) (h1 : initEventList s0 = .ok ((), s1)) (hx : 0 ≤ x)
    (hset : Settled s now x) : ∃ m y u tr x1, x < x1 ∧ ∀ z, x ≤ z → z < x1 → LastUpTo depth s1 n s z m y u tr := by
  obtain ⟨-, z, hz, hr⟩ := id h.run
  rw [h1] at hz
  cases hz
  obtain ⟨-, hI0⟩ := ready_start (C90_sharp h).1.start h1
  exact settled_longer hr hI0 hx hset

end Grassfire
