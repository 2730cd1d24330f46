/-
The wavefront around a vertex at the time of events, for C98.
-/
import Verif.Proofs.Sweep
import Verif.Spec.Arrive

set_option linter.unusedSectionVars false

namespace Grassfire

open Spec

variable {K : Type} [Field K] [LinearOrder K] [IsStrictOrderedRing K]

/-! ### directions -/

/-- the triangles around a vertex lie in direction `g` -/
def Sector (lN lS : Line2 K) (d g : Pt K) : Prop := leftOf d g < 0 ∧ 0 < gain lN g ∨ 0 < leftOf d g ∧ 0 < gain lS g

/-- Around a vertex there are points that one of its sides has passed, and there are triangles. -/
theorem directions {lN lS : Line2 K} {d : Pt K} (hN : gain lN d = 1) (hS : gain lS d = 1) (g : Pt K) :
    leftOf d g ≤ 0 ∧ gain lN g < 0 ∨ 0 ≤ leftOf d g ∧ gain lS g < 0 ∨
      ∃ f : Pt K, ∀ η, 0 < η → Sector lN lS d (going g f η) := by
  have lin : ∀ (l : Line2 K) (f : Pt K) η, gain l (going g f η) = gain l g + η * gain l f := fun l f η => by
    unfold gain going
    dsimp only
    ring
  have lin' : ∀ (f : Pt K) η, leftOf d (going g f η) = leftOf d g + η * leftOf d f := fun f η => by
    unfold leftOf going
    dsimp only
    ring
  have self : leftOf d d = 0 := by unfold leftOf; ring
  rcases lt_trichotomy (leftOf d g) 0 with c | c | c
  · by_cases k : gain lN g < 0
    · exact .inl ⟨c.le, k⟩
    · refine .inr (.inr ⟨d, fun η h => .inl ?_⟩)
      rw [lin, lin', self, hN]
      constructor <;> linarith
  · by_cases k : gain lN g < 0
    · exact .inl ⟨c.le, k⟩
    · obtain ⟨κ, k0, k1⟩ := (small_pos (a := 1) (b := gain lN (d.2, -d.1)) one_pos).some
      refine .inr (.inr ⟨going d (d.2, -d.1) κ, fun η h => .inl ?_⟩)
      have e1 : gain lN (going d (d.2, -d.1) κ) = 1 + κ * gain lN (d.2, -d.1) := by
        rw [← hN]
        unfold gain going
        dsimp only
        ring
      have e2 : leftOf d (going d (d.2, -d.1) κ) = -(κ * (d.1 ^ 2 + d.2 ^ 2)) := by
        unfold leftOf going
        dsimp only
        ring
      have pos : 0 < d.1 ^ 2 + d.2 ^ 2 := by
        rcases (add_nonneg (sq_nonneg d.1) (sq_nonneg d.2)).lt_or_eq with q | q
        · exact q
        · have q1 : d.1 = 0 := by nlinarith [sq_nonneg d.1, sq_nonneg d.2]
          have q2 : d.2 = 0 := by nlinarith [sq_nonneg d.1, sq_nonneg d.2]
          unfold gain at hN
          rw [q1, q2] at hN
          simp at hN
      rw [lin, lin', c, e1, e2]
      have m1 := mul_pos h (mul_pos k0 pos)
      have m2 := mul_pos h k1
      constructor <;> linarith
  · by_cases k : gain lS g < 0
    · exact .inr (.inl ⟨c.le, k⟩)
    · refine .inr (.inr ⟨d, fun η h => .inr ?_⟩)
      rw [lin, lin', self, hS]
      constructor <;> linarith

/-- a direction between two sides of a triangle -/
theorem inside_going {u : St K} {z : K} {t : TId} {i : Fin 3} {g : Pt K} (hA : 0 < areaOf u z t)
    (hp : 0 < sideTurn u z t (i + 1) g) (hq : 0 < sideTurn u z t (i + 2) g) :
    Small fun δ => InsideT u z t (going (whereAt u z ((u.tri t).vertices i)) g δ) := by
  obtain ⟨e1, e2, e3, e4⟩ := sides_after i
  have third : Small fun δ => 0 < sideArea u z t i (going (whereAt u z ((u.tri t).vertices i)) g δ) := by
    rw [areaOf_side i] at hA
    exact ((TendsP.const _).area (.const _) (.going _ _)).pos hA
  refine third.mono fun δ δ0 q => threeSides _ i q ?_ ?_
  · have : sideArea u z t (i + 1) (going (whereAt u z ((u.tri t).vertices i)) g δ) = δ * sideTurn u z t (i + 1) g := by
      unfold sideArea sideTurn area2 going
      rw [e1, e2]
      ring
    rw [this]
    exact mul_pos δ0 hp
  · have : sideArea u z t (i + 2) (going (whereAt u z ((u.tri t).vertices i)) g δ) = δ * sideTurn u z t (i + 2) g := by
      unfold sideArea sideTurn area2 going
      rw [e3, e4]
      ring
    rw [this]
    exact mul_pos δ0 hq

/-! ### states -/

variable [HasSqrt K] [SqrtUnit K] [HasTrig K]

variable {dt : Dt K} {depth : ℕ} {skel s0 : St K} {n : ℕ} {now : K} {s s1 : St K} {trace : List (Event K × K)}

variable {m : ℕ} {x y : K} {u : St K} {tr : List (Event K × K)} {v v' : VId}

/-- a side of the wavefront has the line that its ends say -/
theorem GeneralRun.lines (h : GeneralRun dt depth skel s0 n now s trace) (hi : s.immediate = []) {b : K}
    (hq : ∀ f ∈ s.queue, b ≤ f.time) {t : TId} (ht : t ∈ s0.skTriangles) (hl : Live s t) {i : Fin 3}
    (hn : (s.tri t).neighbours i = none) : ∃ l, Moves dt s now b (t, i) l ∧
      RightLine s ((s.tri t).vertices (i + 1)) l ∧ LeftLine s ((s.tri t).vertices (i + 2)) l := by
  obtain ⟨R, -, -⟩ := (C90_sharp h).1.ready
  obtain ⟨-, -, -, hr⟩ := h.frame
  obtain ⟨l, hR⟩ := hr t (List.mem_toFinset.2 ht) hl i hn
  have q := rides_rightLine hR
  refine ⟨l, h.moves_of hi hq (mem_rim.2 ⟨List.mem_toFinset.2 ht, hl, hn⟩) hR, q, ?_⟩
  obtain ⟨k1, k2, b1, b2, hk1, hk2, q1, q2⟩ := R.undead.points R.mesh hl hn
  obtain ⟨-, k2', w, hk2', g1, g2⟩ := R.waves.rightRef b1 hk1 q1
  obtain rfl : k2 = k2' := by rw [hk2] at hk2'; injection hk2'
  have ur1 := (R.waves.own _ k1 b1 hk1).2 w g1
  have ul2 := (R.waves.own _ k2 b2 hk2).1 w g2
  obtain ⟨k, a, e, f, rfl⟩ := q
  rw [hk1] at e
  cases e
  rw [ur1] at f
  cases f
  exact ⟨k2, _, hk2, ul2, rfl⟩

/-- The triangles around a vertex of the wavefront lie in the directions that are said. -/
theorem GeneralRun.sector (h : GeneralRun dt depth skel s0 n now s trace) (hl : LoneEvents depth s0 n)
    (h1 : initEventList s0 = .ok ((), s1)) (L : LastUpTo depth s1 n s x m y u tr) (hv : v ∈ u.skVertices)
    (hr : Running u v) {lN lS : Line2 K} (hN : RightLine u v lN) (hS : LeftLine u v lS) {d g : Pt K}
    (hd : ∀ x ε, whereAt u (x + ε) v = going (whereAt u x v) d ε) (hg : Sector lN lS d g) :
    Small fun δ => ∃ t ∈ s0.skTriangles, Live u t ∧ (∃ j, (u.tri t).vertices j = v) ∧
      ∀ j, 0 ≤ sideArea u x t j (going (whereAt u x v) g δ) := by
  have U := h.prefix L.hm h1 L.run
  obtain ⟨G, -⟩ := C90_sharp U
  obtain ⟨R, hI, -⟩ := G.ready
  have Lo := U.lone fun z hz k hk => hl z hz k (hk.trans L.hm)
  obtain ⟨-, -, hP, -⟩ := Lo.state
  have hsk : u.skTriangles = s0.skTriangles := U.run.triangles
  have hrun := (C90_exact U).2.2.2
  have hL := (C90_linked G).1
  obtain ⟨hM, hc, hk, -⟩ := U.frame
  have hc' : Closed (· ∈ s0.skTriangles) u := fun t i n ht hn => List.mem_toFinset.1 (hc t i n (List.mem_toFinset.2 ht) hn)
  have F := (front_rings R.mesh hL hP (by rw [hsk]; exact hrun) hv hr).2
  rw [hsk] at F
  obtain ⟨t, ht, i, a, ⟨b1, b2, b3, b4⟩, -⟩ := F
  obtain ⟨l, hw⟩ := hL.fans t b1 (i + 2) (hrun t ht b1 (i + 2)).kinetic
  rw [b4] at hw
  obtain ⟨x1, hx1, hq1⟩ := sooner L.hq
  have third : Small fun δ => ∀ t ∈ s0.skTriangles, Live u t → ∀ j, (u.tri t).vertices j = v →
      0 < sideArea u x t j (going (whereAt u x v) g δ) := by
    refine small_list _ fun t ht => ?_
    by_cases lt : Live u t
    · have : ∀ j, Small fun δ => (u.tri t).vertices j = v → 0 < sideArea u x t j (going (whereAt u x v) g δ) := by
        intro j
        by_cases e : (u.tri t).vertices j = v
        · have A := h.areas_at h1 L ht lt
          rw [areaOf_side j, e] at A
          exact (((TendsP.const _).area (.const _) (.going _ _)).pos A).mono fun _ _ q _ => q
        · exact ⟨1, one_pos, fun _ _ _ q => absurd q e⟩
      exact (small_fin this).mono fun _ _ q _ => q
    · exact ⟨1, one_pos, fun _ _ _ q => absurd q lt⟩
  have first : ∀ t ∈ s0.skTriangles, Live u t → ∀ i, (u.tri t).neighbours i = none → ∃ l,
      (v = (u.tri t).vertices (i + 1) → l = lN) ∧ (v = (u.tri t).vertices (i + 2) → l = lS) ∧
      (v = (u.tri t).vertices (i + 1) ∨ v = (u.tri t).vertices (i + 2) → gain l d = 1 ∧
        ∀ f δ, 0 < δ → 0 < gain l f → 0 < sideArea u x t i (going (whereAt u x v) f δ)) := by
    intro t ht lt i hn
    obtain ⟨l, M, q1, q2⟩ := U.lines L.hi hq1 ht lt hn
    refine ⟨l, ?_, ?_, ?_⟩
    · rintro rfl
      exact rightLine_unique q1 hN
    · rintro rfl
      exact leftLine_unique q2 hS
    · intro e
      have on : ∀ z, AtDistance l z (whereAt u z v) := by
        rcases e with rfl | rfl
        · exact M.first
        · exact M.second
      have o0 := on x
      have o1 := on (x + 1)
      rw [hd] at o1
      unfold AtDistance at o0 o1
      unfold going at o1
      dsimp only at o1
      refine ⟨by unfold gain; linear_combination o1 - o0, fun f δ δ0 f0 => ?_⟩
      unfold sideArea
      rw [← area2_turn, ← area2_turn, area_from (o := going (whereAt u x v) f δ) (M.first x) (M.second x) M.unit]
      refine mul_pos (M.pos x L.hy hx1) ?_
      have : l.w.1 * (going (whereAt u x v) f δ).1 + l.w.2 * (going (whereAt u x v) f δ).2 + l.b - x = δ * gain l f := by
        unfold going gain
        dsimp only
        linear_combination o0
      rw [this]
      exact mul_pos δ0 f0
  have cross : ∀ δ, area2 (whereAt u x v) (going (whereAt u x v) d 1) (going (whereAt u x v) g δ) = δ * leftOf d g := by
    intro δ
    unfold area2 going leftOf
    dsimp only
    ring
  refine third.mono fun δ δ0 q1 => ?_
  have hN' : ∀ t, t ∈ s0.skTriangles → Live u t → ∀ j, (u.tri t).vertices j = v → (u.tri t).neighbours (j + 2) = none →
      0 < sideArea u x t (j + 2) (going (whereAt u x v) d 1) ∧
      (area2 (whereAt u x v) (going (whereAt u x v) d 1) (going (whereAt u x v) g δ) < 0 →
        0 < sideArea u x t (j + 2) (going (whereAt u x v) g δ)) := by
    intro t ht lt j hj hn
    obtain ⟨-, -, f3, -⟩ := sides_after j
    obtain ⟨l, c1, -, c3⟩ := first t ht lt (j + 2) hn
    have e : v = (u.tri t).vertices (j + 2 + 1) := by rw [f3, hj]
    obtain ⟨c4, c5⟩ := c3 (.inl e)
    obtain rfl := c1 e
    refine ⟨c5 d 1 one_pos (by rw [c4]; exact one_pos), fun q => c5 g δ δ0 ?_⟩
    rw [cross] at q
    rcases hg with k | k
    · exact k.2
    · exact absurd q (not_lt.2 (mul_nonneg δ0.le k.1.le))
  obtain ⟨-, -, f3, -⟩ := sides_after i
  obtain ⟨l, -, c2, c3⟩ := first t ht b1 i b2
  obtain ⟨c4, c5⟩ := c3 (.inr b4.symm)
  obtain rfl := c2 b4.symm
  obtain ⟨t', st, lt, j, hj, p1, p2⟩ := fan_sector (S := (· ∈ s0.skTriangles)) hM hc' (fun t ht lt => h.areas_at h1 L ht lt) hN'
    (by
      rw [cross]
      exact mul_ne_zero δ0.ne' (by rcases hg with k | k; exacts [k.1.ne, k.1.ne'])) hw t rfl ht b1 (i + 2) b4
    (by rw [f3]; exact c5 d 1 one_pos (by rw [c4]; exact one_pos))
    (fun q => by
      rw [f3]
      refine c5 g δ δ0 ?_
      rw [cross] at q
      rcases hg with k | k
      · exact absurd q (not_lt.2 (mul_neg_of_pos_of_neg δ0 k.1).le)
      · exact k.2)
  exact ⟨t', st, lt, ⟨j, hj⟩, threeSides _ j (q1 t' st lt j hj).le p1.le p2⟩

theorem GeneralRun.front (h : GeneralRun dt depth skel s0 n now s trace) (hl : LoneEvents depth s0 n)
    (hv : v ∈ s.skVertices) (hr : Running s v) :
    (∃ t ∈ s0.skTriangles, ∃ i b, FrontSide s t i v b ∧ Points s v b) ∧
      ∃ t ∈ s0.skTriangles, ∃ i a, FrontSide s t i a v ∧ Points s a v := by
  obtain ⟨G, -⟩ := C90_sharp h
  obtain ⟨R, -, -⟩ := G.ready
  obtain ⟨-, -, hP, -⟩ := (h.lone hl).state
  have hsk : s.skTriangles = s0.skTriangles := h.run.triangles
  have F := front_rings R.mesh (C90_linked G).1 hP (by rw [hsk]; exact (C90_exact h).2.2.2) hv hr
  rw [hsk] at F
  obtain ⟨⟨t, ht, i, b, q1, -, -, q2⟩, t', ht', i', a, q1', -, -, q2'⟩ := F
  exact ⟨⟨t, ht, i, b, q1, q2⟩, t', ht', i', a, q1', q2'⟩

variable {m' : ℕ} {y' : K} {w : St K} {tr' : List (Event K × K)}

/-- The two sides at a vertex that is there before and after the events at time `x`. -/
theorem GeneralRun.corner (h : GeneralRun dt depth skel s0 n now s trace) (hl : LoneEvents depth s0 n)
    (h1 : initEventList s0 = .ok ((), s1)) (L : LastUpTo depth s1 n s x m y u tr) (hm : m' ≤ n)
    (J : JustBefore depth s1 x u m' y' w tr') (hu : v ∈ u.skVertices) (ru : Running u v) (hv : v ∈ w.skVertices)
    (rv : Running w v) : ∃ lN lS, RightLine u v lN ∧ LeftLine u v lS ∧
      (∃ t ∈ s0.skTriangles, ∃ i b, FrontSide w t i v b ∧ Points w v b ∧ Moves dt w y' x (t, i) lN ∧
        0 < ahead lN (whereAt w x v) (whereAt w x b)) ∧
      ∃ t ∈ s0.skTriangles, ∃ i a, FrontSide w t i a v ∧ Points w a v ∧ Moves dt w y' x (t, i) lS ∧
        0 < ahead lS (whereAt w x a) (whereAt w x v) := by
  have U := h.prefix L.hm h1 L.run
  have W := h.prefix hm h1 J.run
  obtain ⟨RW, -, -⟩ := (C90_sharp W).1.ready
  obtain ⟨hlt, -⟩ := rv.kinetic
  have apart : ∀ t ∈ s0.skTriangles, Live u t → ∀ i, whereAt u x ((u.tri t).vertices (i + 1)) ≠
      whereAt u x ((u.tri t).vertices (i + 2)) := by
    intro t ht lt i q
    have A := h.areas_at h1 L ht lt
    rw [areaOf_side i, q] at A
    unfold area2 at A
    ring_nf at A
    exact lt_irrefl _ A
  obtain ⟨⟨t, ht, i, b, ⟨f1, f2, f3, f4⟩, -⟩, t', ht', i', a, ⟨g1, g2, g3, g4⟩, -⟩ :=
    U.front (fun z hz k hk => hl z hz k (hk.trans L.hm)) hu ru
  obtain ⟨⟨T, hT, I, B, F, FP⟩, T', hT', I', A, G, GP⟩ := W.front (fun z hz k hk => hl z hz k (hk.trans hm)) hv rv
  obtain ⟨lN, -, kN, -⟩ := U.lines L.hi (fun f hf => (L.hq f hf).le) ht f1 f2
  obtain ⟨lS, -, -, kS⟩ := U.lines L.hi (fun f hf => (L.hq f hf).le) ht' g1 g2
  rw [f3] at kN
  rw [g4] at kS
  refine ⟨lN, lS, kN, kS, ⟨T, hT, I, B, F, FP, ?_⟩, T', hT', I', A, G, GP, ?_⟩
  · obtain ⟨F1, F2, F3, F4⟩ := F
    obtain ⟨l, M, q, -⟩ := W.lines J.hi J.hq hT F1 F2
    rw [F3] at q
    obtain rfl := rightLine_unique q (rightLine_grows J.grows hlt kN)
    refine ⟨M, ?_⟩
    have M0 := M.nonneg x J.lt.le le_rfl
    have Ma := M.first x
    have Mb := M.second x
    dsimp only at M0 Ma Mb
    rw [F3] at M0 Ma
    rw [F4] at M0 Mb
    refine lt_of_le_of_ne M0 fun e => ?_
    have e := ahead_eq M.unit Ma Mb e.symm
    obtain ⟨t0, i0, l0, n0, v0, -, d0⟩ := J.leaves t i f1 f2 (apart t ht f1 i)
    have v0 := v0 (by rw [f3]; exact hlt)
    have P := RW.undead.points RW.mesh l0 n0
    rw [v0, f3] at P d0
    obtain ⟨k, -, -, -, hk, -, r, -⟩ := P
    obtain ⟨k', -, -, -, hk', -, r', -⟩ := FP
    rw [hk] at hk'
    cases hk'
    rw [r] at r'
    cases r'
    exact d0 e
  · obtain ⟨F1, F2, F3, F4⟩ := G
    obtain ⟨l, M, -, q⟩ := W.lines J.hi J.hq hT' F1 F2
    rw [F4] at q
    obtain rfl := leftLine_unique q (leftLine_grows J.grows hlt kS)
    refine ⟨M, ?_⟩
    have M0 := M.nonneg x J.lt.le le_rfl
    have Ma := M.first x
    have Mb := M.second x
    dsimp only at M0 Ma Mb
    rw [F3] at M0 Ma
    rw [F4] at M0 Mb
    refine lt_of_le_of_ne M0 fun e => ?_
    have e := ahead_eq M.unit Ma Mb e.symm
    obtain ⟨t0, i0, l0, n0, -, v0, d0⟩ := J.leaves t' i' g1 g2 (apart t' ht' g1 i')
    have v0 := v0 (by rw [g4]; exact hlt)
    have P := RW.undead.points RW.mesh l0 n0
    rw [v0, g4] at P d0
    obtain ⟨-, k, -, -, -, hk, -, r⟩ := P
    obtain ⟨-, k', -, -, -, hk', -, r'⟩ := GP
    rw [hk] at hk'
    cases hk'
    rw [r] at r'
    cases r'
    exact d0 e

/-- the places of its vertices are the same in later states -/
theorem where_grows {u w : St K} (hG : Grows w u) (hv : Kinetic w v) (z : K) : whereAt u z v = whereAt w z v := by
  obtain ⟨hlt, k, e⟩ := hv
  unfold whereAt
  have : placeAt w v z = some (pointAt k z) := by unfold placeAt; rw [e]
  rw [this, grows_place hG hlt this]

/-- no event happens between that state and time `x` -/
theorem JustBefore.quiet (h : GeneralRun dt depth skel s0 n now s trace) (h1 : initEventList s0 = .ok ((), s1))
    (J : JustBefore depth s1 x u m' y' w tr') {z : K} (hz : y' < z) (hzx : z < x) : ∀ e ∈ trace, e.2 ≠ z := by
  rintro e he rfl
  obtain ⟨-, hI0⟩ := ready_start (C90_sharp h).1.start h1
  obtain ⟨-, s1', h1', hrun⟩ := id h.run
  rw [h1] at h1'
  cases h1'
  obtain ⟨k, -, -, c, tc, hc⟩ := run_events hrun e he
  by_cases c1 : k ≤ m'
  · exact absurd (run_times hI0 J.run hc c1) (not_le.2 hz)
  · obtain ⟨f, b, u', hs⟩ := run_next J.run hc (not_le.1 c1)
    have q := run_times hI0 hc (.step J.run hs) (not_le.1 c1)
    obtain ⟨s2, h2, -⟩ := loopStep_some hs
    rcases takeEvent_run y' w with ⟨g, r, hi, -⟩ | ⟨g, r, -, hq, hx⟩ | ⟨-, -, hx⟩
    · rw [J.hi] at hi
      cases hi
    · rw [hx] at h2
      cases h2
      exact absurd ((J.hq f (by rw [hq]; exact List.mem_cons_self)).trans q) (not_le.2 hzx)
    · rw [hx] at h2
      cases h2

theorem Arrives.before (h : Arrives s x v) : ∃ a < x, ∀ z, a ≤ z → z < x → OnFront s z v := by
  obtain ⟨hv, k, e, ⟨a, ea, ha⟩, hb⟩ := h
  exact ⟨a, ha, fun z hz hzx => ⟨hv, k, e, ⟨a, ea, hz⟩, fun b eb => hzx.trans_le (hb b eb)⟩⟩

/-- a vertex that is on the wavefront just before `x` -/
theorem GeneralRun.arrived (h : GeneralRun dt depth skel s0 n now s trace) (hl : LoneEvents depth s0 n)
    (h1 : initEventList s0 = .ok ((), s1)) (L : LastUpTo depth s1 n s x m y u tr) (hm : m' ≤ n)
    (J : JustBefore depth s1 x u m' y' w tr') (hv : Arrives s x v) : v ∈ w.skVertices ∧ Running w v ∧
      placeAt s v x = some (whereAt w x v) := by
  obtain ⟨a, ha, q⟩ := Arrives.before hv
  have hz : max a y' < x := max_lt ha J.lt
  have Lz := J.last hm L (le_max_right a y') hz
  obtain ⟨a1, a2, -⟩ := h.vertex_of hl h1 Lz (q _ (le_max_left a y') hz)
  refine ⟨a1, a2, ?_⟩
  obtain ⟨hlt, k, e⟩ := a2.kinetic
  exact grows_place Lz.grows hlt (by unfold whereAt placeAt; rw [e]; rfl)

/-- the sides of the wavefront keep their distance from closed triangles at later times -/
theorem GeneralRun.apart_closed (h : GeneralRun dt depth skel s0 n now s trace) (hl : LoneEvents depth s0 n)
    (hone : ∀ o, dtWinding dt o ≤ 1) (h1 : initEventList s0 = .ok ((), s1)) {x' : K} (hx : 0 ≤ x') (hxx : x' < x)
    (hset : Settled s now x) (L : LastUpTo depth s1 n s x m y u tr) {p q r o : Pt K} (hv : v ∈ s.skVertices)
    (hs : sideAt s x' v = some (p, q)) (hr : On p q r) {t : TId} (ht : t ∈ s0.skTriangles) (lt : Live u t)
    (ho : ∀ j, 0 ≤ sideArea u x t j o) : (x - x') ^ 2 ≤ distSq r o := by
  by_contra far
  have far := sub_pos.2 (not_le.1 far)
  obtain ⟨ε, -, k1, k2⟩ := ((inward_inside (h.areas_at h1 L ht lt) ho).and
    (((Tends.const ((x - x') ^ 2)).sub ((TendsP.const r).dist (TendsP.going o (inward u x t o)))).pos far)).some
  have w := (h.winding_ge hl h1 L ht lt k1).1
  have := C98_apart h hl hone hx hxx hset hv hs hr (lt_of_lt_of_le zero_lt_one w)
  linarith

/-- such a point is not on an earlier wavefront -/
theorem GeneralRun.not_earlier (h : GeneralRun dt depth skel s0 n now s trace) (hl : LoneEvents depth s0 n)
    (hone : ∀ o, dtWinding dt o ≤ 1) (h1 : initEventList s0 = .ok ((), s1)) {x' : K} (hx : 0 ≤ x') (hxx : x' < x)
    (hset : Settled s now x) (L : LastUpTo depth s1 n s x m y u tr) {p q o : Pt K} (hv : v ∈ s.skVertices)
    (hs : sideAt s x' v = some (p, q)) (hr : On p q o) {t : TId} (ht : t ∈ s0.skTriangles) (lt : Live u t)
    (ho : ∀ j, 0 ≤ sideArea u x t j o) : False := by
  have := h.apart_closed hl hone h1 hx hxx hset L hv hs hr ht lt ho
  unfold distSq at this
  rw [sub_self, sub_self] at this
  have := pow_pos (sub_pos.2 hxx) 2
  linarith

theorem corner_closed {u : St K} {t : TId} (hA : 0 < areaOf u x t) (i : Fin 3) :
    ∀ j, 0 ≤ sideArea u x t j (whereAt u x ((u.tri t).vertices i)) := by
  obtain ⟨e1, e2, e3, e4⟩ := sides_after i
  refine (closed_edge (i := i + 2) (z := 0) hA le_rfl zero_le_one rfl rfl ?_).2
  rw [e3]
  ext <;> simp

/-- what a vertex passes together with its sides: points behind it were on one of them -/
theorem JustBefore.passed (J : JustBefore depth s1 x u m' y' w tr') {l : Line2 K} {d g : Pt K}
    (hd : ∀ x ε, whereAt w (x + ε) v = going (whereAt w x v) d ε) (hg : gain l g < 0)
    (hside : leftOf d g ≤ 0 ∧ (∃ t ∈ s0.skTriangles, ∃ i b, FrontSide w t i v b ∧ Points w v b ∧ Moves dt w y' x (t, i) l ∧
        0 < ahead l (whereAt w x v) (whereAt w x b)) ∨
      0 ≤ leftOf d g ∧ ∃ t ∈ s0.skTriangles, ∃ i a, FrontSide w t i a v ∧ Points w a v ∧ Moves dt w y' x (t, i) l ∧
        0 < ahead l (whereAt w x a) (whereAt w x v)) :
    ∃ a b, (a = v ∨ b = v) ∧ Points w a b ∧ whereAt w x a ≠ whereAt w x b ∧ ∃ t ∈ s0.skTriangles, ∃ i, FrontSide w t i a b ∧
      Small fun δ => ∃ z, y' < z ∧ z < x ∧ On (whereAt w z a) (whereAt w z b) (going (whereAt w x v) g δ) := by
  have time : Small fun δ => 0 < (x - y') + δ * gain l g := small_pos (sub_pos.2 J.lt)
  have differ : ∀ {p q : Pt K}, 0 < ahead l p q → p ≠ q := by
    rintro p q A rfl
    unfold ahead at A
    simp at A
  rcases hside with ⟨c, t, ht, i, b, F, P, M, A⟩ | ⟨c, t, ht, i, a, F, P, M, A⟩
  · refine ⟨v, b, .inl rfl, P, differ A, t, ht, i, F, ?_⟩
    obtain ⟨-, -, f3, f4⟩ := F
    obtain ⟨e, he⟩ := where_moves w b
    have M1 := M.first
    have M2 := M.second
    dsimp only at M1 M2
    rw [f3] at M1
    rw [f4] at M2
    have S := sweep_first (r := whereAt w x v) (d := d) (n := whereAt w x b) (e := e) (g := g) M.unit
      (fun ε => by rw [← hd]; exact M1 _) (fun ε => by rw [← he]; exact M2 _) A c
    refine (time.and S).mono fun δ δ0 ⟨q1, q2⟩ => ⟨x + δ * gain l g, by linarith, ?_, ?_⟩
    · have := mul_neg_of_pos_of_neg δ0 hg
      linarith
    · rw [hd, he]
      exact q2
  · refine ⟨a, v, .inr rfl, P, differ A, t, ht, i, F, ?_⟩
    obtain ⟨-, -, f3, f4⟩ := F
    obtain ⟨e, he⟩ := where_moves w a
    have M1 := M.first
    have M2 := M.second
    dsimp only at M1 M2
    rw [f3] at M1
    rw [f4] at M2
    have S := sweep_second (r := whereAt w x v) (d := d) (n := whereAt w x a) (e := e) (g := g) M.unit
      (fun ε => by rw [← hd]; exact M2 _) (fun ε => by rw [← he]; exact M1 _) A c
    refine (time.and S).mono fun δ δ0 ⟨q1, q2⟩ => ⟨x + δ * gain l g, by linarith, ?_, ?_⟩
    · have := mul_neg_of_pos_of_neg δ0 hg
      linarith
    · rw [hd, he]
      exact q2

/-- Around a vertex that is on the wavefront before and after the events at time `x`: points were on one of its sides just
before, or are in the triangles around it (or arbitrarily near). -/
theorem GeneralRun.surround (h : GeneralRun dt depth skel s0 n now s trace) (hl : LoneEvents depth s0 n)
    (h1 : initEventList s0 = .ok ((), s1)) (L : LastUpTo depth s1 n s x m y u tr) (hm : m' ≤ n)
    (J : JustBefore depth s1 x u m' y' w tr') (hu : v ∈ u.skVertices) (ru : Running u v) (hv : v ∈ w.skVertices)
    (rv : Running w v) (g : Pt K) :
    (∃ a b, (a = v ∨ b = v) ∧ Points w a b ∧ whereAt w x a ≠ whereAt w x b ∧ ∃ t ∈ s0.skTriangles, ∃ i, FrontSide w t i a b ∧
      Small fun δ => ∃ z, y' < z ∧ z < x ∧ On (whereAt w z a) (whereAt w z b) (going (whereAt w x v) g δ)) ∨
    ∃ f, ∀ η, 0 < η → Small fun δ => ∃ t ∈ s0.skTriangles, Live u t ∧ (∃ j, (u.tri t).vertices j = v) ∧
      ∀ j, 0 ≤ sideArea u x t j (going (whereAt w x v) (going g f η) δ) := by
  obtain ⟨lN, lS, kN, kS, FN, FS⟩ := h.corner hl h1 L hm J hu ru hv rv
  obtain ⟨d, hd⟩ := where_moves w v
  have wh := where_grows J.grows rv.kinetic
  have one : ∀ {l : Line2 K}, (∀ z, AtDistance l z (whereAt w z v)) → gain l d = 1 := by
    intro l on
    have o0 := on x
    have o1 := on (x + 1)
    rw [hd] at o1
    unfold AtDistance at o0 o1
    unfold going at o1
    dsimp only at o1
    unfold gain
    linear_combination o1 - o0
  have gN : gain lN d = 1 := by
    obtain ⟨t, -, i, b, ⟨-, -, f3, -⟩, -, M, -⟩ := FN
    refine one ?_
    rw [← f3]
    exact M.first
  have gS : gain lS d = 1 := by
    obtain ⟨t, -, i, b, ⟨-, -, -, f4⟩, -, M, -⟩ := FS
    refine one ?_
    rw [← f4]
    exact M.second
  rcases directions gN gS g with c | c | ⟨f, c⟩
  · exact .inl (J.passed hd c.2 (.inl ⟨c.1, FN⟩))
  · exact .inl (J.passed hd c.2 (.inr ⟨c.1, FS⟩))
  · refine .inr ⟨f, fun η η0 => ?_⟩
    have := h.sector hl h1 L hu ru kN kS (fun x ε => by rw [wh, wh]; exact hd x ε) (c η η0)
    rw [wh] at this
    exact this

end Grassfire
