/-
The wavefronts of the vertices that `init_skeleton` delivers, and of all that follows (lemmas for
C57-C60).
-/
import Verif.Proofs.WavefrontBlocks
import Verif.Props.CalcSkel

set_option linter.unusedSectionVars false

namespace Grassfire

open Spec

variable {K : Type} [Field K] [LinearOrder K] [IsStrictOrderedRing K] [HasSqrt K] [SqrtUnit K] {dt : Dt K}

/-- the line of a constrained side -/
theorem supportLine_ok {t : DT} {i : Fin 3} {l : Line2 K} (h : supportLine dt t i = .ok (some l)) :
    dt.constrained t i = true ∧ ∃ a b, dt.corner t (ccw i) = some a ∧ dt.corner t (cw i) = some b ∧
      Line2.fromPoints (dt.pos a) (dt.pos b) = .ok l := by
  unfold supportLine at h
  by_cases hc : dt.constrained t i = true
  · rw [if_pos hc] at h
    refine ⟨hc, ?_⟩
    cases ha : dt.corner t (ccw i) with
    | none => rw [ha] at h; cases h
    | some a =>
      cases hb : dt.corner t (cw i) with
      | none => rw [ha, hb] at h; cases h
      | some b =>
        rw [ha, hb] at h
        dsimp only at h
        obtain ⟨wf, h1, h⟩ := bindE_ok h
        unfold WaveFront.make at h1
        obtain ⟨m, h2, h1⟩ := bindE_ok h1
        cases h1
        cases h
        exact ⟨a, b, rfl, rfl, h2⟩
  · rw [if_neg hc] at h
    cases h

theorem line_of_points {p q : Pt K} {l : Line2 K} (h : Line2.fromPoints p q = .ok l)
    (hx : 0 ≤ HasSqrt.sqrt ((q.1 - p.1) ^ 2 + (q.2 - p.2) ^ 2) ∧
      HasSqrt.sqrt ((q.1 - p.1) ^ 2 + (q.2 - p.2) ^ 2) ^ 2 = (q.1 - p.1) ^ 2 + (q.2 - p.2) ^ 2) :
    l.w.1 ^ 2 + l.w.2 ^ 2 = 1 ∧ AtDistance l 0 p ∧ AtDistance l 0 q ∧
    0 < (q.1 - p.1) * l.w.2 - (q.2 - p.2) * l.w.1 := by
  obtain ⟨h1, h2, h3, len, h4, h5, h6⟩ := C10_exact p q l h hx.2 hx.1
  unfold Line2.signedDistance at h2 h3 h6
  dsimp only [dot2] at h2 h3
  refine ⟨h1, by unfold AtDistance; linarith, by unfold AtDistance; linarith, ?_⟩
  have e0 := h6 p
  have e1 := h6 (p.1 + 1, p.2)
  have e2 := h6 (p.1, p.2 + 1)
  dsimp only [dot2] at e0 e1 e2
  have f1 : l.w.1 * len = -(q.2 - p.2) := by linear_combination e1 - e0
  have f2 : l.w.2 * len = q.1 - p.1 := by linear_combination e2 - e0
  have : (q.1 - p.1) * l.w.2 - (q.2 - p.2) * l.w.1 = len := by
    rw [← f2]
    have : -(q.2 - p.2) = l.w.1 * len := f1.symm
    unfold UnitNormal at h1
    linear_combination l.w.1 * this + len * h1
  rw [this]
  exact h4

theorem exactLengths [SqrtLaws K] (dt : Dt K) : ExactLengths dt := fun _ _ _ _ _ _ _ _ =>
  ⟨SqrtLaws.sqrt_nonneg _ (by positivity), by rw [pow_two]; exact SqrtLaws.sqrt_mul_self _ (by positivity)⟩

variable {pyid : TId → ℕ} {ts : List (TriStart K)} {vs : List (KVertex K × List DEdge)}
  {nbr : TId → Fin 3 → Option TId} {unwanted sorted : List TId} {s : St K}

theorem Delivered.line (h : Delivered dt pyid ts vs nbr unwanted sorted s) {t : DT} {i : Fin 3} {l : Line2 K}
    (hl : lineAt ts t i = some l) : t < dt.nT ∧ s.line (wfId t i) = l ∧ supportLine dt t i = .ok (some l) := by
  have hq : (3 * t + i.val) / 3 = t := by
    have := i.isLt
    rw [Nat.mul_add_div (by decide), Nat.div_eq_of_lt this, Nat.add_zero]
  have hr : Fin.ofNat 3 (3 * t + i.val) = i := by
    apply Fin.ext
    have := i.isLt
    show (3 * t + i.val) % 3 = i.val
    rw [Nat.mul_add_mod, Nat.mod_eq_of_lt this]
  have e : s.line (wfId t i) = (lineAt ts t i).getD ⟨(0, 0), 0⟩ := by
    rw [h.state]
    dsimp only [initState, wfId]
    rw [hq, hr]
  refine ⟨?_, by rw [e, hl]; rfl, ?_⟩
  · unfold lineAt at hl
    obtain ⟨x, hx, -⟩ := Option.bind_eq_some_iff.1 hl
    rw [← h.tris.1]
    exact (List.getElem?_eq_some_iff.1 hx).1
  · unfold lineAt at hl
    obtain ⟨x, hx, hl⟩ := Option.bind_eq_some_iff.1 hl
    rw [← hl]
    exact (initTri_ok (h.tris.2 t x hx)).1 i

theorem bisector_rate {l r : Line2 K} (hl : l.w.1 ^ 2 + l.w.2 ^ 2 = 1) (hr : r.w.1 ^ 2 + r.w.2 ^ 2 = 1)
    (hc : Cross l r) {b : Pt K} (h : getBisector l r = .ok b) :
    l.w.1 * b.1 + l.w.2 * b.2 = 1 ∧ r.w.1 * b.1 + r.w.2 * b.2 = 1 := by
  obtain ⟨b', p0, h1, h2, h3⟩ := C13_wavefront_vertex l r hl hr hc
  rw [h] at h1
  cases h1
  obtain ⟨p, -, a1, a2, rfl⟩ := h3 0
  obtain ⟨p', -, b1, b2, rfl⟩ := h3 1
  unfold OnLine Advanced at a1 a2 b1 b2
  dsimp only at a1 a2 b1 b2
  exact ⟨by linear_combination b1 - a1, by linear_combination b2 - a2⟩

/-- what is known of the vertices that `init_skeleton` delivers -/
theorem Delivered.facts0 (h : Delivered dt pyid ts vs nbr unwanted sorted s) (hdt : DtOk dt)
    (hx : ExactLengths dt) {u : VId} {kv : KVertex K} (hk : s.vert u = .kin kv) :
    ∃ a b p q l r, kv.left = [⟨0, none, some a⟩] ∧ kv.right = [⟨0, none, some b⟩] ∧
      a < s.nV ∧ b < s.nV ∧ (∃ ka, s.vert a = .kin ka ∧ ka.wfr = some p) ∧ (∃ kb, s.vert b = .kin kb ∧ kb.wfl = some q) ∧
      kv.wfl = some p ∧ kv.wfr = some q ∧ kv.ul = some p ∧ kv.ur = some q ∧ s.line p = l ∧ s.line q = r ∧
      InputLine dt l ∧ InputLine dt r ∧ AtDistance l 0 kv.origin ∧ AtDistance r 0 kv.origin ∧
      getBisector l r = .ok kv.velocity := by
  obtain ⟨x, hxv, rfl⟩ := h.vert hk
  obtain ⟨v, first, last, hv, hfin, hn, gs, hgs, hgm, -⟩ := h.origin hxv
  obtain ⟨a, b, y, z, ha, hb, hy, hz, h5, h6, ex⟩ := h.linked hxv hn.head hn.tail hn.empty
  obtain ⟨l, r, hl, hr, hbi⟩ := hn.left
  obtain ⟨ht1, hl1, hl2⟩ := h.line hl
  obtain ⟨ht2, hr1, hr2⟩ := h.line hr
  obtain ⟨c1, a1, b1, ha1, hb1, hp1⟩ := supportLine_ok hl2
  obtain ⟨c2, a2, b2, ha2, hb2, hp2⟩ := supportLine_ok hr2
  have cyc1 : ∀ i : Fin 3, cw (ccw i) = i := by decide
  have cyc2 : ∀ i : Fin 3, ccw (cw i) = i := by decide
  have one : ∀ i : Fin 3, ccw i = i + 1 := by decide
  have two : ∀ i : Fin 3, cw i = i + 2 := by decide
  obtain ⟨d1, d2, d3, d4⟩ := line_of_points hp1
    (hx _ _ _ _ ht1 c1 (by rw [← one]; exact ha1) (by rw [← two]; exact hb1))
  obtain ⟨e1, e2, e3, e4⟩ := line_of_points hp2
    (hx _ _ _ _ ht2 c2 (by rw [← one]; exact ha2) (by rw [← two]; exact hb2))
  have hrot := (C41_rotation dt v gs hgs).1
  have hmem : ∀ e ∈ x.2, dt.corner e.1 e.2 = some v := fun e he =>
    hdt.star_corner v hv e (hrot.mem_iff.1 (List.mem_flatten.2 ⟨x.2, hgm, he⟩))
  have hb1' : b1 = v := by
    rw [cyc1, hmem last (List.mem_of_getLast? hn.tail)] at hb1
    exact (Option.some.inj hb1).symm
  have ha2' : a2 = v := by
    rw [cyc2, hmem first (List.mem_of_head? hn.head)] at ha2
    exact (Option.some.inj ha2).symm
  subst hb1' ha2'
  have wf : ∀ y : KVertex K × List DEdge, (linkVertex vs y).wfr = y.1.wfr ∧ (linkVertex vs y).wfl = y.1.wfl := by
    intro y
    unfold linkVertex
    split <;> exact ⟨rfl, rfl⟩
  have f1 : x.1.wfl = some (wfId last.1 (ccw last.2)) := by rw [hn.fields]
  have f2 : x.1.wfr = some (wfId first.1 (cw first.2)) := by rw [hn.fields]
  have ha' := (List.getElem?_eq_some_iff.1 hy).1
  have hb' := (List.getElem?_eq_some_iff.1 hz).1
  refine ⟨a, b, wfId last.1 (ccw last.2), wfId first.1 (cw first.2), l, r, by rw [ex], by rw [ex],
    by rw [h.nV]; exact ha'.trans (Nat.lt_succ_self _), by rw [h.nV]; exact hb'.trans (Nat.lt_succ_self _),
    ⟨_, h.vert_of hy, by rw [(wf y).1, h5, f1]⟩, ⟨_, h.vert_of hz, by rw [(wf z).2, ← h6, f2]⟩,
    by rw [(wf x).2, f1], by rw [(wf x).1, f2], by rw [ex, hn.fields], by rw [ex, hn.fields], hl1, hr1,
    ⟨last.1, ccw last.2, a1, _, ht1, c1, by rw [← one]; exact ha1, by rw [← two]; exact hb1, d1, d2, d3, d4⟩,
    ⟨first.1, cw first.2, _, b2, ht2, c2, by rw [← one]; exact ha2, by rw [← two]; exact hb2, e1, e2, e3, e4⟩,
    ?_, ?_, ?_⟩
  · rw [ex, hn.fields]; exact d3
  · rw [ex, hn.fields]; exact e2
  · rw [ex]; exact hbi

theorem Delivered.facts (h : Delivered dt pyid ts vs nbr unwanted sorted s) (hdt : DtOk dt)
    (hx : ExactLengths dt) {u : VId} {kv : KVertex K} (hk : s.vert u = .kin kv) :
    ∃ p q l r, kv.ul = some p ∧ kv.ur = some q ∧ s.line p = l ∧ s.line q = r ∧
      InputLine dt l ∧ InputLine dt r ∧ AtDistance l 0 kv.origin ∧ AtDistance r 0 kv.origin ∧
      getBisector l r = .ok kv.velocity := by
  obtain ⟨a, b, p, q, l, r, -, -, -, -, -, -, -, -, h9⟩ := h.facts0 hdt hx hk
  exact ⟨p, q, l, r, h9⟩

/-- the state delivered by `init_skeleton` -/
theorem Delivered.waves (h : Delivered dt pyid ts vs nbr unwanted sorted s) (hdt : DtOk dt)
    (hx : ExactLengths dt) : Waves (InputLine dt) s := by
  have key := fun u kv (hk : s.vert u = .kin kv) => h.facts0 hdt hx hk
  have hwf : s.wfLine = id := by rw [h.state]; rfl
  refine ⟨⟨?_, ?_⟩, ?_, ?_, ?_, ?_⟩
  · intro v kv _ hk x hxm
    obtain ⟨a, b, p, q, l, r, e1, e2, e3, e4, ⟨ka, e5, e6⟩, -, e7, -⟩ := key v kv hk
    rw [e1, List.mem_singleton] at hxm
    subst hxm
    exact ⟨a, ka, p, rfl, e3, e5, e7, e6⟩
  · intro v kv _ hk x hxm
    obtain ⟨a, b, p, q, l, r, e1, e2, e3, e4, -, ⟨kb, e5, e6⟩, -, e7, -⟩ := key v kv hk
    rw [e2, List.mem_singleton] at hxm
    subst hxm
    exact ⟨b, kb, q, rfl, e4, e5, e7, e6⟩
  · intro v kv _ hk
    obtain ⟨a, b, p, q, l, r, -, -, -, -, -, -, e1, e2, e3, e4, -⟩ := key v kv hk
    rw [e1, e2, e3, e4, hwf]
    exact ⟨fun w hw => hw, fun w hw => hw⟩
  · rintro l ⟨_, _, _, _, -, -, -, -, hu, -⟩
    exact hu
  · intro v kv _ hk
    obtain ⟨a, b, p, q, l, r, -, -, -, -, -, -, -, -, e3, e4, e5, e6, e7, e8, -⟩ := key v kv hk
    exact ⟨p, q, e3, e4, by rw [e5]; exact e7, by rw [e6]; exact e8⟩
  · intro v kv _ hk _ hcr
    obtain ⟨a, b, p, q, l, r, -, -, -, -, -, -, -, -, e3, e4, e5, e6, e7, e8, e9, e10, e11⟩ := key v kv hk
    have hcr := hcr p q e3 e4
    rw [e5, e6] at hcr
    obtain ⟨_, _, _, _, -, -, -, -, u1, -⟩ := e7
    obtain ⟨_, _, _, _, -, -, -, -, u2, -⟩ := e8
    obtain ⟨r1, r2⟩ := bisector_rate u1 u2 hcr e11
    intro a' b' ha' hb' t
    rw [e3] at ha'
    rw [e4] at hb'
    cases ha'
    cases hb'
    rw [e5, e6]
    unfold AtDistance at e9 e10 ⊢
    dsimp only
    exact ⟨by linear_combination e9 + t * r1, by linear_combination e10 + t * r2⟩

theorem Waves.prepare {P : Line2 K → Prop} {s : St K} (w : Waves P s) (internal : Bool) (tr : Option (Transform K)) :
    Waves P (prepare internal tr s) := by
  unfold Grassfire.prepare
  cases internal <;> cases tr <;> exact ⟨⟨w.shared.left, w.shared.right⟩, w.own, w.good, w.lines, w.motion⟩

variable [HasTrig K]

theorem execution_waves {P : Line2 K → Prop} {depth : ℕ} {s0 : St K} {n : ℕ} {now : K} {s : St K}
    {tr : List (Event K × K)} (w : Waves P s0) (h : Execution depth s0 n now s tr) : Waves P s := by
  obtain ⟨s1, h1, hr⟩ := h.run
  have w1 := w.quiet (q_initEventList _ _ _ h1)
  have w2 := w1.quiet (quiet_queues s1 s1.queue [])
  clear h h1 w1 w
  induction hr with
  | start => exact w2
  | step hr hs ih => exact waves_loopStep _ _ _ _ _ _ hs ih

end Grassfire
