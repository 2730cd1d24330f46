/-
The skeleton as a graph (lemmas for C88): counting.
-/
import Verif.Proofs.Cubic
import Verif.Proofs.ProgressRun

set_option linter.unusedSectionVars false

namespace Grassfire

open Spec

section
variable {α : Type} [DecidableEq α]

theorem countP_parts (p : α → Bool) {l g : List α} (hl : l.Nodup) (hg : g.Nodup) (hs : ∀ v ∈ g, v ∈ l) :
    l.countP p = g.countP p + (l.filter fun v => !decide (v ∈ g)).countP p := by
  rw [← (List.filter_append_perm (fun v => decide (v ∈ g)) l).countP_eq p, List.countP_append]
  congr 1
  refine List.Perm.countP_eq p ((List.perm_ext_iff_of_nodup (hl.filter _) hg).2 fun v => ?_)
  simp only [List.mem_filter, decide_eq_true_eq]
  exact ⟨fun h => h.2, fun h => ⟨hs v h, h⟩⟩

/-- the count when the answer changes for the elements of `g` -/
theorem countP_change {p q : α → Bool} {l g : List α} (hl : l.Nodup) (hg : g.Nodup) (hs : ∀ v ∈ g, v ∈ l)
    (h : ∀ v ∈ l, v ∉ g → q v = p v) : l.countP q + g.countP p = l.countP p + g.countP q := by
  rw [countP_parts p hl hg hs, countP_parts q hl hg hs]
  have : (l.filter fun v => !decide (v ∈ g)).countP q = (l.filter fun v => !decide (v ∈ g)).countP p := by
    refine List.countP_congr fun v hv => ?_
    simp only [List.mem_filter, Bool.not_eq_true', decide_eq_false_iff_not] at hv
    rw [h v hv.1 hv.2]
  rw [this]
  omega

theorem countP_all {p : α → Bool} {l : List α} (h : ∀ v ∈ l, p v = true) : l.countP p = l.length :=
  List.countP_eq_length.2 h

theorem countP_none {p : α → Bool} {l : List α} (h : ∀ v ∈ l, p v = false) : l.countP p = 0 :=
  List.countP_eq_zero.2 fun v hv => by rw [h v hv]; decide

end

variable {K : Type} [Field K] [LinearOrder K] [IsStrictOrderedRing K] [HasSqrt K] [SqrtUnit K]

variable {s s' : St K} {N : Prop} {now now' : K}

theorem begin_old (hI : Inv N now s) {v : VId} (hv : v ∈ s.skVertices) :
    (∃ n, beginOf s v = some n) ∧ ∀ n, beginOf s v = some n → n < s.nN := by
  obtain ⟨k, hk, -⟩ := hI.numbered v hv
  obtain ⟨n, hn, h⟩ := (hI.lives v k (hI.refs.skVertices v hv) hk).startNode
  rw [beginOf_kin hk, h]
  refine ⟨⟨n, rfl⟩, fun m q => ?_⟩
  cases q
  exact hI.refs.skNodes n hn

theorem end_old (hI : Inv N now s) {v : VId} (hv : v ∈ s.skVertices) {n : NodeId} (h : endOf s v = some n) : n < s.nN := by
  obtain ⟨k, hk, -⟩ := hI.numbered v hv
  rw [endOf_kin hk] at h
  exact hI.refs.skNodes n ((hI.lives v k (hI.refs.skVertices v hv) hk).stopNode n h)

/-- what has been counted since `s0` -/
structure Counted (s0 s : St K) : Prop where
  nodes : s.nN + liveTriangles s = s0.nN + liveTriangles s0
  grow : s0.nN ≤ s.nN
  recorded : s.skNodes.length + s0.nN = s0.skNodes.length + s.nN
  arcs : 2 * s.skVertices.length + 3 * liveTriangles s + openArcs s0 =
    2 * s0.skVertices.length + 3 * liveTriangles s0 + openArcs s
  old : ∀ x < s0.nN, begins s x = begins s0 x ∧ ends s x = ends s0 x
  new : ∀ x < s.nN, s0.nN ≤ x → begins s x + ends s x = 3 ∧ 1 ≤ ends s x
  forward : ∀ v ∈ s.skVertices, ∀ a b, beginOf s v = some a → endOf s v = some b → a < b ∧ s0.nN ≤ b

theorem counted_untouched {s0 : St K} (hI : Inv N now s) (hI' : Inv N now' s') (hC : Counted s0 s) (hU : Untouched s s') :
    Counted s0 s' := by
  have hb : ∀ x, begins s' x = begins s x := fun x => by
    unfold begins
    rw [hU.vertices]
    exact List.countP_congr fun v hv => by rw [hU.sameBegin v hv]
  have he : ∀ x, ends s' x = ends s x := fun x => by
    unfold ends
    rw [hU.vertices]
    exact List.countP_congr fun v hv => by rw [hU.sameEnd v hv]
  have hl : liveTriangles s' = liveTriangles s := by
    unfold liveTriangles
    rw [hU.triangles]
    refine List.countP_congr fun t ht => ?_
    have h1 := hI.refs.skTriangles t ht
    have h2 := hI'.refs.skTriangles t (by rw [hU.triangles]; exact ht)
    have := hU.live t
    unfold Live at this
    rw [Option.isNone_iff_eq_none, Option.isNone_iff_eq_none]
    exact ⟨fun q => (this.1 ⟨h2, q⟩).2, fun q => (this.2 ⟨h1, q⟩).2⟩
  have ho : openArcs s' = openArcs s := by
    unfold openArcs
    rw [hU.vertices]
    exact List.countP_congr fun v hv => by rw [hU.sameEnd v hv]
  refine ⟨by rw [hU.node, hl]; exact hC.nodes, by rw [hU.node]; exact hC.grow, by rw [hU.recorded, hU.node]; exact hC.recorded,
    by rw [hU.vertices, hl, ho]; exact hC.arcs, fun x hx => by rw [hb, he]; exact hC.old x hx,
    fun x hx h0 => by rw [hb, he]; exact hC.new x (by rw [← hU.node]; exact hx) h0, fun v hv a b ha hb' => ?_⟩
  rw [hU.vertices] at hv
  rw [hU.sameBegin v hv] at ha
  rw [hU.sameEnd v hv] at hb'
  exact hC.forward v hv a b ha hb'

theorem counted_junction {s0 : St K} (hI : Inv N now s) (hI' : Inv N now' s') (hP : Populated s) (hC : Counted s0 s)
    {t : TId} {gone made : List VId} (ht : t ∈ s.skTriangles) (hl : Live s t) (hJ : Junction s s' t gone made) :
    Counted s0 s' := by
  have hg : 1 ≤ gone.length := List.length_pos_of_ne_nil hJ.nonempty
  obtain ⟨d1, d2, d3⟩ := hJ.different
  have hsub : ∀ v ∈ gone, v ∈ s.skVertices := fun v hv => (hJ.before v hv).1
  have hb : ∀ x, begins s' x = begins s x + if x = s.nN then made.length else 0 := fun x => by
    unfold begins
    rw [hJ.vertices, List.countP_append]
    congr 1
    · exact List.countP_congr fun v hv => by rw [hJ.sameBegin v hv]
    · split_ifs with q
      · exact countP_all fun v hv => by rw [(hJ.fresh v hv).1, q]; simp
      · exact countP_none fun v hv => by rw [(hJ.fresh v hv).1]; simpa using fun z => q z.symm
  have he : ∀ x, ends s' x = ends s x + if x = s.nN then gone.length else 0 := fun x => by
    unfold ends
    rw [hJ.vertices, List.countP_append, countP_none (l := made) fun v hv => by rw [(hJ.fresh v hv).2]; simp, Nat.add_zero]
    have := countP_change (p := fun v => decide (endOf s v = some x)) (q := fun v => decide (endOf s' v = some x)) hP.once d1
      hsub fun v hv hg => by rw [hJ.sameEnd v hv hg]
    rw [countP_none (l := gone) (p := fun v => decide (endOf s v = some x)) fun v hv => by rw [(hJ.before v hv).2]; simp] at this
    rw [Nat.add_zero] at this
    rw [this]
    congr 1
    split_ifs with q
    · exact countP_all fun v hv => by rw [hJ.after v hv, q]; simp
    · exact countP_none fun v hv => by rw [hJ.after v hv]; simpa using fun z => q z.symm
  have ho : openArcs s' + gone.length = openArcs s + made.length := by
    unfold openArcs
    rw [hJ.vertices, List.countP_append, countP_all (l := made) fun v hv => by rw [(hJ.fresh v hv).2]; rfl]
    have := countP_change (p := fun v => (endOf s v).isNone) (q := fun v => (endOf s' v).isNone) hP.once d1
      hsub fun v hv hg => by rw [hJ.sameEnd v hv hg]
    rw [countP_all (l := gone) (p := fun v => (endOf s v).isNone) fun v hv => by rw [(hJ.before v hv).2]; rfl,
      countP_none (l := gone) fun v hv => by rw [hJ.after v hv]; rfl] at this
    omega
  have hlv : liveTriangles s' + 1 = liveTriangles s := by
    unfold liveTriangles
    rw [hJ.triangles]
    have h2 : ∀ x ∈ s.skTriangles, x < s'.nT := fun x hx => hI'.refs.skTriangles x (by rw [hJ.triangles]; exact hx)
    have := countP_change (p := fun x => (s.tri x).stopsAt.isNone) (q := fun x => (s'.tri x).stopsAt.isNone) hP.different
      (List.nodup_singleton t) (fun v hv => by rw [List.mem_singleton.1 hv]; exact ht) fun x hx hne => by
        have := hJ.live x
        unfold Live at this
        rw [Bool.eq_iff_iff, Option.isNone_iff_eq_none, Option.isNone_iff_eq_none]
        exact ⟨fun q => (this.1 ⟨h2 x hx, q⟩).1.2,
          fun q => (this.2 ⟨⟨hI.refs.skTriangles x hx, q⟩, fun z => hne (List.mem_singleton.2 z)⟩).2⟩
    rw [countP_all (l := [t]) (p := fun x => (s.tri x).stopsAt.isNone) fun v hv => by
        rw [List.mem_singleton.1 hv, hl.2]; rfl,
      countP_none (l := [t]) fun v hv => by
        rw [List.mem_singleton.1 hv]
        cases z : (s'.tri t).stopsAt with
        | none => exact absurd rfl ((hJ.live t).1 ⟨h2 t ht, z⟩).2
        | some _ => rfl] at this
    exact this
  have b0 : begins s s.nN = 0 := countP_none fun v hv => by
    simpa using fun q => absurd ((begin_old hI hv).2 _ q) (lt_irrefl _)
  have e0 : ends s s.nN = 0 := countP_none fun v hv => by
    simpa using fun q => absurd (end_old hI hv q) (lt_irrefl _)
  have h3 := hJ.three
  refine ⟨?_, ?_, ?_, ?_, fun x hx => ?_, fun x hx h0 => ?_, fun v hv a b ha hbe => ?_⟩
  · have := hC.nodes; rw [hJ.node]; omega
  · have := hC.grow; rw [hJ.node]; omega
  · have := hC.recorded; rw [hJ.node, hJ.recorded, List.length_append]; simp only [List.length_singleton]; omega
  · have := hC.arcs; rw [hJ.vertices, List.length_append]; omega
  · have hne : x ≠ s.nN := fun q => by have := hC.grow; rw [q] at hx; exact absurd hx (Nat.not_lt.2 this)
    rw [hb, he, if_neg hne, if_neg hne]
    exact hC.old x hx
  · rw [hb, he]
    by_cases hne : x = s.nN
    · rw [if_pos hne, if_pos hne, hne, b0, e0]
      omega
    · rw [if_neg hne, if_neg hne]
      refine hC.new x ?_ h0
      rw [hJ.node] at hx
      exact Nat.lt_of_le_of_ne (Nat.lt_succ_iff.1 hx) hne
  · rw [hJ.vertices] at hv
    rcases List.mem_append.1 hv with hv | hv
    · rw [hJ.sameBegin v hv] at ha
      by_cases hgv : v ∈ gone
      · rw [hJ.after v hgv] at hbe
        cases hbe
        exact ⟨(begin_old hI hv).2 a ha, hC.grow⟩
      · rw [hJ.sameEnd v hv hgv] at hbe
        exact hC.forward v hv a b ha hbe
    · rw [(hJ.fresh v hv).2] at hbe
      cases hbe

variable [HasTrig K] {P : Line2 K → Prop}

theorem Spec.Junction.queues {q i : List (Event K)} {t : TId} {gone made : List VId}
    (h : Junction { s with queue := q, immediate := i } s' t gone made) : Junction s s' t gone made :=
  ⟨h.node, h.recorded, h.vertices, h.triangles, h.three, h.nonempty, h.different, h.before, h.after, h.fresh, h.sameBegin,
    h.sameEnd, h.live⟩

theorem Spec.Untouched.queues {q i : List (Event K)} (h : Untouched { s with queue := q, immediate := i } s') :
    Untouched s s' :=
  ⟨h.node, h.recorded, h.vertices, h.triangles, h.sameBegin, h.sameEnd, h.live⟩

theorem Spec.Populated.queues (h : Populated s) (q i : List (Event K)) :
    Populated { s with queue := q, immediate := i } :=
  ⟨h.once, h.different, h.closed, h.corners, h.held⟩

theorem nextEvent_pending {e : Event K} (h : NextEvent s e) : e ∈ pending s := by
  rcases h with h | ⟨-, h⟩
  · exact List.mem_append_left _ (List.mem_of_mem_head? h)
  · exact List.mem_append_right _ (List.mem_of_mem_head? h)

/-- what an iteration does to the skeleton -/
theorem cubic_loopStep (R : Ready P s) {depth : ℕ} {step : ℤ} (hI : Inv N now s) (hP : Populated s)
    (hp : ∀ e ∈ pending s, e.tri ∈ s.skTriangles)
    (hg : ∀ e, NextEvent s e → Live s e.tri → Generic s e ∧ Alone s e) {e : Event K}
    (h : loopStep depth step now s = .ok (some (e, now'), s')) :
    Populated s' ∧ e.tri ∈ s.skTriangles ∧ (∀ e ∈ pending s', e.tri ∈ s'.skTriangles) ∧
    (¬ Live s e.tri → Untouched s s' ∧ s'.tri = s.tri) ∧
    (Live s e.tri → e.tp = .flip → Untouched s s' ∧ ∃ n ∈ s.skTriangles, Flipped s s' e.tri n) ∧
    (Live s e.tri → e.tp ≠ .flip → ∃ gone made, Junction s s' e.tri gone made ∧ Recast s s' e.tri gone made) := by
  obtain ⟨-, -, w3, w4⟩ := w_loopStep (S := (· ∈ s.skTriangles)) hP.closed hp h
  have hI2 := (wp_ok (i_loopStep depth step hI) h).1
  unfold loopStep at h
  obtain ⟨a, s1, h1, h⟩ := bind_run_ok.1 h
  rcases takeEvent_next now s with ⟨q, -, -⟩ | ⟨e', now'', q, i, hn, ht⟩
  · rw [q] at h1
    cases h1
    cases (pure_run_ok.1 h).1
  · have hI1 := wp_ok (i_takeEvent hI) ht
    obtain ⟨hI1, htime, -, -⟩ := hI1
    rw [ht] at h1
    cases h1
    obtain ⟨u, s2, h2, h⟩ := bind_run_ok.1 h
    obtain ⟨hx, hs2⟩ := pure_run_ok.1 h
    cases hx
    rw [hs2] at h2
    clear hs2
    rw [← htime] at hI1 hI2
    obtain ⟨c1, c2, c3, c4⟩ := cubic_handleEvent (R.queues q i) hI1 hI2 (hP.queues q i) w4
      (fun hl => ⟨(hg e hn hl).1.queues q i, (hg e hn hl).2.whole, (hg e hn hl).2.aged⟩) h2
    have u0 : ¬ Live s e.tri → Untouched s s' ∧ s'.tri = s.tri := fun z => by
      have := c2 z
      subst this
      exact ⟨⟨rfl, rfl, rfl, rfl, fun _ _ => rfl, fun _ _ => rfl, fun _ => Iff.rfl⟩, rfl⟩
    have j1 : Live s e.tri → e.tp ≠ .flip →
        ∃ gone made, Junction s s' e.tri gone made ∧ Recast s s' e.tri gone made := fun z z' => by
      obtain ⟨x, y, hJ, hR⟩ := c4 z z'
      exact ⟨x, y, hJ.queues, hR.corners, hR.new, hR.change, hR.other⟩
    have j2 : Live s e.tri → e.tp = .flip → Untouched s s' ∧ ∃ n ∈ s.skTriangles, Flipped s s' e.tri n := fun z z' => by
      obtain ⟨hU, n, hn, hF⟩ := c3 z z'
      exact ⟨hU.queues, n, hn, hF.live, hF.ahead, hF.back, hF.shared, hF.shared'⟩
    have hsk : s'.skTriangles = s.skTriangles := (g_handleEvent _ _ _ _ _ _ h2).skTriangles
    exact ⟨c1, w4, hsk ▸ w3, u0, j2, j1⟩

theorem cubic_run {depth : ℕ} {s0 : St K} {now0 : K} {n : ℕ} {now : K} {s : St K} {tr : List (Event K × K)}
    (hr : Run depth s0 now0 n now s tr) (R : Ready P s0) (hI : Inv N now0 s0) (hP : Populated s0)
    (hp : ∀ e ∈ pending s0, e.tri ∈ s0.skTriangles) (hC : Counted s0 s0)
    (hg : ∀ m < n, ∀ x u tr' e, Run depth s0 now0 m x u tr' → NextEvent u e → Live u e.tri → Generic u e ∧ Alone u e) :
    Populated s ∧ (∀ e ∈ pending s, e.tri ∈ s.skTriangles) ∧ Counted s0 s := by
  induction hr with
  | start => exact ⟨hP, hp, hC⟩
  | @step n now now' s s' tr e hr hs ih =>
    obtain ⟨p1, p2, p3⟩ := ih fun m hm => hg m (Nat.lt_succ_of_lt hm)
    have R1 := ready_run hr R fun m hm x u tr' e a b c => (hg m (Nat.lt_succ_of_lt hm) x u tr' e a b c).1
    have I1 := (run_inv hr hI).1
    have I2 := (wp_ok (i_loopStep depth (n + 1 : ℕ) I1) hs).1
    obtain ⟨c1, c2, c3, c4, c5, c6⟩ := cubic_loopStep R1 I1 p1 p2 (fun f => hg n (Nat.lt_succ_self n) _ _ _ f hr) hs
    refine ⟨c1, c3, ?_⟩
    by_cases hl : Live s e.tri
    · by_cases hf : e.tp = .flip
      · exact counted_untouched I1 I2 p3 (c5 hl hf).1
      · obtain ⟨x, y, hJ, -⟩ := c6 hl hf
        exact counted_junction I1 I2 p1 p3 c2 hl hJ
    · exact counted_untouched I1 I2 p3 (c4 hl).1


/-- `init_event_list` changes nothing of this -/
theorem cubic_start {s0 s1 : St K} (h : Initial s0) (hP : Populated s0) (h1 : initEventList s0 = .ok ((), s1)) :
    Populated { s1 with immediate := [] } ∧ (∀ e ∈ pending { s1 with immediate := [] }, e.tri ∈ s1.skTriangles) ∧
    Counted { s1 with immediate := [] } { s1 with immediate := [] } ∧ s1.nN = s0.nN ∧ s1.skNodes = s0.skNodes ∧
    s1.skVertices = s0.skVertices ∧ (∀ x, begins { s1 with immediate := [] } x = begins s0 x) ∧
    (∀ x, ends { s1 with immediate := [] } x = ends s0 x) ∧ openArcs { s1 with immediate := [] } = openArcs s0 ∧
    liveTriangles { s1 with immediate := [] } = liveTriangles s0 := by
  obtain ⟨f1, f2, f3, f4, f5, f6⟩ := start_frame h1
  obtain ⟨w1, -, w3⟩ := within_start (S := (· ∈ s0.skTriangles)) h1 hP.closed fun _ q => q
  have q := q_initEventList _ _ _ h1
  have c : SameCore s0 s1 := by
    unfold initEventList at h1
    obtain ⟨_, s2, h2, hm⟩ := bind_run_ok.1 h1
    cases h2
    obtain ⟨_, s2, h2, hm⟩ := bind_run_ok.1 hm
    cases h2
    have c : Keeps (SameCore (K := K)) (forEach initEvent s0.skTriangles) := Keeps.forEach sameCorePre (fun t => c_initEvent t) _
    have := c _ _ _ hm
    exact this
  have e1 : s1.nN = s0.nN := c.apply (fun y : St K => y.nN)
  have e2 : s1.skNodes = s0.skNodes := c.apply (fun y : St K => y.skNodes)
  have e3 : s1.skVertices = s0.skVertices := c.apply (fun y : St K => y.skVertices)
  have live : ∀ x, Live s1 x ↔ Live s0 x := fun x => by unfold Live; rw [f3, f5]
  have b1 : beginOf { s1 with immediate := [] } = beginOf s0 := by funext v; unfold beginOf; dsimp only; rw [f1]
  have b2 : endOf { s1 with immediate := [] } = endOf s0 := by funext v; unfold endOf; dsimp only; rw [f1]
  have hB : ∀ x, begins { s1 with immediate := [] } x = begins s0 x := fun x => by
    unfold begins; rw [b1]; dsimp only; rw [e3]
  have hE : ∀ x, ends { s1 with immediate := [] } x = ends s0 x := fun x => by unfold ends; rw [b2]; dsimp only; rw [e3]
  have hO : openArcs { s1 with immediate := [] } = openArcs s0 := by unfold openArcs; rw [b2]; dsimp only; rw [e3]
  have hL : liveTriangles { s1 with immediate := [] } = liveTriangles s0 := by
    unfold liveTriangles; dsimp only; rw [f6]
    exact List.countP_congr fun x _ => by rw [f5]
  refine ⟨⟨?_, ?_, ?_, fun t ht hl i hk => ?_, fun v hv hr => ?_⟩, fun e he => ?_, ?_, e1, e2, e3, hB, hE, hO, hL⟩
  · exact e3 ▸ hP.once
  · exact f6 ▸ hP.different
  · exact f6 ▸ w1
  · dsimp only at ht hk ⊢
    rw [f6] at ht
    rw [f4] at hk ⊢
    rw [e3]
    exact hP.corners t ht ((live t).1 hl) i (by unfold Kinetic at hk ⊢; rw [← f1, ← f2]; exact hk)
  · dsimp only at hv ⊢
    rw [e3] at hv
    obtain ⟨t, h1, h2, i, h3⟩ := hP.held v hv (by unfold Running at hr ⊢; rw [← f1, ← f2]; exact hr)
    exact ⟨t, f6 ▸ h1, (live t).2 h2, i, by rw [f4]; exact h3⟩
  · rw [f6]
    exact w3 e (by simpa [pending] using he)
  · refine ⟨rfl, le_rfl, rfl, rfl, fun _ _ => ⟨rfl, rfl⟩, fun x h1 h2 => absurd h1 (Nat.not_lt.2 h2), fun v hv a b _ q => ?_⟩
    rw [b2] at q
    dsimp only at hv
    rw [e3] at hv
    obtain ⟨k, hk⟩ := h.kinetic v hv
    rw [endOf_kin hk, (h.lives v k (h.refs.skVertices v hv) hk).2.2.2] at q
    cases q

end Grassfire
