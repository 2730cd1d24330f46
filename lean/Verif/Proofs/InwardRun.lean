/-
Wavefront edges are not turned round between events, so they run forward all the time (lemmas for C91).
-/
import Verif.Proofs.InwardInit
import Verif.Proofs.InwardSteps
import Verif.Props.General

set_option linter.unusedSectionVars false

namespace Grassfire

open Spec

variable {K : Type} [Field K] [LinearOrder K] [IsStrictOrderedRing K] [HasSqrt K]

variable {s s' : St K}

/-- the triangle over a wavefront edge -/
theorem area_front {T : TView K} {i : Fin 3} {l : Line2 K} (h : Rides T i l) (u : K) :
    areaAt T u = ahead l (cornerAt T (i + 1) u) (cornerAt T (i + 2) u) *
      (l.w.1 * (cornerAt T i u).1 + l.w.2 * (cornerAt T i u).2 + l.b - u) := by
  obtain ⟨hw, -, hd⟩ := h
  obtain ⟨h1, h2⟩ := hd u
  unfold AtDistance at h1 h2
  have e : areaAt T u = area2 (cornerAt T i u) (cornerAt T (i + 1) u) (cornerAt T (i + 2) u) := by
    unfold areaAt
    fin_cases i
    · rfl
    · exact (area2_turn _ _ _).symm
    · exact (area2_turn _ _ _).symm.trans (area2_turn _ _ _).symm
  rw [e]
  generalize cornerAt T i u = c at *
  generalize cornerAt T (i + 1) u = p at *
  generalize cornerAt T (i + 2) u = q at *
  unfold area2 ahead
  have hz : l.w.1 * (q.1 - p.1) + l.w.2 * (q.2 - p.2) = 0 := by linear_combination h2 - h1
  linear_combination (-((q.1 - p.1) * (c.2 - p.2) - (q.2 - p.2) * (c.1 - p.1))) * hw +
    (l.w.1 * (c.2 - p.2) - l.w.2 * (c.1 - p.1)) * hz - ((q.1 - p.1) * l.w.2 - (q.2 - p.2) * l.w.1) * h1

variable [SqrtUnit K] [HasTrig K]

/-- a wavefront edge stays forward as long as the triangle over it does not vanish -/
theorem ahead_stays {s : St K} {t : TId} {i : Fin 3} {l : Line2 K} (h : Rides (viewT s t) i l) {k1 k2 : KVertex K}
    (hk1 : s.vert ((s.tri t).vertices (i + 1)) = .kin k1) (hk2 : s.vert ((s.tri t).vertices (i + 2)) = .kin k2)
    {now now' : K} (h0 : 0 ≤ ahead l (pointAt k1 now) (pointAt k2 now))
    (hz : ∀ x, now ≤ x → x < now' → areaAt (viewT s t) x ≠ 0) (u : K) (hu : now ≤ u) (hu' : u ≤ now') :
    0 ≤ ahead l (pointAt k1 u) (pointAt k2 u) := by
  have hz' : ∀ x, now ≤ x → x < now' → ahead l (pointAt k1 x) (pointAt k2 x) ≠ 0 := by
    intro x h1 h2 h3
    refine hz x h1 h2 ?_
    rw [area_front h, corner_place hk1, corner_place hk2, h3, zero_mul]
  obtain ⟨α, β, hlin⟩ : ∃ α β, ∀ x, ahead l (pointAt k1 x) (pointAt k2 x) = α + β * x := by
    refine ⟨(k2.origin.1 - k1.origin.1) * l.w.2 - (k2.origin.2 - k1.origin.2) * l.w.1,
      (k2.velocity.1 - k1.velocity.1) * l.w.2 - (k2.velocity.2 - k1.velocity.2) * l.w.1, fun x => ?_⟩
    unfold ahead pointAt
    dsimp only
    ring
  by_contra hneg
  push Not at hneg
  rw [hlin] at h0 hneg
  have hlt : now < u := by
    rcases hu.lt_or_eq with q | rfl
    · exact q
    · exact absurd h0 (not_le.2 hneg)
  have hpos : 0 < α + β * now := lt_of_le_of_ne h0 fun q => hz' now le_rfl (hlt.trans_le hu') (by rw [hlin, ← q])
  have hb : β < 0 := by
    by_contra q
    have := mul_le_mul_of_nonneg_left hlt.le (not_lt.1 q)
    linarith
  have hroot : α + β * (-α / β) = 0 := by rw [mul_div_cancel₀ _ hb.ne, add_neg_cancel]
  have r1 : now ≤ -α / β := by rw [le_div_iff_of_neg hb]; linarith
  have r2 : -α / β < u := by rw [div_lt_iff_of_neg hb]; linarith
  exact hz' _ r1 (r2.trans_le hu') (by rw [hlin]; exact hroot)

theorem rides_rightLine {t : TId} {i : Fin 3} {l : Line2 K} (h : Rides (viewT s t) i l) :
    RightLine s ((s.tri t).vertices (i + 1)) l := by
  obtain ⟨-, h, -⟩ := h
  unfold viewT viewOf at h
  dsimp only at h
  cases hk : s.vert ((s.tri t).vertices (i + 1)) with
  | inf o => rw [hk] at h; cases h
  | kin k =>
    rw [hk] at h
    dsimp only at h
    obtain ⟨a, h1, h2⟩ := Option.map_eq_some_iff.1 h
    exact ⟨k, a, hk, h1, h2⟩

variable {dt : Dt K} {depth : ℕ} {skel s0 : St K} {n : ℕ} {now : K} {trace : List (Event K × K)}

/-- the beginning of a run in general position is one -/
theorem GeneralRun.prefix (h : GeneralRun dt depth skel s0 n now s trace) {m : ℕ} (hm : m ≤ n) {s1 : St K}
    (h1 : initEventList s0 = .ok ((), s1)) {x : K} {u : St K} {tr' : List (Event K × K)}
    (hr : Run depth { s1 with immediate := [] } 0 m x u tr') : GeneralRun dt depth skel s0 m x u tr' :=
  ⟨h.mesh, h.regions, h.inside, h.lengths, h.angles, h.spikes, h.start, ⟨h.run.initial, s1, h1, hr⟩,
    fun z hz k hk => h.generic z hz k (hk.trans hm), h.upright,
    fun z hz k hk => h.unblurred.clear z hz k (hk.trans hm),
    fun z hz k hk => h.unblurred.sharp z hz k (Nat.lt_of_lt_of_le hk hm)⟩

theorem initEventList_line {s0 s1 : St K} (h1 : initEventList s0 = .ok ((), s1)) : s1.line = s0.line := by
  unfold initEventList at h1
  obtain ⟨_, s2, h2, hm⟩ := bind_run_ok.1 h1
  cases h2
  obtain ⟨_, s2, h2, hm⟩ := bind_run_ok.1 hm
  cases h2
  have g : Keeps (Grows (K := K)) (forEach initEvent s0.skTriangles) := Keeps.forEach growsPre (fun t => g_initEvent t) _
  exact (g _ _ _ hm).line

/-- all vertices stay on their wavefronts -/
theorem GeneralRun.allTrack (h : GeneralRun dt depth skel s0 n now s trace) : AllTrack s := (C90_exact h).2.2.1

/-- as long as no event is due, no triangle vanishes -/
theorem GeneralRun.lasting (h : GeneralRun dt depth skel s0 n now s trace) {now' : K} (hi : s.immediate = [])
    (hmin : ∀ f ∈ s.queue, now' ≤ f.time) {t : TId} (ht : t ∈ s0.skTriangles) (hl : Live s t) (u : K) (hu : now ≤ u)
    (hu' : u < now') : 0 < areaAt (viewT s t) u := by
  obtain ⟨G, S⟩ := C90_sharp h
  obtain ⟨St, -, C⟩ := S.steady
  have T := (C84_steady S).1.standing
  obtain ⟨R, -, -⟩ := G.ready
  have hk : Mobile s t := fun i => by
    obtain ⟨hv, k, hk⟩ := C.kinetic t ht hl i
    exact ⟨k, hk, R.slow _ k hv hk⟩
  have h0 : 0 ≤ areaAt (viewT s t) now := by
    obtain ⟨k0, q0, -⟩ := hk 0
    obtain ⟨k1, q1, -⟩ := hk 1
    obtain ⟨k2, q2, -⟩ := hk 2
    unfold areaAt
    rw [corner_place q0, corner_place q1, corner_place q2]
    exact T.upright t ht hl _ _ _ (by unfold placeAt; rw [q0]) (by unfold placeAt; rw [q1]) (by unfold placeAt; rw [q2])
  obtain ⟨s1, h1, hr⟩ := h.run.run
  have hcl := St.clear s1 h1 n le_rfl _ _ _ hr hi t ht hl (C.kinetic t ht hl)
  have hsol := (h.unblurred.clear s1 h1 n le_rfl _ _ _ hr hi t ht hl).2
  have cert := (C66_events_current_partial depth n s0 s now trace St.ordinary).2 t ht hl.2
  rcases (upright_stays hl hk cert hcl hi hmin (T.late t ht hl hk) h0 u hu hu'.le).2 hu' with q | q
  · exact q
  · obtain ⟨x, hx⟩ := hsol.nonzero
    exact absurd (q x) hx

/-- so the wavefront edges stay forward -/
theorem GeneralRun.forward_between (h : GeneralRun dt depth skel s0 n now s trace)
    (hF : Forward (· ∈ s0.skTriangles) s now) {now' : K} (hi : s.immediate = []) (hmin : ∀ f ∈ s.queue, now' ≤ f.time)
    (u : K) (hu : now ≤ u) (hu' : u ≤ now') : Forward (· ∈ s0.skTriangles) s u := by
  intro t ht hl i hn l p q h1 h2 h3
  obtain ⟨G, -⟩ := C90_sharp h
  obtain ⟨R, -, -⟩ := G.ready
  obtain ⟨m, hm⟩ := ready_rides R h.allTrack hl hn
  obtain rfl := rightLine_unique h1 (rides_rightLine hm)
  obtain ⟨k1, q1, rfl⟩ := placeAt_some h2
  obtain ⟨k2, q2, rfl⟩ := placeAt_some h3
  exact ahead_stays hm q1 q2 (hF t ht hl i hn _ _ _ h1 (by unfold placeAt; rw [q1]) (by unfold placeAt; rw [q2]))
    (fun x e1 e2 => (h.lasting hi hmin ht hl x e1 e2).ne') u hu hu'

/-- and forward they are at all events -/
theorem general_forward : ∀ {n : ℕ} {now : K} {s : St K} {trace : List (Event K × K)},
    GeneralRun dt depth skel s0 n now s trace → Forward (· ∈ s0.skTriangles) s now := by
  intro n
  induction n with
  | zero =>
    intro now s trace h
    obtain ⟨G, -⟩ := C90_sharp h
    obtain ⟨R, -, -⟩ := G.ready
    obtain ⟨s1, h1, hr⟩ := h.run.run
    cases hr
    obtain ⟨f1, f2, f3, f4, f5, f6⟩ := start_frame h1
    have hline := initEventList_line h1
    obtain ⟨pyid, tr, -, hs, rfl⟩ := h.start
    obtain ⟨ts, vs, nbr, unwanted, sorted, hd⟩ := initSkeleton_ok hs
    have pl : (prepare true tr skel).line = skel.line := by unfold prepare; cases tr <;> rfl
    have pv : (prepare true tr skel).vert = skel.vert := by unfold prepare; cases tr <;> rfl
    intro t ht hl i hn l p q e1 e2 e3
    obtain ⟨k1, k2, -, -, hk1, hk2, q1, -⟩ := R.undead.points R.mesh hl hn
    obtain ⟨k, a, e4, e5, rfl⟩ := e1
    rw [e4] at hk1
    cases hk1
    unfold placeAt at e2 e3
    rw [e4] at e2
    rw [hk2] at e3
    cases e2
    cases e3
    dsimp only at e4 hk2 ⊢
    rw [f1, pv] at e4 hk2
    obtain ⟨b, c, kb, g1, g2, g3, g4⟩ := hd.forward h.mesh.toDtOk h.lengths e4
    obtain ⟨y, hy, ey⟩ := rightRef_mem q1
    rw [g1, List.mem_singleton] at hy
    subst hy
    cases ey
    rw [hk2] at g3
    cases g3
    rw [g2] at e5
    cases e5
    rw [hline, pl]
    refine g4.le.trans (le_of_eq ?_)
    unfold pointAt
    simp only [zero_mul, add_zero, Prod.mk.eta]
  | succ n ih =>
    intro now' s' trace h
    obtain ⟨s1, h1, hr⟩ := h.run.run
    have hr0 := hr
    cases hr with
    | @step _ now _ s _ tr' e hr hs =>
      have hp := h.prefix (Nat.le_succ n) h1 hr
      have F := ih hp
      obtain ⟨G, S⟩ := C90_sharp hp
      obtain ⟨G', S'⟩ := C90_sharp h
      obtain ⟨St, -, C⟩ := S.steady
      obtain ⟨St', -, -⟩ := S'.steady
      have T := (C84_steady S).1.standing
      obtain ⟨R, hi, hgen⟩ := G.ready
      obtain ⟨R', -, -⟩ := G'.ready
      obtain ⟨-, -, -, c4⟩ := w_loopStep T.closed T.events hs
      have hnow : now ≤ now' := (wp_ok (i_loopStep depth (n + 1 : ℕ) hi) hs).2.2
      have F' : Forward (· ∈ s0.skTriangles) s now' := by
        rcases taken_min hi hs with q | ⟨q1, q2⟩
        · rw [q]; exact F
        · exact hp.forward_between F q1 q2 now' hnow le_rfl
      have ho := (G'.iteration h1 (Nat.lt_succ_self n) hr hs).1
      have hx := St'.exact.exact s1 h1 n (Nat.lt_succ_self n) _ _ _ _ _ _ hr hs
      have hcr := h.unblurred.sharp s1 h1 n (Nat.lt_succ_self n) _ _ _ _ _ _ hr hs
      have hn := loopStep_next hs
      obtain ⟨pyid, tr, -, hs0, hpre⟩ := id h.start
      obtain ⟨ts, vs, nbr, unwanted, sorted, hd⟩ := initSkeleton_ok hs0
      have w0 : Waves (InputLine dt) s0 := by rw [hpre]; exact (hd.waves h.mesh.toDtOk h.lengths).prepare true tr
      have a0 : Arcs s0 := by
        rw [hpre]; exact (hd.arcs h.mesh.toDtOk h.lengths h.angles h.spikes).prepare true tr
      have ha := execution_arcs h.angles w0 a0 St.exact
      have Rw : Ready (InputLine dt) s := ⟨R.mesh, R.undead, execution_waves w0 hp.run, R.slow⟩
      have Rw' : Ready (InputLine dt) s' := ⟨R'.mesh, R'.undead, execution_waves w0 h.run, R'.slow⟩
      obtain ⟨s2, h2, h3⟩ := loopStep_some hs
      obtain ⟨i1, ht, -, hlt⟩ := wp_ok (i_takeEvent hi) h2
      obtain ⟨q, i, rfl⟩ : ∃ q i, s2 = { s with queue := q, immediate := i } := by
        rcases takeEvent_run now s with ⟨x, r, -, hx⟩ | ⟨x, r, -, -, hx⟩ | ⟨-, -, hx⟩ <;> rw [hx] at h2 <;> cases h2
        · exact ⟨_, _, rfl⟩
        · exact ⟨_, _, rfl⟩
      subst ht
      have hap : Live s e.tri → Happens (viewT s e.tri) e.toEvCore := fun hl => C90_happens hp hs hcr hl.2
      exact forward_handleEvent h.angles i1 hlt c4 (Rw.queues q i) Rw' T.closed (ha.relinked (Relinked.of_mesh rfl)) h3
        ⟨ho.slow, ho.edge, ho.flip, ho.three⟩ (fun z => by obtain ⟨a1, a2, a3, a4⟩ := hx z; exact ⟨a1, a2, a3, a4⟩)
        (fun hl => (hgen e hn hl).queues q i) hap F'

end Grassfire
