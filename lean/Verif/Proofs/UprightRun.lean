/-
Triangles are not turned over in the time between two events (lemmas for C77).
-/
import Verif.Proofs.UprightSteps
import Verif.Proofs.AnchorInit
import Verif.Props.Freshness

set_option linter.unusedSectionVars false

namespace Grassfire

open Spec

variable {K : Type} [Field K] [LinearOrder K] [IsStrictOrderedRing K] [HasSqrt K] [SqrtUnit K] [HasTrig K]

/-- the event that is taken is at once or the earliest -/
theorem taken_min {N : Prop} {depth : ℕ} {step : ℤ} {s s' : St K} {now now' : K} {e : Event K} (i : Inv N now s)
    (hm : loopStep depth step now s = .ok (some (e, now'), s')) :
    now' = now ∨ s.immediate = [] ∧ ∀ f ∈ s.queue, now' ≤ f.time := by
  obtain ⟨s1, h1, -⟩ := loopStep_some hm
  rcases takeEvent_run now s with ⟨x, r, hq, hx⟩ | ⟨x, r, hi, hq, hx⟩ | ⟨-, -, hx⟩
  · rw [hx] at h1
    cases h1
    exact .inl rfl
  · rw [hx] at h1
    cases h1
    refine .inr ⟨hi, fun f hf => ?_⟩
    rw [hq] at hf
    rcases List.mem_cons.1 hf with rfl | hf
    · exact le_rfl
    · have ho := i.ordered
      rw [hq] at ho
      have := (List.pairwise_cons.1 ho).1 f hf
      rcases (C31_compare_iff _ _ _).1.1 this with h | h
      · exact h.le
      · exact h.1.le
  · rw [hx] at h1; cases h1

/-- the corners of the triangle are running, and not infinitely fast -/
def Mobile (s : St K) (t : TId) : Prop := ∀ i, ∃ k, s.vert ((s.tri t).vertices i) = .kin k ∧ k.infFast = false

theorem Mobile.view {s : St K} {t : TId} (h : Mobile s t) (i : Fin 3) :
    ((viewT s t).v i).kinetic = true ∧ ((viewT s t).v i).infFast = false := by
  obtain ⟨k, h1, h2⟩ := h i
  unfold viewT viewOf
  dsimp only
  rw [h1]
  exact ⟨rfl, h2⟩

theorem corner_place {s : St K} {t : TId} {i : Fin 3} {k : KVertex K} (h : s.vert ((s.tri t).vertices i) = .kin k)
    (u : K) : cornerAt (viewT s t) i u = pointAt k u := by
  unfold cornerAt viewT viewOf move pointAt
  dsimp only
  rw [h]

theorem placeAt_some {s : St K} {v : VId} {u : K} {p : Pt K} (h : placeAt s v u = some p) :
    ∃ k, s.vert v = .kin k ∧ p = pointAt k u := by
  unfold placeAt at h
  cases q : s.vert v with
  | inf o => rw [q] at h; cases h
  | kin k => rw [q] at h; cases h; exact ⟨k, rfl, rfl⟩

/-- before the time of the next event no area vanishes -/
theorem area_stays {s : St K} {t : TId} {now now' : K} {W : Prop} (hl : Live s t) (hk : Mobile s t)
    (hcert : Certified W now s t) (hclear : ClearTriangle W s t) (hi : s.immediate = []) (hmin : ∀ f ∈ s.queue, now' ≤ f.time)
    (hroot : ∀ x, now ≤ x → areaAt (viewT s t) x = 0 → 1 / 10 ^ 10 < x) (x : K) (hx : now ≤ x) (hx' : x < now')
    (hz : areaAt (viewT s t) x = 0) (y : K) : areaAt (viewT s t) y = 0 := by
  by_contra hy
  have hlate := hroot x hx hz
  have h0 : (0 : K) ≤ x := le_of_lt (lt_of_le_of_lt (by positivity) hlate)
  have adm : ∀ t0 sv, t0 ≤ now → (sv = .gt → t0 = 0) → Admitted sv t0 x := by
    intro t0 sv h1 h2
    cases sv with
    | gte => exact h1.trans hx
    | gt =>
      rw [h2 rfl]
      show (0 : K) + 1 / 10 ^ 10 < x
      rw [zero_add]
      exact hlate
  have hst : ∀ nb, ({ viewT s t with noNeighbour := nb } : TView K).stopped = false := by
    intro nb
    show (s.tri t).stopsAt.isSome = false
    rw [hl.2]
    rfl
  have key : ∀ nb t0 sv r, t0 ≤ now → (sv = .gt → t0 = 0) → ClearMotion { viewT s t with noNeighbour := nb } →
      computeCollapse { viewT s t with noNeighbour := nb } t0 sv = .ok r → ∃ e, r = some e ∧ e.time ≤ x :=
    fun nb t0 sv r h1 h2 h3 h4 => area_root h4 (hst nb) (fun i => hk.view i) h3 (adm t0 sv h1 h2) h0 hz ⟨y, hy⟩
  have full := hclear _ (.inl fun _ => rfl)
  rcases hcert with ⟨f, hf, -, t0, h1, sv, h2, hc⟩ | ⟨f, hf, -⟩ | ⟨-, -, hidle⟩
  · obtain ⟨g, hg, hle⟩ := key _ t0 sv _ h1 h2 full hc
    rw [← Option.some.inj hg] at hle
    exact absurd (lt_of_le_of_lt hle hx') (not_lt.2 (hmin f hf))
  · rw [hi] at hf; cases hf
  · rcases hidle with (⟨i, q⟩ | ⟨t0, h1, sv, h2, hc⟩) | ⟨hw, hev, nb, hnb, ⟨i, q⟩ | ⟨t0, h1, sv, h2, hc⟩⟩
    · rw [(hk.view i).2] at q; cases q
    · obtain ⟨g, hg, -⟩ := key _ t0 sv _ h1 h2 full hc
      cases hg
    · rw [show ({ viewT s t with noNeighbour := nb } : TView K).v i = (viewT s t).v i from rfl, (hk.view i).2] at q
      cases q
    · obtain ⟨g, hg, -⟩ := key nb t0 sv _ h1 h2 (hclear nb (.inr ⟨hw, hev, hnb⟩)) hc
      cases hg

/-- so the triangle is upright until the next event -/
theorem upright_stays {s : St K} {t : TId} {now now' : K} {W : Prop} (hl : Live s t) (hk : Mobile s t)
    (hcert : Certified W now s t) (hclear : ClearTriangle W s t) (hi : s.immediate = []) (hmin : ∀ f ∈ s.queue, now' ≤ f.time)
    (hroot : ∀ x, now ≤ x → areaAt (viewT s t) x = 0 → 1 / 10 ^ 10 < x) (h0 : 0 ≤ areaAt (viewT s t) now) (u : K)
    (hu : now ≤ u) (hu' : u ≤ now') :
    0 ≤ areaAt (viewT s t) u ∧ (u < now' → 0 < areaAt (viewT s t) u ∨ ∀ x, areaAt (viewT s t) x = 0) := by
  have key := area_stays hl hk hcert hclear hi hmin hroot
  by_cases hz : ∀ x, areaAt (viewT s t) x = 0
  · exact ⟨(hz u).ge, fun _ => .inr hz⟩
  have hno : ∀ x, now ≤ x → x < now' → areaAt (viewT s t) x ≠ 0 := fun x h1 h2 h3 => hz (key x h1 h2 h3)
  by_cases hnn : now < now'
  · have hpos : 0 < areaAt (viewT s t) now := lt_of_le_of_ne h0 (Ne.symm (hno now le_rfl hnn))
    obtain ⟨q1, q2⟩ := area_no_root (hclear _ (.inl fun _ => rfl)) hu hpos fun x h1 h2 => hno x h1 (h2.trans_le hu')
    exact ⟨q1, fun h => .inl (q2 (hno u hu h))⟩
  · obtain rfl : u = now := le_antisymm (hu'.trans (not_lt.1 hnn)) hu
    exact ⟨h0, fun h => absurd h hnn⟩

/-- the initial state of the loop differs from that before in the events only -/
theorem start_frame {s0 s1 : St K} (h1 : initEventList s0 = .ok ((), s1)) : s1.vert = s0.vert ∧ s1.nV = s0.nV ∧
    s1.nT = s0.nT ∧ (∀ x, (s1.tri x).vertices = (s0.tri x).vertices) ∧ (∀ x, (s1.tri x).stopsAt = (s0.tri x).stopsAt) ∧
    s1.skTriangles = s0.skTriangles := by
  have c : SameCore s0 s1 ∧ s1.skTriangles = s0.skTriangles := by
    unfold initEventList at h1
    obtain ⟨_, s2, h2, hm⟩ := bind_run_ok.1 h1
    cases h2
    obtain ⟨_, s2, h2, hm⟩ := bind_run_ok.1 hm
    cases h2
    have c : Keeps (SameCore (K := K)) (forEach initEvent s0.skTriangles) := Keeps.forEach sameCorePre (fun t => c_initEvent t) _
    have := c _ _ _ hm
    exact ⟨this, this.apply (fun y : St K => y.skTriangles)⟩
  exact ⟨c.1.vert, c.1.nV, c.1.nT, c.1.vertices, fun x => c.1.apply (fun y : St K => (y.tri x).stopsAt), c.2⟩

theorem Spec.Tidy.prefix {depth : ℕ} {s0 : St K} {m n : ℕ} (hm : m ≤ n) (h : Tidy depth s0 n) : Tidy depth s0 m :=
  fun s1 h1 k hk => h s1 h1 k (Nat.lt_of_lt_of_le hk hm)

theorem Spec.ClearTriangle.prefix {depth : ℕ} {s0 s : St K} {m n : ℕ} {t : TId} (hm : m ≤ n)
    (h : ClearTriangle (¬ Tidy depth s0 n) s t) : ClearTriangle (¬ Tidy depth s0 m) s t :=
  fun nb hnb => h nb (hnb.imp_right fun ⟨q1, q2⟩ => ⟨fun q => q1 (q.prefix hm), q2⟩)

/-- the beginning of a steady execution is one -/
theorem Spec.SteadyExecution.prefix {depth : ℕ} {s0 : St K} {n : ℕ} {now : K} {s : St K} {tr : List (Event K × K)}
    (h : SteadyExecution depth s0 n now s tr) {m : ℕ} (hm : m ≤ n) {s1 : St K} (h1 : initEventList s0 = .ok ((), s1))
    {x : K} {u : St K} {tr' : List (Event K × K)} (hr : Run depth { s1 with immediate := [] } 0 m x u tr') :
    SteadyExecution depth s0 m x u tr' := by
  obtain ⟨⟨o1, o2, s1', o3, -, o4⟩, ⟨⟨-, -⟩, e2⟩, hc, hs, hst, hcl, hev⟩ := h
  obtain rfl : s1' = s1 := by rw [h1] at o3; cases o3; rfl
  refine ⟨⟨o1, o2, s1', h1, hr, fun k hk => o4 k (Nat.lt_of_lt_of_le hk hm)⟩, ⟨⟨o1, s1', h1, hr⟩, fun z hz k hk => ?_⟩,
    hc, hs, hst,
    fun z hz k hk x u tr hr hi t ht hl hf => (hcl z hz k (hk.trans hm) x u tr hr hi t ht hl hf).prefix hm, fun z hz k hk => hev z hz k (Nat.lt_of_lt_of_le hk hm)⟩
  exact e2 z hz k (Nat.lt_of_lt_of_le hk hm)

/-- what holds between the iterations of a steady execution -/
structure Standing (S : TId → Prop) (n : ℕ) (now : K) (s : St K) : Prop where
  slow : ∀ v k, v < s.nV → s.vert v = .kin k → k.infFast = false
  closed : Closed S s
  events : ∀ e ∈ pending s, S e.tri
  upright : Upright S s now
  late : ∀ t, S t → Live s t → Mobile s t → ∀ x, now ≤ x → areaAt (viewT s t) x = 0 → 1 / 10 ^ 10 < x

/-- and until the next event -/
theorem standing_between {depth : ℕ} {s0 : St K} {n : ℕ} {now now' : K} {s s' : St K}
    {tr : List (Event K × K)} {e : Event K} (h : SteadyExecution depth s0 n now s tr)
    (hT : Standing (· ∈ s0.skTriangles) n now s) (hm : loopStep depth (n + 1 : ℕ) now s = .ok (some (e, now'), s'))
    {t : TId} (ht : t ∈ s0.skTriangles) (hl : Live s t) (hk : Mobile s t) (u : K) (hu : now ≤ u) (hu' : u ≤ now') :
    0 ≤ areaAt (viewT s t) u ∧ (u < now' → 0 < areaAt (viewT s t) u ∨ ∀ x, areaAt (viewT s t) x = 0) := by
  have cert := (C66_events_current_partial depth n s0 s now tr h.ordinary).2 t ht hl.2
  obtain ⟨hi, hM, -⟩ := ordinary_inv h.ordinary
  have h0 : 0 ≤ areaAt (viewT s t) now := by
    obtain ⟨k0, q0, -⟩ := hk 0
    obtain ⟨k1, q1, -⟩ := hk 1
    obtain ⟨k2, q2, -⟩ := hk 2
    unfold areaAt
    rw [corner_place q0, corner_place q1, corner_place q2]
    exact hT.upright t ht hl _ _ _ (by unfold placeAt; rw [q0]) (by unfold placeAt; rw [q1]) (by unfold placeAt; rw [q2])
  rcases taken_min hi hm with q | ⟨q1, q2⟩
  · subst q
    obtain rfl := le_antisymm hu' hu
    exact ⟨h0, fun q => absurd q (lt_irrefl _)⟩
  · have hclear : ClearTriangle (¬ Tidy depth s0 n) s t := by
      obtain ⟨s1, h1, hr⟩ := h.exact.execution.run
      exact h.clear s1 h1 n le_rfl _ _ _ hr q1 t ht hl fun i => by
        obtain ⟨k, q, -⟩ := hk i
        exact ⟨hM.vertices t hl.1 i, k, q⟩
    exact upright_stays hl hk cert hclear q1 q2 (hT.late t ht hl hk) h0 u hu hu'

theorem steady_standing {P : Line2 K → Prop} (hP : Clear P) {depth : ℕ} {s0 : St K} (w : Waves P s0) (a : Arcs s0) :
    ∀ {n : ℕ} {now : K} {s : St K} {tr : List (Event K × K)}, SteadyExecution depth s0 n now s tr →
      Standing (· ∈ s0.skTriangles) n now s := by
  intro n
  induction n with
  | zero =>
    intro now s tr h
    obtain ⟨s1, h1, hr⟩ := h.exact.execution.run
    cases hr
    obtain ⟨f1, f2, f3, f4, f5, f6⟩ := start_frame h1
    obtain ⟨w1, w2, w3⟩ := within_start h1 h.closed fun t ht => ht
    have hpos : ∀ t, t ∈ s0.skTriangles → Live { s1 with immediate := [] } t → ∀ x, 0 ≤ x → x ≤ 1 / 10 ^ 10 → ∀ a b c,
        placeAt { s1 with immediate := [] } ((s1.tri t).vertices 0) x = some a →
        placeAt { s1 with immediate := [] } ((s1.tri t).vertices 1) x = some b →
        placeAt { s1 with immediate := [] } ((s1.tri t).vertices 2) x = some c → 0 < area2 a b c := by
      intro t ht hl x hx hx' a b c q0 q1 q2
      unfold placeAt at q0 q1 q2
      dsimp only at q0 q1 q2
      rw [f1, f4] at q0 q1 q2
      exact h.start t ht ⟨f3 ▸ hl.1, (f5 t).symm.trans hl.2⟩ x hx hx' a b c q0 q1 q2
    refine ⟨fun v k hv hk => ?_, w1, fun e he => w3 e (by simpa [pending] using he), fun t ht hl a b c q0 q1 q2 => ?_,
      fun t ht hl hk x hx hz => ?_⟩
    · dsimp only at hv hk
      rw [f1] at hk
      rw [f2] at hv
      exact h.slow v k hv hk
    · exact (hpos t ht hl 0 le_rfl (by positivity) a b c q0 q1 q2).le
    · by_contra hlt
      obtain ⟨k0, q0, -⟩ := hk 0
      obtain ⟨k1, q1, -⟩ := hk 1
      obtain ⟨k2, q2, -⟩ := hk 2
      have := hpos t ht hl x hx (not_lt.1 hlt) (pointAt k0 x) (pointAt k1 x) (pointAt k2 x) (by unfold placeAt; rw [q0])
        (by unfold placeAt; rw [q1]) (by unfold placeAt; rw [q2])
      unfold areaAt at hz
      rw [corner_place q0, corner_place q1, corner_place q2] at hz
      exact this.ne' hz
  | succ n ih =>
    intro now' s' tr h
    obtain ⟨s1, h1, hr⟩ := h.exact.execution.run
    cases hr with
    | @step _ now _ s _ tr' e hr hs =>
      have hp := h.prefix (Nat.le_succ n) h1 hr
      have hT := ih hp
      obtain ⟨hi, hM, -⟩ := ordinary_inv hp.ordinary
      obtain ⟨c1, -, c3, c4⟩ := w_loopStep hT.closed hT.events hs
      obtain ⟨hfl, hlate⟩ := h.events s1 h1 n (Nat.lt_succ_self n) _ _ _ _ _ _ hr hs
      have ho : Ordinary s s' e := by
        obtain ⟨-, -, s1', o3, -, o4⟩ := h.ordinary
        obtain rfl : s1' = s1 := by rw [h1] at o3; cases o3; rfl
        exact o4 n (Nat.lt_succ_self n) _ _ _ _ _ _ hr hs
      have hx := h.exact.exact s1 h1 n (Nat.lt_succ_self n) _ _ _ _ _ _ hr hs
      have ha := execution_arcs hP w a hp.exact
      have hw := execution_waves w hp.exact.execution
      have hnow : now ≤ now' := by
        have := (wp_ok (i_loopStep depth (n + 1 : ℕ) hi) hs)
        exact this.2.2
      have slow' : ∀ v k, v < s'.nV → s'.vert v = .kin k → k.infFast = false := by
        intro v k hv hk
        by_cases hlt : v < s.nV
        · have g := g_loopStep _ _ _ _ _ _ hs
          have hb := g.vert v hlt
          rw [hk] at hb
          cases q : s.vert v with
          | inf o => rw [q] at hb; exact hb.elim
          | kin k0 =>
            rw [q] at hb
            have hb : SameBirth k0 k := hb
            rw [hb.infFast]
            exact hT.slow v k0 hlt q
        · exact ho.slow v k (Nat.le_of_not_lt hlt) hv hk
      refine ⟨slow', c1, c3, ?_, fun t ht hl hk x hx' _ => lt_of_lt_of_le hlate hx'⟩
      -- all triangles are upright at the time of the event
      have hU : Upright (· ∈ s0.skTriangles) s now' := by
        intro t ht hl p q r e0 e1 e2
        obtain ⟨k0, q0, rfl⟩ := placeAt_some e0
        obtain ⟨k1, q1, rfl⟩ := placeAt_some e1
        obtain ⟨k2, q2, rfl⟩ := placeAt_some e2
        have hk : Mobile s t := by
          intro i
          have hv := hM.vertices t hl.1 i
          fin_cases i
          · exact ⟨k0, q0, hT.slow _ _ hv q0⟩
          · exact ⟨k1, q1, hT.slow _ _ hv q1⟩
          · exact ⟨k2, q2, hT.slow _ _ hv q2⟩
        have := (standing_between hp hT hs ht hl hk now' hnow le_rfl).1
        unfold areaAt at this
        rw [corner_place q0, corner_place q1, corner_place q2] at this
        exact this
      obtain ⟨s2, h2, h3⟩ := loopStep_some hs
      obtain ⟨i1, ht, -, hlt⟩ := wp_ok (i_takeEvent hi) h2
      obtain ⟨q, i, rfl⟩ : ∃ q i, s2 = { s with queue := q, immediate := i } := by
        rcases takeEvent_run now s with ⟨x, r, -, hx⟩ | ⟨x, r, -, -, hx⟩ | ⟨-, -, hx⟩ <;> rw [hx] at h2 <;> cases h2
        · exact ⟨_, _, rfl⟩
        · exact ⟨_, _, rfl⟩
      have hM1 : Mesh { s with queue := q, immediate := i } := ⟨hM.consistent, hM.distinct, hM.vertices⟩
      subst ht
      exact upright_handleEvent hP i1 hlt c4 hM1 hT.closed (ha.relinked (Relinked.of_mesh rfl))
        (hw.quiet (quiet_queues s q i)) h3 ⟨ho.slow, ho.edge, ho.flip, ho.three⟩
        (fun z => by obtain ⟨a1, a2, a3, a4⟩ := hx z; exact ⟨a1, a2, a3, a4⟩) (fun z => hfl z) hU

end Grassfire
