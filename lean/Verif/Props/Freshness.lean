/-
C66: the pending event of each triangle is the one of the triangle as it is.
C67: what the handlers can rely on of the event they are given.
C68: no vanishing of a wavefront side is passed over.
-/
import Verif.Proofs.FreshEvents
import Verif.Props.Earliest
import Verif.Spec.InitialCheck

set_option linter.unusedSectionVars false

namespace Grassfire

open Spec

variable {K : Type} [Field K] [LinearOrder K] [IsStrictOrderedRing K] [HasSqrt K] [SqrtUnit K] [HasTrig K]

theorem c_initEvent (t : TId) : Keeps (SameCore (K := K)) (initEvent t) := by
  unfold initEvent
  exact Keeps.bind sameCorePre (c_computeCollapseTime t 0 .gt) fun e => c_addEvent e

/-- the initial state of the loop -/
theorem fresh_start (W : Prop) {s0 s1 : St K} (h : Initial s0) (hM : Mesh s0) (h1 : initEventList s0 = .ok ((), s1)) :
    Inv (Numbered s0) 0 { s1 with immediate := [] } ∧ Mesh { s1 with immediate := [] } ∧
      Fresh W (fun t => t ∉ s0.skTriangles) 0 { s1 with immediate := [] } ∧ s1.skTriangles = s0.skTriangles := by
  have i1 := wp_ok (i_initEventList h) h1
  have hm := h1
  unfold initEventList at hm
  obtain ⟨_, s2, h2, hm⟩ := bind_run_ok.1 hm
  cases h2
  obtain ⟨_, s2, h2, hm⟩ := bind_run_ok.1 hm
  cases h2
  have g : Keeps (Grows (K := K)) (forEach initEvent s0.skTriangles) := Keeps.forEach growsPre (fun t => g_initEvent t) _
  have c : Keeps (SameCore (K := K)) (forEach initEvent s0.skTriangles) := Keeps.forEach sameCorePre (fun t => c_initEvent t) _
  have hM0 : Mesh { s0 with queue := [] } := ⟨hM.consistent, hM.distinct, hM.vertices⟩
  have hM1 := mesh_core hM0 (c _ _ _ hm)
  have f1 := fr_initEvents (W := W) s0.skTriangles h.triangles (D := fun t => t ∉ s0.skTriangles) h.inv
    (fun t ht => ⟨h.refs.skTriangles t ht, h.events t (h.refs.skTriangles t ht)⟩)
    (fun t _ _ hd => by
      by_cases q : t ∈ s0.skTriangles
      · exact absurd (.inr q) hd
      · exact absurd (.inl q) hd) hm
  -- nothing waits in `immediate`
  have hi : s1.immediate = [] := by
    have : ∀ (ts : List TId) {s s' : St K} {a : Unit}, forEach initEvent ts s = .ok (a, s') → s.immediate = [] → s'.immediate = [] := by
      intro ts
      induction ts with
      | nil => intro s s' a q hs; obtain rfl := (pure_run_ok.1 q).2; exact hs
      | cons t ts ih =>
        intro s s' a q hs
        obtain ⟨_, s2, h2, q⟩ := bind_run_ok.1 q
        refine ih q ?_
        have h2' : (computeCollapseTime t 0 .gt >>= addEvent) s = .ok (_, s2) := h2
        unfold computeCollapseTime at h2'
        obtain ⟨o, s3, h3, h4⟩ := bind_run_ok.1 h2'
        obtain ⟨view, s4, h5, h6⟩ := bind_run_ok.1 h3
        obtain ⟨-, -, rfl⟩ := triView_run_ok.1 h5
        obtain ⟨c, s5, h7, h8⟩ := bind_run_ok.1 h6
        obtain ⟨-, rfl⟩ := lift_run_ok.1 h7
        have e3 : s3.immediate = s.immediate := by
          cases c with
          | none => cases h8; rfl
          | some c =>
            unfold storeEvent at h8
            obtain ⟨e', s4, h7, h8⟩ := bind_run_ok.1 h8
            obtain ⟨rfl, rfl⟩ := newEvent_run_ok.1 h7
            obtain ⟨_, s5, h9, h10⟩ := bind_run_ok.1 h8
            obtain ⟨-, rfl⟩ := pure_run_ok.1 h10
            unfold setEvent at h9
            obtain ⟨-, rfl⟩ := modifyT_run_ok.1 h9
            rfl
        have e4 : s2.immediate = s3.immediate := by
          cases o with
          | none => cases h4; rfl
          | some e =>
            unfold addEvent queueAdd at h4
            dsimp only at h4
            split_ifs at h4
            cases h4; rfl
        rw [e4, e3, hs]
    exact this _ hm h.immediate
  have hs : ({ s1 with immediate := [] } : St K) = s1 := by rw [← hi]
  rw [hs]
  exact ⟨i1, hM1, f1, (g _ _ _ hm).skTriangles⟩

theorem ordinary_inv {depth n : ℕ} {s0 s : St K} {now : K} {tr : List (Event K × K)}
    (h : OrdinaryExecution depth s0 n now s tr) :
    Inv (Numbered s0) now s ∧ Mesh s ∧ Fresh (¬ Tidy depth s0 n) (fun t => t ∉ s0.skTriangles) now s := by
  obtain ⟨hI, hM, s1, h1, hr, ho⟩ := h
  obtain ⟨i1, m1, f1, -⟩ := fresh_start (¬ Tidy depth s0 n) hI hM h1
  refine ⟨(run_inv hr i1).1, ?_⟩
  have : ∀ {m : ℕ} {x : K} {u : St K} {tr' : List (Event K × K)}, Run depth { s1 with immediate := [] } 0 m x u tr' →
      m ≤ n → Mesh u ∧ Fresh (¬ Tidy depth s0 n) (fun t => t ∉ s0.skTriangles) x u := by
    intro m x u tr' hr'
    induction hr' with
    | start => intro _; exact ⟨m1, f1⟩
    | @step m x x' u u' tr' e hr' hs ih =>
      intro hm
      obtain ⟨a, b⟩ := ih (Nat.le_of_succ_le hm)
      exact fr_loopStep (run_inv hr' i1).1 a b hs (ho m hm _ _ _ _ _ _ hr' hs)
        ((em _).symm.imp_right fun q => q s1 h1 m hm _ _ _ _ _ _ hr' hs)
  exact this hr le_rfl

/-! ### C66 -/

/-- C66 for ordinary executions: after each iteration, each triangle of the skeleton that has not been stopped is
certified: its pending event is the one that collapse.py computes for the triangle with its present vertices and
neighbours; when it has none, then nothing is to be expected.  The triangulation is consistent.  (The full claim is for
all executions; not covered are iterations in which parallel wavefronts meet, and those that meet two sides with the same
ends.) -/
theorem C66_events_current_partial (depth n : ℕ) (s0 s : St K) (now : K) (tr : List (Event K × K))
    (h : OrdinaryExecution depth s0 n now s tr) :
    Mesh s ∧ ∀ t ∈ s0.skTriangles, (s.tri t).stopsAt = none → Certified (¬ Tidy depth s0 n) now s t := by
  obtain ⟨i, m, f⟩ := ordinary_inv h
  refine ⟨m, fun t ht hl => f t ?_ hl (fun q => q ht)⟩
  obtain ⟨hI, hM, s1, h1, hr, -⟩ := h
  obtain ⟨i1, -, -, -⟩ := fresh_start True hI hM h1
  have hn : s.nT = s0.nT := by
    have g1 : s1.nT = s0.nT := by
      unfold initEventList at h1
      obtain ⟨_, s2, h2, hm⟩ := bind_run_ok.1 h1
      cases h2
      obtain ⟨_, s2, h2, hm⟩ := bind_run_ok.1 hm
      cases h2
      have g : Keeps (Grows (K := K)) (forEach initEvent s0.skTriangles) := Keeps.forEach growsPre (fun t => g_initEvent t) _
      exact (g _ _ _ hm).nT
    have : ∀ {m : ℕ} {x : K} {u : St K} {tr' : List (Event K × K)}, Run depth { s1 with immediate := [] } 0 m x u tr' →
        u.nT = s0.nT := by
      intro m x u tr' hr'
      induction hr' with
      | start => exact g1
      | step hr' hs ih => exact (g_loopStep _ _ _ _ _ _ hs).nT.trans ih
    exact this hr
  rw [hn]
  exact hI.refs.skTriangles t ht

/-- the event that is taken is the only one of its triangle -/
theorem taken_certified {N W : Prop} {depth : ℕ} {step : ℤ} {s s' : St K} {now now' : K} {e : Event K} (i : Inv N now s)
    (hm : loopStep depth step now s = .ok (some (e, now'), s')) (hc : Certified W now s e.tri) :
    (s.immediate = [] ∧ Computed now (viewT s e.tri) e.toEvCore ∧ e.time = now' ∧ ∀ f ∈ s.queue, e.time ≤ f.time) ∨
    Immediate (viewT s e.tri) e.toEvCore ∧ e.time = now ∧ now' = now ∧ e ∈ s.immediate := by
  obtain ⟨s1, h1, -⟩ := loopStep_some hm
  have cur : ∀ f ∈ pending s, (s.tri f.tri).event = some f := fun f hf => (i.current f hf).2
  have same : ∀ f ∈ pending s, e ∈ pending s → f.tri = e.tri → f = e := by
    intro f hf he ht
    have h1 := cur f hf
    rw [ht, cur e he] at h1
    exact (Option.some.inj h1).symm
  rcases takeEvent_run now s with ⟨x, r, hq, hx⟩ | ⟨x, r, hi, hq, hx⟩ | ⟨-, -, hx⟩
  · rw [hx] at h1
    cases h1
    have hei : e ∈ s.immediate := by rw [hq]; exact List.mem_cons_self ..
    have he : e ∈ pending s := List.mem_append_left _ hei
    right
    refine ⟨?_, i.immediate e hei, rfl, hei⟩
    rcases hc with ⟨f, hf, ht, -⟩ | ⟨f, hf, ht, c⟩ | ⟨-, h, -⟩
    · have hfe := same f (List.mem_append_right _ hf) he ht
      subst hfe
      have hnd := i.once
      unfold pending at hnd
      rw [List.map_append] at hnd
      exact absurd rfl ((List.nodup_append.1 hnd).2.2 _ (List.mem_map_of_mem hei) _ (List.mem_map_of_mem hf))
    · rw [← same f (List.mem_append_left _ hf) he ht]; rw [ht]; exact c
    · exact absurd rfl (h e hei)
  · rw [hx] at h1
    cases h1
    have hei : e ∈ s.queue := by rw [hq]; exact List.mem_cons_self ..
    have he : e ∈ pending s := List.mem_append_right _ hei
    left
    refine ⟨hi, ?_, rfl, fun f hf => ?_⟩
    · rcases hc with ⟨f, hf, ht, c⟩ | ⟨f, hf, ht, c⟩ | ⟨h, -, -⟩
      · rw [← same f (List.mem_append_right _ hf) he ht]; rw [ht]; exact c
      · rw [hi] at hf; cases hf
      · exact absurd rfl (h e hei)
    · rw [hq] at hf
      rcases List.mem_cons.1 hf with rfl | hf
      · exact le_rfl
      · have ho := i.ordered
        rw [hq] at ho
        have := (List.pairwise_cons.1 ho).1 f hf
        rcases (C31_compare_iff _ _ _).1.1 this with h | h
        · exact h.le
        · exact h.1.le
  · rw [hx] at h1; cases h1

/-- C66, the event that is handled next: it is the event of its triangle as the triangle is at this moment, unless the
triangle has been stopped before (then it is skipped, C25). -/
theorem C66_handled_partial (depth n : ℕ) (s0 s s' : St K) (now now' : K) (tr : List (Event K × K)) (e : Event K)
    (h : OrdinaryExecution depth s0 n now s tr) (hm : loopStep depth (n + 1 : ℕ) now s = .ok (some (e, now'), s'))
    (ht : e.tri ∈ s0.skTriangles) (hl : (s.tri e.tri).stopsAt = none) :
    Computed now (viewT s e.tri) e.toEvCore ∧ e.time = now' ∨
    Immediate (viewT s e.tri) e.toEvCore ∧ e.time = now ∧ now' = now := by
  have hc := (C66_events_current_partial depth n s0 s now tr h).2 _ ht hl
  rcases taken_certified (ordinary_inv h).1 hm hc with ⟨-, a, b, -⟩ | ⟨a, b, c, -⟩
  · exact .inl ⟨a, b⟩
  · exact .inr ⟨a, b, c⟩

/-! ### C67 -/

/-- C67 for ordinary executions: when the event that is handled next is a split event, then the side that is hit is a
wavefront edge at this moment (so the assertion of `handle_split_event` does not fail); when it is an edge event of the
queue, it names one side or all three; the type recorded in the event is the present number of wavefront edges of the
triangle. -/
theorem C67_shape_partial (depth n : ℕ) (s0 s s' : St K) (now now' : K) (tr : List (Event K × K)) (e : Event K)
    (h : OrdinaryExecution depth s0 n now s tr) (hm : loopStep depth (n + 1 : ℕ) now s = .ok (some (e, now'), s'))
    (ht : e.tri ∈ s0.skTriangles) (hl : (s.tri e.tri).stopsAt = none) :
    e.triTp = (Finset.univ.filter fun i => (s.tri e.tri).neighbours i = none).card ∧
    (e.tp = .split → ∃ i, e.side = [i] ∧ (s.tri e.tri).neighbours i = none) ∧
    (e.tp = .flip → ∃ i, e.side = [i]) ∧
    (e.tp = .edge → e.side.length = 1 ∨ e.side.length = 3 ∨ now' = now) := by
  have hn : ∀ i, (viewT s e.tri).noNeighbour i = true ↔ (s.tri e.tri).neighbours i = none :=
    fun i => Option.isNone_iff_eq_none
  rcases C66_handled_partial depth n s0 s s' now now' tr e h hm ht hl with ⟨⟨t0, -, sv, -, hc⟩, -⟩ | ⟨⟨c, hc, he⟩, -, hnow⟩
  · obtain ⟨h1, -, -, h2, h3, h4⟩ := C22_event_shape _ _ _ _ hc
    refine ⟨?_, fun q => ?_, h4, fun q => (h2 q).imp_right .inl⟩
    · rw [h1]; simp only [hn]
    · obtain ⟨i, a, b⟩ := h3 q
      exact ⟨i, a, (hn i).1 b⟩
  · obtain ⟨h1, h2, -, -, -⟩ := C22_new_edge_event _ _ _ hc
    have htp : e.tp = .edge := by
      have := congrArg EvCore.tp he
      exact this.trans h1
    have htt : e.triTp = c.triTp := by rw [he]
    refine ⟨?_, fun q => ?_, fun q => ?_, fun _ => .inr (.inr hnow)⟩
    · rw [htt, h2]; simp only [hn]
    · rw [htp] at q; cases q
    · rw [htp] at q; cases q

/-! ### C68 -/

/-- common part: at a time before that of the next event, a triangle whose pending event has to come first has none -/
theorem passed_over {depth n : ℕ} {s0 s s' : St K} {now now' : K} {tr : List (Event K × K)} {e : Event K}
    (h : OrdinaryExecution depth s0 n now s tr) (hm : loopStep depth (n + 1 : ℕ) now s = .ok (some (e, now'), s'))
    (het : e.tri ∈ s0.skTriangles) (hel : (s.tri e.tri).stopsAt = none)
    (t : TId) (ht : t ∈ s0.skTriangles) (hl : (s.tri t).stopsAt = none) (hev : Tidy depth s0 n ∨ (s.tri t).event ≠ none)
    (hslow : ∀ i, ((viewT s t).v i).infFast = false) (u : K) (hu : now + 1 / 10 ^ 10 < u) (hu' : u < now')
    (hx : ∀ t0 sv r, Admitted sv t0 u → computeCollapse (viewT s t) t0 sv = .ok r → ∃ f, r = some f ∧ f.time ≤ u) :
    False := by
  have hpos : (0 : K) < 1 / 10 ^ 10 := by positivity
  have adm : ∀ t0 sv, t0 ≤ now → Admitted sv t0 u := by
    intro t0 sv h0
    cases sv with
    | gte => exact h0.trans ((le_add_of_nonneg_right hpos.le).trans hu.le)
    | gt => exact lt_of_le_of_lt (add_le_add_left h0 _) hu
  have cert := (C66_events_current_partial depth n s0 s now tr h).2
  rcases taken_certified (ordinary_inv h).1 hm (cert _ het hel) with ⟨hi, -, hnow', hmin⟩ | ⟨-, -, hnow', -⟩
  · rcases cert t ht hl with ⟨f, hf, -, t0, h0, sv, -, hc⟩ | ⟨f, hf, -⟩ | ⟨-, -, hidle⟩
    · obtain ⟨g, hg, hle⟩ := hx t0 sv _ (adm t0 sv h0) hc
      rw [← Option.some.inj hg] at hle
      have := hmin f hf
      rw [hnow'] at this
      exact absurd (this.trans hle) (not_le.2 hu')
    · rw [hi] at hf; cases hf
    · rcases hidle with (⟨i, q⟩ | ⟨t0, h0, sv, -, hc⟩) | ⟨q', q, -⟩
      · rw [hslow i] at q; cases q
      · obtain ⟨g, hg, -⟩ := hx t0 sv _ (adm t0 sv h0) hc
        cases hg
      · exact hev.elim q' fun p => p q
  · rw [hnow'] at hu'
    exact absurd (hu.trans hu') (not_lt.2 (le_add_of_nonneg_right hpos.le))

/-- C68 for ordinary executions, triangles with one wavefront side: between `NOW` and the time of the next event the side
does not vanish and the apex does not cross its support line. -/
theorem C68_one_triangle_partial (depth n : ℕ) (s0 s s' : St K) (now now' : K) (tr : List (Event K × K))
    (e : Event K) (h : OrdinaryExecution depth s0 n now s tr)
    (hm : loopStep depth (n + 1 : ℕ) now s = .ok (some (e, now'), s'))
    (het : e.tri ∈ s0.skTriangles) (hel : (s.tri e.tri).stopsAt = none)
    (t : TId) (ht : t ∈ s0.skTriangles) (hl : (s.tri t).stopsAt = none) (hev : Tidy depth s0 n ∨ (s.tri t).event ≠ none)
    (hfin : ∀ i, ((viewT s t).v i).kinetic = true ∧ ((viewT s t).v i).infFast = false)
    (ws : Fin 3) (hws : ∀ i, (s.tri t).neighbours i = none ↔ i = ws)
    (l : Line2 K) (hline : ((viewT s t).v (ws + 1)).ur = some l) (hunit : l.w.1 ^ 2 + l.w.2 ^ 2 = 1)
    (hon : l.signedDistance ((viewT s t).v (ws + 1)).origin = 0)
    (hside : Moving ((viewT s t).v (ws + 1)) ((viewT s t).v (ws + 2)))
    (happ : 1 / 10 ^ 10 < |1 - dot2 ((viewT s t).v ws).velocity l.w|)
    (u : K) (hu : now + 1 / 10 ^ 10 < u) (hu' : u < now') :
    ¬ Meet ((viewT s t).v (ws + 1)) ((viewT s t).v (ws + 2)) u ∧
    ∀ p lu, ((viewT s t).v ws).positionAt u = .ok p → l.atTime u = .ok lu → lu.signedDistance p ≠ 0 := by
  have key : ¬ (Meet ((viewT s t).v (ws + 1)) ((viewT s t).v (ws + 2)) u ∨
      ∃ p lu, ((viewT s t).v ws).positionAt u = .ok p ∧ l.atTime u = .ok lu ∧ lu.signedDistance p = 0) := by
    intro hcol
    refine passed_over h hm het hel t ht hl hev (fun i => (hfin i).2) u hu hu' fun t0 sv r ha hc => ?_
    refine C64_one_triangle (viewT s t) t0 sv r hc ?_ ?_ ws (fun i => ?_) (fun i => .inl (hfin i)) l hline hunit hon
      hside happ u ha hcol
    · unfold viewT; dsimp only; rw [hl]; rfl
    · unfold TView.isFinite; rw [(hfin 0).1, (hfin 1).1, (hfin 2).1]; rfl
    · rw [← hws i]; exact Option.isNone_iff_eq_none
  push Not at key
  exact ⟨key.1, fun p lu a b => key.2 p lu a b⟩

theorem type_card (t : TView K) : t.type = (Finset.univ.filter fun i => t.noNeighbour i = true).card := by
  unfold TView.type count3
  rw [Finset.card_filter, Fin.sum_univ_three]

theorem viewT_finite {s : St K} {t : TId} (hl : (s.tri t).stopsAt = none)
    (hfin : ∀ i, ((viewT s t).v i).kinetic = true ∧ ((viewT s t).v i).infFast = false) :
    (viewT s t).stopped = false ∧ (viewT s t).isFinite = true := by
  constructor
  · unfold viewT; dsimp only; rw [hl]; rfl
  · unfold TView.isFinite; rw [(hfin 0).1, (hfin 1).1, (hfin 2).1]; rfl

/-- C68 for ordinary executions, triangles with two wavefront sides: between `NOW` and the time of the next event none of
them vanishes.  (The two times are merged when they differ by less than 1e-7, see C64; `hsep` excludes that.) -/
theorem C68_two_triangle_partial (depth n : ℕ) (s0 s s' : St K) (now now' : K) (tr : List (Event K × K))
    (e : Event K) (h : OrdinaryExecution depth s0 n now s tr)
    (hm : loopStep depth (n + 1 : ℕ) now s = .ok (some (e, now'), s'))
    (het : e.tri ∈ s0.skTriangles) (hel : (s.tri e.tri).stopsAt = none)
    (t : TId) (ht : t ∈ s0.skTriangles) (hl : (s.tri t).stopsAt = none) (hev : Tidy depth s0 n ∨ (s.tri t).event ≠ none)
    (hfin : ∀ i, ((viewT s t).v i).kinetic = true ∧ ((viewT s t).v i).infFast = false)
    (htp : (Finset.univ.filter fun i => (s.tri t).neighbours i = none).card = 2)
    (i : Fin 3) (hi : (s.tri t).neighbours i = none)
    (hside : Moving ((viewT s t).v (i + 1)) ((viewT s t).v (i + 2)))
    (u : K) (hu : now + 1 / 10 ^ 10 < u) (hu' : u < now')
    (hsep : ∀ j, j ≠ i → (s.tri t).neighbours j = none →
      collapseTimeEdge ((viewT s t).v (j + 1)) ((viewT s t).v (j + 2)) < u →
      1 / 10 ^ 7 * |(u + collapseTimeEdge ((viewT s t).v (j + 1)) ((viewT s t).v (j + 2))) / 2| <
        u - collapseTimeEdge ((viewT s t).v (j + 1)) ((viewT s t).v (j + 2))) :
    ¬ Meet ((viewT s t).v (i + 1)) ((viewT s t).v (i + 2)) u := by
  intro hcol
  refine passed_over h hm het hel t ht hl hev (fun i => (hfin i).2) u hu hu' fun t0 sv r ha hc => ?_
  obtain ⟨h1, h2⟩ := viewT_finite hl hfin
  refine C64_two_triangle (viewT s t) t0 sv r hc h1 h2 ?_ (fun i => .inl (hfin i)) i
    (Option.isNone_iff_eq_none.2 hi) hside u ha hcol fun j hj hjn hna => ?_
  · rw [type_card, ← htp]
    congr 1
    ext j
    simp only [Finset.mem_filter, Finset.mem_univ, true_and]
    exact Option.isNone_iff_eq_none
  · refine hsep j hj (Option.isNone_iff_eq_none.1 hjn) ?_
    by_contra q
    rw [not_lt] at q
    refine hna ?_
    cases sv with
    | gte => exact le_trans ha q
    | gt => exact lt_of_lt_of_le ha q

/-- C68 for ordinary executions, triangles with three wavefront sides: between `NOW` and the time of the next event no
side vanishes.  (A side that vanishes at time 0 is not seen by the code, see C64.) -/
theorem C68_three_triangle_partial (depth n : ℕ) (s0 s s' : St K) (now now' : K) (tr : List (Event K × K))
    (e : Event K) (h : OrdinaryExecution depth s0 n now s tr)
    (hm : loopStep depth (n + 1 : ℕ) now s = .ok (some (e, now'), s'))
    (het : e.tri ∈ s0.skTriangles) (hel : (s.tri e.tri).stopsAt = none)
    (t : TId) (ht : t ∈ s0.skTriangles) (hl : (s.tri t).stopsAt = none) (hev : Tidy depth s0 n ∨ (s.tri t).event ≠ none)
    (hfin : ∀ i, ((viewT s t).v i).kinetic = true ∧ ((viewT s t).v i).infFast = false)
    (hws : ∀ i, (s.tri t).neighbours i = none)
    (h0 : ∀ j, collapseTimeEdge ((viewT s t).v (j + 1)) ((viewT s t).v (j + 2)) ≠ 0)
    (i : Fin 3) (hside : Moving ((viewT s t).v (i + 1)) ((viewT s t).v (i + 2)))
    (u : K) (hu : now + 1 / 10 ^ 10 < u) (hu' : u < now') :
    ¬ Meet ((viewT s t).v (i + 1)) ((viewT s t).v (i + 2)) u := by
  intro hcol
  refine passed_over h hm het hel t ht hl hev (fun i => (hfin i).2) u hu hu' fun t0 sv r ha hc => ?_
  obtain ⟨h1, h2⟩ := viewT_finite hl hfin
  refine C64_three_triangle (viewT s t) t0 sv r hc h1 h2 ?_ (fun i => .inl (hfin i)) i hside (fun j _ => h0 j) u ha hcol
  rw [type_card]
  have : ∀ j, (viewT s t).noNeighbour j = true := fun j => Option.isNone_iff_eq_none.2 (hws j)
  rw [Finset.filter_true_of_mem fun j _ => this j]
  rfl

/-! ### the hypotheses are met -/

/-- check of `Ordinary` -/
def ordinaryCheck (s s' : St ℚ) (e : Event ℚ) : Bool :=
  (List.range s'.nV).all (fun v => decide (v < s.nV) || !(Sample.kv s' v).infFast) &&
  (match e.tp with
  | .edge =>
    (match e.side with
    | [i] => decide (∀ j, (s.tri e.tri).neighbours j = none) || collapsibleCheck s e.tri i
    | _ => true) &&
    (decide (e.side.length ≠ 3) || decide (∀ i, (match (s.tri e.tri).neighbours i with
      | none => true
      | some n => (s.tri n).event.isSome) = true))
  | .flip => false
  | .split => true)

theorem ordinary_of_check {s s' : St ℚ} {e : Event ℚ} (h : ordinaryCheck s s' e = true) : Ordinary s s' e := by
  unfold ordinaryCheck at h
  rw [Bool.and_eq_true, List.all_eq_true] at h
  obtain ⟨h1, h2⟩ := h
  refine ⟨fun v k hv hv' hk => ?_, fun htp i hi hne => ?_, fun htp => ?_, fun htp h3 _ i n hn => ?_⟩
  · have := h1 v (List.mem_range.2 hv')
    rw [Bool.or_eq_true, decide_eq_true_eq] at this
    rcases this with q | q
    · exact absurd hv (Nat.not_le.2 q)
    · unfold Sample.kv at q
      rw [hk] at q
      simpa using q
  · rw [htp] at h2
    simp only [hi, Bool.and_eq_true, Bool.or_eq_true, decide_eq_true_eq] at h2
    rcases h2.1 with q | q
    · obtain ⟨j, hj⟩ := hne; exact absurd (q j) hj
    · exact collapsible_of_check q
  · rw [htp] at h2; cases h2
  · rw [htp] at h2
    simp only [Bool.and_eq_true, Bool.or_eq_true, decide_eq_true_eq] at h2
    have := h2.2.resolve_left (fun q => q h3) i
    rw [hn] at this
    exact this

/-- executions are deterministic -/
theorem run_unique {depth : ℕ} {s0 : St K} {now0 : K} {n : ℕ} {x x' : K} {u u' : St K} {tr tr' : List (Event K × K)}
    (h : Run depth s0 now0 n x u tr) (h' : Run depth s0 now0 n x' u' tr') : x = x' ∧ u = u' ∧ tr = tr' := by
  induction n generalizing x x' u u' tr tr' with
  | zero => cases h; cases h'; exact ⟨rfl, rfl, rfl⟩
  | succ n ih =>
    cases h with
    | step h hs =>
      cases h' with
      | step h' hs' =>
        obtain ⟨rfl, rfl, rfl⟩ := ih h h'
        rw [hs] at hs'
        cases hs'
        exact ⟨rfl, rfl, rfl⟩

/-- run `n` iterations from number `m` on, checking that they are ordinary; the state and the time at the end -/
def ordinaryRun (depth : ℕ) : ℕ → ℕ → ℚ → St ℚ → Option (ℚ × St ℚ)
  | 0, _, now, s => some (now, s)
  | n + 1, m, now, s =>
    match loopStep depth (m + 1 : ℕ) now s with
    | .ok (some (e, now'), s') => if ordinaryCheck s s' e then ordinaryRun depth n (m + 1) now' s' else none
    | _ => none

theorem ordinaryRun_run {depth : ℕ} {s0 : St ℚ} : ∀ (n m : ℕ) {now now' : ℚ} {s s' : St ℚ} {tr : List (Event ℚ × ℚ)},
    Run depth s0 0 m now s tr →
    (∀ k < m, ∀ x u tr' e x' u', Run depth s0 0 k x u tr' →
      loopStep depth (k + 1 : ℕ) x u = .ok (some (e, x'), u') → Ordinary u u' e) →
    ordinaryRun depth n m now s = some (now', s') →
    ∃ tr', Run depth s0 0 (m + n) now' s' tr' ∧ ∀ k < m + n, ∀ x u tr' e x' u', Run depth s0 0 k x u tr' →
      loopStep depth (k + 1 : ℕ) x u = .ok (some (e, x'), u') → Ordinary u u' e
  | 0, m, now, now', s, s', tr, hr, ho, h => by cases h; exact ⟨tr, hr, ho⟩
  | n + 1, m, now, now', s, s', tr, hr, ho, h => by
    unfold ordinaryRun at h
    split at h
    · rename_i e x s1 hs
      split_ifs at h with hc
      obtain ⟨tr', h1, h2⟩ := ordinaryRun_run n (m + 1) (hr.step hs) (fun k hk x u tr' e' x' u' hr' hs' => by
        rcases Nat.lt_succ_iff_lt_or_eq.1 hk with q | rfl
        · exact ho k q x u tr' e' x' u' hr' hs'
        · obtain ⟨rfl, rfl, rfl⟩ := run_unique hr hr'
          rw [hs] at hs'
          cases hs'
          exact ordinary_of_check hc) h
      have hmn : m + (n + 1) = m + 1 + n := by omega
      rw [hmn]
      exact ⟨tr', h1, h2⟩
    · cases h

/-- an ordinary execution, by evaluation -/
theorem ordinary_execution {depth n : ℕ} {s0 : St ℚ} (h1 : Sample.initialOk s0 = true) (h2 : meshCheck s0 = true)
    (h3 : Sample.outcome initEventList (fun _ _ => ()) s0 = some ())
    (h4 : (ordinaryRun depth n 0 0 { Sample.after initEventList s0 with immediate := [] }).isSome = true) :
    ∃ now s tr, ordinaryRun depth n 0 0 { Sample.after initEventList s0 with immediate := [] } = some (now, s) ∧
      OrdinaryExecution depth s0 n now s tr := by
  obtain ⟨⟨now, s⟩, h5⟩ := Option.isSome_iff_exists.1 h4
  obtain ⟨tr, h6, h7⟩ := ordinaryRun_run n 0 .start (fun k hk => absurd hk (Nat.not_lt_zero _)) h5
  rw [Nat.zero_add] at h6 h7
  have h3' : initEventList s0 = .ok ((), Sample.after initEventList s0) := by
    refine Sample.after_run ?_
    unfold Sample.outcome at h3 ⊢
    split at h3
    · rfl
    · cases h3
  exact ⟨now, s, tr, h5, Sample.initialOk_sound h1, mesh_of_check h2, _, h3', h6, h7⟩

/-- The complete runs of two examples are ordinary: an edge event, and the collapse of what is left; a split event, and
the collapse of the two parts. -/
example : ∃ now s tr, OrdinaryExecution 100 Sample.trapezoid 2 now s tr := by
  obtain ⟨now, s, tr, -, h⟩ := ordinary_execution (depth := 100) (n := 2) (s0 := Sample.trapezoid) (by decide +kernel)
    (by decide +kernel) (by decide +kernel) (by decide +kernel)
  exact ⟨now, s, tr, h⟩
example : ∃ now s tr, OrdinaryExecution 100 Sample.notched 3 now s tr := by
  obtain ⟨now, s, tr, -, h⟩ := ordinary_execution (depth := 100) (n := 3) (s0 := Sample.notched) (by decide +kernel)
    (by decide +kernel) (by decide +kernel) (by decide +kernel)
  exact ⟨now, s, tr, h⟩

namespace Sample

/-- the notched polygon at the start of the loop -/
def notchedStart : St ℚ := { after initEventList notched with immediate := [] }

theorem notched_execution : ∃ tr, OrdinaryExecution 100 notched 0 0 notchedStart tr := by
  obtain ⟨now, s, tr, h, hx⟩ := ordinary_execution (depth := 100) (n := 0) (s0 := notched) (by decide +kernel)
    (by decide +kernel) (by decide +kernel) (by decide +kernel)
  cases h
  exact ⟨tr, hx⟩

theorem notched_step : loopStep 100 ((0 + 1 : ℕ) : ℤ) 0 notchedStart =
    .ok (some (notchedEvent, 3 / 4), after (loopStep 100 ((0 + 1 : ℕ) : ℤ) 0) notchedStart) :=
  after_run (by decide +kernel)

end Sample

-- the event that is handled first; its triangle has one wavefront side, which is not hit before t = 3 / 4
example : Computed 0 (viewT Sample.notchedStart 0) Sample.notchedEvent.toEvCore ∧ Sample.notchedEvent.time = 3 / 4 ∨
    Immediate (viewT Sample.notchedStart 0) Sample.notchedEvent.toEvCore ∧ Sample.notchedEvent.time = 0 ∧ (3 / 4 : ℚ) = 0 := by
  obtain ⟨tr, h⟩ := Sample.notched_execution
  exact C66_handled_partial 100 0 _ _ _ 0 (3 / 4) tr _ h Sample.notched_step (by decide +kernel) (by decide +kernel)
example : Sample.notchedEvent.tp = .split ∧ (Sample.notchedStart.tri 0).neighbours 2 = none := by decide +kernel
example (u : ℚ) (hu : 1 / 10 ^ 10 < u) (hu' : u < 3 / 4) :
    ¬ Meet ((viewT Sample.notchedStart 0).v 0) ((viewT Sample.notchedStart 0).v 1) u := by
  obtain ⟨tr, h⟩ := Sample.notched_execution
  exact (C68_one_triangle_partial 100 0 _ _ _ 0 (3 / 4) tr _ h Sample.notched_step (by decide +kernel) (by decide +kernel)
    0 (by decide +kernel) (by decide +kernel) (.inr (by decide +kernel)) (by decide +kernel) 2 (by decide +kernel)
    ⟨(0, 1), 0⟩ (by decide +kernel) (by decide +kernel) (by decide +kernel) (by unfold Moving; decide +kernel)
    (by decide +kernel) u (by simpa using hu) hu').1
example (u : ℚ) (hu : 1 / 10 ^ 10 < u) (hu' : u < 3 / 4) :
    ¬ Meet ((viewT Sample.notchedStart 1).v 1) ((viewT Sample.notchedStart 1).v 2) u := by
  obtain ⟨tr, h⟩ := Sample.notched_execution
  refine C68_two_triangle_partial 100 0 _ _ _ 0 (3 / 4) tr _ h Sample.notched_step (by decide +kernel) (by decide +kernel)
    1 (by decide +kernel) (by decide +kernel) (.inr (by decide +kernel)) (by decide +kernel) (by decide +kernel)
    0 (by decide +kernel) (by unfold Moving; decide +kernel) u (by simpa using hu) hu' fun j h1 h2 h3 => ?_
  have : ∀ j, (Sample.notchedStart.tri 1).neighbours j = none → j ≠ 0 →
      3 / 4 < collapseTimeEdge ((viewT Sample.notchedStart 1).v (j + 1)) ((viewT Sample.notchedStart 1).v (j + 2)) := by
    decide +kernel
  exact absurd (h3.trans hu') (not_lt.2 (this j h2 h1).le)

/-- three wavefront sides: the triangle -/
example (u : ℚ) (hu : 1 / 10 ^ 10 < u) (hu' : u < 1) : ∃ s : St ℚ, (s.tri 0).neighbours 0 = none ∧
    ¬ Meet ((viewT s 0).v 1) ((viewT s 0).v 2) u := by
  obtain ⟨now, s, tr, h, hx⟩ := ordinary_execution (depth := 100) (n := 0) (s0 := Sample.triangle) (by decide +kernel)
    (by decide +kernel) (by decide +kernel) (by decide +kernel)
  cases h
  exact ⟨_, by decide +kernel, C68_three_triangle_partial 100 0 _ _ _ 0 1 tr
    { time := 1, side := [0, 1, 2], tp := .edge, triTp := 3, eid := 0, tri := 0 } hx (Sample.after_run (by decide +kernel))
    (by decide +kernel) (by decide +kernel) 0 (by decide +kernel) (by decide +kernel) (.inr (by decide +kernel)) (by decide +kernel)
    (by decide +kernel) (by decide +kernel) 0 (by unfold Moving; decide +kernel) u (by simpa using hu) hu'⟩

end Grassfire
