/-
C90: in general position the events are current, the wavefront is linked, and what happens is exact.
-/
import Verif.Proofs.GeneralRun
import Verif.Props.Sharp

set_option linter.unusedSectionVars false

namespace Grassfire

open Spec

variable {K : Type} [Field K] [LinearOrder K] [IsStrictOrderedRing K] [HasSqrt K] [SqrtUnit K] [HasTrig K]

/-- **C90.** Executions in general position are ordinary and plain, and the sides that vanish are wavefront edges: what
C66-C69 ask for need not be asked for separately. -/
theorem C90_ordinary {depth n : ℕ} {s0 s : St K} {now : K} {tr : List (Event K × K)}
    (h : GenericExecution depth s0 n now s tr) :
    OrdinaryExecution depth s0 n now s tr ∧ PlainExecution depth s0 n now s tr ∧ Tidy depth s0 n := by
  obtain ⟨s1, h1, hr, -⟩ := h.run
  have o : OrdinaryExecution depth s0 n now s tr :=
    ⟨h.start.initial, h.start.mesh, s1, h1, hr, fun m hm x u tr' e x' u' hr' hs => (h.iteration h1 hm hr' hs).1⟩
  refine ⟨o, ⟨o, h.start.linked, fun z hz m hm x u tr' e x' u' hr' hs q => ?_⟩,
    fun z hz m hm x u tr' e x' u' hr' hs htp q i hi hj => ?_⟩
  · obtain rfl : z = s1 := by rw [h1] at hz; cases hz; rfl
    exact ((h.iteration h1 hm hr' hs).2 q).2
  · obtain rfl : z = s1 := by rw [h1] at hz; cases hz; rfl
    exact generic_tidy ((h.iteration h1 hm hr' hs).2 q).1 htp hi hj

/-- **C90.** In general position, the pending event of each triangle of the skeleton that has not been stopped is the one
that `compute_collapse_time` finds for the triangle as it is now (or it has been scheduled to be handled at once); when
none is pending, then `compute_collapse_time` has found nothing for the triangle as it is now. -/
theorem C90_current {depth n : ℕ} {s0 s : St K} {now : K} {tr : List (Event K × K)}
    (h : GenericExecution depth s0 n now s tr) {t : TId} (ht : t ∈ s0.skTriangles) (hl : (s.tri t).stopsAt = none) :
    (∃ e ∈ s.queue, e.tri = t ∧ Computed now (viewT s t) e.toEvCore) ∨
    (∃ e ∈ s.immediate, e.tri = t ∧ Immediate (viewT s t) e.toEvCore) ∨
    (∀ e ∈ s.queue, e.tri ≠ t) ∧ (∀ e ∈ s.immediate, e.tri ≠ t) ∧
      ∃ t0, t0 ≤ now ∧ ∃ sv, (sv = .gt → t0 = 0) ∧ computeCollapse (viewT s t) t0 sv = .ok none := by
  obtain ⟨o, -, hT⟩ := C90_ordinary h
  obtain ⟨R, -, -⟩ := h.ready
  have hM := (C66_events_current_partial depth n s0 s now tr o).1
  rcases (C66_events_current_partial depth n s0 s now tr o).2 t ht hl with q | q | ⟨q1, q2, q | ⟨q, -⟩⟩
  · exact .inl q
  · exact .inr (.inl q)
  · refine .inr (.inr ⟨q1, q2, q.resolve_left ?_⟩)
    rintro ⟨i, hi⟩
    have hnT : t < s.nT := by
      obtain ⟨s1, h1, hr, -⟩ := h.run
      obtain ⟨-, -, f3, -⟩ := start_frame h1
      have : ∀ {m : ℕ} {x : K} {u : St K} {tr' : List (Event K × K)}, Run depth { s1 with immediate := [] } 0 m x u tr' →
          u.nT = s0.nT := by
        intro m x u tr' hr'
        induction hr' with
        | start => exact f3
        | step hr' hs ih => exact (g_loopStep _ _ _ _ _ _ hs).nT.trans ih
      rw [this hr]
      exact h.start.initial.refs.skTriangles t ht
    unfold viewT viewOf at hi
    dsimp only at hi
    cases hk : s.vert ((s.tri t).vertices i) with
    | inf o => rw [hk] at hi; cases hi
    | kin k =>
      rw [hk] at hi
      have := R.slow _ k (hM.vertices t hnT i) hk
      dsimp only at hi
      rw [this] at hi
      cases hi
  · exact absurd hT q

/-- **C90.** In general position, the wavefront as the vertices tell it is the one as the triangles tell it, and no
triangle that has not been stopped has a corner that has been. -/
theorem C90_linked {depth n : ℕ} {s0 s : St K} {now : K} {tr : List (Event K × K)}
    (h : GenericExecution depth s0 n now s tr) :
    Linked s ∧ ∀ t, Live s t → ∀ i, Kinetic s ((s.tri t).vertices i) → Running s ((s.tri t).vertices i) := by
  obtain ⟨R, -, -⟩ := h.ready
  exact ⟨linked_of_fits R.mesh R.undead.fits, fun t hl i hk => R.undead.running R.mesh hl hk⟩

/-- **C90.** In general position the checks of events/check.py do not fail. -/
theorem C90_checks {depth n : ℕ} {s0 s : St K} {now : K} {tr : List (Event K × K)}
    (h : GenericExecution depth s0 n now s tr) :
    checkActiveTriangles s.skTriangles s = .ok ((), s) ∧ checkWavefrontLinks s.skTriangles s = .ok ((), s) ∧
      checkKineticVertices s.skTriangles s = .ok ((), s) := by
  obtain ⟨o, p, -⟩ := C90_ordinary h
  obtain ⟨hL, hr⟩ := C90_linked h
  refine ⟨C69_check_active_triangles_partial depth n s0 s now tr o, C69_check_wavefront_partial depth n s0 s now tr p ?_⟩
  rintro t i a b fs
  obtain ⟨k1, -⟩ := hL.kinetic t i a b fs
  obtain ⟨hl, -, rfl, -⟩ := fs
  exact .inl (hr t hl _ k1)

/-- `calc_skel(internal_only=True)` in general position: an execution on what `init_skeleton` has delivered for the
triangulation `dt`, of which the events are as in general position (`generic`) and in which no tolerance blurs anything.
`upright`: the triangles inside are counter-clockwise, and stay so for a little time. -/
structure GeneralRun (dt : Dt K) (depth : ℕ) (skel s0 : St K) (n : ℕ) (now : K) (s : St K) (trace : List (Event K × K)) :
    Prop where
  mesh : DtMesh dt
  regions : DtRegions dt
  inside : DtInside dt
  lengths : ExactLengths dt
  angles : ClearAngles dt
  spikes : NoSpikes skel
  start : ∃ pyid tr, Function.Injective pyid ∧ initSkeleton dt pyid = .ok skel ∧ s0 = prepare true tr skel
  run : Execution depth s0 n now s trace
  generic : GenericEvents depth s0 n
  upright : ∀ t ∈ s0.skTriangles, Live s0 t → ∀ x, 0 ≤ x → x ≤ 1 / 10 ^ 10 → ∀ a b c,
    placeAt s0 ((s0.tri t).vertices 0) x = some a → placeAt s0 ((s0.tri t).vertices 1) x = some b →
    placeAt s0 ((s0.tri t).vertices 2) x = some c → 0 < area2 a b c
  unblurred : Unblurred depth s0 n

/-- **C90.** So it is an execution as in C87-C89, and as in C84: in general position, what happens around the sides that
vanish need not be asked for, also when there are holes; and the wavefront edges are followed by their ends. -/
theorem C90_sharp {dt : Dt K} {depth : ℕ} {skel s0 : St K} {n : ℕ} {now : K} {s : St K} {trace : List (Event K × K)}
    (h : GeneralRun dt depth skel s0 n now s trace) :
    GenericExecution depth s0 n now s trace ∧ SharpRun dt depth skel s0 n now s trace := by
  obtain ⟨hm, hr, hi, hx, ha, hs, ⟨pyid, tr, hid, h1, rfl⟩, ⟨hI, s1, q1, q2⟩, hg, hu, hb⟩ := h
  obtain ⟨ts, vs, nbr, unwanted, sorted, hd⟩ := initSkeleton_ok h1
  have G0 := C87_init_skeleton dt pyid (fun _ _ _ _ e => hid e) hm hm.toDtOk hx skel h1 true tr
  have G : GenericExecution depth (prepare true tr skel) n now s trace := ⟨G0, s1, q1, q2, hg s1 q1⟩
  have A0 : AllTrack (prepare true tr skel) := fun v k hv hk =>
    ((hd.arcs hm.toDtOk hx ha hs).prepare true tr).tracks v k hv hk (G0.slow v k hv hk)
  obtain ⟨o, p, T⟩ := C90_ordinary G
  obtain ⟨hcl, hmem⟩ := C72_internal dt pyid hm hr skel h1 true tr
  have htri : (prepare true tr skel).tri = skel.tri := by unfold prepare; cases tr <;> rfl
  have hnV : (prepare true tr skel).nV = skel.nV := by unfold prepare; cases tr <;> rfl
  have hvert : (prepare true tr skel).vert = skel.vert := by unfold prepare; cases tr <;> rfl
  refine ⟨G, hm.toDtOk, hx, ha, hs, ⟨pyid, true, tr, h1, rfl⟩, o, G0.linked, hcl, fun t ht _ i => ?_, G0.slow, hu,
    fun z hz m hmn x u tr' hr' him t ht hl _ => ?_, fun z hz m hmn x u tr' e x' u' hr' hs' => ?_⟩
  · obtain ⟨hlive, hin⟩ := (hmem rfl t).1 ht
    obtain ⟨hlt, hu⟩ := hd.live.1 hlive
    obtain ⟨v, hv, -⟩ := hm.corners t hlt i
    obtain ⟨u, x, hx, -, -, -, hk⟩ := hd.finite_corner hm hlt hv (hi t hlt hin i v hv)
    have hv : ((prepare true tr skel).tri t).vertices i = u := by
      rw [htri, hd.tri_wanted hu]; dsimp only; rw [hk]; rfl
    have hrun := hd.kinetic.2 (List.getElem?_eq_some_iff.1 hx).1
    rw [hv]
    unfold Kinetic at hrun ⊢
    rw [hnV, hvert]
    exact hrun
  · obtain ⟨hct, hsolv⟩ := hb.clear z hz m hmn x u tr' hr' him t ht hl
    have Gm := G.prefix hmn hz hr'
    refine ⟨fun nb hnb => ?_, hsolv⟩
    obtain rfl : nb = (viewT u t).noNeighbour := funext fun i => hnb.elim (fun q => q i) fun q => absurd T q.1
    exact hct.motion fun i hn => ready_rides Gm.ready.1 (Gm.tracks A0) hl (Option.isNone_iff_eq_none.1 hn)
  · exact (hb.sharp z hz m hmn x u tr' e x' u' hr' hs').step fun q => (G.iteration hz hmn hr' hs').2 q |>.2

/-- **C90.** In general position no triangle is turned over, every arc runs from node to node on the wavefronts of its two
input edges, and all corners of triangles that have not been stopped are running. -/
theorem C90_exact {dt : Dt K} {depth : ℕ} {skel s0 : St K} {n : ℕ} {now : K} {s : St K} {trace : List (Event K × K)}
    (h : GeneralRun dt depth skel s0 n now s trace) :
    Upright (· ∈ s0.skTriangles) s now ∧ NodeToNode s ∧ (∀ v k, v < s.nV → s.vert v = .kin k → Tracks s k) ∧
      ∀ t ∈ s0.skTriangles, Live s t → ∀ i, Running s ((s.tri t).vertices i) := by
  obtain ⟨G, S⟩ := C90_sharp h
  obtain ⟨St, X, -⟩ := C84_steady S
  obtain ⟨R, -, -⟩ := G.ready
  have E : ExactRun dt depth skel s := by
    obtain ⟨pyid, internal, tr, h1, rfl⟩ := S.start
    exact ⟨S.consistent, S.lengths, S.angles, S.spikes, pyid, internal, tr, n, now, trace, h1, X⟩
  refine ⟨C77_upright St, C75_node_to_node E, fun v k hv hk => C75_on_wavefronts E hv hk (R.slow v k hv hk),
    fun t ht hl i => R.undead.running R.mesh hl (S.steady.2.2.kinetic t ht hl i)⟩

/-- **C90.** In general position, what the next event announces does happen: at its time the ends of the sides that are to
collapse are at the same place, the apex of a split or flip event is on the side. -/
theorem C90_happens {dt : Dt K} {depth : ℕ} {skel s0 : St K} {n : ℕ} {now now' : K} {s s' : St K}
    {trace : List (Event K × K)} {e : Event K} (h : GeneralRun dt depth skel s0 n now s trace)
    (hm : loopStep depth (n + 1 : ℕ) now s = .ok (some (e, now'), s')) (hx : CrispStep s e now now')
    (hl : (s.tri e.tri).stopsAt = none) : Happens (viewT s e.tri) e.toEvCore := by
  obtain ⟨G, S⟩ := C90_sharp h
  obtain ⟨R, hI, hg⟩ := G.ready
  have hn := loopStep_next hm
  have hL : Live s e.tri := ⟨nextEvent_bound hI hn, hl⟩
  exact C84_happens S hm (hx.step fun _ => generic_plain R hL (hg e hn hL)) hl

/-! ### the hypotheses are met -/

/-- for the examples -/
theorem unblurred_of_sharp {depth n : ℕ} {s0 s : St K} {now : K} {tr : List (Event K × K)}
    (h : SharpExecution depth s0 n now s tr)
    (hk : ∀ s1, initEventList s0 = .ok ((), s1) → ∀ m ≤ n, ∀ x u tr', Run depth { s1 with immediate := [] } 0 m x u tr' →
      ∀ t ∈ s0.skTriangles, Live u t → ∀ i, Kinetic u ((u.tri t).vertices i)) : Unblurred depth s0 n := by
  refine ⟨fun s1 h1 m hm x u tr' hr hi t ht hl => ?_, fun s1 h1 m hm x u tr' e x' u' hr hs => ?_⟩
  · obtain ⟨q, q'⟩ := h.clear s1 h1 m hm x u tr' hr hi t ht hl (hk s1 h1 m hm x u tr' hr t ht hl)
    have c := q _ (.inl fun _ => rfl)
    exact ⟨⟨c.side, c.apex, c.apart, c.zero, c.coeffs, c.near, c.roots⟩, q'⟩
  · have c := h.sharp s1 h1 m hm x u tr' e x' u' hr hs
    exact ⟨c.sharp, c.tiny, c.three, c.gaps, c.late⟩

/-- the whole run on the wedge -/
theorem Sample.wedge_run : ∃ s tr, ordinaryRun 100 2 0 0
    { Sample.after initEventList (prepare true none Sample.wedgeSkeleton) with immediate := [] } = some (1, s) ∧
    GeneralRun Sample.wedgeDt 100 Sample.wedgeSkeleton (prepare true none Sample.wedgeSkeleton) 2 1 s tr := by
  obtain ⟨now, s, tr, r, h⟩ := sharp_execution (depth := 100) (n := 2) (s0 := prepare true none Sample.wedgeSkeleton)
    (by decide +kernel) (by decide +kernel) (by decide +kernel) (by decide +kernel)
    (prepare_linked (C70_linked _ _ Sample.wedgeDt_mesh _ Sample.wedgeSkeleton_ok) true none)
    (by decide +kernel) (by decide +kernel) (by decide +kernel) (by decide +kernel) (by decide +kernel)
  have S : SharpRun Sample.wedgeDt 100 Sample.wedgeSkeleton (prepare true none Sample.wedgeSkeleton) 2 now s tr :=
    ⟨Sample.wedgeDt_ok, Sample.wedge_lengths, Sample.wedge_angles, Sample.wedge_spikes,
      ⟨id, true, none, Sample.wedgeSkeleton_ok, rfl⟩, h⟩
  obtain ⟨o1, o2, s1, o3, o4, o5⟩ := id h.ordinary
  have E : Execution 100 (prepare true none Sample.wedgeSkeleton) 2 now s tr := ⟨o1, s1, o3, o4⟩
  have hv : (ordinaryRun 100 2 0 0 { Sample.after initEventList (prepare true none Sample.wedgeSkeleton) with
      immediate := [] }).map (fun r => r.1) = some 1 := by decide +kernel
  rw [r] at hv
  obtain rfl : now = 1 := Option.some.inj hv
  refine ⟨s, tr, r, Sample.wedgeDt_mesh, Sample.rectangleDt_regions, Sample.rectangleDt_inside, Sample.wedge_lengths,
    Sample.wedge_angles, Sample.wedge_spikes, ⟨id, none, fun _ _ q => q, Sample.wedgeSkeleton_ok, rfl⟩, E, ?_, h.start, ?_⟩
  · have hg : genericRun genericCheck 100 2 0 0 { Sample.after initEventList (prepare true none Sample.wedgeSkeleton) with
        immediate := [] } = true := by decide +kernel
    intro z hz m hm x u tr' e hr he hl
    have ez : Sample.after initEventList (prepare true none Sample.wedgeSkeleton) = z := by unfold Sample.after; rw [hz]
    rw [ez] at hg
    exact generic_of_check (genericRun_run 2 0 .start hg m (Nat.zero_le _) (by omega) x u tr' e hr he hl)
  · refine unblurred_of_sharp h fun z hz m hm x u tr' hr t ht hl i => ?_
    exact (SharpRun.steady (n := m) ⟨S.consistent, S.lengths, S.angles, S.spikes, S.start, h.prefix hm hz hr⟩).2.2.kinetic t ht hl i

theorem Sample.wedge_general : ∃ s tr, GeneralRun Sample.wedgeDt 100 Sample.wedgeSkeleton
    (prepare true none Sample.wedgeSkeleton) 2 1 s tr := by
  obtain ⟨s, tr, -, h⟩ := Sample.wedge_run
  exact ⟨s, tr, h⟩

/-- On the wedge, a side vanishes at time 1/2, and at time 1 the triangle that is left. -/
example : ∃ s tr, GenericExecution 100 (prepare true none Sample.wedgeSkeleton) 2 1 s tr ∧ NodeToNode s := by
  obtain ⟨s, tr, h⟩ := Sample.wedge_general
  exact ⟨s, tr, (C90_sharp h).1, (C90_exact h).2.1⟩

end Grassfire
