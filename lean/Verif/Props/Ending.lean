/-
C92: in general position, the event loop ends, `calc_skel` delivers the skeleton, and the skeleton is complete.
-/
import Verif.Proofs.EndLoop
import Verif.Props.CalcSkel
import Verif.Props.Inward

set_option linter.unusedSectionVars false

namespace Grassfire

open Spec

variable {K : Type} [Field K] [LinearOrder K] [IsStrictOrderedRing K] [HasSqrt K] [SqrtUnit K] [HasTrig K]

/-- An input in general position: what `init_skeleton` has delivered for the triangulation `dt` is such that, whatever
the number of iterations of the loop may be, its events are as in general position, happen on their own, and no
tolerance blurs anything.  (Nothing is said about how many iterations there are, whether they succeed, and what they
deliver.) -/
structure GeneralInput (dt : Dt K) (depth : ℕ) (skel s0 : St K) : Prop where
  mesh : DtMesh dt
  regions : DtRegions dt
  inside : DtInside dt
  lengths : ExactLengths dt
  angles : ClearAngles dt
  spikes : NoSpikes skel
  start : ∃ pyid tr, Function.Injective pyid ∧ initSkeleton dt pyid = .ok skel ∧ s0 = prepare true tr skel
  upright : ∀ t ∈ s0.skTriangles, Live s0 t → ∀ x, 0 ≤ x → x ≤ 1 / 10 ^ 10 → ∀ a b c,
    placeAt s0 ((s0.tri t).vertices 0) x = some a → placeAt s0 ((s0.tri t).vertices 1) x = some b →
    placeAt s0 ((s0.tri t).vertices 2) x = some c → 0 < area2 a b c
  generic : ∀ n, GenericEvents depth s0 n
  unblurred : ∀ n, Unblurred depth s0 n
  lone : ∀ n, LoneEvents depth s0 n

variable {dt : Dt K} {depth : ℕ} {skel s0 : St K} {n : ℕ} {now : K} {s s1 : St K} {trace : List (Event K × K)}

theorem GeneralInput.good (h : GeneralInput dt depth skel s0) : GoodStart s0 := by
  obtain ⟨pyid, tr, hid, h1, rfl⟩ := h.start
  exact C87_init_skeleton dt pyid (fun _ _ _ _ e => hid e) h.mesh h.mesh.toDtOk h.lengths skel h1 true tr

/-- every run from an input in general position is as in C90 and C91 -/
theorem GeneralInput.run (h : GeneralInput dt depth skel s0) (h1 : initEventList s0 = .ok ((), s1))
    (hr : Run depth { s1 with immediate := [] } 0 n now s trace) : GeneralRun dt depth skel s0 n now s trace :=
  ⟨h.mesh, h.regions, h.inside, h.lengths, h.angles, h.spikes, h.start, ⟨h.good.initial, s1, h1, hr⟩, h.generic n,
    h.upright, h.unblurred n⟩

/-- the number of iterations that `t` triangles and `v` vertices at the start allow for -/
def mostIterations (t v : ℕ) : ℕ := 2 * t + 2 * (t * ((v + 3 * t) / 2).choose 3)

/-- **C92.** The loop does not go on for ever: from an input in general position with `t` triangles and `v` vertices
there are at most `2 t + 2 t C((v + 3 t) / 2, 3)` iterations. -/
theorem C92_bound (h : GeneralInput dt depth skel s0) (h1 : initEventList s0 = .ok ((), s1))
    (hr : Run depth { s1 with immediate := [] } 0 n now s trace) :
    n ≤ mostIterations s0.skTriangles.length s0.skVertices.length := by
  have R := h.run h1 hr
  obtain ⟨rec, T⟩ := R.tally (h.lone n)
  have b := (R.lone (h.lone n)).arcs_bound
  have l : liveTriangles s0 ≤ s0.skTriangles.length := List.countP_le_length
  refine T.bound.trans ?_
  unfold mostIterations
  have : s.skVertices.length ≤ (s0.skVertices.length + 3 * s0.skTriangles.length) / 2 := by omega
  have c := Nat.choose_le_choose 3 this
  have d := Nat.mul_le_mul_left s0.skTriangles.length c
  omega

/-- **C92.** So, when the guard of 50000 iterations is above that number, the event loop ends with a complete skeleton,
unless it is not clear what happens to one of the triangles of an event: the checks at the start and the check at the
end do not fail, and neither does the guard. -/
theorem C92_event_loop (h : GeneralInput dt depth skel s0) (h1 : initEventList s0 = .ok ((), s1))
    (hb : mostIterations s0.skTriangles.length s0.skVertices.length < 50000) :
    ∃ n now s tr, GeneralRun dt depth skel s0 n now s tr ∧
      (eventLoop depth s1 = .ok (now, s) ∧ (∀ t ∈ s.skTriangles, ¬ Live s t) ∨
        eventLoop depth s1 = .error (.py .valueError) ∧ Unclear s) := by
  obtain ⟨n, now, s, tr, -, hr, hloop⟩ := generic_loop depth 50000 h.good h1
    fun m _ x u tr e r1 r2 r3 => h.generic m s1 h1 m le_rfl x u tr e r1 r2 r3
  have R := h.run h1 hr
  have R0 := h.run h1 .start
  have hsk : s1.skTriangles = s0.skTriangles := R0.run.triangles
  have e := eventLoop_checked depth (s1 := s1)
    (fun t ht => (C90_sharp R0).1.ready.2.1.refs.skTriangles t ht)
    (fun t ht i a b hf => R0.keepsLeft (hsk ▸ ht) hf)
    (fun t ht hl => R0.turns (hsk ▸ ht) hl)
  refine ⟨n, now, s, tr, R, ?_⟩
  rw [e, bind_run]
  rcases hloop with ⟨q1, q2, q⟩ | ⟨q, z⟩
  · have hd : ∀ t ∈ s.skTriangles, ¬ Live s t := fun t ht hl =>
      R.finished q1 q2 (R.run.triangles ▸ ht) hl
    refine .inl ⟨?_, hd⟩
    obtain ⟨-, hI, -⟩ := (C90_sharp R).1.ready
    rw [q]
    dsimp only
    rw [bind_run]
    show (do
      checkAllStopped s.skTriangles
      pure now : M K K) s = _
    rw [bind_run, checkAllStopped_ok hI hd]
    rfl
  · refine .inr ⟨by rw [q], z.resolve_left fun z => ?_⟩
    have := C92_bound h h1 hr
    omega

/-- **C92.** `calc_skel(shrink=True, internal_only=True)` on an input in general position: it delivers a skeleton in which
all the triangles have vanished and all the arcs go from a node to a later one, with as many nodes and arcs as C88 says;
or raises a ValueError, and then there is a triangle, at the start or at an event, for which it is not clear what happens
next.  It neither raises anything else nor goes on for ever. -/
theorem C92_calc_skel {pyid : TId → ℕ} {triangulate : List (Pt K) → Except Err (Dt K)} (ht : Triangulates triangulate)
    {points pts : List (Pt K)} {tr : Option (Transform K)} (h1 : shrinkPoints true points = .ok (pts, tr))
    (h2 : triangulate pts = .ok dt) (h3 : initSkeleton dt pyid = .ok skel)
    (h : GeneralInput dt depth skel (prepare true tr skel))
    (hb : mostIterations (prepare true tr skel).skTriangles.length (prepare true tr skel).skVertices.length < 50000) :
    (∃ n now s trace, calcSkel depth pyid triangulate points true true = .ok (now, s) ∧
      GeneralRun dt depth skel (prepare true tr skel) n now s trace ∧ (∀ t ∈ s.skTriangles, ¬ Live s t) ∧
      (∀ v ∈ s.skVertices, ∃ a ∈ s.skNodes, ∃ b ∈ s.skNodes, beginOf s v = some a ∧ endOf s v = some b ∧ a < b) ∧
      s.skNodes.length = (prepare true tr skel).skNodes.length + liveTriangles (prepare true tr skel) ∧
      2 * s.skVertices.length = (prepare true tr skel).skVertices.length + 3 * liveTriangles (prepare true tr skel) ∧
      ∃ l, segments s = .ok l ∧ l.length = s.skVertices.length) ∨
    calcSkel depth pyid triangulate points true true = .error (.py .valueError) ∧
      ((∃ t ∈ (prepare true tr skel).skTriangles, Ambiguous (viewT (prepare true tr skel) t) 0) ∨
        ∃ n now s trace, GeneralRun dt depth skel (prepare true tr skel) n now s trace ∧ Unclear s) := by
  rw [C55_shrink_check depth pyid triangulate ht points true h1 h2 h3]
  unfold runEvents
  rcases C87_start h.good with ⟨s1, q⟩ | ⟨q, z⟩
  · rw [q]
    obtain ⟨n, now, s, trace, R, ⟨e, hd⟩ | ⟨e, u⟩⟩ := C92_event_loop h q hb
    · obtain ⟨c1, c2, c3, c4⟩ := C88_complete (R.lone (h.lone n)) hd
      refine .inl ⟨n, now, s, trace, e, R, hd, fun v hv => ?_, c2, c3, c4⟩
      obtain ⟨a, ha, b, hb, x, y, z, -⟩ := c1 v hv
      exact ⟨a, ha, b, hb, x, y, z⟩
    · exact .inr ⟨e, .inr ⟨n, now, s, trace, R, u⟩⟩
  · rw [q]
    exact .inr ⟨rfl, .inl z⟩

/-! ### the hypotheses are met -/

/-- a run that has ended does not go on -/
theorem run_ended {s2 : St K} (h : Run depth s2 0 n now s trace) (hi : s.immediate = []) (hq : s.queue = []) :
    ∀ {m : ℕ} {x : K} {u : St K} {tr : List (Event K × K)}, Run depth s2 0 m x u tr → m ≤ n := by
  intro m x u tr hr
  induction hr with
  | start => exact Nat.zero_le _
  | step hr hs ih =>
    rcases ih.lt_or_eq with q | rfl
    · exact q
    · obtain ⟨rfl, rfl, -⟩ := run_unique h hr
      rcases loopStep_next hs with q | ⟨-, q⟩
      · rw [hi] at q; cases q
      · rw [hq] at q; cases q

/-- so what holds of the iterations until then holds of all -/
theorem general_input (h : GeneralRun dt depth skel s0 n now s trace) (hl : LoneEvents depth s0 n)
    (hi : s.immediate = []) (hq : s.queue = []) : GeneralInput dt depth skel s0 := by
  obtain ⟨-, s1, h1, hr⟩ := h.run
  have key : ∀ z, initEventList s0 = .ok ((), z) → ∀ {m : ℕ} {x : K} {u : St K} {tr : List (Event K × K)},
      Run depth { z with immediate := [] } 0 m x u tr → m ≤ n := by
    intro z hz
    rw [h1] at hz
    cases hz
    exact run_ended hr hi hq
  refine ⟨h.mesh, h.regions, h.inside, h.lengths, h.angles, h.spikes, h.start, h.upright, fun k z hz m _ x u tr e r => ?_,
    fun k => ⟨fun z hz m _ x u tr r => ?_, fun z hz m _ x u tr e x' u' r q => ?_⟩, fun k z hz m _ x u tr e r => ?_⟩
  · exact h.generic z hz m (key z hz r) x u tr e r
  · exact h.unblurred.clear z hz m (key z hz r) x u tr r
  · exact h.unblurred.sharp z hz m (key z hz (r.step q)) x u tr e x' u' r q
  · exact hl z hz m (key z hz r) x u tr e r

/-- A check of `Turning`, for events that do not flip. -/
def turningCheck (e : Event ℚ) : Bool := decide (e.tp ≠ .flip)

namespace Sample

/-- the corners of the wedge, and where they are when `calc_skel` has shrunk them -/
def wedgePoints : List (Pt ℚ) := [(0, 0), (3, 0), (3, 3 / 4), (0, 3)]
def smallPoints : List (Pt ℚ) := [(-1, -1), (1, -1), (1, -1 / 2), (-1, 1)]

/-- the transform of `calc_skel` -/
def smallTransform : Transform ℚ := ⟨(3 / 2, 3 / 2), (3 / 2, 3 / 2)⟩

theorem small_points : shrinkPoints true wedgePoints = .ok (smallPoints, some smallTransform) := by
  decide +kernel

/-- the triangulation of the wedge -/
def smallDt : Dt ℚ := { rectangleDt with pos := fun v => smallPoints.getD v (rectangleDt.pos v) }

theorem small_triangulate : triangulate smallPoints = .ok smallDt := rfl

/-- `init_skeleton` on it -/
def smallSkeleton : St ℚ :=
  match initSkeleton smallDt id with
  | .ok s => s
  | .error _ => rectangle

theorem smallSkeleton_ok : initSkeleton smallDt id = .ok smallSkeleton := by
  have h : (match initSkeleton smallDt id with
    | .ok _ => true
    | .error _ => false) = true := by decide +kernel
  unfold smallSkeleton
  split at h
  · rename_i s hs
    rw [hs]
  · cases h

theorem smallDt_ok : DtOk smallDt := by
  have h := rectangleDt_ok
  exact ⟨h.corners, h.star_corner, h.star_nodup, fun v hv => ⟨(h.star_ok v hv).chain, (h.star_ok v hv).closed⟩⟩

theorem smallDt_mesh : DtMesh smallDt := by
  have h := rectangleDt_mesh
  exact ⟨smallDt_ok, h.distinct, h.proper, h.back, h.star_next, h.star_closed, h.constrained_finite⟩

theorem small_sides : ∀ t < smallDt.nT, ∀ i : Fin 3, smallDt.constrained t i = true →
    ∀ a ∈ smallDt.corner t (i + 1), ∀ b ∈ smallDt.corner t (i + 2),
    0 < HasSqrt.sqrt (((smallDt.pos b).1 - (smallDt.pos a).1) ^ 2 + ((smallDt.pos b).2 - (smallDt.pos a).2) ^ 2) ∧
    HasSqrt.sqrt (((smallDt.pos b).1 - (smallDt.pos a).1) ^ 2 + ((smallDt.pos b).2 - (smallDt.pos a).2) ^ 2) ^ 2 =
      ((smallDt.pos b).1 - (smallDt.pos a).1) ^ 2 + ((smallDt.pos b).2 - (smallDt.pos a).2) ^ 2 ∧
    (-((smallDt.pos b).2 - (smallDt.pos a).2) /
        HasSqrt.sqrt (((smallDt.pos b).1 - (smallDt.pos a).1) ^ 2 + ((smallDt.pos b).2 - (smallDt.pos a).2) ^ 2),
      ((smallDt.pos b).1 - (smallDt.pos a).1) /
        HasSqrt.sqrt (((smallDt.pos b).1 - (smallDt.pos a).1) ^ 2 + ((smallDt.pos b).2 - (smallDt.pos a).2) ^ 2)) ∈
      wedgeNormals := by
  decide +kernel

theorem small_lengths : ExactLengths smallDt := by
  intro t i a b ht hc ha hb
  obtain ⟨h1, h2, -⟩ := small_sides t ht i hc a (Option.mem_def.2 ha) b (Option.mem_def.2 hb)
  exact ⟨h1.le, h2⟩

theorem small_normal {l : Line2 ℚ} (h : InputLine smallDt l) : l.w ∈ wedgeNormals := by
  obtain ⟨t, i, a, b, ht, hc, ha, hb, hu, h1, h2, hp⟩ := h
  obtain ⟨q1, q2, q3⟩ := small_sides t ht i hc a (Option.mem_def.2 ha) b (Option.mem_def.2 hb)
  unfold AtDistance at h1 h2
  have := normal_unique q1 q2 (by linear_combination h2 - h1) hu hp
  rw [show l.w = (l.w.1, l.w.2) from rfl, this]
  exact q3

theorem small_angles : ClearAngles smallDt := by
  intro l r hl hr
  exact (by decide +kernel : ∀ x ∈ wedgeNormals, ∀ y ∈ wedgeNormals,
    (1 / 10 ^ 10 < |x.1 * y.2 - y.1 * x.2| ∨ x = y ∨ x = (-y.1, -y.2))) _ (small_normal hl) _ (small_normal hr)

theorem small_spikes : NoSpikes smallSkeleton := by
  have h : (List.range smallSkeleton.nV).all (fun v => match smallSkeleton.vert v with
    | .kin k => match k.ul, k.ur with
      | some a, some b =>
        decide ((smallSkeleton.line a).w ≠ (-(smallSkeleton.line b).w.1, -(smallSkeleton.line b).w.2))
      | _, _ => true
    | .inf _ => true) = true := by decide +kernel
  intro v k a b hv hk ha hb
  have := List.all_eq_true.1 h v (List.mem_range.2 hv)
  rw [hk] at this
  simp only [ha, hb, decide_eq_true_eq] at this
  exact this

/-- the skeleton at the start -/
def smallStart : St ℚ := prepare true (some smallTransform) smallSkeleton

theorem small_run : ∃ now s tr, ordinaryRun 100 2 0 0 { after initEventList smallStart with immediate := [] } = some (now, s) ∧
    GeneralRun smallDt 100 smallSkeleton smallStart 2 now s tr := by
  obtain ⟨now, s, tr, r, h⟩ := sharp_execution (depth := 100) (n := 2) (s0 := smallStart)
    (by decide +kernel) (by decide +kernel) (by decide +kernel) (by decide +kernel)
    (prepare_linked (C70_linked _ _ smallDt_mesh _ smallSkeleton_ok) true (some smallTransform))
    (by decide +kernel) (by decide +kernel) (by decide +kernel) (by decide +kernel) (by decide +kernel)
  have S : SharpRun smallDt 100 smallSkeleton smallStart 2 now s tr :=
    ⟨smallDt_ok, small_lengths, small_angles, small_spikes, ⟨id, true, _, smallSkeleton_ok, rfl⟩, h⟩
  obtain ⟨o1, o2, s1, o3, o4, o5⟩ := id h.ordinary
  have E : Execution 100 smallStart 2 now s tr := ⟨o1, s1, o3, o4⟩
  refine ⟨now, s, tr, r, smallDt_mesh, rectangleDt_regions, rectangleDt_inside, small_lengths,
    small_angles, small_spikes, ⟨id, _, fun _ _ q => q, smallSkeleton_ok, rfl⟩, E, ?_, h.start, ?_⟩
  · have hg : genericRun genericCheck 100 2 0 0 { after initEventList smallStart with immediate := [] } = true := by
      decide +kernel
    intro z hz m hm x u tr' e hr he hl
    have ez : after initEventList smallStart = z := by unfold after; rw [hz]
    rw [ez] at hg
    exact generic_of_check (genericRun_run 2 0 .start hg m (Nat.zero_le _) (by omega) x u tr' e hr he hl)
  · refine unblurred_of_sharp h fun z hz m hm x u tr' hr t ht hl i => ?_
    exact (SharpRun.steady (n := m) ⟨S.consistent, S.lengths, S.angles, S.spikes, S.start, h.prefix hm hz hr⟩).2.2.kinetic t ht hl i

theorem small_lone : LoneEvents 100 smallStart 2 := by
  have hg : genericRun (fun s e => aloneCheck s e && turningCheck e) 100 2 0 0
      { after initEventList smallStart with immediate := [] } = true := by decide +kernel
  intro z hz m hm x u tr' e hr he hl
  have ez : after initEventList smallStart = z := by unfold after; rw [hz]
  rw [ez] at hg
  have := genericRun_run 2 0 .start hg m (Nat.zero_le _) (by omega) x u tr' e hr he hl
  rw [Bool.and_eq_true] at this
  exact ⟨alone_of_check this.1, fun q => absurd q (of_decide_eq_true this.2)⟩

theorem small_input : GeneralInput smallDt 100 smallSkeleton smallStart := by
  obtain ⟨now, s, tr, r, h⟩ := small_run
  have hv : (ordinaryRun 100 2 0 0 { after initEventList smallStart with
      immediate := [] }).map (fun r => (r.2.immediate.isEmpty, r.2.queue.isEmpty)) = some (true, true) := by decide +kernel
  rw [r] at hv
  obtain ⟨h1, h2⟩ := Prod.mk.inj (Option.some.inj hv)
  exact general_input h small_lone (List.isEmpty_iff.1 h1) (List.isEmpty_iff.1 h2)

end Sample

/-- The wedge is such an input, with at most 44 iterations (there are two): so `calc_skel` delivers its skeleton. -/
example : GeneralInput Sample.smallDt 100 Sample.smallSkeleton Sample.smallStart ∧
    mostIterations Sample.smallStart.skTriangles.length Sample.smallStart.skVertices.length = 44 :=
  ⟨Sample.small_input, by decide +kernel⟩
example : ∃ now s, calcSkel 100 id Sample.triangulate Sample.wedgePoints true true = .ok (now, s) ∧
    (∀ t ∈ s.skTriangles, ¬ Live s t) ∧ s.skNodes.length = 6 ∧ s.skVertices.length = 5 := by
  have hok : (match calcSkel 100 id Sample.triangulate Sample.wedgePoints true true with
    | .ok _ => true
    | .error _ => false) = true := by decide +kernel
  rcases C92_calc_skel Sample.triangulate_ok Sample.small_points Sample.small_triangulate Sample.smallSkeleton_ok
    Sample.small_input (by decide +kernel) with ⟨n, now, s, tr, h, -, hd, -, h1, h2, -⟩ | ⟨h, -⟩
  · have e : liveTriangles Sample.smallStart = 2 ∧ Sample.smallStart.skNodes.length = 4 ∧
        Sample.smallStart.skVertices.length = 4 := by decide +kernel
    obtain ⟨e1, e2, e3⟩ := e
    change s.skNodes.length = Sample.smallStart.skNodes.length + liveTriangles Sample.smallStart at h1
    change 2 * s.skVertices.length = Sample.smallStart.skVertices.length + 3 * liveTriangles Sample.smallStart at h2
    exact ⟨now, s, h, hd, by omega, by omega⟩
  · rw [h] at hok
    cases hok

end Grassfire
