/-
Property C106, continued: the places of the skeleton of a convex polygon do not depend on the triangulation.
-/
import Verif.Props.Convex

set_option linter.unusedSectionVars false

namespace Grassfire

open Spec

variable {K : Type} [Field K] [LinearOrder K] [IsStrictOrderedRing K] [HasSqrt K] [SqrtUnit K] [HasTrig K]
variable {dt : Dt K} {depth : ℕ} {skel s0 : St K} {n : ℕ} {now : K} {s : St K} {trace : List (Event K × K)}
variable {dt' : Dt K} {depth' : ℕ} {skel' s0' : St K} {n' : ℕ} {now' : K} {s' : St K} {trace' : List (Event K × K)}

/-- **C106.** The places of the skeleton do not depend on the triangulation: for two triangulations of a convex polygon in
general position, where a vertex of the one wavefront is at time `T`, between two edges that are not parallel, there a vertex of
the other wavefront is at time `T` (unless `T` is the time of one of its events). -/
theorem C106_places (h : GeneralRun dt depth skel s0 n now s trace) (hl : LoneEvents depth s0 n) (hc : ConvexInput dt)
    (he : OnlyEdges dt) (h' : GeneralRun dt' depth' skel' s0' n' now' s' trace') (hl' : LoneEvents depth' s0' n')
    (hc' : ConvexInput dt') (he' : OnlyEdges dt') (hone' : ∀ o, dtWinding dt' o ≤ 1)
    (same : ∀ p q, InputEdge dt p q ↔ InputEdge dt' p q) (inside : ∀ o, dtWinding dt o = dtWinding dt' o)
    {T : K} (hT : 0 < T) (hset : Settled s now T) {v : VId} (hv : OnFront s T v)
    (hcr : ∀ k a b, s.vert v = .kin k → k.ul = some a → k.ur = some b →
      (s.line a).w.1 * (s.line b).w.2 - (s.line a).w.2 * (s.line b).w.1 ≠ 0)
    {x : K} (hx : 0 ≤ x) (hset' : Settled s' now' x) (hw : ∀ o, placeAt s v T = some o → winding s' x o = 0)
    (ne : ∀ e ∈ trace', e.2 ≠ T) : ∃ v', OnFront s' T v' ∧ placeAt s' v' T = placeAt s v T := by
  obtain ⟨k, a, b, hk, ea, eb, la, lb, da, db, N⟩ := C106_medial h hl hc he hT hset (.inl hv)
  have e : placeAt s v T = some (pointAt k T) := by unfold placeAt; rw [hk]
  have h0 := C101_disc h hl hT.le hset (.inl hv) (p := pointAt k T) (o := pointAt k T) e (by
    have : 0 < T ^ 2 := pow_pos hT 2
    unfold distSq
    rw [sub_self, sub_self]
    linarith)
  have conv : ∀ l, EdgeLine dt l ↔ EdgeLine dt' l := fun l => by
    unfold EdgeLine
    simp only [same]
  obtain ⟨⟨l, l1, l2⟩, N⟩ := N
  rw [e]
  refine C106_axis h' hl' hc' he' hone' hx hset' ?_ (hw _ e) hT ⟨⟨l, (conv l).1 l1, l2⟩, fun l q => N l ((conv l).2 q)⟩ ne
    ((conv _).1 la) ((conv _).1 lb) da db (hcr k a b hk ea eb)
  have h1 := hone' (pointAt k T)
  rw [inside] at h0
  omega

/-- a list that is not empty has an element for which a function is largest -/
theorem exists_last {α : Type} (f : α → K) : ∀ {l : List α}, l ≠ [] → ∃ a ∈ l, ∀ b ∈ l, f b ≤ f a
  | [], h => absurd rfl h
  | [a], _ => ⟨a, List.mem_singleton_self a, fun b hb => by rw [List.mem_singleton.1 hb]⟩
  | a :: c :: l, _ => by
    obtain ⟨m, hm, h⟩ := exists_last f (l := c :: l) (List.cons_ne_nil c l)
    rcases le_total (f m) (f a) with q | q
    · exact ⟨a, List.mem_cons_self .., fun b hb => (List.mem_cons.1 hb).elim (fun e => by rw [e]) fun e => (h b e).trans q⟩
    · exact ⟨m, List.mem_cons_of_mem _ hm, fun b hb => (List.mem_cons.1 hb).elim (fun e => by rw [e]; exact q) fun e => h b e⟩

/-- **C106.** The last stop of a vertex is at the centre of a largest circle that fits into the polygon, at the time that is its
radius: that place is inside, its distance to the nearest edge is the time, and no point inside is farther from the edges. -/
theorem C106_inradius (h : GeneralRun dt depth skel s0 n now s trace) (hl : LoneEvents depth s0 n) (hc : ConvexInput dt)
    (he : OnlyEdges dt) (hone : ∀ o, dtWinding dt o ≤ 1) (hi : s.immediate = []) (hq : s.queue = [])
    (hne : s.skVertices ≠ []) :
    ∃ v ∈ s.skVertices, ∃ k R, s.vert v = .kin k ∧ k.stopsAt = some R ∧ 0 < R ∧ R ≤ now ∧
      (∀ v' ∈ s.skVertices, ∃ k' R', s.vert v' = .kin k' ∧ k'.stopsAt = some R' ∧ R' ≤ R) ∧
      dtWinding dt (pointAt k R) = 1 ∧ NearestAt dt (pointAt k R) R ∧
      ∀ o T, dtWinding dt o = 1 → NearestAt dt o T → T ≤ R := by
  obtain ⟨g, -, W⟩ := h.ways hl hi hq
  choose! k a b W using W
  obtain ⟨v, hv, top⟩ := exists_last b hne
  have w := W v hv
  have hset : Settled s now (b v) := .inr ⟨hi, by rw [hq]; nofun⟩
  have pos : 0 < b v := (h.starts hv w.kinetic w.start).trans_lt w.takes
  have arr : Arrives s (b v) v := ⟨hv, _, w.kinetic, ⟨_, w.start, w.takes⟩, fun c e => by
    rw [w.stop] at e
    cases e
    exact le_rfl⟩
  obtain ⟨k', -, -, hk', -, -, -, -, -, -, N⟩ := C106_medial h hl hc he pos hset (.inr arr)
  rw [w.kinetic] at hk'
  cases hk'
  have e : placeAt s v (b v) = some (pointAt (k v hv) (b v)) := by unfold placeAt; rw [w.kinetic]
  have h0 := C101_disc h hl pos.le hset (.inr arr) (p := pointAt (k v hv) (b v)) (o := pointAt (k v hv) (b v)) e (by
    have : 0 < b v ^ 2 := pow_pos pos 2
    unfold distSq
    rw [sub_self, sub_self]
    linarith)
  have h1 := hone (pointAt (k v hv) (b v))
  obtain ⟨-, hI, -⟩ := (C90_sharp h).1.ready
  refine ⟨v, hv, k v hv, b v, w.kinetic, w.stop, pos, ?_, fun v' hv' => ⟨_, _, (W v' hv').kinetic, (W v' hv').stop, top v' hv'⟩,
    by omega, N, fun o T ho hN => ?_⟩
  · exact ((hI.lives v _ (hI.refs.skVertices v hv) w.kinetic).order _ _ w.start w.stop).2
  · by_contra c
    obtain ⟨u, hu, ku, e1, -, e2⟩ := (C106_lasts h hl hc he hone pos hset).2 ⟨o, ho, fun l q => (not_le.1 c).trans_le (hN.2 l q)⟩
    have wu := W u hu
    rw [wu.kinetic] at e1
    cases e1
    exact absurd (e2 _ wu.stop) (not_lt.2 (top u hu))

/-! ### the hypotheses are met -/

set_option synthInstance.maxSize 1000
set_option synthInstance.maxHeartbeats 200000

namespace Sample

/-- the triangulation of the wedge with the other diagonal -/
def otherDt : Dt ℚ :=
  { rectangleDt with pos := fun v => [((1 : ℚ), (-1 : ℚ)), (1, -1 / 2), (-1, 1), (-1, -1)].getD v (rectangleDt.pos v) }

/-- `init_skeleton` on it -/
def otherSkeleton : St ℚ :=
  match initSkeleton otherDt id with
  | .ok s => s
  | .error _ => rectangle

theorem otherSkeleton_ok : initSkeleton otherDt id = .ok otherSkeleton := by
  have h : (match initSkeleton otherDt id with
    | .ok _ => true
    | .error _ => false) = true := by decide +kernel
  unfold otherSkeleton
  split at h
  · rename_i s hs
    rw [hs]
  · cases h

theorem otherDt_ok : DtOk otherDt := by
  have h := rectangleDt_ok
  exact ⟨h.corners, h.star_corner, h.star_nodup, fun v hv => ⟨(h.star_ok v hv).chain, (h.star_ok v hv).closed⟩⟩

theorem otherDt_mesh : DtMesh otherDt := by
  have h := rectangleDt_mesh
  exact ⟨otherDt_ok, h.distinct, h.proper, h.back, h.star_next, h.star_closed, h.constrained_finite⟩

theorem other_sides : ∀ t < otherDt.nT, ∀ i : Fin 3, otherDt.constrained t i = true →
    ∀ a ∈ otherDt.corner t (i + 1), ∀ b ∈ otherDt.corner t (i + 2),
    0 < HasSqrt.sqrt (((otherDt.pos b).1 - (otherDt.pos a).1) ^ 2 + ((otherDt.pos b).2 - (otherDt.pos a).2) ^ 2) ∧
    HasSqrt.sqrt (((otherDt.pos b).1 - (otherDt.pos a).1) ^ 2 + ((otherDt.pos b).2 - (otherDt.pos a).2) ^ 2) ^ 2 =
      ((otherDt.pos b).1 - (otherDt.pos a).1) ^ 2 + ((otherDt.pos b).2 - (otherDt.pos a).2) ^ 2 ∧
    (-((otherDt.pos b).2 - (otherDt.pos a).2) /
        HasSqrt.sqrt (((otherDt.pos b).1 - (otherDt.pos a).1) ^ 2 + ((otherDt.pos b).2 - (otherDt.pos a).2) ^ 2),
      ((otherDt.pos b).1 - (otherDt.pos a).1) /
        HasSqrt.sqrt (((otherDt.pos b).1 - (otherDt.pos a).1) ^ 2 + ((otherDt.pos b).2 - (otherDt.pos a).2) ^ 2)) ∈
      wedgeNormals := by
  decide +kernel

theorem other_lengths : ExactLengths otherDt := by
  intro t i a b ht hc ha hb
  obtain ⟨h1, h2, -⟩ := other_sides t ht i hc a (Option.mem_def.2 ha) b (Option.mem_def.2 hb)
  exact ⟨h1.le, h2⟩

theorem other_normal {l : Line2 ℚ} (h : InputLine otherDt l) : l.w ∈ wedgeNormals := by
  obtain ⟨t, i, a, b, ht, hc, ha, hb, hu, h1, h2, hp⟩ := h
  obtain ⟨q1, q2, q3⟩ := other_sides t ht i hc a (Option.mem_def.2 ha) b (Option.mem_def.2 hb)
  unfold AtDistance at h1 h2
  have := normal_unique q1 q2 (by linear_combination h2 - h1) hu hp
  rw [show l.w = (l.w.1, l.w.2) from rfl, this]
  exact q3

theorem other_angles : ClearAngles otherDt := by
  intro l r hl hr
  exact (by decide +kernel : ∀ x ∈ wedgeNormals, ∀ y ∈ wedgeNormals,
    (1 / 10 ^ 10 < |x.1 * y.2 - y.1 * x.2| ∨ x = y ∨ x = (-y.1, -y.2))) _ (other_normal hl) _ (other_normal hr)

theorem other_spikes : NoSpikes otherSkeleton := by
  have h : (List.range otherSkeleton.nV).all (fun v => match otherSkeleton.vert v with
    | .kin k => match k.ul, k.ur with
      | some a, some b =>
        decide ((otherSkeleton.line a).w ≠ (-(otherSkeleton.line b).w.1, -(otherSkeleton.line b).w.2))
      | _, _ => true
    | .inf _ => true) = true := by decide +kernel
  intro v k a b hv hk ha hb
  have := List.all_eq_true.1 h v (List.mem_range.2 hv)
  rw [hk] at this
  simp only [ha, hb, decide_eq_true_eq] at this
  exact this

/-- the skeleton at the start -/
def otherStart : St ℚ := prepare true (some smallTransform) otherSkeleton

theorem other_run : ∃ now s tr, ordinaryRun 100 2 0 0 { after initEventList otherStart with immediate := [] } = some (now, s) ∧
    GeneralRun otherDt 100 otherSkeleton otherStart 2 now s tr := by
  obtain ⟨now, s, tr, r, h⟩ := sharp_execution (depth := 100) (n := 2) (s0 := otherStart)
    (by decide +kernel) (by decide +kernel) (by decide +kernel) (by decide +kernel)
    (prepare_linked (C70_linked _ _ otherDt_mesh _ otherSkeleton_ok) true (some smallTransform))
    (by decide +kernel) (by decide +kernel) (by decide +kernel) (by decide +kernel) (by decide +kernel)
  have S : SharpRun otherDt 100 otherSkeleton otherStart 2 now s tr :=
    ⟨otherDt_ok, other_lengths, other_angles, other_spikes, ⟨id, true, _, otherSkeleton_ok, rfl⟩, h⟩
  obtain ⟨o1, o2, s1, o3, o4, o5⟩ := id h.ordinary
  have E : Execution 100 otherStart 2 now s tr := ⟨o1, s1, o3, o4⟩
  refine ⟨now, s, tr, r, otherDt_mesh, rectangleDt_regions, rectangleDt_inside, other_lengths,
    other_angles, other_spikes, ⟨id, _, fun _ _ q => q, otherSkeleton_ok, rfl⟩, E, ?_, h.start, ?_⟩
  · have hg : genericRun genericCheck 100 2 0 0 { after initEventList otherStart with immediate := [] } = true := by
      decide +kernel
    intro z hz m hm x u tr' e hr he hl
    have ez : after initEventList otherStart = z := by unfold after; rw [hz]
    rw [ez] at hg
    exact generic_of_check (genericRun_run 2 0 .start hg m (Nat.zero_le _) (by omega) x u tr' e hr he hl)
  · refine unblurred_of_sharp h fun z hz m hm x u tr' hr t ht hl i => ?_
    exact (SharpRun.steady (n := m) ⟨S.consistent, S.lengths, S.angles, S.spikes, S.start, h.prefix hm hz hr⟩).2.2.kinetic t ht hl i

theorem other_lone : LoneEvents 100 otherStart 2 := by
  have hg : genericRun (fun s e => aloneCheck s e && turningCheck e) 100 2 0 0
      { after initEventList otherStart with immediate := [] } = true := by decide +kernel
  intro z hz m hm x u tr' e hr he hl
  have ez : after initEventList otherStart = z := by unfold after; rw [hz]
  rw [ez] at hg
  have := genericRun_run 2 0 .start hg m (Nat.zero_le _) (by omega) x u tr' e hr he hl
  rw [Bool.and_eq_true] at this
  exact ⟨alone_of_check this.1, fun q => absurd q (of_decide_eq_true this.2)⟩

theorem other_input : GeneralInput otherDt 100 otherSkeleton otherStart := by
  obtain ⟨now, s, tr, r, h⟩ := other_run
  have hv : (ordinaryRun 100 2 0 0 { after initEventList otherStart with
      immediate := [] }).map (fun r => (r.2.immediate.isEmpty, r.2.queue.isEmpty)) = some (true, true) := by decide +kernel
  rw [r] at hv
  obtain ⟨h1, h2⟩ := Prod.mk.inj (Option.some.inj hv)
  exact general_input h other_lone (List.isEmpty_iff.1 h1) (List.isEmpty_iff.1 h2)

end Sample

/-- The wedge is convex, -/
theorem Sample.other_convex : ConvexInput Sample.otherDt := by
  have h : ∀ t < Sample.otherDt.nT, Sample.otherDt.internal t = true → ∀ i : Fin 3, Sample.otherDt.constrained t i = true →
      ∀ a ∈ Sample.otherDt.corner t (i + 1), ∀ b ∈ Sample.otherDt.corner t (i + 2), ∀ u < Sample.otherDt.nT,
      Sample.otherDt.internal u = true → ∀ j : Fin 3, ∀ d ∈ Sample.otherDt.corner u j,
      0 ≤ area2 (Sample.otherDt.pos a) (Sample.otherDt.pos b) (Sample.otherDt.pos d) := by decide +kernel
  rintro p q ⟨t, ht, hi, i, a, b, hc, ha, hb, rfl, rfl⟩ u hu hui j d hd
  exact h t ht hi i hc a ha b hb u hu hui j d hd

/-- and nothing but its edges is constrained. -/
theorem Sample.other_edges : OnlyEdges Sample.otherDt := by
  have h : ∀ t < Sample.otherDt.nT, ∀ i : Fin 3, Sample.otherDt.constrained t i = true →
      ∀ a ∈ Sample.otherDt.corner t (i + 1), ∀ b ∈ Sample.otherDt.corner t (i + 2), ∃ u < Sample.otherDt.nT,
      Sample.otherDt.internal u = true ∧ ∃ j : Fin 3, Sample.otherDt.constrained u j = true ∧
        (Sample.otherDt.corner u (j + 1) = some a ∧ Sample.otherDt.corner u (j + 2) = some b ∨
          Sample.otherDt.corner u (j + 1) = some b ∧ Sample.otherDt.corner u (j + 2) = some a) := by decide +kernel
  intro t ht i a b hc ha hb
  obtain ⟨u, hu, hi, j, hj, ⟨e1, e2⟩ | ⟨e1, e2⟩⟩ := h t ht i hc a ha b hb
  · exact .inl ⟨u, hu, hi, j, a, b, hj, e1, e2, rfl, rfl⟩
  · exact .inr ⟨u, hu, hi, j, b, a, hj, e1, e2, rfl, rfl⟩

/-- the edges of the wedge -/
def Sample.sides : List (Pt ℚ × Pt ℚ) :=
  [((1, -1), 1, -1 / 2), ((-1, -1), 1, -1), ((1, -1 / 2), -1, 1), ((-1, 1), -1, -1)]

theorem Sample.small_sides_are (p q : Pt ℚ) : InputEdge Sample.smallDt p q ↔ (p, q) ∈ Sample.sides := by
  have h1 : ∀ t < Sample.smallDt.nT, Sample.smallDt.internal t = true → ∀ i : Fin 3, Sample.smallDt.constrained t i = true →
      ∀ a ∈ Sample.smallDt.corner t (i + 1), ∀ b ∈ Sample.smallDt.corner t (i + 2), (Sample.smallDt.pos a, Sample.smallDt.pos b) ∈ Sample.sides := by decide +kernel
  have h2 : ∀ e ∈ Sample.sides, ∃ u < Sample.smallDt.nT, Sample.smallDt.internal u = true ∧ ∃ j : Fin 3, Sample.smallDt.constrained u j = true ∧
      (Sample.smallDt.corner u (j + 1)).map Sample.smallDt.pos = some e.1 ∧ (Sample.smallDt.corner u (j + 2)).map Sample.smallDt.pos = some e.2 := by decide +kernel
  constructor
  · rintro ⟨t, ht, hi, i, a, b, hc, ha, hb, rfl, rfl⟩
    exact h1 t ht hi i hc a ha b hb
  · intro h
    obtain ⟨u, hu, hui, j, hj, e1, e2⟩ := h2 _ h
    obtain ⟨c, c1, c2⟩ := Option.map_eq_some_iff.1 e1
    obtain ⟨d, d1, d2⟩ := Option.map_eq_some_iff.1 e2
    exact ⟨u, hu, hui, j, c, d, hj, c1, d1, c2, d2⟩

theorem Sample.other_sides_are (p q : Pt ℚ) : InputEdge Sample.otherDt p q ↔ (p, q) ∈ Sample.sides := by
  have h1 : ∀ t < Sample.otherDt.nT, Sample.otherDt.internal t = true → ∀ i : Fin 3, Sample.otherDt.constrained t i = true →
      ∀ a ∈ Sample.otherDt.corner t (i + 1), ∀ b ∈ Sample.otherDt.corner t (i + 2), (Sample.otherDt.pos a, Sample.otherDt.pos b) ∈ Sample.sides := by decide +kernel
  have h2 : ∀ e ∈ Sample.sides, ∃ u < Sample.otherDt.nT, Sample.otherDt.internal u = true ∧ ∃ j : Fin 3, Sample.otherDt.constrained u j = true ∧
      (Sample.otherDt.corner u (j + 1)).map Sample.otherDt.pos = some e.1 ∧ (Sample.otherDt.corner u (j + 2)).map Sample.otherDt.pos = some e.2 := by decide +kernel
  constructor
  · rintro ⟨t, ht, hi, i, a, b, hc, ha, hb, rfl, rfl⟩
    exact h1 t ht hi i hc a ha b hb
  · intro h
    obtain ⟨u, hu, hui, j, hj, e1, e2⟩ := h2 _ h
    obtain ⟨c, c1, c2⟩ := Option.map_eq_some_iff.1 e1
    obtain ⟨d, d1, d2⟩ := Option.map_eq_some_iff.1 e2
    exact ⟨u, hu, hui, j, c, d, hj, c1, d1, c2, d2⟩

/-- The two triangulations have the same edges, -/
theorem Sample.same_edges (p q : Pt ℚ) : InputEdge Sample.smallDt p q ↔ InputEdge Sample.otherDt p q :=
  (Sample.small_sides_are p q).trans (Sample.other_sides_are p q).symm

/-- the same inside, -/
theorem Sample.same_inside (o : Pt ℚ) : dtWinding Sample.smallDt o = dtWinding Sample.otherDt o := by
  have e1 : (Finset.range Sample.smallDt.nT).filter (fun t => Sample.smallDt.internal t = true) = {0, 1} := by decide +kernel
  have e2 : (Finset.range Sample.otherDt.nT).filter (fun t => Sample.otherDt.internal t = true) = {0, 1} := by decide +kernel
  have c0 : (Finset.univ : Finset (Fin 3)).filter (fun i => Sample.smallDt.constrained 0 i = true) = {0, 2} := by decide +kernel
  have c1 : (Finset.univ : Finset (Fin 3)).filter (fun i => Sample.smallDt.constrained 1 i = true) = {0, 1} := by decide +kernel
  have d0 : (Finset.univ : Finset (Fin 3)).filter (fun i => Sample.otherDt.constrained 0 i = true) = {0, 2} := by decide +kernel
  have d1 : (Finset.univ : Finset (Fin 3)).filter (fun i => Sample.otherDt.constrained 1 i = true) = {0, 1} := by decide +kernel
  unfold dtWinding
  rw [e1, e2, Finset.sum_pair (by decide), Finset.sum_pair (by decide), c0, c1, d0, d1, Finset.sum_pair (by decide),
    Finset.sum_pair (by decide), Finset.sum_pair (by decide), Finset.sum_pair (by decide)]
  show crosses (1, -1) (1, -1 / 2) o + crosses (-1, -1) (1, -1) o +
    (crosses (1, -1 / 2) (-1, 1) o + crosses (-1, 1) (-1, -1) o) = crosses (1, -1 / 2) (-1, 1) o + crosses (1, -1) (1, -1 / 2) o +
    (crosses (-1, 1) (-1, -1) o + crosses (-1, -1) (1, -1) o)
  ring

/-- and not the same diagonal. -/
example : (Sample.smallDt.corner 0 0).map Sample.smallDt.pos = some (-1, -1) ∧
    (Sample.otherDt.corner 0 0).map Sample.otherDt.pos = some (1, -1) := by decide +kernel

theorem Sample.other_times : (List.range 2).map (fun k =>
    (stateAt 100 { Sample.after initEventList Sample.otherStart with immediate := [] } (k + 1)).map (·.1)) =
    [some (1 / 3), some (2 / 3)] := by decide +kernel

/-- The vertex that is between the long edges of the wedge at time 1/2: with the other diagonal there is one at the same
place. -/
example : ∃ s tr s' tr', GeneralRun Sample.smallDt 100 Sample.smallSkeleton Sample.smallStart 2 (2 / 3) s tr ∧
    GeneralRun Sample.otherDt 100 Sample.otherSkeleton Sample.otherStart 2 (2 / 3) s' tr' ∧ OnFront s (1 / 2) 9 ∧
    ∃ v', OnFront s' (1 / 2) v' ∧ placeAt s' v' (1 / 2) = placeAt s 9 (1 / 2) := by
  obtain ⟨now, s, tr, r, h⟩ := Sample.small_run
  obtain ⟨now', s', tr', r', h'⟩ := Sample.other_run
  have hv : (ordinaryRun 100 2 0 0 { Sample.after initEventList Sample.smallStart with immediate := [] }).map (fun r =>
      (r.1, decide (9 ∈ r.2.skVertices), match r.2.vert 9 with
        | .kin k => (k.startsAt, k.stopsAt, (match k.ul, k.ur with
          | some a, some b => decide ((r.2.line a).w.1 * (r.2.line b).w.2 - (r.2.line a).w.2 * (r.2.line b).w.1 ≠ 0)
          | _, _ => false))
        | .inf _ => (none, none, false), placeAt r.2 9 (1 / 2))) =
      some (2 / 3, true, (some (1 / 3), some (2 / 3), true), some (1 / 6, -1 / 2)) := by decide +kernel
  have hv' : (ordinaryRun 100 2 0 0 { Sample.after initEventList Sample.otherStart with immediate := [] }).map (fun r =>
      (r.1, r.2.immediate.isEmpty, r.2.queue.isEmpty, winding r.2 1 (1 / 6, -1 / 2))) = some (2 / 3, true, true, 0) := by
    decide +kernel
  rw [r] at hv
  rw [r'] at hv'
  simp only [Option.map_some, Option.some.injEq, Prod.mk.injEq, decide_eq_true_eq, List.isEmpty_iff] at hv hv'
  obtain ⟨rfl, m, q, pl⟩ := hv
  obtain ⟨rfl, hi, hq, hw⟩ := hv'
  cases hk : s.vert 9 with
  | inf _ => rw [hk] at q; simp at q
  | kin k =>
    rw [hk] at q
    simp only [Prod.mk.injEq] at q
    obtain ⟨q1, q2, q3⟩ := q
    have hf : OnFront s (1 / 2) 9 := ⟨m, k, hk, ⟨_, q1, by norm_num⟩, fun b e => by
      rw [q2] at e
      cases e
      norm_num⟩
    refine ⟨s, tr, s', tr', h, h', hf, ?_⟩
    refine C106_places h Sample.small_lone Sample.small_convex Sample.small_edges h' Sample.other_lone Sample.other_convex
      Sample.other_edges (fun o => (Sample.same_inside o).symm.trans_le (Sample.small_winding o)) Sample.same_edges
      Sample.same_inside (by norm_num) (.inl (by norm_num)) hf ?_ (x := 1) zero_le_one (.inr ⟨hi, by rw [hq]; nofun⟩) ?_ ?_
    · intro k' a b e ea eb
      rw [hk] at e
      cases e
      rw [ea, eb] at q3
      exact of_decide_eq_true q3
    · intro o e
      rw [pl] at e
      cases e
      exact hw
    · obtain ⟨-, s1, h1, hrun⟩ := id h'.run
      intro e he q
      obtain ⟨k, k1, k2, u, tr', r⟩ := run_events hrun e he
      have hs1 : { s1 with immediate := [] } = { Sample.after initEventList Sample.otherStart with immediate := [] } := by
        unfold Sample.after
        rw [h1]
      have := stateAt_run r
      rw [hs1] at this
      have T := Sample.other_times
      simp only [List.range_succ, List.range_zero, List.map_nil, List.map_cons, List.nil_append,
        List.cons_append, List.cons.injEq, and_true] at T
      obtain ⟨T1, T2⟩ := T
      rcases (by omega : k = 1 ∨ k = 2) with rfl | rfl
      · rw [this, q] at T1
        norm_num at T1
      · rw [this, q] at T2
        norm_num at T2

/-- No point of the wedge is more than 2/3 away from its edges: that is when its last vertex is stopped. -/
example (o : Pt ℚ) (T : ℚ) (h : dtWinding Sample.smallDt o = 1) (hT : NearestAt Sample.smallDt o T) : T ≤ 2 / 3 := by
  obtain ⟨now, s, tr, r, R⟩ := Sample.small_run
  have hv : (ordinaryRun 100 2 0 0 { Sample.after initEventList Sample.smallStart with immediate := [] }).map (fun r =>
      (r.1, r.2.immediate.isEmpty, r.2.queue.isEmpty, r.2.skVertices.isEmpty)) = some (2 / 3, true, true, false) := by
    decide +kernel
  rw [r] at hv
  simp only [Option.map_some, Option.some.injEq, Prod.mk.injEq, List.isEmpty_iff] at hv
  obtain ⟨rfl, hi, hq, hne⟩ := hv
  obtain ⟨v, -, k, y, -, -, -, hy, -, -, -, top⟩ := C106_inradius R Sample.small_lone Sample.small_convex Sample.small_edges
    Sample.small_winding hi hq (fun e => by rw [e] at hne; cases hne)
  exact (top o T h hT).trans hy

end Grassfire
