/-
C91: in general position the wavefront moves inwards, no event comes after the last point inside has been passed, and when
no event is left nothing is left of the polygon.
-/
import Verif.Proofs.InwardEnd

set_option linter.unusedSectionVars false

namespace Grassfire

open Spec

variable {K : Type} [Field K] [LinearOrder K] [IsStrictOrderedRing K] [HasSqrt K] [SqrtUnit K] [HasTrig K]

variable {dt : Dt K} {depth : ℕ} {skel s0 : St K} {n : ℕ} {now : K} {s : St K} {trace : List (Event K × K)}

/-- **C91.** In general position the wavefront edges never turn round: at all events, and until the next one (`x` is not
after the first event of the queue), the two ends of every wavefront edge are in the order of the input edge. -/
theorem C91_forward (h : GeneralRun dt depth skel s0 n now s trace) :
    Forward (· ∈ s0.skTriangles) s now ∧ (s.immediate = [] → ∀ x, now ≤ x → (∀ f ∈ s.queue, x ≤ f.time) →
      Forward (· ∈ s0.skTriangles) s x) :=
  ⟨general_forward h, fun hi x hx hq => h.forward_between (general_forward h) hi hq x hx le_rfl⟩

/-- **C91.** So the triangles are on the side to which the wavefront moves: until the next event, the third corner of a
triangle at a wavefront edge has not been passed by the wavefront, which is a line of an edge of the input. -/
theorem C91_inside (h : GeneralRun dt depth skel s0 n now s trace) (hi : s.immediate = []) {x : K} (hx : now ≤ x)
    (hq : ∀ f ∈ s.queue, x < f.time) {t : TId} (ht : t ∈ s0.skTriangles) (hl : Live s t) {i : Fin 3}
    (hn : (s.tri t).neighbours i = none) : ∃ l p q c, InputLine dt l ∧ placeAt s ((s.tri t).vertices (i + 1)) x = some p ∧
      placeAt s ((s.tri t).vertices (i + 2)) x = some q ∧ placeAt s ((s.tri t).vertices i) x = some c ∧
      AtDistance l x p ∧ AtDistance l x q ∧ 0 < ahead l p q ∧ x < l.w.1 * c.1 + l.w.2 * c.2 + l.b := by
  obtain ⟨G, S⟩ := C90_sharp h
  obtain ⟨R, -, -⟩ := G.ready
  obtain ⟨-, -, C⟩ := S.steady
  obtain ⟨l, hr⟩ := ready_rides R h.allTrack hl hn
  obtain ⟨x', hx', hm⟩ : ∃ x', x < x' ∧ ∀ f ∈ s.queue, x' ≤ f.time := by
    generalize s.queue = q at hq
    clear hi
    induction q with
    | nil => exact ⟨x + 1, lt_add_one x, nofun⟩
    | cons f r ih =>
      obtain ⟨x', h1, h2⟩ := ih fun g hg => hq g (List.mem_cons_of_mem _ hg)
      refine ⟨min x' f.time, lt_min h1 (hq f List.mem_cons_self), fun g hg => ?_⟩
      rcases List.mem_cons.1 hg with rfl | hg
      · exact min_le_right _ _
      · exact (min_le_left _ _).trans (h2 g hg)
  obtain ⟨-, k0, q0⟩ := C.kinetic t ht hl i
  obtain ⟨-, k1, q1⟩ := C.kinetic t ht hl (i + 1)
  obtain ⟨-, k2, q2⟩ := C.kinetic t ht hl (i + 2)
  have F := h.forward_between (general_forward h) hi hm x hx hx'.le t ht hl i hn l (pointAt k1 x) (pointAt k2 x)
    (rides_rightLine hr) (by unfold placeAt; rw [q1]) (by unfold placeAt; rw [q2])
  have A := h.lasting hi hm ht hl x hx hx'
  rw [area_front hr, corner_place q0, corner_place q1, corner_place q2] at A
  have hpos : 0 < ahead l (pointAt k1 x) (pointAt k2 x) :=
    lt_of_le_of_ne F fun z => by rw [← z, zero_mul] at A; exact lt_irrefl _ A
  have h2 := pos_of_mul_pos_right A hpos.le
  obtain ⟨-, -, hd⟩ := id hr
  obtain ⟨d1, d2⟩ := hd x
  rw [corner_place q1] at d1
  rw [corner_place q2] at d2
  exact ⟨l, _, _, _, h.input hl hr, by unfold placeAt; rw [q1], by unfold placeAt; rw [q2], by unfold placeAt; rw [q0],
    d1, d2, hpos, sub_pos.1 h2⟩

/-- **C91.** No event comes too late: whatever point one takes, when the time moves on to the next event there is an edge
of the input whose wavefront, on its line, has not passed the point before.  So no event is later than the greatest of
the distances of the point to the lines of the edges. -/
theorem C91_time (h : GeneralRun dt depth skel s0 n now s trace) {t : TId} (ht : t ∈ s0.skTriangles) (hl : Live s t)
    {e : Event K} {now' : K} {s' : St K} (hm : loopStep depth (n + 1 : ℕ) now s = .ok (some (e, now'), s'))
    (o : K × K) : now' = now ∨ ∃ l, InputLine dt l ∧ now' ≤ l.w.1 * o.1 + l.w.2 * o.2 + l.b := by
  obtain ⟨G, -⟩ := C90_sharp h
  obtain ⟨-, hI, -⟩ := G.ready
  rcases taken_min hI hm with q | ⟨q1, q2⟩
  · exact .inl q
  · have hle : now ≤ now' := (wp_ok (i_loopStep depth (n + 1 : ℕ) hI) hm).2.2
    rcases hle.lt_or_eq with q | q
    · exact .inr (h.bounded q q1 q2 ht hl o)
    · exact .inl q.symm

/-- **C91.** In general position the loop does not end before all the triangles have vanished. -/
theorem C91_complete (h : GeneralRun dt depth skel s0 n now s trace) {s' : St K}
    (hm : loopStep depth (n + 1 : ℕ) now s = .ok (none, s')) : s' = s ∧ ∀ t ∈ s0.skTriangles, ¬ Live s t := by
  obtain ⟨rfl, hi, hq⟩ := loopStep_none hm
  exact ⟨rfl, fun t ht hl => h.finished hi hq ht hl⟩

/-- On the wedge, the third iteration finds no event. -/
example : ∃ s tr, GeneralRun Sample.wedgeDt 100 Sample.wedgeSkeleton (prepare true none Sample.wedgeSkeleton) 2 1 s tr ∧
    loopStep 100 (2 + 1 : ℕ) 1 s = .ok (none, s) ∧ ∀ t ∈ (prepare true none Sample.wedgeSkeleton).skTriangles, ¬ Live s t := by
  obtain ⟨s, tr, r, h⟩ := Sample.wedge_run
  have hv : (ordinaryRun 100 2 0 0 { Sample.after initEventList (prepare true none Sample.wedgeSkeleton) with
      immediate := [] }).map (fun r => (r.2.immediate.isEmpty, r.2.queue.isEmpty)) = some (true, true) := by decide +kernel
  rw [r] at hv
  obtain ⟨h1, h2⟩ := Prod.mk.inj (Option.some.inj hv)
  have hs : loopStep 100 (2 + 1 : ℕ) 1 s = .ok (none, s) := by
    unfold loopStep
    refine bind_run_ok.2 ⟨none, s, ?_, rfl⟩
    rcases takeEvent_run 1 s with ⟨x, q, z, -⟩ | ⟨x, q, -, z, -⟩ | ⟨-, -, z⟩
    · rw [List.isEmpty_iff.1 h1] at z; cases z
    · rw [List.isEmpty_iff.1 h2] at z; cases z
    · exact z
  exact ⟨s, tr, h, hs, (C91_complete h hs).2⟩

/-- On the wedge, there are triangles before the first iteration, and it is at time 1/2. -/
example : ∃ s t e s', GeneralRun Sample.wedgeDt 100 Sample.wedgeSkeleton (prepare true none Sample.wedgeSkeleton) 0 0 s [] ∧
    t ∈ (prepare true none Sample.wedgeSkeleton).skTriangles ∧ Live s t ∧ s.immediate = [] ∧ (∀ f ∈ s.queue, 0 < f.time) ∧
    (∃ i, (s.tri t).neighbours i = none) ∧ loopStep 100 (0 + 1 : ℕ) 0 s = .ok (some (e, 1 / 2), s') := by
  obtain ⟨s, tr, h⟩ := Sample.wedge_general
  obtain ⟨s1, h1, hr⟩ := h.run.run
  have h0 := h.prefix (Nat.zero_le 2) h1 .start
  have e1 : s1 = Sample.after initEventList (prepare true none Sample.wedgeSkeleton) := by unfold Sample.after; rw [h1]
  subst e1
  have hv : (Sample.outcome (loopStep 100 (0 + 1 : ℕ) 0) (fun r _ => r.map (·.2))
      { Sample.after initEventList (prepare true none Sample.wedgeSkeleton) with immediate := [] }) = some (some (1 / 2)) := by
    decide +kernel
  obtain ⟨e, s', hs⟩ : ∃ e s', loopStep 100 (0 + 1 : ℕ) 0 { Sample.after initEventList
      (prepare true none Sample.wedgeSkeleton) with immediate := [] } = .ok (some (e, 1 / 2), s') := by
    unfold Sample.outcome at hv
    split at hv
    · next a s' q =>
      cases a with
      | none => cases hv
      | some a => obtain ⟨e, x⟩ := a; cases hv; exact ⟨e, s', q⟩
    · cases hv
  refine ⟨_, 0, e, s', h0, by decide +kernel, ?_, rfl, by decide +kernel, ?_, hs⟩
  · exact ⟨by decide +kernel, by decide +kernel⟩
  · exact ⟨0, by decide +kernel⟩

end Grassfire
