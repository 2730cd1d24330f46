/-
Properties C21, C22, C23, C24 (first part): the events computed by collapse.py.
-/
import Verif.Proofs.AreaLemmas
import Verif.Props.CollapseTimes
import Mathlib.Algebra.BigOperators.Fin

set_option linter.unusedSectionVars false

namespace Grassfire

open Spec

variable {K : Type} [Field K] [LinearOrder K] [IsStrictOrderedRing K] [HasSqrt K]

/-! ### example triangles -/

/-- a triangle for examples -/
def exT (a b c : VView ℚ) (n0 n1 n2 : Bool) : TView ℚ := ⟨![a, b, c], ![n0, n1, n2], false⟩

/-- an interior triangle that collapses along an edge at t = 2 -/
def exT0 : TView ℚ := exT (exV 0 0 1 0) (exV 4 0 (-1) 0) (exV 2 3 0 0) false false false

/-- a wavefront side (side 2, on the x axis, moving up) hit by the apex at t = 3 -/
def exT1 : TView ℚ :=
  exT { exV 0 0 0 1 with ur := some ⟨(0, 1), 0⟩ } { exV 4 0 0 1 with ul := some ⟨(0, 1), 0⟩ }
    (exV 2 6 0 (-1)) false false true

/-! ### C21 -/

/-- C21: no event is scheduled before `now`, whatever the triangle and the sieve. -/
theorem C21_not_in_past (t : TView K) (now : K) (sv : Sieve) (e : EvCore K)
    (h : computeCollapse t now sv = .ok (some e)) : now ≤ e.time :=
  (computeCollapse_evOk t now sv e h).2.time

/-- C21: a replacement edge event is scheduled at the requested time. -/
theorem C21_new_edge_event (t : TView K) (time : K) (e : EvCore K)
    (h : newEdgeCollapse t time = .ok e) : e.time = time := by
  unfold newEdgeCollapse at h
  simp only [bind_ok_iff, Except.ok.injEq] at h
  obtain ⟨d, _, h⟩ := h
  rw [← h]

example : computeCollapse exT0 0 .gte = .ok (some ⟨2, [2], .edge, 0⟩) := by decide +kernel
example : computeCollapse exT1 0 .gte = .ok (some ⟨3, [2], .split, 1⟩) := by decide +kernel
example : computeCollapse exT1 0 .gt = .ok (some ⟨3, [2], .split, 1⟩) := by decide +kernel

/-! ### C22 -/

/-- C22: type, kind and sides of every computed event. -/
theorem C22_event_shape (t : TView K) (now : K) (sv : Sieve) (e : EvCore K)
    (h : computeCollapse t now sv = .ok (some e)) :
    e.triTp = (Finset.univ.filter fun i => t.noNeighbour i = true).card ∧
    e.side ≠ [] ∧ e.side.Nodup ∧
    (e.tp = .edge → e.side.length = 1 ∨ e.side.length = 3) ∧
    (e.tp = .split → ∃ s, e.side = [s] ∧ t.noNeighbour s = true) ∧
    (e.tp = .flip → ∃ s, e.side = [s]) := by
  obtain ⟨-, ok⟩ := computeCollapse_evOk t now sv e h
  refine ⟨?_, ok.nonempty, ok.nodup, ok.edge, ok.split, ?_⟩
  · rw [ok.triTp]
    unfold TView.type count3
    rw [Finset.card_filter, Fin.sum_univ_three]
  · intro hf
    obtain ⟨s, hs, _⟩ := ok.flip hf
    exact ⟨s, hs⟩

/-- C22, last clause: the flipped side is not a wavefront side.

What is missing for the full statement: a finite triangle with one wavefront side,
when at the event time the wavefront side is the longest but not the only longest
(another side is within 1e-10 of it) and not exactly one side has vanished; and
infinite triangles with a wavefront side at the infinite vertex (which
initialisation never makes).  `C22_flip_of_wavefront_side` shows that the first
exception is real. -/
theorem C22_flip_interior_partial (t : TView K) (now : K) (sv : Sieve) (e : EvCore K)
    (h : computeCollapse t now sv = .ok (some e)) (hf : e.tp = .flip)
    (hinf : ∀ i j, (t.v i).kinetic = false → j ≠ i → t.noNeighbour j = false)
    (htie : ∀ d s s', t.dists e.time = .ok d → t.noNeighbour s = true → s' ≠ s →
      |d s - d s'| ≤ 1 / 10 ^ 10 → (∀ i, d i ≤ d s) →
      ∃ z, |d z| ≤ 1 / 10 ^ 10 ∧ ∀ z', |d z'| ≤ 1 / 10 ^ 10 → z' = z) :
    ∃ s, e.side = [s] ∧ t.noNeighbour s = false := by
  obtain ⟨-, ok⟩ := computeCollapse_evOk t now sv e h
  obtain ⟨s, hs, h1 | ⟨_, _, d, s', hd, hne, hd1, hd2, hz⟩ | ⟨hi, hsi⟩⟩ := ok.flip hf
  · exact ⟨s, hs, h1⟩
  · refine ⟨s, hs, ?_⟩
    by_contra hc
    rw [Bool.not_eq_false] at hc
    obtain ⟨z, hz1, hz2⟩ := htie d s s' hd hc hne hd1 hd2
    apply hz
    have hmem : z ∈ where3 (fun i => nearZero (d i)) := by
      rw [mem_where3, nearZero_iff]; exact hz1
    have hall : ∀ x ∈ where3 (fun i => nearZero (d i)), x = z := by
      intro x hx
      rw [mem_where3, nearZero_iff] at hx
      exact hz2 x hx
    have hnd := where3_nodup (fun i => nearZero (d i))
    generalize where3 (fun i => nearZero (d i)) = L at hmem hall hnd
    have hrep := List.eq_replicate_of_mem hall
    rw [hrep] at hnd
    have h1 := List.nodup_replicate.mp hnd
    have h2 := List.length_pos_of_mem hmem
    omega
  · refine ⟨s, hs, hinf (infIdx t) s ?_ hsi⟩
    unfold TView.isFinite at hi
    unfold infIdx
    split_ifs with h0 h1
    · exact h0
    · exact h1
    · simpa [h0, h1] using hi

/-- a triangle smaller than the tolerance: the wavefront side 0 is on the x axis and
moves up, the apex (vertex 0) comes down and hits it at t = 1. -/
def exTiny : TView ℚ :=
  exT (exV (-1 / 10 ^ 11) 2 0 (-1))
    { exV (-1 / 10 ^ 11) 0 0 1 with ur := some ⟨(0, 1), 0⟩ }
    { exV (1 / 10 ^ 11) 0 0 1 with ul := some ⟨(0, 1), 0⟩ } true false false

/-- C22, negation of the last clause: the wavefront side of a triangle that is smaller
than the tolerance at its event gets a flip event.  (`handle_flip_event` then fails:
there is no triangle on the other side.) -/
theorem C22_flip_of_wavefront_side :
    computeCollapse exTiny 0 .gte = .ok (some ⟨1, [0], .flip, 1⟩) ∧
    exTiny.noNeighbour 0 = true := by
  constructor <;> decide +kernel

/-- a finite triangle of type 1 that gets a flip event on an interior side -/
def exFlip : TView ℚ :=
  exT (exV 7 6 0 (-1))
    { exV 0 0 0 1 with ur := some ⟨(0, 1), 0⟩ }
    { exV 4 0 0 1 with ul := some ⟨(0, 1), 0⟩ } true false false

example : computeCollapse exFlip 0 .gte = .ok (some ⟨3, [2], .flip, 1⟩) ∧
    exFlip.noNeighbour 2 = false := by
  constructor <;> decide +kernel

/-- C22: the event made by `compute_new_edge_collapse_event` names the shortest sides. -/
theorem C22_new_edge_event (t : TView K) (time : K) (e : EvCore K)
    (h : newEdgeCollapse t time = .ok e) :
    e.tp = .edge ∧ e.triTp = (Finset.univ.filter fun i => t.noNeighbour i = true).card ∧
    e.side ≠ [] ∧ e.side.Nodup ∧
    ∃ d, t.dists time = .ok d ∧
      ∀ i, i ∈ e.side ↔ ∃ j, (∀ k, d j ≤ d k) ∧ d i ≤ d j + 1 / 10 ^ 10 := by
  unfold newEdgeCollapse at h
  simp only [bind_ok_iff, Except.ok.injEq] at h
  obtain ⟨d, hd, h⟩ := h
  have hmem : ∀ i, i ∈ where3 (fun i => nearZero (d i - min3 d)) ↔
      ∃ j, (∀ k, d j ≤ d k) ∧ d i ≤ d j + 1 / 10 ^ 10 := by
    intro i
    rw [mem_where3, nearZero_iff, abs_of_nonneg (sub_nonneg.mpr (min3_le d i))]
    constructor
    · intro hi
      obtain ⟨j, hj⟩ := min3_mem d
      exact ⟨j, fun k => hj ▸ min3_le d k, by linarith⟩
    · rintro ⟨j, hj, hi⟩
      obtain ⟨m, hm⟩ := min3_mem d
      have := hj m
      linarith
  refine ⟨by rw [← h], ?_, ?_, ?_, d, hd, ?_⟩
  · rw [← h]; unfold TView.type count3
    simp only
    rw [Finset.card_filter, Fin.sum_univ_three]
  · rw [← h]
    obtain ⟨j, hj⟩ := min3_mem d
    refine List.ne_nil_of_mem (a := j) ?_
    rw [mem_where3, hj, sub_self, nearZero_zero]
  · subst h; exact where3_nodup (fun i => nearZero (d i - min3 d))
  · rw [← h]; exact hmem

example : newEdgeCollapse exT0 2 = .ok ⟨2, [2], .edge, 0⟩ := by decide +kernel

/-! ### C23 -/

/-- C23: an interior triangle that is counter-clockwise at `now` stays so until its
event, and forever when there is no event.  Outside the tolerance cases of the
quadratic solver (`ExactCoeffs`); the time of an edge event may exceed the exact
collapse by at most 1e-10. -/
theorem C23_orientation [SqrtLaws K] (t : TView K) (now : K) (sv : Sieve)
    (h0 : ∀ i, t.noNeighbour i = false) (hact : t.stopped = false)
    (hk : ∀ i, (t.v i).kinetic = true) (hu : ∀ i, (t.v i).infFast = false)
    (hex : ∀ A B C : K,
      (∀ x, A * x ^ 2 + B * x + C =
        area2 (move (t.v 0).origin (t.v 0).velocity x) (move (t.v 1).origin (t.v 1).velocity x)
          (move (t.v 2).origin (t.v 2).velocity x)) → ExactCoeffs A B C)
    (hccw : 0 < area2 (move (t.v 0).origin (t.v 0).velocity now)
      (move (t.v 1).origin (t.v 1).velocity now) (move (t.v 2).origin (t.v 2).velocity now))
    (r : Option (EvCore K)) (h : computeCollapse t now sv = .ok r) (u : K) (hnow : now ≤ u)
    (hlt : ∀ e, r = some e → (e.tp ≠ .edge ∧ u < e.time) ∨ u + 1 / 10 ^ 10 < e.time) :
    0 < area2 (move (t.v 0).origin (t.v 0).velocity u)
      (move (t.v 1).origin (t.v 1).velocity u) (move (t.v 2).origin (t.v 2).velocity u) := by
  have hun : ∀ i, Uniform (t.v i) := fun i => Or.inl ⟨hk i, hu i⟩
  obtain ⟨A, B, C, hABC⟩ : ∃ A B C, areaCollapseTimeCoeff (t.v 0) (t.v 1) (t.v 2) = (A, B, C) :=
    ⟨_, _, _, rfl⟩
  have harea : ∀ x, A * x ^ 2 + B * x + C =
        area2 (move (t.v 0).origin (t.v 0).velocity x) (move (t.v 1).origin (t.v 1).velocity x)
          (move (t.v 2).origin (t.v 2).velocity x) := by
    intro x
    have := C17_area_quadratic (t.v 0) (t.v 1) (t.v 2) (hun 0) (hun 1) (hun 2) x _ _ _
      (C17_position _ (hun 0) x) (C17_position _ (hun 1) x) (C17_position _ (hun 2) x)
    rw [hABC] at this
    exact this
  have hexact := hex A B C harea
  rw [← harea] at hccw ⊢
  -- all roots are in the list
  have hroots : ∀ x, A * x ^ 2 + B * x + C = 0 →
      x ∈ areaCollapseTimes (t.v 0) (t.v 1) (t.v 2) := by
    intro x hx
    unfold areaCollapseTimes
    rw [hABC]
    simp only
    rw [mem_pySorted]
    exact solveQuadratic_complete A B C x hexact ⟨now, hccw.ne'⟩ hx
  have htype : t.type = 0 := by unfold TView.type count3; simp [h0]
  -- unfold the dispatcher
  have h' : computeEvent0 t now sv = .ok r := by
    unfold computeCollapse at h
    have hfin : t.isFinite = true := by unfold TView.isFinite; simp [hk]
    simp only [hact, hfin, if_true, Bool.false_eq_true, if_false] at h
    simp only [bind_ok_iff] at h
    obtain ⟨ev, hev, h⟩ := h
    unfold computeFinite at hev
    rw [if_pos htype] at hev
    cases ev with
    | none =>
      simp only [bind_ok_iff] at h
      obtain ⟨_, _, h⟩ := h
      rw [hev]; exact h
    | some e => simp only at h; rw [hev]; exact h
  refine quad_pos_of_no_root A B C now u hnow hccw ?_
  intro x hx1 hx2 hx0
  have hxm := hroots x hx0
  rcases computeEvent0_times t now sv r h' with ⟨e, he, het, _⟩ | ⟨hfar, hcase⟩
  · have h10 : (0 : K) < 1 / 10 ^ 10 := by positivity
    rcases hlt e he with ⟨_, hl⟩ | hl <;> linarith
  · obtain ⟨g1, g2⟩ := sieve_gap sv _ now hfar
    rcases hcase with ⟨_, hn⟩ | ⟨e, he, hn | ⟨ta, hta, hle, hflip⟩⟩
    · exact absurd (g1 hn x hxm) (not_lt.mpr hx1)
    · exact absurd (g1 hn x hxm) (not_lt.mpr hx1)
    · have := g2 ta hta x hxm hx1
      rcases hlt e he with ⟨htp, hl⟩ | hl
      · rw [hflip htp] at hl; linarith
      · linarith

/-- the hypotheses of `C23_orientation` are satisfiable: area `12 - 6 t` -/
example : (∀ i, exT0.noNeighbour i = false) ∧ (∀ i, (exT0.v i).kinetic = true) ∧
    (∀ i, (exT0.v i).infFast = false) ∧
    areaCollapseTimeCoeff (exT0.v 0) (exT0.v 1) (exT0.v 2) = (0, -6, 12) ∧
    (1 : ℚ) / 10 ^ 10 < |(-6 : ℚ)| := by
  refine ⟨by decide, by decide, by decide, by decide +kernel, by decide +kernel⟩

/-- the triangle with area `(t-1)^2 - e^2`, e = 1/200000: the discriminant is below
the tolerance of the solver -/
def exTol : TView ℚ :=
  exT (exV 0 0 0 0) (exV (-1) (1 / 200000) 1 0) (exV (1 / 200000) (-1) 0 1) false false false

/-- C23 without the tolerance exclusion is false: this interior triangle is
counter-clockwise at time 0, its event is scheduled at 1, but it is clockwise at
1 - e/2 already.  (The tolerance 1e-10 of the discriminant is an error in time of
up to 1e-5.) -/
theorem C23_tolerance_missed :
    computeCollapse exTol 0 .gte = .ok (some ⟨1, [0], .flip, 0⟩) ∧
    (0 : ℚ) < area2 (0, 0) (-1, 1 / 200000) (1 / 200000, -1) ∧
    area2 (move (exTol.v 0).origin (exTol.v 0).velocity (1 - 1 / 400000))
      (move (exTol.v 1).origin (exTol.v 1).velocity (1 - 1 / 400000))
      (move (exTol.v 2).origin (exTol.v 2).velocity (1 - 1 / 400000)) < 0 := by
  refine ⟨by decide +kernel, by decide +kernel, by decide +kernel⟩

/-! ### C24, computation of events -/

/-- C24: a stopped triangle gets no event. -/
theorem C24_stopped_none (t : TView K) (now : K) (sv : Sieve) (h : t.stopped = true) :
    computeCollapse t now sv = .ok none := by
  unfold computeCollapse; simp [h]

/-- C24: conversely an event is only computed for a triangle that is not stopped. -/
theorem C24_event_not_stopped (t : TView K) (now : K) (sv : Sieve) (e : EvCore K)
    (h : computeCollapse t now sv = .ok (some e)) : t.stopped = false :=
  (computeCollapse_evOk t now sv e h).1

end Grassfire
