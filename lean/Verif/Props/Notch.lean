/-
An input in general position on which a triangle is flipped: a pentagon with a notch.  Examples for C90, C91 and C92; no
general theorem depends on this file.
-/
import Verif.Props.Ending

namespace Grassfire

open Spec

namespace Sample

/-- the corners of the triangles; 5, 6 and 7 are the infinite vertices -/
def notchCorners : List (List (Option ℕ)) :=
  [[some 0, some 1, some 3], [some 1, some 2, some 3], [some 0, some 3, some 4], [some 0, some 4, some 5], [some
   1, some 0, some 6], [some 0, some 5, some 6], [some 2, some 1, some 6], [some 2, some 6, some 7], [some 3, some
   2, some 7], [some 3, some 7, some 5], [some 4, some 3, some 5]]

/-- the neighbours of the triangles -/
def notchNeighbours : List (List (Option ℕ)) :=
  [[some 1, some 2, some 4], [some 8, some 0, some 6], [some 10, some 3, some 0], [some 10, some 5, some 2], [some
   5, some 6, some 0], [none, some 4, some 3], [some 4, some 7, some 1], [none, some 8, some 6], [some 7, some 9,
   some 1], [none, some 10, some 8], [some 9, some 3, some 2]]

/-- the constrained sides of the triangles -/
def notchConstrained : List (List Bool) :=
  [[false, false, true], [true, false, true], [true, true, false], [false, false, true], [false, false, true],
   [false, false, false], [false, false, true], [false, false, false], [false, false, true], [false, false, false],
   [false, false, true]]

/-- the triangles around the vertices -/
def notchStars : List (List (ℕ × Fin 3)) :=
  [[(0, 0), (2, 0), (3, 0), (5, 0), (4, 1)], [(0, 1), (4, 0), (6, 1), (1, 0)], [(1, 1), (6, 0), (7, 0), (8, 1)],
   [(0, 2), (1, 2), (8, 0), (9, 0), (10, 1), (2, 1)], [(2, 2), (10, 0), (3, 1)]]

/-- A pentagon with corners (0, 0), (4, 0), (4, 29/4), (-5, 1/2) and (-345/112, -115/28), of which the first is reflex;
triangles 0, 1 and 2 are its interior. -/
def notchDt : Dt ℚ where
  nV := 5
  nT := 11
  pos v := [((0 : ℚ), (0 : ℚ)), (4, 0), (4, 29 / 4), (-5, 1 / 2), (-345 / 112, -115 / 28), (-100, -100), (100, -100),
    (2, 100)].getD v (0, 0)
  info v := some v
  finite v := decide (v < 5)
  corner t i := (notchCorners.getD t []).getD i none
  neighbour t i := (notchNeighbours.getD t []).getD i none
  constrained t i := (notchConstrained.getD t []).getD i false
  star v := notchStars.getD v []
  internal t := decide (t < 3)

/-- `init_skeleton` on the pentagon -/
def notchSkeleton : St ℚ :=
  match initSkeleton notchDt id with
  | .ok s => s
  | .error _ => rectangle

theorem notchSkeleton_ok : initSkeleton notchDt id = .ok notchSkeleton := by
  have h : (match initSkeleton notchDt id with
    | .ok _ => true
    | .error _ => false) = true := by decide +kernel
  unfold notchSkeleton
  split at h
  · rename_i s hs
    rw [hs]
  · cases h

theorem notchDt_ok : DtOk notchDt where
  corners := by
    intro t ht i
    have ht : t < 11 := ht
    interval_cases t <;> fin_cases i <;> exact ⟨_, rfl, by decide +kernel⟩
  star_corner := by
    intro v hv e he
    have hv : v < 5 := hv
    revert e
    interval_cases v <;> decide +kernel
  star_nodup := by
    intro v hv
    have hv : v < 5 := hv
    interval_cases v <;> decide +kernel
  star_ok := by
    intro v hv
    have hv : v < 5 := hv
    interval_cases v <;> (constructor <;> unfold Ahead Behind <;> decide +kernel)

theorem notchDt_mesh : DtMesh notchDt where
  toDtOk := notchDt_ok
  distinct := by
    intro t ht i j
    have ht : t < 11 := ht
    revert i j
    interval_cases t <;> decide +kernel
  proper := by
    intro t ht
    have ht : t < 11 := ht
    interval_cases t <;> exact ⟨0, _, rfl, by decide +kernel⟩
  back := by
    intro t ht i n hn hlt
    have ht : t < 11 := ht
    interval_cases t <;> fin_cases i <;> first
      | (cases hn; done)
      | (cases hn; decide +kernel)
  star_next := by
    intro v hv
    have hv : v < 5 := hv
    interval_cases v <;> (unfold Next; decide +kernel)
  star_closed := by
    intro v hv
    have hv : v < 5 := hv
    interval_cases v <;> (unfold Next; decide +kernel)
  constrained_finite := by
    intro t ht i hc j hj v hv
    have ht : t < 11 := ht
    interval_cases t <;> fin_cases i <;> first
      | (cases hc; done)
      | (fin_cases j <;> first
          | (exact absurd rfl hj)
          | (cases hv; decide +kernel))

theorem notchDt_regions : DtRegions notchDt := by
  intro t ht i n hn _ hc
  have ht : t < 11 := ht
  interval_cases t <;> fin_cases i <;> first
    | (cases hc; done)
    | (cases hn; done)
    | (cases hn; decide +kernel)

theorem notchDt_inside : DtInside notchDt := by
  intro t ht hin i v hv
  have ht : t < 11 := ht
  interval_cases t <;> fin_cases i <;> first
    | (exact absurd hin (by decide +kernel))
    | (cases hv; decide +kernel)

/-- the normals of the sides of the pentagon, to both sides -/
def notchNormals : List (Pt ℚ) :=
  [(0, 1), (0, -1), (1, 0), (-1, 0), (3 / 5, -4 / 5), (-3 / 5, 4 / 5), (12 / 13, 5 / 13), (-12 / 13, -5 / 13),
    (-4 / 5, 3 / 5), (4 / 5, -3 / 5)]

theorem notch_sides : ∀ t < notchDt.nT, ∀ i : Fin 3, notchDt.constrained t i = true →
    ∀ a ∈ notchDt.corner t (i + 1), ∀ b ∈ notchDt.corner t (i + 2),
    0 < HasSqrt.sqrt (((notchDt.pos b).1 - (notchDt.pos a).1) ^ 2 + ((notchDt.pos b).2 - (notchDt.pos a).2) ^ 2) ∧
    HasSqrt.sqrt (((notchDt.pos b).1 - (notchDt.pos a).1) ^ 2 + ((notchDt.pos b).2 - (notchDt.pos a).2) ^ 2) ^ 2 =
      ((notchDt.pos b).1 - (notchDt.pos a).1) ^ 2 + ((notchDt.pos b).2 - (notchDt.pos a).2) ^ 2 ∧
    (-((notchDt.pos b).2 - (notchDt.pos a).2) /
        HasSqrt.sqrt (((notchDt.pos b).1 - (notchDt.pos a).1) ^ 2 + ((notchDt.pos b).2 - (notchDt.pos a).2) ^ 2),
      ((notchDt.pos b).1 - (notchDt.pos a).1) /
        HasSqrt.sqrt (((notchDt.pos b).1 - (notchDt.pos a).1) ^ 2 + ((notchDt.pos b).2 - (notchDt.pos a).2) ^ 2)) ∈
      notchNormals := by
  decide +kernel

theorem notch_lengths : ExactLengths notchDt := by
  intro t i a b ht hc ha hb
  obtain ⟨h1, h2, -⟩ := notch_sides t ht i hc a (Option.mem_def.2 ha) b (Option.mem_def.2 hb)
  exact ⟨h1.le, h2⟩

theorem notch_normal {l : Line2 ℚ} (h : InputLine notchDt l) : l.w ∈ notchNormals := by
  obtain ⟨t, i, a, b, ht, hc, ha, hb, hu, h1, h2, hp⟩ := h
  obtain ⟨q1, q2, q3⟩ := notch_sides t ht i hc a (Option.mem_def.2 ha) b (Option.mem_def.2 hb)
  unfold AtDistance at h1 h2
  have := normal_unique q1 q2 (by linear_combination h2 - h1) hu hp
  rw [show l.w = (l.w.1, l.w.2) from rfl, this]
  exact q3

theorem notch_angles : ClearAngles notchDt := by
  intro l r hl hr
  exact (by decide +kernel : ∀ x ∈ notchNormals, ∀ y ∈ notchNormals,
    (1 / 10 ^ 10 < |x.1 * y.2 - y.1 * x.2| ∨ x = y ∨ x = (-y.1, -y.2))) _ (notch_normal hl) _ (notch_normal hr)

theorem notch_spikes : NoSpikes notchSkeleton := by
  have h : (List.range notchSkeleton.nV).all (fun v => match notchSkeleton.vert v with
    | .kin k => match k.ul, k.ur with
      | some a, some b =>
        decide ((notchSkeleton.line a).w ≠ (-(notchSkeleton.line b).w.1, -(notchSkeleton.line b).w.2))
      | _, _ => true
    | .inf _ => true) = true := by decide +kernel
  intro v k a b hv hk ha hb
  have := List.all_eq_true.1 h v (List.mem_range.2 hv)
  rw [hk] at this
  simp only [ha, hb, decide_eq_true_eq] at this
  exact this

/-- the skeleton at the start -/
def notchStart : St ℚ := prepare true none notchSkeleton

/-- the state in which the loop starts -/
def notchFirst : St ℚ := { after initEventList notchStart with immediate := [] }

theorem notch_start : initEventList notchStart = .ok ((), after initEventList notchStart) :=
  after_run (by decide +kernel)

end Sample

theorem run_of_stateAt {depth : ℕ} {s1 : St ℚ} : ∀ {m : ℕ} {x : ℚ} {u : St ℚ}, stateAt depth s1 m = some (x, u) →
    ∃ tr, Run depth s1 0 m x u tr := by
  intro m
  induction m with
  | zero =>
    intro x u h
    unfold stateAt at h
    cases h
    exact ⟨[], .start⟩
  | succ m ih =>
    intro x u h
    unfold stateAt at h
    split at h
    · cases h
    · rename_i y w q
      split at h
      · rename_i e x' u' z
        cases h
        obtain ⟨tr, r⟩ := ih q
        exact ⟨_, r.step z⟩
      · cases h

/-- check of `FlatAt` -/
def flatCheck (s : St ℚ) (t : TId) (u : ℚ) : Bool :=
  match placeAt s ((s.tri t).vertices 0) u, placeAt s ((s.tri t).vertices 1) u, placeAt s ((s.tri t).vertices 2) u with
  | some a, some b, some c => decide (area2 a b c = 0)
  | _, _, _ => false

/-- check of `Turning` -/
def flipCheck (s : St ℚ) (e : Event ℚ) : Bool :=
  decide (e.tp ≠ .flip) || sides.all fun i => decide (e.side ≠ [i]) ||
    ((match (s.tri e.tri).neighbours i with
      | some n => !flatCheck s n e.time
      | none => true) &&
    sides.all fun j => decide (j = i) ||
      decide (placeAt s ((s.tri e.tri).vertices i) e.time ≠ placeAt s ((s.tri e.tri).vertices j) e.time))

theorem turning_of_check {s : St ℚ} {e : Event ℚ} (h : flipCheck s e = true) : Turning s e := by
  intro hf i hi
  have hm : ∀ j : Fin 3, j ∈ sides := by decide
  unfold flipCheck at h
  rw [hf] at h
  simp only [ne_eq, not_true_eq_false, decide_false, Bool.false_or, List.all_eq_true] at h
  have h := h i (hm i)
  rw [hi] at h
  simp only [not_true_eq_false, decide_false, Bool.false_or, Bool.and_eq_true, List.all_eq_true] at h
  refine ⟨fun n hn ⟨a, b, c, ha, hb, hc, hz⟩ => ?_, fun j p q hj hp hq hpq => ?_⟩
  · have := h.1
    rw [hn] at this
    dsimp only at this
    unfold flatCheck at this
    rw [ha, hb, hc] at this
    simp [hz] at this
  · have := h.2 j (hm j)
    rw [hp, hq, hpq] at this
    simp [hj] at this

namespace Sample

theorem notch_events : genericRun (fun s e => genericCheck s e && aloneCheck s e && flipCheck s e) 100 4 0 0 notchFirst =
    true := by decide +kernel

theorem notch_next {m : ℕ} (hm : m ≤ 4) {x : ℚ} {u : St ℚ} {tr : List (Event ℚ × ℚ)} {e : Event ℚ}
    (hr : Run 100 notchFirst 0 m x u tr) (he : NextEvent u e) (hl : Live u e.tri) : Generic u e ∧ Alone u e ∧ Turning u e := by
  have := genericRun_run 4 0 .start notch_events m (Nat.zero_le _) (by omega) x u tr e hr he hl
  simp only [Bool.and_eq_true] at this
  exact ⟨generic_of_check this.1.1, alone_of_check this.1.2, turning_of_check this.2⟩

/-- the whole run: a flip at time 3/8, a split at 34/21, and two triangles that vanish at 387/196 and 29/12 -/
theorem notch_run : ∃ s tr, stateAt 100 notchFirst 4 = some (29 / 12, s) ∧
    GeneralRun notchDt 100 notchSkeleton notchStart 4 (29 / 12) s tr := by
  have hv : (stateAt 100 notchFirst 4).map (·.1) = some (29 / 12) := by decide +kernel
  obtain ⟨⟨x, s⟩, hs, hx⟩ := Option.map_eq_some_iff.1 hv
  obtain rfl : x = 29 / 12 := hx
  obtain ⟨tr, hr⟩ := run_of_stateAt hs
  have hi : Initial notchStart := initialOk_sound (by decide +kernel)
  have key : ∀ z, initEventList notchStart = .ok ((), z) → { z with immediate := [] } = notchFirst := fun z hz => by
    rw [notch_start] at hz
    cases hz
    rfl
  refine ⟨s, tr, hs, notchDt_mesh, notchDt_regions, notchDt_inside, notch_lengths, notch_angles, notch_spikes,
    ⟨id, none, fun _ _ q => q, notchSkeleton_ok, rfl⟩, ⟨hi, _, notch_start, hr⟩, ?_, start_of_check (by decide +kernel),
    ⟨?_, ?_⟩⟩
  · intro z hz m hm x u tr' e r q l
    rw [key z hz] at r
    exact (notch_next hm r q l).1
  · intro z hz m hm x u tr' r i t ht hl
    rw [key z hz] at r
    have h9 : (List.range (4 + 1)).all (fun m => ((stateAt 100 notchFirst m).map
        fun r => solvableState notchStart.skTriangles r.2).getD true) = true := by decide +kernel
    have := List.all_eq_true.1 h9 m (List.mem_range.2 (Nat.lt_succ_of_le hm))
    rw [stateAt_run r] at this
    simp only [Option.map_some, Option.getD_some] at this
    unfold solvableState at this
    rw [i] at this
    simp only [List.isEmpty_nil, Bool.not_true, Bool.false_or, Bool.and_eq_true] at this
    have c := clear_of_state (W := True) this.1 ht hl _ (.inl fun _ => rfl)
    refine ⟨⟨c.side, c.apex, c.apart, c.zero, c.coeffs, c.near, c.roots⟩, solvable_of_check ?_⟩
    have := List.all_eq_true.1 this.2 t ht
    rw [hl.2] at this
    simpa using this
  · intro z hz m hm x u tr' e x' u' r q
    rw [key z hz] at r
    have h10 : (List.range 4).all (sharpAt 100 notchFirst) = true := by decide +kernel
    have := List.all_eq_true.1 h10 m (List.mem_range.2 hm)
    unfold sharpAt at this
    rw [stateAt_run r] at this
    dsimp only at this
    rw [q] at this
    have c := sharp_of_event this
    exact ⟨c.sharp, c.tiny, c.three, c.gaps, c.late⟩

theorem notch_input : GeneralInput notchDt 100 notchSkeleton notchStart := by
  obtain ⟨s, tr, hs, h⟩ := notch_run
  have hv : (stateAt 100 notchFirst 4).map (fun r => (r.2.immediate.isEmpty, r.2.queue.isEmpty)) = some (true, true) := by
    decide +kernel
  rw [hs] at hv
  obtain ⟨h1, h2⟩ := Prod.mk.inj (Option.some.inj hv)
  refine general_input h ?_ (List.isEmpty_iff.1 h1) (List.isEmpty_iff.1 h2)
  intro z hz m hm x u tr' e r q l
  rw [notch_start] at hz
  cases hz
  exact (notch_next hm r q l).2

end Sample

/-- C92: the pentagon is an input in general position of which the first event is a flip; there are at most 216
iterations (there are four). -/
example : GeneralInput Sample.notchDt 100 Sample.notchSkeleton Sample.notchStart ∧
    (∃ e, NextEvent Sample.notchFirst e ∧ e.tp = .flip ∧ Live Sample.notchFirst e.tri) ∧
    mostIterations Sample.notchStart.skTriangles.length Sample.notchStart.skVertices.length = 216 := by
  refine ⟨Sample.notch_input, ?_, by decide +kernel⟩
  have hv : (Sample.notchFirst.immediate.isEmpty, Sample.notchFirst.queue.head?.map fun e =>
      (e.tp, decide (e.tri < Sample.notchFirst.nT), (Sample.notchFirst.tri e.tri).stopsAt)) =
    (true, some (.flip, true, none)) := by decide +kernel
  obtain ⟨h1, h2⟩ := Prod.mk.inj hv
  obtain ⟨e, he, hx⟩ := Option.map_eq_some_iff.1 h2
  simp only [Prod.mk.injEq, decide_eq_true_eq] at hx
  exact ⟨e, .inr ⟨List.isEmpty_iff.1 h1, he⟩, hx.1, hx.2⟩

/-- So the event loop delivers its skeleton. -/
example : ∃ now s, eventLoop 100 (Sample.after initEventList Sample.notchStart) = .ok (now, s) ∧
    ∀ t ∈ s.skTriangles, ¬ Live s t := by
  have hok : (match eventLoop 100 (Sample.after initEventList Sample.notchStart) with
    | .ok _ => true
    | .error _ => false) = true := by decide +kernel
  obtain ⟨n, now, s, tr, -, ⟨h, hd⟩ | ⟨h, -⟩⟩ := C92_event_loop Sample.notch_input Sample.notch_start (by decide +kernel)
  · exact ⟨now, s, h, hd⟩
  · rw [h] at hok
    cases hok

/-- C90 and C91 apply to the run, with its flip and its split. -/
example : ∃ s tr, GenericExecution 100 Sample.notchStart 4 (29 / 12) s tr ∧ NodeToNode s ∧
    Forward (· ∈ Sample.notchStart.skTriangles) s (29 / 12) := by
  obtain ⟨s, tr, -, h⟩ := Sample.notch_run
  exact ⟨s, tr, (C90_sharp h).1, (C90_exact h).2.1, (C91_forward h).1⟩

end Grassfire
