/-
Property C72: events do not concern triangles outside of the region.
-/
import Verif.Proofs.Within
import Verif.Props.InitMesh

set_option linter.unusedSectionVars false

namespace Grassfire

open Spec

variable {K : Type} [Field K] [LinearOrder K] [HasSqrt K] {S : TId → Prop}

/-! ### the theorems -/

/-- C72: let `S` be a set of triangles that no neighbour pointer leaves.  Handling an event of a triangle of `S` (of any
kind, including whatever happens to infinitely fast vertices) does not touch other triangles, makes no events for other
triangles, and creates no pointer that leaves `S`. -/
theorem C72_event [HasTrig K] (depth : ℕ) (e : Event K) (step : ℤ) (s s' : St K) (a : Unit) (hs : Closed S s) (he : S e.tri)
    (h : handleEvent depth e step s = .ok (a, s')) :
    Closed S s' ∧ (∀ t, ¬ S t → s'.tri t = s.tri t) ∧ ∀ e' ∈ pending s', e' ∈ pending s ∨ S e'.tri := by
  obtain ⟨h1, h2, h3, -⟩ := w_handleEvent depth e step he s a s' hs h
  exact ⟨h1, h2, h3⟩

/-- C72: in an execution with a closed set `S` that contains the triangles of the skeleton: all events that are handled
concern triangles of `S`, the other triangles are all the time as they were in the beginning, and `S` stays closed. -/
theorem C72_execution [HasTrig K] {depth n : ℕ} {s0 s : St K} {now : K} {tr : List (Event K × K)}
    (h : Execution depth s0 n now s tr) (hc : Closed S s0) (hS : ∀ t ∈ s0.skTriangles, S t) :
    Closed S s ∧ (∀ t, ¬ S t → s.tri t = s0.tri t) ∧ (∀ e ∈ pending s, S e.tri) ∧ ∀ x ∈ tr, S x.1.tri := by
  obtain ⟨-, s1, h1, hr⟩ := h
  obtain ⟨a, b, c⟩ := within_start h1 hc hS
  induction hr with
  | start => exact ⟨a, b, fun e he => c e (by simpa [pending] using he), fun _ h => by cases h⟩
  | @step m x x' u u' tr' e hr' hs ih =>
    obtain ⟨d1, d2, d3, d4⟩ := ih
    obtain ⟨f1, f2, f3, f4⟩ := w_loopStep d1 d3 hs
    refine ⟨f1, fun t ht => (f2 t ht).trans (d2 t ht), f3, fun y hy => ?_⟩
    rcases List.mem_append.1 hy with q | q
    · exact d4 y q
    · rw [List.mem_singleton.1 q]; exact f4

section
variable {dt : Dt K} {pyid : TId → ℕ} {ts : List (TriStart K)} {vs : List (KVertex K × List DEdge)}
  {nbr : TId → Fin 3 → Option TId} {unwanted sorted : List TId} {s : St K}

/-- the triangles in the row of a kinetic vertex are inside or outside together -/
theorem Around.regions {v : DV} (hdt : DtMesh dt) (hr : DtRegions dt) : ∀ {mid p q g : List DEdge} {e f : DEdge},
    Around dt v g → g = p ++ e :: (mid ++ f :: q) → dt.internal f.1 = dt.internal e.1 := by
  intro mid
  induction mid with
  | nil =>
    intro p q g e f h hg
    obtain ⟨h1, -, -, h2, -⟩ := h.step hdt hg
    exact hr _ (h.bound e (by rw [hg]; simp)) _ _ h1 (h.bound f (by rw [hg]; simp)) h2
  | cons m mid ih =>
    intro p q g e f h hg
    obtain ⟨h1, -, -, h2, -⟩ := h.step hdt (p := p) (q := mid ++ f :: q) (f := m) (e := e) hg
    have := hr _ (h.bound e (by rw [hg]; simp)) _ _ h1 (h.bound m (by rw [hg]; simp)) h2
    rw [← this]
    exact ih (p := p ++ [e]) (q := q) h (by rw [hg]; simp)

theorem Delivered.regions (h : Delivered dt pyid ts vs nbr unwanted sorted s) (hdt : DtMesh dt) (hr : DtRegions dt)
    {t : TId} (ht : t < dt.nT) (hu : t ∉ unwanted) {i : Fin 3} {n : TId} (hn : nbr t i = some n) :
    dt.internal n = dt.internal t := by
  obtain ⟨links, hw, -, hl⟩ := h.links_ok hdt
  obtain ⟨hlt, -, -⟩ := (h.sides_ok hdt ht hu i).2 n hn
  have hc : dt.constrained t i = false := by
    by_contra hc
    rw [(h.sides_ok hdt ht hu i).1.2 (by simpa using hc)] at hn
    cases hn
  rw [hw _ hu] at hn
  rcases applyLinks_some hn with ho | hm
  · exact hr t ht i n (h.old_neighbour ho).2.1 hlt hc
  · obtain ⟨u, e, f, hgap, -, -, q⟩ := hl _ _ _ hm
    obtain ⟨x, p, mid, r, hx, hrow, -, -⟩ := hgap.row
    obtain ⟨v, ha⟩ := h.around hdt hx
    have := ha.regions hdt hr hrow
    rcases q with q | q <;> simp only [Prod.mk.injEq] at q <;> obtain ⟨rfl, -, rfl⟩ := q
    · exact this
    · exact this.symm

end

/-- C72: the triangles that `internal_only_skeleton` keeps are a closed set: although `init_skeleton` takes triangles out and
links others over the gap, no neighbour pointer leads from the inside to the outside. -/
theorem C72_internal (dt : Dt K) (pyid : TId → ℕ) (hdt : DtMesh dt) (hr : DtRegions dt) (s : St K)
    (h : initSkeleton dt pyid = .ok s) (internal : Bool) (tr : Option (Transform K)) :
    Closed (fun t => t ∈ (prepare internal tr s).skTriangles) (prepare internal tr s) ∧
    (internal = true → ∀ t, t ∈ (prepare internal tr s).skTriangles ↔ Live s t ∧ dt.internal t = true) := by
  obtain ⟨ts, vs, nbr, unwanted, sorted, hd⟩ := initSkeleton_ok h
  have hlive := (C70_mesh dt pyid hdt s h).2
  have hint : ∀ t, (s.tri t).internal = dt.internal t := by
    intro t
    by_cases hu : t ∈ unwanted
    · rw [hd.tri_unwanted hu]
    · rw [hd.tri_wanted hu]
  have htri : (prepare internal tr s).tri = s.tri := by unfold prepare; cases internal <;> cases tr <;> rfl
  have hmem : ∀ t, t ∈ (prepare internal tr s).skTriangles ↔ Live s t ∧ (internal = true → dt.internal t = true) := by
    intro t
    rw [hlive, ← hint]
    unfold prepare
    cases internal <;> cases tr <;> simp [internalOnly, List.mem_filter]
  refine ⟨fun t i n ht hn => ?_, fun hi t => by rw [hmem]; exact and_congr_right fun _ => ⟨fun q => q hi, fun q _ => q⟩⟩
  obtain ⟨hl, hi⟩ := (hmem t).1 ht
  refine (hmem n).2 ?_
  obtain ⟨hlt, hu⟩ := hd.live.1 hl
  rw [htri, hd.tri_wanted hu] at hn
  obtain ⟨h1, h2, -⟩ := (hd.sides_ok hdt hlt hu i).2 n hn
  exact ⟨hd.live.2 ⟨h1, h2⟩, fun q => (hd.regions hdt hr hlt hu hn).trans (hi q)⟩

/-- C72: `calc_skel(internal_only=True)` only works on the triangles inside: in the execution that leads to its result all
events concern triangles inside, and the triangles outside end up as `init_skeleton` has delivered them. -/
theorem C72_calc_skel [HasTrig K] [IsStrictOrderedRing K] (depth : ℕ) (pyid : TId → ℕ) (hid : Function.Injective pyid)
    (triangulate : List (Pt K) → Except Err (Dt K))
    (ht : ∀ pts dt, triangulate pts = .ok dt → DtMesh dt ∧ DtRegions dt)
    (points : List (Pt K)) (shrink : Bool) (now : K) (s : St K)
    (h : calcSkel depth pyid triangulate points shrink true = .ok (now, s)) :
    ∃ dt skel s0 n tr, initSkeleton dt pyid = .ok skel ∧ s0.tri = skel.tri ∧ Execution depth s0 n now s tr ∧
      (∀ t, dt.internal t = false → s.tri t = skel.tri t) ∧ ∀ x ∈ tr, dt.internal x.1.tri = true := by
  obtain ⟨pts, tr, dt, skel, _, h2, h3, h4⟩ := C55_completed depth pyid hid triangulate points shrink true now s h
  obtain ⟨hm, hr⟩ := ht _ _ h2
  obtain ⟨n, trace, -, he⟩ := completed_execution h4
  obtain ⟨hc, hi⟩ := C72_internal dt pyid hm hr skel h3 true tr
  have htri : (prepare true tr skel).tri = skel.tri := by unfold prepare; cases tr <;> rfl
  obtain ⟨-, a, -, b⟩ := C72_execution he hc fun _ h => h
  refine ⟨dt, skel, _, n, trace, h3, htri, he, fun t q => ?_, fun x hx => ((hi rfl _).1 (b x hx)).2⟩
  rw [← htri]
  refine a t fun z => ?_
  have := ((hi rfl t).1 z).2
  rw [q] at this
  cases this

/-! ### the hypotheses are met -/

theorem Sample.rectangleDt_regions : DtRegions Sample.rectangleDt := by
  intro t ht i n hn _ hc
  have ht : t < 9 := ht
  interval_cases t <;> fin_cases i <;> first
    | (cases hc; done)
    | (cases hn; done)
    | (cases hn; decide +kernel)

/-- the triangles inside the rectangle are 0 and 1, and they are a closed set; there are others -/
example : Closed (fun t => t ∈ (internalOnly Sample.rectangleSkeleton).skTriangles) (internalOnly Sample.rectangleSkeleton) ∧
    (internalOnly Sample.rectangleSkeleton).skTriangles = [0, 1] ∧ Sample.rectangleSkeleton.skTriangles.length = 6 :=
  ⟨(C72_internal _ _ Sample.rectangleDt_mesh Sample.rectangleDt_regions _ Sample.rectangleSkeleton_ok true none).1,
    by decide +kernel, by decide +kernel⟩

theorem Sample.triangulate_regions : ∀ pts dt, Sample.triangulate pts = .ok dt → DtMesh dt ∧ DtRegions dt := by
  intro pts dt h
  refine ⟨Sample.triangulate_mesh pts dt h, ?_⟩
  unfold Sample.triangulate at h
  split_ifs at h
  cases h
  exact Sample.rectangleDt_regions

/-- what triangle 2, which is outside, and triangle 0, which is inside, look like in the end -/
def Sample.inOut : Option ((Fin 3 → Option ℕ) × Option ℚ × Option ℚ) :=
  match calcSkel 100 id Sample.triangulate [(0, 0), (4, 0), (4, 2), (0, 2)] true true with
  | .ok (_, s) => some ((s.tri 2).neighbours, (s.tri 2).stopsAt, (s.tri 0).stopsAt)
  | .error _ => none

/-- a run of `calc_skel` to which C72 applies, with events, and with triangles outside -/
example : ∃ now s dt skel s0 n tr, calcSkel 100 id Sample.triangulate [(0, 0), (4, 0), (4, 2), (0, 2)] true true = .ok (now, s) ∧
    initSkeleton dt id = .ok skel ∧ Execution 100 s0 n now s tr ∧ (∀ t, dt.internal t = false → s.tri t = skel.tri t) ∧
    (s.tri 2).neighbours 2 = some 3 ∧ (s.tri 2).stopsAt = none ∧ (s.tri 0).stopsAt = some (1 / 2) := by
  have h : Sample.inOut = some (![none, some 5, some 3], none, some (1 / 2)) := by decide +kernel
  unfold Sample.inOut at h
  split at h
  · rename_i now s hs
    obtain ⟨dt, skel, s0, n, tr, h1, h2, h3, h4, -⟩ :=
      C72_calc_skel _ _ Function.injective_id _ Sample.triangulate_regions _ _ _ _ hs
    simp only [Option.some.injEq, Prod.mk.injEq] at h
    exact ⟨now, s, dt, skel, s0, n, tr, hs, h1, h3, h4, by rw [h.1]; rfl, h.2.1, h.2.2⟩
  · cases h

end Grassfire
