/-
C85: `init_skeleton` does not raise.
-/
import Verif.Proofs.InitTotalLinks
import Verif.Proofs.WavefrontInit
import Verif.Props.InitMesh
import Verif.Props.Wavefronts

set_option linter.unusedSectionVars false

namespace Grassfire

open Spec

variable {K : Type} [Field K] [LinearOrder K] [IsStrictOrderedRing K] [HasSqrt K]

/-- **C85.** For every consistent triangulation of points within three infinite vertices, in which at least two
constrained edges of positive length end at every vertex, and in which lengths can be computed, `init_skeleton`
delivers a skeleton: none of its assertions fails, no direction is missing, the lists get linked, the three outer
triangles are found and taken out. -/
theorem C85_total [SqrtUnit K] (dt : Dt K) (pyid : TId → ℕ) (hdt : DtMesh dt) (hfr : DtFrame dt)
    (hx : ExactLengths dt) : ∃ s, initSkeleton dt pyid = .ok s :=
  initSkeleton_total hdt hfr hx pyid

/-- **C85.** The same with a proper square root. -/
theorem C85_sqrt [SqrtLaws K] (dt : Dt K) (pyid : TId → ℕ) (hdt : DtMesh dt) (hfr : DtFrame dt) :
    ∃ s, initSkeleton dt pyid = .ok s := by
  have : SqrtUnit K := ⟨by
    have h0 := SqrtLaws.sqrt_nonneg (1 : K) zero_le_one
    have h1 := SqrtLaws.sqrt_mul_self (1 : K) zero_le_one
    nlinarith⟩
  exact initSkeleton_total hdt hfr (exactLengths dt) pyid

/-- **C85.** A vertex at which fewer than two constrained edges end (an isolated point, or an end of a line) is not
supported: `init_skeleton` never delivers a skeleton for such input. -/
theorem C85_loose_end (dt : Dt K) (pyid : TId → ℕ) {v : DV} (hv : v < dt.nV) (hs : StarOk dt (dt.star v))
    (hne : dt.star v ≠ []) (hc : (dt.star v).countP (fun e => dt.constrained e.1 (ccw e.2)) < 2) (s : St K) :
    initSkeleton dt pyid ≠ .ok s := by
  intro h
  obtain ⟨ts, vs, nbr, unwanted, sorted, hd⟩ := initSkeleton_ok h
  obtain ⟨-, h2, -⟩ := makeVertices_ok hd.vertices
  obtain ⟨gs, hg, -⟩ := h2 v (List.mem_range.2 hv)
  obtain ⟨-, h3, h4⟩ := vertexGroups_ok hg
  have := C41_count dt v hs hne gs h3
  omega

/-- **C85.** A constrained edge whose ends coincide: `init_skeleton` never delivers a skeleton. -/
theorem C85_short_edge (dt : Dt K) (pyid : TId → ℕ) {t : DT} (ht : t < dt.nT) {i : Fin 3}
    (hc : dt.constrained t i = true) {a b : DV} (ha : dt.corner t (i + 1) = some a) (hb : dt.corner t (i + 2) = some b)
    (hab : dt.pos a = dt.pos b) (s : St K) : initSkeleton dt pyid ≠ .ok s := by
  intro h
  obtain ⟨ts, vs, nbr, unwanted, sorted, hd⟩ := initSkeleton_ok h
  have hlt : t < ts.length := by rw [hd.tris.1]; exact ht
  obtain ⟨h1, -⟩ := initTri_ok (hd.tris.2 t _ (List.getElem?_eq_getElem hlt))
  have h1 := h1 i
  unfold supportLine at h1
  rw [if_pos hc] at h1
  have ha : dt.corner t (ccw i) = some a := ha
  have hb : dt.corner t (cw i) = some b := hb
  rw [ha, hb] at h1
  dsimp only at h1
  obtain ⟨wf, hw, -⟩ := bindE_ok h1
  unfold WaveFront.make at hw
  obtain ⟨l, hl, -⟩ := bindE_ok hw
  rw [hab] at hl
  unfold Line2.fromPoints at hl
  obtain ⟨ln, -, hl⟩ := bindE_ok hl
  rw [if_pos rfl] at hl
  cases hl

/-- **C85.** With `shrink=True` `calc_skel` gets to the events: whenever there are two different points, and the
triangulation is as above, it sets up an initial skeleton, with a consistent mesh and linked wavefronts, and all that
can go wrong from there on goes wrong in `init_event_list` and `event_loop`. -/
theorem C85_calc_skel [HasTrig K] [SqrtUnit K] (depth : ℕ) (pyid : TId → ℕ) (hid : Function.Injective pyid)
    (triangulate : List (Pt K) → Except Err (Dt K)) (ht : Triangulates triangulate) (points : List (Pt K))
    (hne : ∃ p ∈ points, ∃ q ∈ points, p ≠ q)
    (hdt : ∀ pts, pts.length = points.length → ∃ dt, triangulate pts = .ok dt ∧ DtMesh dt ∧ DtFrame dt ∧ ExactLengths dt)
    (internal : Bool) :
    ∃ s0, Initial s0 ∧ Mesh s0 ∧ Linked s0 ∧
      calcSkel depth pyid triangulate points true internal = runEvents depth s0 := by
  obtain ⟨ll, ur, hb, -⟩ := (C16_get_box points).2 (List.ne_nil_of_mem hne.choose_spec.1)
  obtain ⟨-, -, hall⟩ := C16_unit_box points ll ur hb hne
  obtain ⟨pts, hpts⟩ := mapE_total (f := (getTransform (ll, ur)).forward) (l := points) fun q hq => by
    obtain ⟨r, hr, -⟩ := hall q hq
    exact ⟨r, hr⟩
  have h1 : shrinkPoints true points = .ok (pts, some (getTransform (ll, ur))) := by
    unfold shrinkPoints
    rw [if_pos rfl, hb]
    simp only [bind, Except.bind]
    rw [hpts]
  obtain ⟨dt, h2, hm, hf, hx⟩ := hdt pts (mapE_ok hpts).length_eq.symm
  obtain ⟨skel, h3⟩ := C85_total dt pyid hm hf hx
  have hmesh := (C70_mesh dt pyid hm skel h3).1
  have hl := C70_linked dt pyid hm skel h3
  have hi := (C52_initial dt pyid (fun _ _ _ _ e => hid e) skel h3).1
  refine ⟨_, hi.prepare internal _, ?_, ?_, C55_shrink_check depth pyid triangulate ht points internal h1 h2 h3⟩
  · refine mesh_congr ?_ ?_ ?_ hmesh <;> unfold prepare <;> cases internal <;> rfl
  · refine linked_congr ?_ ?_ ?_ ?_ hl <;> unfold prepare <;> cases internal <;> rfl

/-! ### the hypotheses are met -/

theorem Sample.rectangleDt_frame : DtFrame Sample.rectangleDt where
  listed := by decide +kernel
  corners := by
    refine ⟨(-100, -100), (100, -100), (2, 100), by decide +kernel, by decide +kernel, by decide +kernel, fun p => ?_⟩
    constructor
    · rintro ⟨t, ht, i, v, hv, hf, rfl⟩
      have ht : t < 9 := ht
      revert v
      have : ∀ t < 9, ∀ i : Fin 3, ∀ v ∈ Sample.rectangleDt.corner t i, Sample.rectangleDt.finite v = false →
          Sample.rectangleDt.pos v = (-100, -100) ∨ Sample.rectangleDt.pos v = (100, -100) ∨
          Sample.rectangleDt.pos v = (2, 100) := by decide +kernel
      exact fun v hv hf => this t ht i v (Option.mem_def.2 hv) hf
    · rintro (rfl | rfl | rfl)
      · exact ⟨2, by decide +kernel, 0, 4, by decide +kernel⟩
      · exact ⟨3, by decide +kernel, 0, 5, by decide +kernel⟩
      · exact ⟨4, by decide +kernel, 0, 6, by decide +kernel⟩
  far := by
    have key : ∀ t < 9, (∃ i : Fin 3, ∀ j, j ≠ i → ∃ v ∈ Sample.rectangleDt.corner t j, Sample.rectangleDt.finite v = false) ↔
        t = 6 ∨ t = 7 ∨ t = 8 := by decide +kernel
    refine ⟨6, 7, 8, by decide, by decide, by decide, fun t => ?_⟩
    constructor
    · rintro ⟨ht, i, hi⟩
      exact (key t ht).1 ⟨i, fun j hj => by
        obtain ⟨v, hv, hf⟩ := hi j hj
        exact ⟨v, Option.mem_def.2 hv, hf⟩⟩
    · intro h
      have ht : t < 9 := by rcases h with rfl | rfl | rfl <;> decide
      obtain ⟨i, hi⟩ := (key t ht).2 h
      exact ⟨ht, i, fun j hj => by
        obtain ⟨v, hv, hf⟩ := hi j hj
        exact ⟨v, Option.mem_def.1 hv, hf⟩⟩
  outer := by
    have key : ∀ t < 9, ∀ i : Fin 3, (∀ j, j ≠ i → ∃ v ∈ Sample.rectangleDt.corner t j, Sample.rectangleDt.finite v = false) ↔
        Sample.rectangleDt.neighbour t i = none ∨
          ∃ n ∈ Sample.rectangleDt.neighbour t i, Sample.rectangleDt.corner n 2 = none := by decide +kernel
    intro t ht i
    unfold FarSide
    exact key t ht i
  inner := by
    have key : ∀ t < 9, ∀ i : Fin 3, ∀ n ∈ Sample.rectangleDt.neighbour t i, ∀ w ∈ Sample.rectangleDt.corner n 2,
        n < 9 := by decide +kernel
    exact fun t ht i n w hn hw => key t ht i n (Option.mem_def.2 hn) w (Option.mem_def.2 hw)
  bounded := by decide +kernel
  long := by
    have key : ∀ t < 9, ∀ i : Fin 3, ∀ a ∈ Sample.rectangleDt.corner t (i + 1), ∀ b ∈ Sample.rectangleDt.corner t (i + 2),
        Sample.rectangleDt.constrained t i = true → Sample.rectangleDt.pos a ≠ Sample.rectangleDt.pos b := by decide +kernel
    exact fun t ht i a b hc ha hb => key t ht i a (Option.mem_def.2 ha) b (Option.mem_def.2 hb) hc

example : ∃ s, initSkeleton Sample.rectangleDt id = .ok s :=
  C85_total _ _ Sample.rectangleDt_mesh Sample.rectangleDt_frame Sample.rectangle_exact

/-- the rectangle without its constraints at vertex 0 -/
example : ∀ s, initSkeleton { Sample.rectangleDt with constrained := fun _ _ => false } id ≠ .ok s :=
  C85_loose_end _ _ (v := 0) (by decide) (by constructor <;> unfold Ahead Behind <;> decide +kernel) (by decide +kernel)
    (by decide +kernel)

/-- the rectangle with vertices 0 and 1 at the same place -/
example : ∀ s, initSkeleton { Sample.rectangleDt with pos := fun _ => ((0 : ℚ), (0 : ℚ)) } id ≠ .ok s :=
  C85_short_edge _ _ (t := 0) (by decide) (i := 0) (a := 1) (b := 2) (by decide +kernel) (by decide +kernel)
    (by decide +kernel) rfl

end Grassfire
