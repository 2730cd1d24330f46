/-
Property C71: in regions without holes the events find the triangulation as they need it.
-/
import Verif.Proofs.ForestRun
import Verif.Props.Within
import Verif.Props.Freshness
import Verif.Proofs.LinkCheck

set_option linter.unusedSectionVars false

namespace Grassfire

open Spec

variable {K : Type} [Field K] [LinearOrder K] [HasSqrt K] {S : TId → Prop} {s s' : St K}

/-- C71: in a region without holes every side may collapse and be flipped: only the neighbour over a side has both of its
ends as corners, and its third corner is another one. -/
theorem C71_link_condition (hM : Mesh s) (hN : NoHoles S s) {t : TId} (hl : Live s t) (hS : S t) (e : Fin 3) :
    Collapsible s t e ∧ ProperSide s t e :=
  ⟨hN.collapsible hM hl hS e, hN.proper hM hl hS e⟩

/-- C71: every state of an execution on regions without holes is a consistent triangulation of regions without holes,
and the execution is an ordinary one, so that C66-C68 hold for it: no further conditions about the triangles around the
sides that collapse or are flipped are needed. -/
theorem C71_execution [IsStrictOrderedRing K] [SqrtUnit K] [HasTrig K] {depth n : ℕ} {s0 : St K} {now : K}
    {tr : List (Event K × K)} (h : RegionExecution S depth s0 n now s tr) :
    OrdinaryExecution depth s0 n now s tr ∧ Mesh s ∧ NoHoles S s :=
  region_run h

/-- C71: when vertices and triangles tell the same about the wavefront (C69, C70) and the neighbours form a forest, the
triangles are those of regions without holes. -/
theorem C71_start (hM : Mesh s) (hL : Linked s) (hc : Closed S s) (hf : Forest S s)
    (hr : ∀ t, S t → Live s t → ∀ i, Running s ((s.tri t).vertices i)) : NoHoles S s :=
  ⟨hc, hf, round_of_linked hM hL hr⟩

section
variable {dt : Dt K} {pyid : TId → ℕ} {ts : List (TriStart K)} {vs : List (KVertex K × List DEdge)}
  {nbr : TId → Fin 3 → Option TId} {unwanted sorted : List TId}

/-- triangles inside are not at a gap -/
theorem Delivered.inside_neighbour (h : Delivered dt pyid ts vs nbr unwanted sorted s) (hdt : DtMesh dt) (hi : DtInside dt)
    {t : TId} (ht : t < dt.nT) (hu : t ∉ unwanted) (hin : dt.internal t = true) {i : Fin 3} {n : TId}
    (hn : nbr t i = some n) : dt.neighbour t i = some n ∧ dt.constrained t i = false := by
  obtain ⟨links, hw, -, hl⟩ := h.links_ok hdt
  rw [hw _ hu] at hn
  rcases applyLinks_some hn with ho | hm
  · exact (h.old_neighbour ho).2
  · exfalso
    obtain ⟨u, e, f, hgap, -, -, q⟩ := hl _ _ _ hm
    obtain ⟨-, -, h1, h2, -, -⟩ := h.gap_sides hdt hgap
    have no : ∀ j, KRef.isInf (kref dt vs t j) = true → False := by
      intro j hj
      obtain ⟨v, hv, -⟩ := hdt.corners t ht j
      rw [h.isInf_iff hdt ht hv, hi t ht hin j v hv] at hj
      cases hj
    rcases q with q | q <;> simp only [Prod.mk.injEq] at q <;> obtain ⟨rfl, -, -⟩ := q
    · exact no _ h1
    · exact no _ h2

end

/-- C71: when the polygons have no holes, `calc_skel(internal_only=True)` starts with regions without holes. -/
theorem C71_internal [IsStrictOrderedRing K] (dt : Dt K) (pyid : TId → ℕ) (hdt : DtMesh dt) (hr : DtRegions dt)
    (hi : DtInside dt) (hf : DtForest dt) (s : St K) (h : initSkeleton dt pyid = .ok s) (tr : Option (Transform K)) :
    Mesh (prepare true tr s) ∧ NoHoles (fun t => t ∈ (prepare true tr s).skTriangles) (prepare true tr s) := by
  obtain ⟨ts, vs, nbr, unwanted, sorted, hd⟩ := initSkeleton_ok h
  have hm := (C70_mesh dt pyid hdt s h).1
  have hl := C70_linked dt pyid hdt s h
  obtain ⟨hc, hmem⟩ := C72_internal dt pyid hdt hr s h true tr
  have htri : (prepare true tr s).tri = s.tri := by unfold prepare; cases tr <;> rfl
  have hm' : Mesh (prepare true tr s) := by
    refine mesh_congr ?_ ?_ ?_ hm <;> unfold prepare <;> cases tr <;> rfl
  have hl' : Linked (prepare true tr s) := by
    refine linked_congr ?_ ?_ ?_ ?_ hl <;> unfold prepare <;> cases tr <;> rfl
  have hnV : (prepare true tr s).nV = s.nV := by unfold prepare; cases tr <;> rfl
  have hvert : (prepare true tr s).vert = s.vert := by unfold prepare; cases tr <;> rfl
  refine ⟨hm', C71_start hm' hl' hc ?_ fun t ht _ i => ?_⟩
  · obtain ⟨rank, hr⟩ := hf
    refine ⟨rank, fun t ht _ i j n m hn hm => ?_⟩
    obtain ⟨hlive, hin⟩ := (hmem rfl t).1 ht
    obtain ⟨hlt, hu⟩ := hd.live.1 hlive
    rw [htri, hd.tri_wanted hu] at hn hm
    obtain ⟨a, b⟩ := hd.inside_neighbour hdt hi hlt hu hin hn
    obtain ⟨c, d⟩ := hd.inside_neighbour hdt hi hlt hu hin hm
    exact hr t hlt hin i j n m a c b d
  · obtain ⟨hlive, hin⟩ := (hmem rfl t).1 ht
    obtain ⟨hlt, hu⟩ := hd.live.1 hlive
    obtain ⟨v, hv, -⟩ := hdt.corners t hlt i
    obtain ⟨u, x, hx, -, -, -, hk⟩ := hd.finite_corner hdt hlt hv (hi t hlt hin i v hv)
    have hv : ((prepare true tr s).tri t).vertices i = u := by
      rw [htri, hd.tri_wanted hu]; dsimp only; rw [hk]; rfl
    have hrun := hd.all_running (hd.kinetic.2 (List.getElem?_eq_some_iff.1 hx).1)
    rw [hv]
    unfold Running at hrun ⊢
    rw [hnV, hvert]
    exact hrun

/-- C71: for polygons without holes the executions of `calc_skel(internal_only=True)` stay triangulations of regions
without holes as long as their iterations are calm. -/
theorem C71_calc_skel [IsStrictOrderedRing K] [SqrtUnit K] [HasTrig K] (depth : ℕ) (pyid : TId → ℕ)
    (hid : Function.Injective pyid) (triangulate : List (Pt K) → Except Err (Dt K))
    (ht : ∀ pts dt, triangulate pts = .ok dt → DtMesh dt ∧ DtRegions dt ∧ DtInside dt ∧ DtForest dt)
    (points : List (Pt K)) (shrink : Bool) (now : K) (s : St K)
    (h : calcSkel depth pyid triangulate points shrink true = .ok (now, s)) :
    ∃ s0 n tr, Execution depth s0 n now s tr ∧ Mesh s0 ∧ NoHoles (fun t => t ∈ s0.skTriangles) s0 ∧
      (CalmIterations depth s0 n → OrdinaryExecution depth s0 n now s tr ∧ Mesh s ∧ NoHoles (fun t => t ∈ s0.skTriangles) s) := by
  obtain ⟨pts, tr, dt, skel, _, h2, h3, h4⟩ := C55_completed depth pyid hid triangulate points shrink true now s h
  obtain ⟨hm, hr, hi, hf⟩ := ht _ _ h2
  obtain ⟨n, trace, -, he⟩ := completed_execution h4
  obtain ⟨m0, n0⟩ := C71_internal dt pyid hm hr hi hf skel h3 tr
  refine ⟨_, n, trace, he, m0, n0, fun hc => C71_execution ?_⟩
  obtain ⟨hI, s1, h1, hrun⟩ := he
  exact ⟨hI, m0, n0, fun _ q => q, s1, h1, hrun, hc s1 h1⟩

/-! ### the hypotheses are met -/

/-- a rank, checked -/
def forestCheck (rank : TId → ℕ) (s : St ℚ) : Bool :=
  (List.range s.nT).all fun t => decide (∀ i j : Fin 3, ∀ n ∈ (s.tri t).neighbours i, ∀ m ∈ (s.tri t).neighbours j,
    rank n ≤ rank t → rank m ≤ rank t → i = j)

theorem forest_of_check {rank : TId → ℕ} {s : St ℚ} (h : forestCheck rank s = true) : Forest (fun _ => True) s := by
  refine ⟨rank, fun t _ ht i j n m hn hm => ?_⟩
  exact of_decide_eq_true (List.all_eq_true.1 h t (List.mem_range.2 ht.1)) i j n hn m hm

def runningCheck (s : St ℚ) : Bool :=
  (List.range s.nT).all fun t => decide (∀ i : Fin 3, (s.tri t).vertices i < s.nV ∧
    ((match s.vert ((s.tri t).vertices i) with | .kin k => k.stopsAt == none | _ => false) = true))

theorem running_of_check {s : St ℚ} (h : runningCheck s = true) (t : TId) (ht : Live s t) (i : Fin 3) :
    Running s ((s.tri t).vertices i) := by
  obtain ⟨h1, h2⟩ := of_decide_eq_true (List.all_eq_true.1 h t (List.mem_range.2 ht.1)) i
  refine ⟨h1, ?_⟩
  split at h2
  · next k hk => exact ⟨k, hk, by simpa using h2⟩
  · cases h2

/-- an execution on a region without holes, by evaluation -/
theorem region_execution {depth n : ℕ} {s0 : St ℚ} {rank : TId → ℕ} (h1 : Sample.initialOk s0 = true) (h2 : meshCheck s0 = true)
    (h3 : Sample.outcome initEventList (fun _ _ => ()) s0 = some ())
    (h4 : (ordinaryRun depth n 0 0 { Sample.after initEventList s0 with immediate := [] }).isSome = true)
    (h5 : linkedCheck s0 = true) (h6 : forestCheck rank s0 = true) (h7 : runningCheck s0 = true) :
    ∃ now s tr, RegionExecution (fun _ => True) depth s0 n now s tr := by
  obtain ⟨now, s, tr, -, hI, hM, s1, q1, q2, q3⟩ := ordinary_execution h1 h2 h3 h4
  exact ⟨now, s, tr, hI, hM, C71_start hM (linked_of_check h5) (fun _ _ _ _ _ => trivial) (forest_of_check h6)
    fun t _ ht i => running_of_check h7 t ht i, fun _ _ => trivial, s1, q1, q2, fun m hm x u tr' e x' u' r1 r2 =>
      ⟨(q3 m hm x u tr' e x' u' r1 r2).slow, (q3 m hm x u tr' e x' u' r1 r2).three⟩⟩

/-- the complete runs of two examples: an edge event, and the collapse of what is left; a split event, and the collapse
of the two parts -/
example : ∃ now s tr, RegionExecution (fun _ => True) 100 Sample.trapezoid 2 now s tr :=
  region_execution (rank := id) (by decide +kernel) (by decide +kernel) (by decide +kernel) (by decide +kernel)
    (by decide +kernel) (by decide +kernel) (by decide +kernel)
example : ∃ now s tr, RegionExecution (fun _ => True) 100 Sample.notched 3 now s tr :=
  region_execution (rank := id) (by decide +kernel) (by decide +kernel) (by decide +kernel) (by decide +kernel)
    (by decide +kernel) (by decide +kernel) (by decide +kernel)

/-- The link condition is not met by chance: the two triangles of the trapezoid share a side. -/
example : (Sample.trapezoid.tri 0).neighbours 0 = some 1 ∨ (Sample.trapezoid.tri 0).neighbours 1 = some 1 ∨
    (Sample.trapezoid.tri 0).neighbours 2 = some 1 := by decide +kernel

theorem Sample.rectangleDt_inside : DtInside Sample.rectangleDt := by
  intro t ht hin i v hv
  have ht : t < 9 := ht
  interval_cases t <;> fin_cases i <;> first
    | (exact absurd hin (by decide +kernel))
    | (cases hv; decide +kernel)

theorem Sample.rectangleDt_forest : DtForest Sample.rectangleDt := by
  refine ⟨id, fun t ht hin i j n m hn hm hc hd _ _ => ?_⟩
  have ht : t < 9 := ht
  interval_cases t <;> fin_cases i <;> fin_cases j <;> first
    | rfl
    | (exact absurd hin (by decide +kernel))
    | (exact absurd hc (by decide +kernel))
    | (exact absurd hd (by decide +kernel))

theorem Sample.triangulate_forest : ∀ pts dt, Sample.triangulate pts = .ok dt →
    DtMesh dt ∧ DtRegions dt ∧ DtInside dt ∧ DtForest dt := by
  intro pts dt h
  obtain ⟨h1, h2⟩ := Sample.triangulate_regions pts dt h
  refine ⟨h1, h2, ?_⟩
  unfold Sample.triangulate at h
  split_ifs at h
  cases h
  exact ⟨Sample.rectangleDt_inside, Sample.rectangleDt_forest⟩

/-- a run of `calc_skel` that starts with a region without holes -/
example : ∃ now s s0 n tr, calcSkel 100 id Sample.triangulate [(0, 0), (4, 0), (4, 2), (0, 2)] true true = .ok (now, s) ∧
    Execution 100 s0 n now s tr ∧ NoHoles (fun t => t ∈ s0.skTriangles) s0 := by
  have h : Sample.inOut = some (![none, some 5, some 3], none, some (1 / 2)) := by decide +kernel
  unfold Sample.inOut at h
  split at h
  · rename_i now s hs
    obtain ⟨s0, n, tr, h1, -, h2, -⟩ := C71_calc_skel _ _ Function.injective_id _ Sample.triangulate_forest _ _ _ _ hs
    exact ⟨now, s, s0, n, tr, hs, h1, h2⟩
  · cases h

end Grassfire
