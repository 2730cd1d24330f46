/-
Property C38: the triangles that have not been stopped form a consistent triangulation, before and after every event.
-/
import Verif.Proofs.MeshSteps
import Verif.Proofs.MeshCheck

set_option linter.unusedSectionVars false

namespace Grassfire

open Spec

variable {K : Type} [Field K] [LinearOrder K]

/-- C38: in a consistent triangulation `t` lists `u` as often as `u` lists `t`, and only triangles that have not been
stopped are listed. -/
theorem C38_symmetric (s : St K) (h : Mesh s) (t u : TId) (ht : Live s t) :
    (∀ i, (s.tri t).neighbours i = some u → Live s u) ∧
    (Live s u → (Finset.univ.filter fun i => (s.tri t).neighbours i = some u).card =
      (Finset.univ.filter fun i => (s.tri u).neighbours i = some t).card) :=
  mesh_symmetric s h t u ht

section
variable [IsStrictOrderedRing K] [HasSqrt K] [SqrtUnit K] [HasTrig K]

/-- C38 for an edge event whose new vertex is not infinitely fast.  Full statement: without the hypothesis
`Collapsible`; it holds when the triangulation is one of a planar region in which the two vertices meet, which is not
proved for the triangulations of an execution.  `C38_edge_witness` shows that it cannot be left out here. -/
theorem C38_edge_partial (depth : ℕ) (evt : Event K) (step : ℤ) (s s' : St K) (e : Fin 3) (hM : Mesh s)
    (hl : Live s evt.tri) (he : evt.side = [e]) (hc : Collapsible s evt.tri e)
    (h : handleEdge depth evt step s = .ok ((), s')) (hf : ∀ k, s'.vert s.nV = .kin k → k.infFast = false) :
    Mesh s' :=
  (handleEdge_mesh depth evt step s s' e hM hl he hc h hf).1

/-- C38 for a split event whose new vertices are not infinitely fast. -/
theorem C38_split (depth : ℕ) (evt : Event K) (step : ℤ) (s s' : St K) (hM : Mesh s)
    (hl : Live s evt.tri) (h : handleSplit depth evt step s = .ok ((), s'))
    (hfb : ∀ k, s'.vert s.nV = .kin k → k.infFast = false)
    (hfa : ∀ k, s'.vert (s.nV + 1) = .kin k → k.infFast = false) : Mesh s' :=
  (handleSplit_mesh depth evt step s s' hM hl h hfb hfa).1

/-- C38 for an edge event of a triangle of which all sides vanish. -/
theorem C38_three_sides (evt : Event K) (step : ℤ) (s s' : St K) (hM : Mesh s) (hl : Live s evt.tri)
    (hev : ∀ i n, (s.tri evt.tri).neighbours i = some n → (s.tri n).event.isSome)
    (h : handleEdge3 evt step s = .ok ((), s')) : Mesh s' :=
  (handleEdge3_mesh evt step s s' hM hl hev h).1

/-- C38 for an edge event of a triangle with three wavefront sides. -/
theorem C38_one_side (evt : Event K) (step : ℤ) (s s' : St K) (hM : Mesh s)
    (hn : ∀ i, (s.tri evt.tri).neighbours i = none) (h : handleEdge1 evt step s = .ok ((), s')) : Mesh s' :=
  (handleEdge1_mesh evt step s s' hM hn h).1

/-- C38 for a flip event.  Full statement: without the hypothesis `ProperSide`; two different triangles with the same
three corners do not occur in a triangulation of a planar region. -/
theorem C38_flip_partial (evt : Event K) (s s' : St K) (e : Fin 3) (hM : Mesh s) (hl : Live s evt.tri)
    (he : evt.side = [e]) (hf : ProperSide s evt.tri e) (h : handleFlip evt s = .ok ((), s')) : Mesh s' :=
  (handleFlip_mesh evt s s' e hM hl he hf h).1

/-- C38 for the collapse of a triangle of a parallel fan of one triangle: both legs are wavefront sides. -/
theorem C38_even_legs (t : TId) (e : Fin 3) (pivot : VId) (now : K) (step : ℤ) (s s' : St K) (hM : Mesh s)
    (h1 : (s.tri t).neighbours (e + 1) = none) (h2 : (s.tri t).neighbours (e + 2) = none)
    (h : evenLegs t e pivot now step s = .ok ((), s')) : Mesh s' :=
  (evenLegs_mesh t e pivot now step s s' hM h1 h2 h).1

end

/-! ### the hypotheses are met -/

open Sample

/-- the upper side of the trapezoid vanishes -/
example : Mesh trapezoidAfter := C38_edge_partial 10 trapezoidEvent 0 trapezoidBefore trapezoidAfter 0
  (mesh_of_check (by decide +kernel)) (live_of_check (by decide +kernel)) rfl
  (collapsible_of_check (by decide +kernel)) (after_run (by decide +kernel)) (by
    intro k hk
    rw [kv_eq (by decide +kernel)] at hk
    injection hk with hk
    rw [← hk]
    decide +kernel)

/-- the reflex corner of the notched polygon arrives at the lower side -/
example : Mesh notchedAfter := C38_split 10 notchedEvent 0 notchedBefore notchedAfter
  (mesh_of_check (by decide +kernel)) (live_of_check (by decide +kernel)) (after_run (by decide +kernel))
  (by
    intro k hk
    rw [kv_eq (by decide +kernel)] at hk
    injection hk with hk
    rw [← hk]
    decide +kernel)
  (by
    intro k hk
    rw [kv_eq (by decide +kernel)] at hk
    injection hk with hk
    rw [← hk]
    decide +kernel)

namespace Sample

/-- the square after `init_event_list`, and the collapse of its first triangle -/
def squareBefore : St ℚ := after initEventList square
def squareEvent : Event ℚ := { time := 1, side := [0, 1, 2], tp := .edge, triTp := 2, eid := 0, tri := 0 }
def squareFlip : Event ℚ := { time := 1 / 2, side := [1], tp := .flip, triTp := 2, eid := 0, tri := 0 }

/-- the triangle after `init_event_list` -/
def triangleBefore : St ℚ := after initEventList triangle
def triangleEvent : Event ℚ := { time := 1, side := [0], tp := .edge, triTp := 3, eid := 0, tri := 0 }

/-- two vertices on either side of a third one: a triangulated region with two sides -/
def digon : St ℚ :=
  { polygon [((-1, 0), (1, 0)), ((1, 0), (-1, 0))] [⟨(0, 1), 0⟩, ⟨(0, -1), 0⟩]
    [{ vertices := ![2, 0, 1], neighbours := ![none, some 1, some 1], internal := true },
     { vertices := ![2, 1, 0], neighbours := ![none, some 0, some 0], internal := true }] with
    vert := ofList [corner 2 0 (-1, 0) (1, 0), corner 2 1 (1, 0) (-1, 0), corner 3 2 (0, 1) (0, 1)] (.inf (0, 0))
    nV := 3 }
def digonEvent : Event ℚ := { time := 1, side := [0], tp := .edge, triTp := 1, eid := 0, tri := 0 }
def digonAfter : St ℚ := after (handleEdge 10 digonEvent 0) digon

end Sample

example : Mesh (after (handleEdge3 squareEvent 0) squareBefore) := C38_three_sides squareEvent 0 squareBefore _
  (mesh_of_check (by decide +kernel)) (live_of_check (by decide +kernel))
  (by
    intro i n h
    have : (squareBefore.tri squareEvent.tri).neighbours = ![none, some 1, none] := by decide +kernel
    rw [this] at h
    fin_cases i
    · cases h
    · injection h with h; subst h; decide +kernel
    · cases h) (after_run (by decide +kernel))

example : Mesh (after (handleFlip squareFlip) squareBefore) := C38_flip_partial squareFlip squareBefore _ 1
  (mesh_of_check (by decide +kernel)) (live_of_check (by decide +kernel)) rfl
  (by
    intro n h
    have : (squareBefore.tri squareFlip.tri).neighbours 1 = some 1 := by decide +kernel
    rw [this] at h
    injection h with h
    subst h
    decide +kernel) (after_run (by decide +kernel))

example : Mesh (after (handleEdge1 triangleEvent 0) triangleBefore) := C38_one_side triangleEvent 0 triangleBefore _
  (mesh_of_check (by decide +kernel)) (by decide +kernel) (after_run (by decide +kernel))

example : Mesh (after (evenLegs 0 0 0 1 0) triangleBefore) := C38_even_legs 0 0 0 1 0 triangleBefore _
  (mesh_of_check (by decide +kernel)) (by decide +kernel) (by decide +kernel) (after_run (by decide +kernel))

/-- C38 for an edge event does not hold without the hypothesis `Collapsible`: when the two vertices of the side that
vanishes are also the ends of a side of another triangle, this triangle gets the new vertex twice. -/
theorem C38_edge_witness : Mesh digon ∧ Live digon digonEvent.tri ∧ digonEvent.side = [0] ∧
    handleEdge 10 digonEvent 0 digon = .ok ((), digonAfter) ∧ (kv digonAfter digon.nV).infFast = false ∧
    Live digonAfter 1 ∧ (digonAfter.tri 1).vertices = ![2, 3, 3] ∧ ¬ Mesh digonAfter := by
  have hl : Live digonAfter 1 := live_of_check (by decide +kernel)
  have hv : (digonAfter.tri 1).vertices = ![2, 3, 3] := by decide +kernel
  refine ⟨mesh_of_check (by decide +kernel), live_of_check (by decide +kernel), rfl, after_run (by decide +kernel),
    by decide +kernel, hl, hv, fun hM => ?_⟩
  have hi := hM.distinct 1 hl.1
  rw [hv] at hi
  exact absurd (@hi 1 2 rfl) (by decide)

end Grassfire
