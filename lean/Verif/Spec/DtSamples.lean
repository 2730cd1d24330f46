/-
A concrete triangulation for the examples: a rectangle with its interior and exterior triangulated,
as `tri` does it with three vertices far away.  No general theorem depends on this file.
-/
import Verif.Initialize
import Verif.Spec.InitialCheck
import Verif.Spec.InitialMesh
import Mathlib.Tactic.IntervalCases
import Mathlib.Tactic.FinCases

namespace Grassfire.Sample

open Spec

/-- the corners of the triangles of `rectangleDt`; 4, 5 and 6 are the infinite vertices -/
def dtCorners : List (List (Option ℕ)) :=
  [[some 0, some 1, some 2], [some 0, some 2, some 3], [some 4, some 1, some 0],
   [some 5, some 2, some 1], [some 6, some 3, some 2], [some 4, some 0, some 3],
   [some 4, some 5, some 1], [some 5, some 6, some 2], [some 6, some 4, some 3]]

/-- the neighbours of the triangles of `rectangleDt` -/
def dtNeighbours : List (List (Option ℕ)) :=
  [[some 3, some 1, some 2], [some 4, some 5, some 0], [some 0, some 5, some 6],
   [some 0, some 6, some 7], [some 1, some 7, some 8], [some 1, some 8, some 2],
   [some 3, some 2, none], [some 4, some 3, none], [some 5, some 4, none]]

/-- the constrained sides of the triangles of `rectangleDt` -/
def dtConstrained : List (List Bool) :=
  [[true, false, true], [true, true, false], [true, false, false], [true, false, false],
   [true, false, false], [true, false, false]]

/-- the triangles around the vertices of `rectangleDt` -/
def dtStars : List (List (ℕ × Fin 3)) :=
  [[(0, 0), (1, 0), (5, 1), (2, 2)], [(0, 1), (2, 1), (6, 2), (3, 2)],
   [(0, 2), (3, 1), (7, 2), (4, 2), (1, 1)], [(1, 2), (4, 1), (8, 2), (5, 2)]]

/-- A rectangle of 4 by 2: triangles 0 and 1 are its interior. -/
def rectangleDt : Dt ℚ where
  nV := 4
  nT := 9
  pos v := [((0 : ℚ), (0 : ℚ)), (4, 0), (4, 2), (0, 2), (-100, -100), (100, -100), (2, 100)].getD v (0, 0)
  info v := some v
  finite v := decide (v < 4)
  corner t i := (dtCorners.getD t []).getD i none
  neighbour t i := (dtNeighbours.getD t []).getD i none
  constrained t i := (dtConstrained.getD t []).getD i false
  star v := dtStars.getD v []
  internal t := decide (t < 2)

/-- `init_skeleton` on the sample; the rest of the model when it does not succeed -/
def rectangleSkeleton : St ℚ :=
  match initSkeleton rectangleDt id with
  | .ok s => s
  | .error _ => rectangle

/-- the numbers of the vertices -/
def infoList (s : St ℚ) : List (Option ℕ) := s.skVertices.map (Spec.infoOf s)

/-- the sample meets the contract -/
theorem rectangleDt_ok : DtOk rectangleDt where
  corners := by
    intro t ht i
    have ht : t < 9 := ht
    interval_cases t <;> fin_cases i <;> exact ⟨_, rfl, by decide +kernel⟩
  star_corner := by
    intro v hv e he
    have hv : v < 4 := hv
    revert e
    interval_cases v <;> decide +kernel
  star_nodup := by
    intro v hv
    have hv : v < 4 := hv
    interval_cases v <;> decide +kernel
  star_ok := by
    intro v hv
    have hv : v < 4 := hv
    interval_cases v <;> (constructor <;> unfold Ahead Behind <;> decide +kernel)

/-- `init_skeleton` succeeds on the sample -/
theorem rectangleSkeleton_ok : initSkeleton rectangleDt id = .ok rectangleSkeleton := by
  have h : (match initSkeleton rectangleDt id with
    | .ok _ => true
    | .error _ => false) = true := by decide +kernel
  unfold rectangleSkeleton
  split at h
  · rename_i s hs
    rw [hs]
  · cases h

end Grassfire.Sample
