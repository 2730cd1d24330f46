/-
What it means that the order of the triangles and the identities of the events do not matter (specification of C108).
-/
import Verif.Primitives
import Mathlib.Logic.Equiv.Basic

namespace Grassfire.Spec

variable {K : Type}

/-- an event with another identity -/
@[reducible] def renamedEvent (ρ : Equiv.Perm ℕ) (e : Event K) : Event K := { e with eid := ρ e.eid }

/-- a triangle whose event has another identity -/
@[reducible] def renamedTri (ρ : Equiv.Perm ℕ) (t : KTri K) : KTri K := { t with event := t.event.map (renamedEvent ρ) }

/-- all that there is, with other identities of the events and another list of triangles -/
def renamedState (ρ : Equiv.Perm ℕ) (L : List TId) (s : St K) : St K :=
  { s with tri := fun t => renamedTri ρ (s.tri t), queue := s.queue.map (renamedEvent ρ),
           immediate := s.immediate.map (renamedEvent ρ), skTriangles := L }

end Grassfire.Spec
