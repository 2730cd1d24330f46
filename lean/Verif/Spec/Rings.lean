/-
Specification for C94: the wavefront at a given time, as the vertices tell it.
-/
import Verif.Primitives

namespace Grassfire.Spec

variable {K : Type} [LinearOrder K]

/-- Vertex `v` of the skeleton is on the wavefront at time `x`: it has started, and has not stopped yet. -/
def OnFront (s : St K) (x : K) (v : VId) : Prop :=
  v ∈ s.skVertices ∧ ∃ k, s.vert v = .kin k ∧ (∃ a, k.startsAt = some a ∧ a ≤ x) ∧ ∀ b, k.stopsAt = some b → x < b

/-- `v.left_at(x)` is `u` -/
def LeftAt (s : St K) (x : K) (v u : VId) : Prop := ∃ k, s.vert v = .kin k ∧ k.left.at x = some (some u)

/-- `v.right_at(x)` is `u` -/
def RightAt (s : St K) (x : K) (v u : VId) : Prop := ∃ k, s.vert v = .kin k ∧ k.right.at x = some (some u)

/-- The wavefront at time `x` consists of closed rings: `left_at(x)` and `right_at(x)` lead from the vertices on the
wavefront to vertices on the wavefront, and the one leads back where the other came from. -/
structure Rings (s : St K) (x : K) : Prop where
  left : ∀ v, OnFront s x v → ∃ u, OnFront s x u ∧ LeftAt s x v u ∧ RightAt s x u v
  right : ∀ v, OnFront s x v → ∃ u, OnFront s x u ∧ RightAt s x v u ∧ LeftAt s x u v

/-- The loop, at time `now`, has handled all that happens up to time `x`. -/
def Settled (s : St K) (now x : K) : Prop := x < now ∨ s.immediate = [] ∧ ∀ f ∈ s.queue, x < f.time

/-- What was the case before time `x` in `s` is so in `s'`, for what vertex `v` tells about itself: its start, and its
neighbours. -/
def SamePast (s s' : St K) (x : K) (v : VId) : Prop :=
  ∀ k, s.vert v = .kin k → ∃ k', s'.vert v = .kin k' ∧ k'.startsAt = k.startsAt ∧
    (k'.stopsAt = k.stopsAt ∨ ∃ t, k'.stopsAt = some t ∧ x ≤ t) ∧ ∀ y < x, k'.left.at y = k.left.at y ∧ k'.right.at y = k.right.at y

end Grassfire.Spec
