/-
Specification for C69: the neighbours that the vertices keep (`v.left`, `v.right`) and the sides of the triangles tell
the same.
-/
import Verif.Spec.Freshness
import Verif.Spec.Fan

namespace Grassfire.Spec

variable {K : Type}

/-- `v` is a kinetic vertex -/
def Kinetic (s : St K) (v : VId) : Prop := v < s.nV ∧ ∃ k, s.vert v = .kin k

/-- `v` is a kinetic vertex that has not been stopped -/
def Running (s : St K) (v : VId) : Prop := v < s.nV ∧ ∃ k, s.vert v = .kin k ∧ k.stopsAt = none

/-- `a.right is b` and `b.left is a` -/
def Points (s : St K) (a b : VId) : Prop :=
  ∃ ka kb, a < s.nV ∧ b < s.nV ∧ s.vert a = .kin ka ∧ s.vert b = .kin kb ∧ ka.rightRef = some b ∧ kb.leftRef = some a

/-- Side `i` of triangle `t`, which has not been stopped, has no neighbour and runs from `a` to `b`. -/
def FrontSide (s : St K) (t : TId) (i : Fin 3) (a b : VId) : Prop :=
  Live s t ∧ (s.tri t).neighbours i = none ∧ (s.tri t).vertices (i + 1) = a ∧ (s.tri t).vertices (i + 2) = b

/-- The wavefront as the vertices tell it is the wavefront as the triangles tell it. -/
structure Linked (s : St K) : Prop where
  /-- sides without neighbour are between kinetic vertices -/
  kinetic : ∀ t i a b, FrontSide s t i a b → Kinetic s a ∧ Kinetic s b
  /-- these point to each other, unless both have been stopped -/
  points : ∀ t i a b, FrontSide s t i a b → Points s a b ∨ ¬ Running s a ∧ ¬ Running s b
  /-- going around a kinetic vertex from one triangle to the next comes to an end -/
  fans : ∀ t, Live s t → ∀ i, Kinetic s ((s.tri t).vertices i) → ∃ l, FanWalk .cw ((s.tri t).vertices i) s.tri (some t) l
  /-- of a running corner of a triangle, one side runs to `v.right` -/
  ahead : ∀ t, Live s t → ∀ i, Running s ((s.tri t).vertices i) → ∃ u j b, FrontSide s u j ((s.tri t).vertices i) b ∧
    Points s ((s.tri t).vertices i) b ∧ ∀ u' j' b', FrontSide s u' j' ((s.tri t).vertices i) b' → u' = u ∧ j' = j
  /-- and one comes from `v.left` -/
  behind : ∀ t, Live s t → ∀ i, Running s ((s.tri t).vertices i) → ∃ u j a, FrontSide s u j a ((s.tri t).vertices i) ∧
    Points s a ((s.tri t).vertices i) ∧ ∀ u' j' a', FrontSide s u' j' a' ((s.tri t).vertices i) → u' = u ∧ j' = j
  /-- a corner that has been stopped is next to a side both ends of which have been -/
  stopped : ∀ t, Live s t → ∀ i, Kinetic s ((s.tri t).vertices i) → ¬ Running s ((s.tri t).vertices i) →
    ∃ u j a b, FrontSide s u j a b ∧ ¬ Running s a ∧ ¬ Running s b ∧
      (a = (s.tri t).vertices i ∨ b = (s.tri t).vertices i)

/-- Corner `i` of triangle `t` has not been stopped, or was stopped together with the other end of a side of `t` (a side
where a neighbour has been taken out). -/
def CornerOk (s : St K) (t : TId) (i : Fin 3) : Prop :=
  Running s ((s.tri t).vertices i) ∨
  (s.tri t).neighbours (i + 1) = none ∧ (s.tri t).neighbours (i + 2) = none ∨
  (s.tri t).neighbours (i + 2) = none ∧ ¬ Points s ((s.tri t).vertices i) ((s.tri t).vertices (i + 1)) ∨
  (s.tri t).neighbours (i + 1) = none ∧ ¬ Points s ((s.tri t).vertices (i + 2)) ((s.tri t).vertices i)

/-- The event `e` does not concern vertices that have been stopped already, except for those at a side where a neighbour
has been taken out (`handle_edge_event_3sides` stops vertices that are corners of other triangles, too). -/
structure Plain (s : St K) (e : Event K) : Prop where
  edge : e.tp = .edge → ∀ i, e.side = [i] → (∃ j, (s.tri e.tri).neighbours j ≠ none) →
    Running s ((s.tri e.tri).vertices (i + 1)) ∧ Running s ((s.tri e.tri).vertices (i + 2)) ∨
    (s.tri e.tri).neighbours i = none ∧ ¬ Running s ((s.tri e.tri).vertices (i + 1)) ∧
      ¬ Running s ((s.tri e.tri).vertices (i + 2)) ∧
      ¬ Points s ((s.tri e.tri).vertices (i + 1)) ((s.tri e.tri).vertices (i + 2))
  split : e.tp = .split → ∀ i, Running s ((s.tri e.tri).vertices i)
  three : e.tp = .edge → e.side.length = 3 → ∀ i, CornerOk s e.tri i

/-- An ordinary execution (see `OrdinaryExecution`) from a state in which vertices and triangles tell the same, and
of which all events are plain. -/
structure PlainExecution [Field K] [LinearOrder K] [HasSqrt K] [HasTrig K] (depth : ℕ) (s0 : St K) (n : ℕ) (now : K)
    (s : St K) (tr : List (Event K × K)) : Prop where
  ordinary : OrdinaryExecution depth s0 n now s tr
  linked : Linked s0
  plain : ∀ s1, initEventList s0 = .ok ((), s1) → ∀ m < n, ∀ x u tr' e x' u',
    Run depth { s1 with immediate := [] } 0 m x u tr' → loopStep depth (m + 1 : ℕ) x u = .ok (some (e, x'), u') →
      (u.tri e.tri).stopsAt = none → Plain u e

end Grassfire.Spec
