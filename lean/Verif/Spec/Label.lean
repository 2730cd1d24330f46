/-
Other labels for the points of the input (specification of C109).
-/
import Verif.Initialize

namespace Grassfire.Spec

variable {K : Type}

/-- other labels: `f` gives the new label for the old one; what has no label gets none -/
structure Labelling where
  f : Option ℕ → Option ℕ
  none : f none = none

/-- the state with other labels at its nodes; all else stays -/
def labelledState (L : Labelling) (s : St K) : St K :=
  { s with node := fun n => { s.node n with info := L.f (s.node n).info } }

/-- a result with other labels; an exception is the same exception -/
def labelledResult {α : Type} (L : Labelling) : Except Fault (α × St K) → Except Fault (α × St K)
  | .ok r => .ok (r.1, labelledState L r.2)
  | .error e => .error e

/-- a triangulation of points with other labels -/
def labelledDt (L : Labelling) (dt : Dt K) : Dt K := { dt with info := fun v => L.f (dt.info v) }

/-- a segment with other labels at its ends -/
def labelledSegment (L : Labelling) (g : Segment K) : Segment K := (g.1, (L.f g.2.1, L.f g.2.2))

end Grassfire.Spec
