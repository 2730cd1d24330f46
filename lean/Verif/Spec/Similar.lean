/-
What it means to enlarge and shift a drawing (specification of C102).
-/
import Verif.Primitives

namespace Grassfire.Spec

variable {K : Type} [Field K]

/-- the plane enlarged `a` times from the origin and then shifted by `b` -/
def moved (a : K) (b p : Pt K) : Pt K := (a * p.1 + b.1, a * p.2 + b.2)

/-- a segment of the skeleton in the plane that was enlarged and shifted; the numbers at its ends
stay as they are -/
def movedSegment (a : K) (b : Pt K) (g : Segment K) : Segment K :=
  ((moved a b g.1.1, moved a b g.1.2), g.2)

/-- `s'` is what a skeleton looks like `s` after the plane was enlarged and shifted: nothing is
different but the transform, which leads to the new places -/
structure SameButMoved (a : K) (b : Pt K) (s s' : St K) : Prop where
  /-- everything but the transform -/
  same : { s with transform := none } = { s' with transform := none }
  /-- the transform -/
  moves : ∃ tr tr', s.transform = some tr ∧ s'.transform = some tr' ∧
    ∀ q, tr'.backward q = moved a b (tr.backward q)

end Grassfire.Spec
