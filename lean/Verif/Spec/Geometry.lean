/-
Small geometric vocabulary used to state properties.  Independent of the model.
-/
import Mathlib.Algebra.Order.Field.Basic

namespace Grassfire.Spec

variable {K : Type} [Field K]

/-- twice the signed area of the triangle p q r: positive iff counter-clockwise -/
def area2 (p q r : K × K) : K := (q.1 - p.1) * (r.2 - p.2) - (q.2 - p.2) * (r.1 - p.1)

/-- squared Euclidean distance -/
def distSq (p q : K × K) : K := (p.1 - q.1) ^ 2 + (p.2 - q.2) ^ 2

/-- uniform motion: position at time t of a point that starts at `o` with velocity `v` -/
def move (o v : K × K) (t : K) : K × K := (o.1 + t * v.1, o.2 + t * v.2)

end Grassfire.Spec
