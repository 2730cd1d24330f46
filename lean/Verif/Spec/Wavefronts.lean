/-
Specification for C57-C59: how the vertices hang together along the wavefronts.
-/
import Verif.Initialize

namespace Grassfire.Spec

variable {K : Type}

/-- Whatever left neighbour a vertex has or ever had: it is a kinetic vertex, and its right
wavefront is the left wavefront of the vertex.  And the same for right neighbours. -/
structure SharedWavefronts (s : St K) : Prop where
  left : ∀ v kv, v < s.nV → s.vert v = .kin kv → ∀ x ∈ kv.left,
    ∃ u ku w, x.ref = some u ∧ u < s.nV ∧ s.vert u = .kin ku ∧ kv.wfl = some w ∧ ku.wfr = some w
  right : ∀ v kv, v < s.nV → s.vert v = .kin kv → ∀ x ∈ kv.right,
    ∃ u ku w, x.ref = some u ∧ u < s.nV ∧ s.vert u = .kin ku ∧ kv.wfr = some w ∧ ku.wfl = some w

/-- The lines `ul` and `ur` that determine the motion of a vertex are those of its wavefronts. -/
def OwnLines (s : St K) : Prop :=
  ∀ v kv, v < s.nV → s.vert v = .kin kv →
    (∀ w, kv.wfl = some w → kv.ul = some (s.wfLine w)) ∧
    (∀ w, kv.wfr = some w → kv.ur = some (s.wfLine w))

variable [Field K] [LinearOrder K]

/-- The signed distance of `p` from `l` is `t` (if `l` has a unit normal). -/
def AtDistance (l : Line2 K) (t : K) (p : Pt K) : Prop := l.w.1 * p.1 + l.w.2 * p.2 + l.b = t

/-- The two lines cross: they are not parallel within the tolerance of the code. -/
def Cross (l r : Line2 K) : Prop := 1 / 10 ^ 10 < |l.w.1 * r.w.2 - r.w.1 * l.w.2|

/-- `l` is the line of an edge of the input: of a constrained side of the triangulation, from `a` to
`b`, and the normal (of length 1) points to the left of it, which is where the triangle is. -/
def InputLine (dt : Dt K) (l : Line2 K) : Prop :=
  ∃ t i a b, t < dt.nT ∧ dt.constrained t i = true ∧ dt.corner t (i + 1) = some a ∧ dt.corner t (i + 2) = some b ∧
    l.w.1 ^ 2 + l.w.2 ^ 2 = 1 ∧ AtDistance l 0 (dt.pos a) ∧ AtDistance l 0 (dt.pos b) ∧
    0 < ((dt.pos b).1 - (dt.pos a).1) * l.w.2 - ((dt.pos b).2 - (dt.pos a).2) * l.w.1

/-- The square root gives the length of every input edge exactly.  (So it is with real numbers; with
rational numbers it depends on the input, with floating point numbers it is not so in general.) -/
def ExactLengths [HasSqrt K] (dt : Dt K) : Prop :=
  ∀ t i a b, t < dt.nT → dt.constrained t i = true → dt.corner t (i + 1) = some a → dt.corner t (i + 2) = some b →
    0 ≤ HasSqrt.sqrt (((dt.pos b).1 - (dt.pos a).1) ^ 2 + ((dt.pos b).2 - (dt.pos a).2) ^ 2) ∧
    HasSqrt.sqrt (((dt.pos b).1 - (dt.pos a).1) ^ 2 + ((dt.pos b).2 - (dt.pos a).2) ^ 2) ^ 2 =
      ((dt.pos b).1 - (dt.pos a).1) ^ 2 + ((dt.pos b).2 - (dt.pos a).2) ^ 2

/-- Every vertex is between two lines, and these lines are such that `P`. -/
def AllLines (P : Line2 K → Prop) (s : St K) : Prop :=
  ∀ v kv, v < s.nV → s.vert v = .kin kv →
    ∃ a b, kv.ul = some a ∧ kv.ur = some b ∧ P (s.line a) ∧ P (s.line b)

/-- Vertex `kv` is on both its wavefronts, at every time: the wavefronts move at unit speed. -/
def Tracks (s : St K) (kv : KVertex K) : Prop :=
  ∀ a b, kv.ul = some a → kv.ur = some b → ∀ t : K,
    AtDistance (s.line a) t (kv.origin.1 + t * kv.velocity.1, kv.origin.2 + t * kv.velocity.2) ∧
    AtDistance (s.line b) t (kv.origin.1 + t * kv.velocity.1, kv.origin.2 + t * kv.velocity.2)

/-- All vertices that are not infinitely fast and are between two crossing lines stay on these. -/
def OnWavefronts (s : St K) : Prop :=
  ∀ v kv, v < s.nV → s.vert v = .kin kv → kv.infFast = false →
    (∀ a b, kv.ul = some a → kv.ur = some b → Cross (s.line a) (s.line b)) → Tracks s kv

end Grassfire.Spec
