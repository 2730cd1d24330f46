/-
What it means to turn a drawing by a quarter turn (specification of C107).
-/
import Verif.Initialize

namespace Grassfire.Spec

variable {K : Type} [Field K]

/-- the plane after a quarter turn around the origin, counterclockwise -/
def turned (p : Pt K) : Pt K := (-p.2, p.1)

/-- a line after the quarter turn: its normal is turned, its distance from the origin stays -/
def turnedLine (l : Line2 K) : Line2 K := ⟨turned l.w, l.b⟩

/-- a kinetic vertex after the quarter turn: place and velocity are turned, all else stays -/
@[reducible] def turnedK (k : KVertex K) : KVertex K := { k with origin := turned k.origin, velocity := turned k.velocity }

/-- a vertex after the quarter turn -/
def turnedVertex : Vertex K → Vertex K
  | .kin k => .kin (turnedK k)
  | .inf o => .inf (turned o)

/-- a node after the quarter turn -/
@[reducible] def turnedNode (n : Node K) : Node K := { n with pos := turned n.pos }

/-- the way back to the coordinates of the input after the quarter turn: the two scales change places, the translation is
turned -/
def turnedTransform (t : Transform K) : Transform K := ⟨(t.scale.2, t.scale.1), turned t.translate⟩

/-- all that there is after the quarter turn: vertices, nodes, lines and the transform are turned; triangles, events, times, queues and
references stay -/
def turnedState (s : St K) : St K :=
  { s with vert := fun v => turnedVertex (s.vert v), node := fun n => turnedNode (s.node n),
           line := fun l => turnedLine (s.line l), transform := s.transform.map turnedTransform }

/-- a result with its state turned; an exception is the same exception -/
def turnedResult {α : Type} : Except Fault (α × St K) → Except Fault (α × St K)
  | .ok r => .ok (r.1, turnedState r.2)
  | .error e => .error e

/-- a segment of the skeleton after the quarter turn; the numbers at its ends stay -/
def turnedSegment (g : Segment K) : Segment K := ((turned g.1.1, turned g.1.2), g.2)

/-- a triangulation after the quarter turn: the points are turned, all else stays -/
def turnedDt (dt : Dt K) : Dt K := { dt with pos := fun v => turned (dt.pos v) }

end Grassfire.Spec
