/-
Concrete states for the examples that accompany the theorems: a triangle, a square and a
rectangle, with their interior triangulated, ready for `init_event_list` and
`event_loop`.  No theorem depends on this file.
-/
import Verif.Events.Loop
import Verif.Spec.RatSqrt

namespace Grassfire.Sample

/-- A stand-in for `acos` that is monotone and has the right values at 1, 0 and -1. -/
instance : HasTrig ℚ := ⟨fun d => 1 - d, 2, -1 + 1 / 10 ^ 12⟩

/-- content of a list as function -/
def ofList {α : Type} (l : List α) (d : α) : ℕ → α := fun i => l.getD i d

/-- vertex number `i` of a polygon with `n` corners; `ul` and `ur` are the lines before and
after it -/
def corner (n i : ℕ) (p v : Pt ℚ) : Vertex ℚ :=
  .kin { origin := p, velocity := v,
         left := [⟨0, none, some ((i + n - 1) % n)⟩], right := [⟨0, none, some ((i + 1) % n)⟩],
         startsAt := some 0, startNode := some i,
         ul := some ((i + n - 1) % n), ur := some i, wfl := some ((i + n - 1) % n), wfr := some i,
         info := i + 1, internal := true }

/-- a polygon: corners with velocities, the lines of its sides, triangles -/
def polygon (c : List (Pt ℚ × Pt ℚ)) (l : List (Line2 ℚ)) (t : List (KTri ℚ)) : St ℚ where
  vert := ofList (c.mapIdx fun i x => corner c.length i x.1 x.2) (.inf (0, 0))
  nV := c.length
  tri := ofList t ⟨fun _ => 0, fun _ => none, none, 0, none, false⟩
  nT := t.length
  node := ofList (c.map fun x => ⟨x.1, -1, none⟩) ⟨(0, 0), 0, none⟩
  nN := c.length
  nE := 0
  line := ofList l ⟨(1, 0), 0⟩
  wfLine := id
  pyid := id
  skNodes := List.range c.length
  skVertices := List.range c.length
  skTriangles := List.range t.length
  transform := none
  queue := []
  immediate := []

/-- the triangle with sides 3, 4 and 5 -/
def triangle : St ℚ :=
  polygon [((0, 0), (1, 1)), ((4, 0), (-3, 1)), ((0, 3), (1, -2))]
    [⟨(0, 1), 0⟩, ⟨(-3/5, -4/5), 12/5⟩, ⟨(1, 0), 0⟩]
    [{ vertices := ![0, 1, 2], neighbours := ![none, none, none], internal := true }]

/-- a square, cut in two triangles -/
def square : St ℚ :=
  polygon [((0, 0), (1, 1)), ((2, 0), (-1, 1)), ((2, 2), (-1, -1)), ((0, 2), (1, -1))]
    [⟨(0, 1), 0⟩, ⟨(-1, 0), 2⟩, ⟨(0, -1), 2⟩, ⟨(1, 0), 0⟩]
    [{ vertices := ![0, 1, 2], neighbours := ![none, some 1, none], internal := true },
     { vertices := ![0, 2, 3], neighbours := ![none, none, some 0], internal := true }]

/-- a rectangle, cut in two triangles -/
def rectangle : St ℚ :=
  polygon [((0, 0), (1, 1)), ((4, 0), (-1, 1)), ((4, 2), (-1, -1)), ((0, 2), (1, -1))]
    [⟨(0, 1), 0⟩, ⟨(-1, 0), 4⟩, ⟨(0, -1), 2⟩, ⟨(1, 0), 0⟩]
    [{ vertices := ![0, 1, 2], neighbours := ![none, some 1, none], internal := true },
     { vertices := ![0, 2, 3], neighbours := ![none, none, some 0], internal := true }]

/-- a trapezoid whose upper side vanishes first; the two sides next to it are not parallel -/
def trapezoid : St ℚ :=
  polygon [((0, 0), (2, 1)), ((7, 0), (-2, 1)), ((4, 4), (-1/2, -1)), ((3, 4), (1/2, -1))]
    [⟨(0, 1), 0⟩, ⟨(-4/5, -3/5), 28/5⟩, ⟨(0, -1), 4⟩, ⟨(4/5, -3/5), 0⟩]
    [{ vertices := ![0, 1, 2], neighbours := ![none, some 1, none], internal := true },
     { vertices := ![0, 2, 3], neighbours := ![none, none, some 0], internal := true }]

/-- a polygon with a reflex corner (number 3) that runs into the side below -/
def notched : St ℚ :=
  polygon [((0, 0), (1, 1)), ((12, 0), (-1, 1)), ((12, 10), (-1, -3)), ((6, 2), (0, -5/3)), ((0, 10), (1, -3))]
    [⟨(0, 1), 0⟩, ⟨(-1, 0), 12⟩, ⟨(4/5, -3/5), -18/5⟩, ⟨(-4/5, -3/5), 6⟩, ⟨(1, 0), 0⟩]
    [{ vertices := ![0, 1, 3], neighbours := ![some 1, some 2, none], internal := true },
     { vertices := ![1, 2, 3], neighbours := ![none, some 0, none], internal := true },
     { vertices := ![0, 3, 4], neighbours := ![none, none, some 0], internal := true }]

/-- run, and tell what matters of the outcome; `none` is an exception -/
def outcome {α β : Type} (m : M ℚ α) (f : α → St ℚ → β) (s : St ℚ) : Option β :=
  match m s with
  | .ok (a, s') => some (f a s')
  | .error _ => none

/-- a complete run -/
def complete : M ℚ ℚ := do
  initEventList
  eventLoop 100

/-- the kinetic vertex `v` -/
def kv (s : St ℚ) (v : VId) : KVertex ℚ :=
  match s.vert v with
  | .kin k => k
  | .inf p => { origin := p, velocity := (0, 0) }

def isKin (s : St ℚ) (v : VId) : Bool :=
  match s.vert v with
  | .kin _ => true
  | .inf _ => false

theorem kv_eq {s : St ℚ} {v : VId} (h : isKin s v = true) : s.vert v = .kin (kv s v) := by
  unfold isKin at h
  unfold kv
  split at h
  · rename_i h'; rw [h']
  · cases h

/-- the state after `m`, for examples in which `m` is known to succeed -/
def after {α : Type} (m : M ℚ α) (s : St ℚ) : St ℚ :=
  match m s with
  | .ok (_, s') => s'
  | .error _ => s

theorem after_run {α : Type} {m : M ℚ α} {s : St ℚ} {a : α} (h : outcome m (fun a _ => a) s = some a) :
    m s = .ok (a, after m s) := by
  unfold outcome at h
  unfold after
  cases e : m s with
  | error x => rw [e] at h; cases h
  | ok x => rw [e] at h; dsimp only at h; injection h with h; dsimp only; rw [← h]

end Grassfire.Sample
