/-
Specification for C32, C33, C34, C44 and C47: what holds of the state at every moment of
an execution, and the states from which the executions start.
-/
import Verif.Spec.Execution

namespace Grassfire.Spec

variable {K : Type}

/-- the events that wait to be handled -/
def pending (s : St K) : List (Event K) := s.immediate ++ s.queue

/-- Every reference that is stored somewhere refers to an object that exists. -/
structure Refs (s : St K) : Prop where
  vertices : ∀ t, t < s.nT → ∀ i, (s.tri t).vertices i < s.nV
  neighbours : ∀ t, t < s.nT → ∀ i n, (s.tri t).neighbours i = some n → n < s.nT
  left : ∀ v kv, v < s.nV → s.vert v = .kin kv → ∀ x ∈ kv.left, ∀ u, x.ref = some u → u < s.nV
  right : ∀ v kv, v < s.nV → s.vert v = .kin kv → ∀ x ∈ kv.right, ∀ u, x.ref = some u → u < s.nV
  skNodes : ∀ n ∈ s.skNodes, n < s.nN
  skVertices : ∀ v ∈ s.skVertices, v < s.nV
  skTriangles : ∀ t ∈ s.skTriangles, t < s.nT

/-- The life span of a kinetic vertex is consistent, seen at time `now`. -/
structure LifeOk [LE K] (now : K) (nodes : List NodeId) (kv : KVertex K) : Prop where
  /-- it has started, at a recorded node -/
  starts : ∃ t, kv.startsAt = some t ∧ t ≤ now
  startNode : ∃ n ∈ nodes, kv.startNode = some n
  /-- it has a stop time iff it has a stop node -/
  both : kv.stopsAt.isSome ↔ kv.stopNode.isSome
  /-- it does not stop before it starts, nor in the future -/
  order : ∀ a b, kv.startsAt = some a → kv.stopsAt = some b → a ≤ b ∧ b ≤ now
  stopNode : ∀ n, kv.stopNode = some n → n ∈ nodes

/-- All kinetic vertices have a consistent life span. -/
def Lives [LE K] (now : K) (s : St K) : Prop :=
  ∀ v kv, v < s.nV → s.vert v = .kin kv → LifeOk now s.skNodes kv

/-- The entries of a history follow each other in time without gap, none starts in the future,
and the last one is still open. -/
structure HistOk {R : Type} [LE K] (now : K) (h : Hist K R) : Prop where
  past : ∀ x ∈ h, x.start ≤ now
  ordered : h.Pairwise fun x y => x.start ≤ y.start
  gapless : h.IsChain fun x y => x.stop = some y.start
  openEnded : ∀ x ∈ h.getLast?, x.stop = none

/-- The histories of all kinetic vertices are chronological. -/
def Chronological [LE K] (now : K) (s : St K) : Prop :=
  ∀ v kv, v < s.nV → s.vert v = .kin kv → HistOk now kv.left ∧ HistOk now kv.right

/-- the number of a vertex -/
def infoOf (s : St K) (v : VId) : Option ℕ :=
  match s.vert v with
  | .kin kv => some kv.info
  | .inf _ => none

/-- No two vertices of the skeleton have the same number. -/
def DistinctInfos (s : St K) : Prop := (s.skVertices.map (infoOf s)).Nodup

/-- What `init_skeleton` (initialize.py:158-717) delivers, as far as it matters here: references
are valid, all kinetic vertices have started at time 0 at a node of the skeleton and have not
stopped; their neighbours have been assigned at time 0; the vertices of the skeleton are
kinetic vertices; no triangle occurs twice or has an event; no event waits.  `id` is
different for different triangles.  C52 proves that it does. -/
structure Initial [Zero K] [LE K] (s : St K) : Prop where
  refs : Refs s
  lives : ∀ v kv, v < s.nV → s.vert v = .kin kv →
    kv.startsAt = some 0 ∧ (∃ n ∈ s.skNodes, kv.startNode = some n) ∧
    kv.stopsAt = none ∧ kv.stopNode = none
  hist : Chronological 0 s
  kinetic : ∀ v ∈ s.skVertices, ∃ kv, s.vert v = .kin kv
  triangles : s.skTriangles.Nodup
  immediate : s.immediate = []
  events : ∀ t, t < s.nT → (s.tri t).event = none
  ids : ∀ t u, t < s.nT → u < s.nT → s.pyid t = s.pyid u → t = u

/-- The vertices of the skeleton are numbered from 1 to their count, as `init_skeleton` does
(initialize.py:322, 325). -/
def Numbered (s : St K) : Prop :=
  s.skVertices.map (infoOf s) = (List.range s.skVertices.length).map fun i => some (i + 1)

/-- `init_event_list` has been applied to a state `s0` delivered by `init_skeleton`, and the event
loop has completed `n` iterations after that (see `Run`). -/
structure Execution [Field K] [LinearOrder K] [HasSqrt K] [HasTrig K] (depth : ℕ) (s0 : St K)
    (n : ℕ) (now : K) (s : St K) (tr : List (Event K × K)) : Prop where
  initial : Initial s0
  run : ∃ s1, initEventList s0 = .ok ((), s1) ∧ Run depth { s1 with immediate := [] } 0 n now s tr

/-- A complete, successful run: `init_event_list` and `event_loop`, applied to a state delivered by
`init_skeleton`, have returned without exception. -/
structure Completed [Field K] [LinearOrder K] [HasSqrt K] [HasTrig K] (depth : ℕ) (s0 : St K)
    (now : K) (s : St K) : Prop where
  initial : Initial s0
  run : ∃ s1, initEventList s0 = .ok ((), s1) ∧ eventLoop depth s1 = .ok (now, s)

end Grassfire.Spec
