/-
Specification for C66: what is known about each triangle between two iterations of the event loop.
-/
import Verif.Spec.Invariants
import Verif.Spec.Triangulation

namespace Grassfire.Spec

variable {K : Type} [Field K] [LinearOrder K] [HasSqrt K]

/-- what collapse.py sees of triangle `t` in state `s` -/
def viewT (s : St K) (t : TId) : TView K :=
  ⟨fun i => viewOf s ((s.tri t).vertices i), fun i => ((s.tri t).neighbours i).isNone,
    (s.tri t).stopsAt.isSome⟩

/-- `e` is the event that `compute_collapse_time` finds for the triangle `T`, asked at `now` or earlier; `find_gt`
is only passed at the start, by `init_event_list` -/
def Computed (now : K) (T : TView K) (e : EvCore K) : Prop :=
  ∃ t0, t0 ≤ now ∧ ∃ sv, (sv = .gt → t0 = 0) ∧ computeCollapse T t0 sv = .ok (some e)

/-- `e` is the event that `schedule_immediately` makes for the triangle `T`: the shortest sides collapse at its time; all
sides do when all of them are wavefront edges -/
def Immediate (T : TView K) (e : EvCore K) : Prop :=
  ∃ c, newEdgeCollapse T e.time = .ok c ∧
    e = { c with side := if ∀ i, T.noNeighbour i = true then [0, 1, 2] else c.side }

/-- There is nothing to be expected of the triangle `T`: it has an infinitely fast vertex (and has to wait until that one
is replaced), or `compute_collapse_time` found nothing, asked at `now` or earlier. -/
def Idle (now : K) (T : TView K) : Prop :=
  (∃ i, (T.v i).infFast = true) ∨ ∃ t0, t0 ≤ now ∧ ∃ sv, (sv = .gt → t0 = 0) ∧ computeCollapse T t0 sv = .ok none

/-- The pending event of triangle `t` is the one of the triangle as it is now; if none is pending, nothing is to be
expected.  If `W` (as it does in general), then for a triangle that never had an event, sides may have become wavefront edges
since (events/edge.py:246 only schedules neighbours that have an event). -/
def Certified (W : Prop) (now : K) (s : St K) (t : TId) : Prop :=
  (∃ e ∈ s.queue, e.tri = t ∧ Computed now (viewT s t) e.toEvCore) ∨
  (∃ e ∈ s.immediate, e.tri = t ∧ Immediate (viewT s t) e.toEvCore) ∨
  (∀ e ∈ s.queue, e.tri ≠ t) ∧ (∀ e ∈ s.immediate, e.tri ≠ t) ∧
    (Idle now (viewT s t) ∨ W ∧ (s.tri t).event = none ∧
      ∃ nb, (∀ i, nb i = true → (viewT s t).noNeighbour i = true) ∧ Idle now { viewT s t with noNeighbour := nb })

/-- All triangles that have not been stopped are certified, except possibly those in `D`. -/
def Fresh (W : Prop) (D : TId → Prop) (now : K) (s : St K) : Prop :=
  ∀ t < s.nT, (s.tri t).stopsAt = none → ¬ D t → Certified W now s t

/-- The iteration of the loop that leads from `s` to `s'` by handling `e` is an ordinary one: the wavefronts that meet are
not parallel (no vertex made is infinitely fast); the side that vanishes, or is flipped, is not one of two sides with the
same end points; when a triangle vanishes with all its sides, its neighbours have events. -/
structure Ordinary (s s' : St K) (e : Event K) : Prop where
  slow : ∀ v k, s.nV ≤ v → v < s'.nV → s'.vert v = .kin k → k.infFast = false
  edge : e.tp = .edge → ∀ i, e.side = [i] → (∃ j, (s.tri e.tri).neighbours j ≠ none) → Collapsible s e.tri i
  flip : e.tp = .flip → ∀ i, e.side = [i] → (s.tri e.tri).stopsAt = none → ProperSide s e.tri i
  three : e.tp = .edge → e.side.length = 3 → (s.tri e.tri).stopsAt = none → ∀ i n, (s.tri e.tri).neighbours i = some n → (s.tri n).event.isSome

/-- In the first `n` iterations of the loop from `s0` on, the sides that vanish alone are wavefront edges (except for
triangles that vanish as a whole). -/
def Tidy [HasTrig K] (depth : ℕ) (s0 : St K) (n : ℕ) : Prop :=
  ∀ s1, initEventList s0 = .ok ((), s1) → ∀ m < n, ∀ x u tr' e x' u', Run depth { s1 with immediate := [] } 0 m x u tr' →
    loopStep depth (m + 1 : ℕ) x u = .ok (some (e, x'), u') → e.tp = .edge → (u.tri e.tri).stopsAt = none →
    ∀ i, e.side = [i] → (∃ j, (u.tri e.tri).neighbours j ≠ none) → (u.tri e.tri).neighbours i = none

/-- An execution (see `Execution`) that starts with a consistent triangulation and whose iterations are ordinary. -/
structure OrdinaryExecution [HasTrig K] (depth : ℕ) (s0 : St K) (n : ℕ) (now : K) (s : St K) (tr : List (Event K × K)) :
    Prop where
  initial : Initial s0
  mesh : Mesh s0
  run : ∃ s1, initEventList s0 = .ok ((), s1) ∧ Run depth { s1 with immediate := [] } 0 n now s tr ∧
    ∀ m < n, ∀ x u tr' e x' u', Run depth { s1 with immediate := [] } 0 m x u tr' →
      loopStep depth (m + 1 : ℕ) x u = .ok (some (e, x'), u') → Ordinary u u' e

end Grassfire.Spec
