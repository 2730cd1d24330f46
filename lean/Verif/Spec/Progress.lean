/-
Specification for C87: events that are handled without exception.
-/
import Verif.Spec.Ambiguity
import Verif.Spec.Fan
import Verif.Spec.Links
import Verif.Spec.Upright
import Verif.Spec.Wavefronts

namespace Grassfire.Spec

variable {K : Type} [Field K] [LinearOrder K]

/-- The lines cross and do not face each other, beyond the tolerances of `compute_new_kvertex` (events/lib.py:141-171). -/
structure Apart [HasTrig K] (l r : Line2 K) : Prop where
  cross : Cross l r
  sum : 1 / 10 ^ 10 < |l.w.1 + r.w.1| ∨ 1 / 10 ^ 10 < |l.w.2 + r.w.2|
  angle : 1 / 10 ^ 10 < |HasTrig.acos (max (-1) (min 1 (l.w.1 * r.w.1 + l.w.2 * r.w.2))) - (HasTrig.pi : K)|
  cos : (HasTrig.cosLimit : K) ≤ max (-1) (min 1 (l.w.1 * r.w.1 + l.w.2 * r.w.2))

/-- line `ul` of vertex `v` is `l` -/
def LeftLine (s : St K) (v : VId) (l : Line2 K) : Prop := ∃ k a, s.vert v = .kin k ∧ k.ul = some a ∧ s.line a = l

/-- line `ur` of vertex `v` is `l` -/
def RightLine (s : St K) (v : VId) (l : Line2 K) : Prop := ∃ k a, s.vert v = .kin k ∧ k.ur = some a ∧ s.line a = l

/-- When side `i` of triangle `t` vanishes, at time `now`: the vertex that replaces its ends has some distance to its
neighbours along the wavefront (unless these are in the triangle). -/
def Clearance [HasSqrt K] (s : St K) (t : TId) (i : Fin 3) (now : K) : Prop :=
  ∀ l r p, LeftLine s ((s.tri t).vertices (i + 1)) l → RightLine s ((s.tri t).vertices (i + 2)) r →
    AtDistance l now p → AtDistance r now p → ∀ x q, placeAt s x now = some q →
      ((s.tri t).neighbours (i + 1) ≠ none ∧ Points s ((s.tri t).vertices (i + 2)) x ∨
        (s.tri t).neighbours (i + 2) ≠ none ∧ Points s x ((s.tri t).vertices (i + 1))) →
      1 / 10 ^ 10 < HasSqrt.sqrt ((p.1 - q.1) * (p.1 - q.1) + (p.2 - q.2) * (p.2 - q.2))

variable [HasTrig K] [HasSqrt K]

/-- `e` is an event as it happens in general position: a wavefront edge vanishes, alone or with the whole last triangle of
its part of the polygon; a vertex hits a wavefront edge, from within; or a side between two triangles is flipped. -/
structure Generic (s : St K) (e : Event K) : Prop where
  edge : e.tp = .edge →
    (e.side.length = 3 ∧ ∀ j, (s.tri e.tri).neighbours j = none) ∨
    ∃ i, e.side = [i] ∧
      (∀ l r, LeftLine s ((s.tri e.tri).vertices (i + 1)) l → RightLine s ((s.tri e.tri).vertices (i + 2)) r → Apart l r) ∧
      ((∀ j, (s.tri e.tri).neighbours j = none) ∨
        (s.tri e.tri).neighbours i = none ∧ Collapsible s e.tri i ∧ Clearance s e.tri i e.time)
  split : e.tp = .split → ∃ i, e.side = [i] ∧ (s.tri e.tri).neighbours i = none ∧
    (s.tri e.tri).neighbours (i + 1) ≠ none ∧ (s.tri e.tri).neighbours (i + 2) ≠ none ∧
    Kinetic s ((s.tri e.tri).vertices i) ∧
    (∀ l r, LeftLine s ((s.tri e.tri).vertices i) l → LeftLine s ((s.tri e.tri).vertices (i + 2)) r → Apart l r) ∧
    (∀ l r, RightLine s ((s.tri e.tri).vertices (i + 1)) l → RightLine s ((s.tri e.tri).vertices i) r → Apart l r)
  flip : e.tp = .flip → ∃ i, e.side = [i] ∧ (s.tri e.tri).neighbours i ≠ none ∧ ProperSide s e.tri i

/-- `V` is a vertex that moves between the wavefronts of `l` and `r`. -/
structure MovesBetween (V : VView K) (l r : Line2 K) : Prop where
  kinetic : V.kinetic = true
  slow : V.infFast = false
  ul : V.ul = some l
  ur : V.ur = some r
  left : ∀ u, AtDistance l u (V.origin.1 + u * V.velocity.1, V.origin.2 + u * V.velocity.2)
  right : ∀ u, AtDistance r u (V.origin.1 + u * V.velocity.1, V.origin.2 + u * V.velocity.2)

/-- `T` is triangle `x`, one of those around `w` beyond side `j` of `t`, after `V` took the place of `w`; if `x` is the
neighbour of `t` at side `j`, then `x` has got `other` as neighbour instead of `t`. -/
structure Substituted (s : St K) (dir : Dir) (t : TId) (j : Fin 3) (other : Option TId) (x : TId) (w : VId) (V : VView K)
    (T : TView K) : Prop where
  fan : ∃ l, FanWalk dir w s.tri ((s.tri t).neighbours j) l ∧ x ∈ l
  live : Live s x
  distinct : x ≠ t
  corner : ∃ i, (s.tri x).vertices i = w
  vertices : ∀ i, T.v i = if (s.tri x).vertices i = w then V else viewOf s ((s.tri x).vertices i)
  neighbours : ∀ i, T.noNeighbour i = (if (s.tri t).neighbours j = some x ∧ (s.tri x).neighbours i = some t then other
    else (s.tri x).neighbours i).isNone

/-- `T` is one of the triangles that event `e`, which happens in state `s`, changes. -/
inductive Renewed (s : St K) (e : Event K) : TView K → Prop
  /-- at an edge event the two ends of the side that vanishes are replaced by one vertex, and the triangles at the other
  two sides become neighbours -/
  | edgeLeft {i : Fin 3} {x : TId} {V : VView K} {l r : Line2 K} {T : TView K} :
      e.tp = .edge → e.side = [i] → LeftLine s ((s.tri e.tri).vertices (i + 1)) l →
      RightLine s ((s.tri e.tri).vertices (i + 2)) r → MovesBetween V l r →
      Substituted s .ccw e.tri (i + 2) ((s.tri e.tri).neighbours (i + 1)) x ((s.tri e.tri).vertices (i + 1)) V T → Renewed s e T
  | edgeRight {i : Fin 3} {x : TId} {V : VView K} {l r : Line2 K} {T : TView K} :
      e.tp = .edge → e.side = [i] → LeftLine s ((s.tri e.tri).vertices (i + 1)) l →
      RightLine s ((s.tri e.tri).vertices (i + 2)) r → MovesBetween V l r →
      Substituted s .cw e.tri (i + 1) ((s.tri e.tri).neighbours (i + 2)) x ((s.tri e.tri).vertices (i + 2)) V T → Renewed s e T
  /-- at a split event the vertex that hits a side is replaced by two, and the two other sides get wavefront edges -/
  | splitLeft {i : Fin 3} {x : TId} {V : VView K} {l r : Line2 K} {T : TView K} :
      e.tp = .split → e.side = [i] → LeftLine s ((s.tri e.tri).vertices i) l →
      LeftLine s ((s.tri e.tri).vertices (i + 2)) r → MovesBetween V l r →
      Substituted s .ccw e.tri (i + 1) none x ((s.tri e.tri).vertices i) V T → Renewed s e T
  | splitRight {i : Fin 3} {x : TId} {V : VView K} {l r : Line2 K} {T : TView K} :
      e.tp = .split → e.side = [i] → RightLine s ((s.tri e.tri).vertices (i + 1)) l →
      RightLine s ((s.tri e.tri).vertices i) r → MovesBetween V l r →
      Substituted s .cw e.tri (i + 2) none x ((s.tri e.tri).vertices i) V T → Renewed s e T
  /-- at a flip two triangles get the other diagonal -/
  | flipFirst {i k : Fin 3} {n : TId} {T : TView K} : e.tp = .flip → e.side = [i] →
      (s.tri e.tri).neighbours i = some n → (s.tri n).neighbours k = some e.tri →
      T.v 0 = viewOf s ((s.tri e.tri).vertices i) → T.v 1 = viewOf s ((s.tri e.tri).vertices (i + 1)) →
      T.v 2 = viewOf s ((s.tri n).vertices k) → T.noNeighbour 0 = ((s.tri n).neighbours (k + 1)).isNone →
      T.noNeighbour 1 = false → T.noNeighbour 2 = ((s.tri e.tri).neighbours (i + 2)).isNone → Renewed s e T
  | flipSecond {i k : Fin 3} {n : TId} {T : TView K} : e.tp = .flip → e.side = [i] →
      (s.tri e.tri).neighbours i = some n → (s.tri n).neighbours k = some e.tri →
      T.v 0 = viewOf s ((s.tri n).vertices k) → T.v 1 = viewOf s ((s.tri e.tri).vertices (i + 2)) →
      T.v 2 = viewOf s ((s.tri e.tri).vertices i) → T.noNeighbour 0 = ((s.tri e.tri).neighbours (i + 1)).isNone →
      T.noNeighbour 1 = false → T.noNeighbour 2 = ((s.tri n).neighbours (k + 2)).isNone → Renewed s e T

/-- `e` is the event that `choose_next_event` takes next -/
def NextEvent (s : St K) (e : Event K) : Prop :=
  s.immediate.head? = some e ∨ s.immediate = [] ∧ s.queue.head? = some e

/-- A state as `init_skeleton` delivers it: the triangles are joined properly, they and the vertices tell the same about
the wavefronts, and every vertex moves with its two wavefronts. -/
structure GoodStart (s : St K) : Prop where
  initial : Initial s
  mesh : Mesh s
  linked : Linked s
  shared : SharedWavefronts s
  own : OwnLines s
  lines : AllLines (fun l => l.w.1 ^ 2 + l.w.2 ^ 2 = 1) s
  motion : OnWavefronts s
  slow : ∀ v k, v < s.nV → s.vert v = .kin k → k.infFast = false

/-- An execution (see `Execution`) in which every event so far, and the next one, is as in general position (unless its
triangle has been stopped before). -/
structure GenericExecution (depth : ℕ) (s0 : St K) (n : ℕ) (now : K) (s : St K) (tr : List (Event K × K)) : Prop where
  start : GoodStart s0
  run : ∃ s1, initEventList s0 = .ok ((), s1) ∧ Run depth { s1 with immediate := [] } 0 n now s tr ∧
    ∀ m ≤ n, ∀ x u tr' e, Run depth { s1 with immediate := [] } 0 m x u tr' → NextEvent u e → Live u e.tri → Generic u e

/-- When event `e` is handled, it gets clear what happens to the triangles that it changes. -/
def Unambiguous (s : St K) (e : Event K) : Prop := ∀ T, Renewed s e T → Followable T → ¬ Ambiguous T e.time

end Grassfire.Spec
