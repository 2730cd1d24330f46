/-
Specification for C61-C63: what an event does to the vertices.
-/
import Verif.Primitives

namespace Grassfire.Spec

variable {K : Type}

/-- The history `h'` continues `h` with the neighbour `r` from `now` on; `h` tells what it told
before for all earlier times. -/
structure Continues [LinearOrder K] (now : K) (h : Hist K (Option VId)) (r : VId)
    (h' : Hist K (Option VId)) : Prop where
  last : h'.last = some (some r)
  past : ∀ x, x < now → (∀ y ∈ h.getLast?, y.stop = none) → h'.at x = h.at x

/-- What becomes of an existing vertex (`k` before, `k'` after) when a new event at time `now` is
handled.  `stop` is the node at which it is stopped (`none`: it is not); `right` and `left` are the
neighbours that it gets (`none`: it keeps those that it has).  Everything else is unchanged. -/
structure Touched [LinearOrder K] (now : K) (stop : Option NodeId) (right left : Option VId)
    (k k' : KVertex K) : Prop where
  rest : k' = { k with stopsAt := k'.stopsAt, stopNode := k'.stopNode, left := k'.left, right := k'.right }
  stopped : ∀ n, stop = some n → k'.stopsAt = some now ∧ k'.stopNode = some n
  running : stop = none → k'.stopsAt = k.stopsAt ∧ k'.stopNode = k.stopNode
  newRight : ∀ r, right = some r → Continues now k.right r k'.right
  newLeft : ∀ l, left = some l → Continues now k.left l k'.left
  sameRight : right = none → k'.right = k.right
  sameLeft : left = none → k'.left = k.left

/-- A vertex that has just been made, at time `now` and node `n`. -/
structure Born (now : K) (n : NodeId) (k : KVertex K) : Prop where
  startsAt : k.startsAt = some now
  startNode : k.startNode = some n
  stopsAt : k.stopsAt = none
  stopNode : k.stopNode = none

/-- `n` is a node of the skeleton after the event.  Either it was there before, and then there is no
new node, or it is the only new one. -/
structure NodeOf (s s' : St K) (n : NodeId) : Prop where
  old : ∀ m, m < s.nN → s'.node m = s.node m
  kept : n < s.nN → s'.nN = s.nN ∧ s'.skNodes = s.skNodes
  made : s.nN ≤ n → n = s.nN ∧ s'.nN = s.nN + 1 ∧ s'.skNodes = s.skNodes ++ [n]

end Grassfire.Spec
