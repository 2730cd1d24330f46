/-
The event queue: `compare_event_by_time` (events/loop.py) and the part of the external
package `oseq` (OrderedSequence) that the code uses.

`OrderedSequence` is modelled by its contract: a list that is ordered by the
comparison function, no two elements of which compare equal.  `add` inserts at the
ordered place; adding an element that compares equal to a present one is outside of
the contract (`Fault.outside`; Verif/Props/Queue.lean proves that this never happens).
`discard` removes the element that compares equal, if any.
-/
import Verif.Primitives

namespace Grassfire

variable {K : Type} [Field K] [LinearOrder K]

/-- events/loop.py:519-542 `compare_event_by_time`; only comparisons are used.
`pyid` is python's `id` of the triangles. -/
def compareEvents {K : Type} [LinearOrder K] (pyid : TId → ℕ) (one other : Event K) : ℤ :=
  if one.time < other.time then -1
  else if one.time > other.time then 1
  else
    if -(one.triTp : ℤ) < -(other.triTp : ℤ) then -1
    else if -(one.triTp : ℤ) > -(other.triTp : ℤ) then 1
    else
      if pyid one.tri < pyid other.tri then -1
      else if pyid one.tri > pyid other.tri then 1
      else 0

/-- ordered insertion -/
def queueInsert {K : Type} [LinearOrder K] (pyid : TId → ℕ) (e : Event K) :
    List (Event K) → List (Event K)
  | [] => [e]
  | x :: xs => if compareEvents pyid e x < 0 then e :: x :: xs else x :: queueInsert pyid e xs

/-- `queue.add(e)` -/
def queueAdd (e : Event K) : M K Unit := fun s =>
  if s.queue.any (fun x => compareEvents s.pyid e x = 0) then .error .outside
  else .ok ((), { s with queue := queueInsert s.pyid e s.queue })

/-- `queue.discard(e)` -/
def queueDiscard (e : Event K) : M K Unit := fun s =>
  .ok ((), { s with queue := s.queue.filter fun x => decide (compareEvents s.pyid e x ≠ 0) })

/-- `queue.discard(tri.event)` where the event can be `None`: the comparison function
accesses an attribute of None as soon as there is something to compare with. -/
def queueDiscardOpt (e : Option (Event K)) : M K Unit := fun s =>
  match e with
  | some e => queueDiscard e s
  | none => if s.queue.isEmpty then .ok ((), s) else .error (.py .attributeError)

/-- `if e in immediate: immediate.remove(e)` (`Event` compares by identity). -/
def immediateRemove (e : Event K) : M K Unit := fun s =>
  .ok ((), { s with immediate := s.immediate.eraseP fun x => decide (x.eid = e.eid) })

/-- `immediate.append(e)` -/
def immediateAppend (e : Event K) : M K Unit := fun s =>
  .ok ((), { s with immediate := s.immediate ++ [e] })

end Grassfire
