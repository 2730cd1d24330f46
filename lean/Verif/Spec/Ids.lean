/-
What it means that the triangles lie in the same order in memory (specification of C103), and that their
places do not matter (specification of C104).
-/
import Verif.CalcSkel
import Verif.Spec.Execution

namespace Grassfire.Spec

/-- two ways in which python may number the triangles (`id`), with the same order -/
def SameOrder (p q : TId → ℕ) : Prop := ∀ a b, p a < p b ↔ q a < q b

variable {K : Type} [Field K] [LinearOrder K]

/-- `e` is not later than `f`, and if it is at the same time, its triangle has at least as many sides on
the wavefront -/
def NotAfter (e f : Event K) : Prop := e.time < f.time ∨ e.time = f.time ∧ f.triTp ≤ e.triTp

/-- It is clear which of the waiting events is the next, without the ids of the triangles: if two of them
come before all others they are the same.  (Events that are to be handled immediately are not in question.) -/
def Untied (s : St K) : Prop :=
  s.immediate = [] → ∀ e ∈ s.queue, ∀ e' ∈ s.queue, (∀ f ∈ s.queue, NotAfter e f) → (∀ f ∈ s.queue, NotAfter e' f) →
    e' = e

/-- It is always clear which event is the next when the loop starts from `s0`. -/
def UntiedRun [HasSqrt K] [HasTrig K] (depth : ℕ) (s0 : St K) : Prop :=
  ∀ s1, initEventList s0 = .ok ((), s1) → ∀ n now s tr, Run depth { s1 with immediate := [] } 0 n now s tr → Untied s

end Grassfire.Spec
