/-
Properties C24 (second half), C35 and C36: the event loop.
-/
import Verif.Proofs.LoopLemmas
import Verif.Spec.Samples

set_option linter.unusedSectionVars false

namespace Grassfire

open Spec

variable {K : Type} [Field K] [LinearOrder K] [HasSqrt K] [HasTrig K]

/-- C24: an event of a triangle that is already stopped is taken from the queue and ignored; nothing
else changes. -/
theorem C24_loop_skips_stopped (depth : ℕ) (e : Event K) (step : ℤ) (s : St K) (ht : e.tri < s.nT)
    (h : (s.tri e.tri).stopsAt ≠ none) : handleEvent depth e step s = .ok ((), s) := by
  unfold handleEvent
  rw [bind_run]
  simp only [getT, ht, if_true]
  rw [if_pos (Option.isSome_iff_ne_none.2 h)]
  rfl

/-- the number of iterations is the number of events taken -/
theorem run_length {depth : ℕ} {s0 : St K} {now0 : K} {n : ℕ} {now : K} {s : St K}
    {tr : List (Event K × K)} (hr : Run depth s0 now0 n now s tr) : tr.length = n := by
  induction hr with
  | start => rfl
  | step _ _ ih => simp [ih]

/-- C35: a call of `event_loop` that returns has handled at most 50000 events. -/
theorem C35_bound (depth : ℕ) (s s' : St K) (now : K) (h : eventLoop depth s = .ok (now, s')) :
    ∃ n tr, Run depth { s with immediate := [] } 0 n now s' tr ∧ tr.length = n ∧ n ≤ 50000 := by
  obtain ⟨⟨n, tr, hn, hr⟩, _⟩ := eventLoop_run h
  exact ⟨n, tr, hr, run_length hr, hn⟩

/-- C35: when something is still pending after 50000 iterations the loop raises ValueError. -/
theorem C35_guard (depth : ℕ) (s0 s : St K) (now : K) (tr : List (Event K × K))
    (hr : Run depth s0 0 50000 now s tr) (hp : s.immediate ≠ [] ∨ s.queue ≠ []) :
    loop depth 50000 0 0 s0 = .error (.py .valueError) := by
  have := run_loop hr 0
  simp only [Nat.add_zero] at this
  rw [this]
  simp only [loop]
  rw [if_neg]
  simp only [Bool.and_eq_true, List.isEmpty_iff, not_and_or]
  exact hp

/-- C35: an execution with at most 50000 iterations after which nothing is pending makes the loop
return, with the final time and state of the execution. -/
theorem C35_return (depth : ℕ) (s0 s : St K) (now : K) (n : ℕ) (tr : List (Event K × K))
    (hn : n ≤ 50000) (hr : Run depth s0 0 n now s tr) (hi : s.immediate = []) (hq : s.queue = []) :
    loop depth 50000 0 0 s0 = .ok (now, s) := by
  obtain ⟨k, hk⟩ := Nat.exists_eq_add_of_le hn
  rw [hk, run_loop hr k]
  exact loop_done k _ now hi hq

/-- C36: after a normal return nothing is pending and every triangle of the skeleton whose three
vertices are internal has been stopped. -/
theorem C36_swept (depth : ℕ) (s s' : St K) (now : K) (h : eventLoop depth s = .ok (now, s')) :
    s'.queue = [] ∧ s'.immediate = [] ∧
    ∀ t ∈ s'.skTriangles,
      (∀ i, ∃ kv, s'.vert ((s'.tri t).vertices i) = .kin kv ∧ kv.internal = true) →
      (s'.tri t).stopsAt ≠ none := by
  obtain ⟨_, hi, hq, hall⟩ := eventLoop_run h
  refine ⟨hq, hi, fun t ht hv => ?_⟩
  have hv' : ∀ i, (s'.vert ((s'.tri t).vertices i)).internal = true := by
    intro i
    obtain ⟨kv, hk, hint⟩ := hv i
    rw [hk]; exact hint
  exact Option.isSome_iff_ne_none.1 (hall t ht (hv' 0) (hv' 1) (hv' 2))

/-- The hypotheses of `C35_bound` and `C36_swept` are met: the square is swept completely. -/
example : Sample.outcome Sample.complete
      (fun now s => (now, s.queue, s.immediate, (s.tri 0).stopsAt, (s.tri 1).stopsAt)) Sample.square =
    some (1, [], [], some 1, some 1) := by
  decide +kernel

/-- The hypothesis of `C24_loop_skips_stopped` is met. -/
example : let s : St ℚ := { Sample.square with
      tri := fun _ => ⟨![0, 1, 2], fun _ => none, none, 0, some 1, true⟩ }
    (0 < s.nT ∧ (s.tri 0).stopsAt ≠ none) := by
  decide +kernel

end Grassfire
