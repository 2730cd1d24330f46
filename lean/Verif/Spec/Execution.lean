/-
Executions of the event loop.
-/
import Verif.Events.Loop

namespace Grassfire.Spec

variable {K : Type} [Field K] [LinearOrder K] [HasSqrt K] [HasTrig K]

/-- `Run depth s0 now0 n now s tr`: started in state `s0` at time `now0`, the event loop
has completed `n` iterations without exception, is in state `s` with `NOW = now`, and has taken
the events `tr` (with the values of `NOW` at which they were handled). -/
inductive Run (depth : ℕ) (s0 : St K) (now0 : K) :
    ℕ → K → St K → List (Event K × K) → Prop where
  | start : Run depth s0 now0 0 now0 s0 []
  | step {n : ℕ} {now now' : K} {s s' : St K} {tr : List (Event K × K)} {e : Event K} :
      Run depth s0 now0 n now s tr →
      loopStep depth (n + 1 : ℕ) now s = .ok (some (e, now'), s') →
      Run depth s0 now0 (n + 1) now' s' (tr ++ [(e, now')])

end Grassfire.Spec
