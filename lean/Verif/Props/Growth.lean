/-
Property C37: the skeleton only grows.
-/
import Verif.Proofs.Growth
import Verif.Proofs.LoopLemmas
import Verif.Spec.Samples

set_option linter.unusedSectionVars false

namespace Grassfire

open Spec

variable {K : Type} [Field K] [LinearOrder K] [HasSqrt K] [HasTrig K]

/-- C37: handling an event only adds to the skeleton. -/
theorem C37_handle_event (depth : ℕ) (e : Event K) (step : ℤ) (s s' : St K)
    (h : handleEvent depth e step s = .ok ((), s')) : Grows s s' :=
  g_handleEvent depth e step s () s' h

/-- C37: any two states of an execution of the event loop, the later one has everything that
the earlier one has. -/
theorem C37_run (depth : ℕ) (s0 : St K) (now0 : K) (n : ℕ) (now : K) (s : St K)
    (tr : List (Event K × K)) (hr : Run depth s0 now0 n now s tr) (m : ℕ) (hm : m ≤ n) :
    ∃ now1 s1 tr1, Run depth s0 now0 m now1 s1 tr1 ∧ tr1 <+: tr ∧ Grows s1 s := by
  induction hr with
  | start =>
    obtain rfl : m = 0 := by omega
    exact ⟨_, _, _, Run.start, List.prefix_refl _, growsPre.refl _⟩
  | @step n now now' s s' tr e hr hs ih =>
    rcases Nat.lt_or_ge n m with h | h
    · obtain rfl : m = n + 1 := by omega
      exact ⟨_, _, _, hr.step hs, List.prefix_refl _, growsPre.refl _⟩
    · obtain ⟨now1, s1, tr1, h1, h2, h3⟩ := ih h
      exact ⟨now1, s1, tr1, h1, h2.trans (List.prefix_append _ _),
        growsPre.trans _ _ _ h3 (g_loopStep _ _ _ _ _ _ hs)⟩

/-- C37: a complete call of `event_loop` only adds to the skeleton. -/
theorem C37_event_loop (depth : ℕ) (s s' : St K) (now : K)
    (h : eventLoop depth s = .ok (now, s')) : Grows s s' :=
  g_eventLoop depth s now s' h

/-- C37: setting up the event queue does not change the skeleton lists. -/
theorem C37_init_event_list (s s' : St K) (h : initEventList s = .ok ((), s')) : Grows s s' :=
  g_initEventList s () s' h

/-- C37, spelled out: a node keeps its position, a stopped triangle stays stopped, and a vertex
keeps its start time, start node, origin and velocity, through a complete run. -/
theorem C37_birth_data (depth : ℕ) (s s' : St K) (now : K)
    (h : eventLoop depth s = .ok (now, s')) :
    (∀ n, n < s.nN → (s'.node n).pos = (s.node n).pos) ∧
    (∀ t, (s.tri t).stopsAt ≠ none → (s'.tri t).stopsAt ≠ none) ∧
    (∀ v kv, v < s.nV → s.vert v = .kin kv → ∃ kv', s'.vert v = .kin kv' ∧
      kv'.startsAt = kv.startsAt ∧ kv'.startNode = kv.startNode ∧ kv'.origin = kv.origin ∧
      kv'.velocity = kv.velocity) ∧
    (∀ (i : ℕ) v, s.skVertices[i]? = some v → s'.skVertices[i]? = some v) ∧
    (∀ (i : ℕ) n, s.skNodes[i]? = some n → s'.skNodes[i]? = some n) := by
  have g := g_eventLoop depth s now s' h
  refine ⟨fun n hn => by rw [g.node n hn], fun t ht => ?_, fun v kv hv hk => ?_,
    fun i v hi => ?_, fun i n hi => ?_⟩
  · rw [← Option.isSome_iff_ne_none] at *
    exact g.stopped t ht
  · have := g.vert v hv
    rw [hk] at this
    cases hk' : s'.vert v with
    | inf o => rw [hk'] at this; exact this.elim
    | kin kv' =>
      rw [hk'] at this
      exact ⟨kv', rfl, this.startsAt, this.startNode, this.origin, this.velocity⟩
  · obtain ⟨l, hl⟩ := g.skVertices
    rw [← hl, List.getElem?_append_left (by
      by_contra hc
      rw [List.getElem?_eq_none (by omega)] at hi
      cases hi)]
    exact hi
  · obtain ⟨l, hl⟩ := g.skNodes
    rw [← hl, List.getElem?_append_left (by
      by_contra hc
      rw [List.getElem?_eq_none (by omega)] at hi
      cases hi)]
    exact hi

/-- The hypotheses are met: on the rectangle a complete run succeeds and really adds nodes and a
vertex. -/
example : Sample.outcome Sample.complete
      (fun now s => (now, s.skNodes, s.skVertices, (s.tri 0).stopsAt, (s.tri 1).stopsAt))
      Sample.rectangle =
    some (1, [0, 1, 2, 3, 4, 5], [0, 1, 2, 3, 4], some 1, some 1) := by
  decide +kernel

/-- ... at the ends of the medial axis -/
example : Sample.outcome Sample.complete (fun _ s => ((s.node 4).pos, (s.node 5).pos))
      Sample.rectangle = some ((3, 1), (1, 1)) := by
  decide +kernel

end Grassfire
