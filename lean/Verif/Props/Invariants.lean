/-
Properties C32, C33, C34, C44, C47 and C48: what holds at every moment of every execution of
`init_event_list` followed by `event_loop`.
-/
import Verif.Proofs.InvLoop
import Verif.Proofs.PrimitivesLemmas
import Verif.Props.Primitives
import Verif.Spec.InitialCheck

set_option linter.unusedSectionVars false

namespace Grassfire

open Spec

variable {K : Type} [Field K] [LinearOrder K] [IsStrictOrderedRing K] [HasSqrt K] [HasTrig K]

/-- the invariant in every state of an execution -/
theorem execution_inv {depth : ℕ} {s0 : St K} {n : ℕ} {now : K} {s : St K} {tr : List (Event K × K)}
    (h : Execution depth s0 n now s tr) :
    Inv (Numbered s0) now s ∧ (∀ x ∈ tr, x.1.time = x.2 ∧ 0 ≤ x.2 ∧ x.2 ≤ now) ∧
    (tr.map (·.2)).Pairwise (· ≤ ·) ∧ (tr.getLast?.map (·.2)).getD 0 = now := by
  obtain ⟨hi, s1, h1, hr⟩ := h
  have i1 : Inv (Numbered s0) 0 s1 := by exact wp_ok (Q := fun _ s' => Inv (Numbered s0) 0 s') (i_initEventList hi) h1
  have := run_inv hr (i1.sub (List.Sublist.refl _) (List.nil_sublist _))
  exact ⟨this.1, this.2.2.1, this.2.2.2⟩

/-- a complete run is an execution -/
theorem completed_execution {depth : ℕ} {s0 : St K} {now : K} {s : St K}
    (h : Completed depth s0 now s) :
    ∃ n tr, n ≤ 50000 ∧ Execution depth s0 n now s tr := by
  obtain ⟨hi, s1, h1, hr⟩ := h
  obtain ⟨⟨n, tr, hn, hrun⟩, _⟩ := eventLoop_run hr
  exact ⟨n, tr, hn, hi, s1, h1, hrun⟩

section
variable {depth : ℕ} {s0 : St K} {n : ℕ} {now : K} {s : St K} {tr : List (Event K × K)}

/-! ### C32 -/

/-- C32: every pending event is the current event of its triangle. -/
theorem C32_current (h : Execution depth s0 n now s tr) (e : Event K)
    (he : e ∈ s.immediate ∨ e ∈ s.queue) : (s.tri e.tri).event = some e :=
  ((execution_inv h).1.current e (List.mem_append.2 he)).2

/-- C32: no triangle has two pending events: not two in one list, nor one in each. -/
theorem C32_once (h : Execution depth s0 n now s tr) :
    ((s.immediate ++ s.queue).map (·.tri)).Nodup := (execution_inv h).1.once

/-- C32: the queue is strictly ordered by its comparison function. -/
theorem C32_ordered (h : Execution depth s0 n now s tr) :
    s.queue.Pairwise fun a b => compareEvents s.pyid a b = -1 := (execution_inv h).1.ordered

/-! ### C33 -/

/-- C33: the times of the events that have been handled are non-decreasing, each was handled at
its own time, none before time 0, and `NOW` is the time of the last one (0 when there is
none). -/
theorem C33_monotone (h : Execution depth s0 n now s tr) :
    (tr.map (·.1.time)).Pairwise (· ≤ ·) ∧ (∀ x ∈ tr, x.1.time = x.2 ∧ 0 ≤ x.1.time) ∧
    now = (tr.getLast?.map (·.1.time)).getD 0 := by
  obtain ⟨_, h2, h3, h4⟩ := execution_inv h
  have e : tr.map (·.1.time) = tr.map (·.2) := List.map_congr_left fun x hx => (h2 x hx).1
  refine ⟨by rw [e]; exact h3, fun x hx => ⟨(h2 x hx).1, by rw [(h2 x hx).1]; exact (h2 x hx).2.1⟩, ?_⟩
  rw [← h4]
  cases hl : tr.getLast? with
  | none => rfl
  | some x => exact (h2 x (List.mem_of_getLast? hl)).1.symm

/-- C33: nothing is pending in the past; what is to be handled immediately is due now. -/
theorem C33_pending (h : Execution depth s0 n now s tr) :
    (∀ e ∈ s.queue, now ≤ e.time) ∧ ∀ e ∈ s.immediate, e.time = now :=
  ⟨(execution_inv h).1.queued, (execution_inv h).1.immediate⟩

/-- C33: the time returned by `event_loop` is the time of the last event taken, or 0. -/
theorem C33_returned (h : Completed depth s0 now s) :
    ∃ n tr, Execution depth s0 n now s tr ∧ now = (tr.getLast?.map (·.1.time)).getD 0 ∧ 0 ≤ now := by
  obtain ⟨n, tr, _, he⟩ := completed_execution h
  obtain ⟨h1, h2, h3⟩ := C33_monotone he
  refine ⟨n, tr, he, h3, ?_⟩
  rw [h3]
  cases hl : tr.getLast? with
  | none => exact le_rfl
  | some x => exact (h2 x (List.mem_of_getLast? hl)).2

/-! ### C34 -/

/-- C34: at every moment every kinetic vertex has a start time, not in the future, and a recorded
start node; it has a stop time iff it has a stop node, which is recorded too; it does not stop
before it starts, nor in the future. -/
theorem C34_lives (h : Execution depth s0 n now s tr) (v : VId) (kv : KVertex K) (hv : v < s.nV)
    (hk : s.vert v = .kin kv) : LifeOk now s.skNodes kv := (execution_inv h).1.lives v kv hv hk

/-- C34: the same for the vertices of the skeleton that is returned. -/
theorem C34_returned (h : Completed depth s0 now s) :
    ∀ v ∈ s.skVertices, ∃ kv, s.vert v = .kin kv ∧ LifeOk now s.skNodes kv := by
  obtain ⟨n, tr, _, he⟩ := completed_execution h
  have i := (execution_inv he).1
  intro v hv
  obtain ⟨kv, hk, _⟩ := i.numbered v hv
  exact ⟨kv, hk, i.lives v kv (i.refs.skVertices v hv) hk⟩

/-! ### C44 -/

/-- C44: at every moment the numbers of the vertices of the skeleton are different. -/
theorem C44_distinct (h : Execution depth s0 n now s tr) (hn : Numbered s0) (v w : VId) (hv : v ∈ s.skVertices)
    (hw : w ∈ s.skVertices) (kv kw : KVertex K) (hkv : s.vert v = .kin kv) (hkw : s.vert w = .kin kw)
    (he : kv.info = kw.info) : v = w := by
  have := (execution_inv h).1.distinct hn
  refine List.inj_on_of_nodup_map this hv hw ?_
  unfold infoOf
  rw [hkv, hkw]
  exact congrArg some he

/-- C44: every vertex of the skeleton occurs in it once. -/
theorem C44_nodup (h : Execution depth s0 n now s tr) (hn : Numbered s0) : s.skVertices.Nodup :=
  List.Nodup.of_map _ ((execution_inv h).1.distinct hn)

/-! ### C47 -/

/-- C47: when `init_event_list` does not return normally, a python exception has been raised; the
contract of the queue is respected. -/
theorem C47_init (hi : Initial s0) (f : Fault) (hf : initEventList s0 = .error f) :
    ∃ e, f = .py e := by
  have := i_initEventList hi
  unfold wp at this
  rw [hf] at this
  cases f with
  | py e => exact ⟨e, rfl⟩
  | _ => exact this.elim

/-- C47: when `event_loop` does not return normally, a python exception has been raised: no
reference to an object that does not exist, no walk around a vertex that does not end, no
use of the queue that it does not specify. -/
theorem C47_event_loop (hi : Initial s0) {s1 : St K} (h1 : initEventList s0 = .ok ((), s1)) (depth : ℕ)
    (f : Fault) (hf : eventLoop depth s1 = .error f) : ∃ e, f = .py e := by
  have := i_eventLoop depth (wp_ok (Q := fun _ s' => Inv (Numbered s0) 0 s') (i_initEventList hi) h1)
  unfold wp at this
  rw [hf] at this
  cases f with
  | py e => exact ⟨e, rfl⟩
  | _ => exact this.elim

/-- C47: the same for a single iteration, at any moment. -/
theorem C47_iteration (h : Execution depth s0 n now s tr) (step : ℤ) (f : Fault)
    (hf : loopStep depth step now s = .error f) : ∃ e, f = .py e := by
  have := i_loopStep depth step (execution_inv h).1
  unfold wp at this
  rw [hf] at this
  cases f with
  | py e => exact ⟨e, rfl⟩
  | _ => exact this.elim

/-- C47: every reference that is stored at any moment refers to an object that exists. -/
theorem C47_references (h : Execution depth s0 n now s tr) : Refs s := (execution_inv h).1.refs

/-! ### C48 -/

theorem histOk_mkHist {R : Type} {h : Hist K R} (hc : h.IsChain fun x y => x.stop = some y.start)
    (ho : ∀ x ∈ h.getLast?, x.stop = none) : h = mkHist (h.map fun x => (x.start, x.ref)) := by
  induction h with
  | nil => rfl
  | cons x xs ih =>
    cases xs with
    | nil =>
      have := ho x rfl
      obtain ⟨a, b, c⟩ := x
      dsimp only at this
      rw [this]; rfl
    | cons y ys =>
      rw [List.isChain_cons_cons] at hc
      have := ih hc.2 (fun z hz => ho z (by rw [List.getLast?_cons_cons]; exact hz))
      rw [List.map_cons, List.map_cons, mkHist, ← List.map_cons (f := fun x : HistItem K R => (x.start, x.ref)),
        ← this]
      obtain ⟨a, b, c⟩ := x
      have := hc.1
      dsimp only at this
      rw [this]

/-- C48: at every moment the histories of the neighbours of every kinetic vertex are in order. -/
theorem C48_chronological (h : Execution depth s0 n now s tr) (v : VId) (kv : KVertex K)
    (hv : v < s.nV) (hk : s.vert v = .kin kv) : HistOk now kv.left ∧ HistOk now kv.right :=
  (execution_inv h).1.hist v kv hv hk

/-- C48: so `left_at(t)` and `right_at(t)` tell, at every moment and for every `t`, the last
neighbour that was assigned at a time `<= t`. -/
theorem C48_lookup (h : Execution depth s0 n now s tr) (v : VId) (kv : KVertex K)
    (hv : v < s.nV) (hk : s.vert v = .kin kv) (t : K) :
    kv.left.at t = ((kv.left.filter fun x => decide (x.start ≤ t)).getLast?).map (·.ref) ∧
    kv.right.at t = ((kv.right.filter fun x => decide (x.start ≤ t)).getLast?).map (·.ref) := by
  have key : ∀ h : Hist K (Option VId), HistOk now h →
      h.at t = ((h.filter fun x => decide (x.start ≤ t)).getLast?).map (·.ref) := by
    intro h hh
    have e := histOk_mkHist hh.gapless hh.openEnded
    conv_lhs => rw [e]
    rw [mkHist_at _ (by rw [List.pairwise_map]; exact hh.ordered)]
    rw [List.filter_map, List.getLast?_map, Option.map_map]
    rfl
  obtain ⟨h1, h2⟩ := C48_chronological h v kv hv hk
  exact ⟨key _ h1, key _ h2⟩

/-! ### C39, C40: the hypotheses about the vertices hold after every complete run -/

/-- C39: after a complete run `segments` does not raise an exception: it delivers, for every vertex of
the skeleton that has stopped elsewhere than it started, or not at all, one segment. -/
theorem C39_after_loop (h : Completed depth s0 now s) :
    ∃ (kv : VId → KVertex K) (a b : VId → NodeId),
      (∀ v ∈ s.skVertices, s.vert v = .kin (kv v) ∧ (kv v).startNode = some (a v) ∧
        ((kv v).stopsAt ≠ none → (kv v).stopNode = some (b v))) ∧
      ∃ segs, segments s = .ok segs ∧ segs.length =
        (s.skVertices.filter fun v => decide ((kv v).stopsAt = none ∨ a v ≠ b v)).length := by
  have lives := C34_returned h
  classical
  let kv : VId → KVertex K := fun v =>
    match s.vert v with
    | .kin k => k
    | .inf o => { origin := o, velocity := (0, 0) }
  let a : VId → NodeId := fun v => (kv v).startNode.getD 0
  let b : VId → NodeId := fun v => (kv v).stopNode.getD 0
  have hk : ∀ v ∈ s.skVertices, s.vert v = .kin (kv v) := by
    intro v hv
    obtain ⟨k, hk, _⟩ := lives v hv
    show s.vert v = .kin (match s.vert v with | .kin k => k | .inf o => _)
    rw [hk]
  have hl : ∀ v ∈ s.skVertices, LifeOk now s.skNodes (kv v) := by
    intro v hv
    obtain ⟨k, hk', l⟩ := lives v hv
    rw [hk v hv] at hk'
    cases hk'
    exact l
  have ha : ∀ v ∈ s.skVertices, (kv v).startNode = some (a v) := by
    intro v hv
    obtain ⟨n, _, hn⟩ := (hl v hv).startNode
    show _ = some ((kv v).startNode.getD 0)
    rw [hn]; rfl
  have hb : ∀ v ∈ s.skVertices, (kv v).stopsAt ≠ none → (kv v).stopNode = some (b v) := by
    intro v hv hs
    have := (hl v hv).both.1 (Option.isSome_iff_ne_none.2 hs)
    obtain ⟨n, hn⟩ := Option.isSome_iff_exists.1 this
    show _ = some ((kv v).stopNode.getD 0)
    rw [hn]; rfl
  refine ⟨kv, a, b, fun v hv => ⟨hk v hv, ha v hv, hb v hv⟩, _, C39_segments s kv a b hk ha hb, ?_⟩
  rw [List.length_filterMap_eq_countP, List.countP_eq_length_filter]
  congr 1
  refine List.filter_congr fun v _ => ?_
  by_cases h1 : (kv v).stopsAt = none
  · simp [h1]
  · by_cases h2 : a v = b v
    · simp [h1, h2]
    · simp [h1, h2]

end

/-! ### the hypotheses are met -/

example : Numbered Sample.rectangle := Sample.rectangle_numbered

/-- A complete run, in which two immediate events are handled. -/
example : ∃ now s, Completed 100 Sample.rectangle now s ∧
    (now, s.queue, s.immediate, s.skVertices.length, s.skNodes.length) = (1, [], [], 5, 6) :=
  Sample.completed_of_outcome Sample.rectangle_initial (by decide +kernel)

/-- An execution that is not at its end: something is pending. -/
example : ∃ n now s tr, Execution 100 Sample.square n now s tr ∧ s.queue ≠ [] := by
  obtain ⟨_, s', ⟨_, s1, h1, _⟩, hb⟩ := Sample.completed_of_outcome (f := fun now s => now)
    Sample.square_initial (b := 1) (by decide +kernel)
  refine ⟨0, 0, _, [], ⟨Sample.square_initial, s1, h1, .start⟩, ?_⟩
  have : Sample.outcome initEventList (fun _ s => s.queue.length) Sample.square = some 2 := by
    decide +kernel
  unfold Sample.outcome at this
  rw [h1] at this
  intro hq
  dsimp only at hq this
  rw [hq] at this
  cases this

end Grassfire
