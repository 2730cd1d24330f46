/-
What is done after the vertices and the triangle of an event have been stopped stops no other
vertex and no other triangle (lemmas for C73).
-/
import Verif.Proofs.Growth
import Verif.Spec.Parallel

set_option linter.unusedSectionVars false

namespace Grassfire

open Spec

variable {K : Type}

theorem SameStop.refl (a : Vertex K) : SameStop a a := by
  cases a with
  | kin a => exact ⟨rfl, rfl⟩
  | inf a => trivial

theorem SameStop.trans {a b c : Vertex K} (h : SameStop a b) (g : SameStop b c) : SameStop a c := by
  cases a <;> cases b <;> cases c <;> first | trivial | exact h.elim | exact g.elim | skip
  exact ⟨g.1.trans h.1, g.2.trans h.2⟩

/-- nothing is stopped and nothing is made -/
structure Still (s s' : St K) : Prop where
  nV : s'.nV = s.nV
  nN : s'.nN = s.nN
  node : s'.node = s.node
  skNodes : s'.skNodes = s.skNodes
  skVertices : s'.skVertices = s.skVertices
  tri : ∀ t, (s'.tri t).stopsAt = (s.tri t).stopsAt
  vert : ∀ v, v < s.nV → SameStop (s.vert v) (s'.vert v)

theorem stillPre : Pre (Still (K := K)) where
  refl _ := ⟨rfl, rfl, rfl, rfl, rfl, fun _ => rfl, fun _ _ => SameStop.refl _⟩
  trans _ _ _ h g := ⟨g.nV.trans h.nV, g.nN.trans h.nN, g.node.trans h.node, g.skNodes.trans h.skNodes,
    g.skVertices.trans h.skVertices,
    fun t => (g.tri t).trans (h.tri t),
    fun v hv => SameStop.trans (h.vert v hv) (g.vert v (h.nV.symm ▸ hv))⟩

variable [Field K] [LinearOrder K]

theorem still_modifyK (v : VId) (f : KVertex K → KVertex K)
    (hf : ∀ kv, (f kv).stopsAt = kv.stopsAt ∧ (f kv).stopNode = kv.stopNode) :
    Keeps (Still (K := K)) (modifyK v f) := by
  intro s a s' h
  obtain ⟨hv, kv, hk, rfl⟩ := modifyK_run_ok.1 h
  have r := stillPre.refl s
  refine { r with vert := fun w hw => ?_ }
  show SameStop (s.vert w) (Function.update s.vert v (.kin (f kv)) w)
  by_cases e : w = v
  · subst e; rw [Function.update_self, hk]; exact hf kv
  · rw [Function.update_of_ne e]; exact SameStop.refl _

theorem still_modifyT (t : TId) (f : KTri K → KTri K) (hf : ∀ T, (f T).stopsAt = T.stopsAt) :
    Keeps (Still (K := K)) (modifyT t f) := by
  intro s a s' h
  obtain ⟨hv, rfl⟩ := modifyT_run_ok.1 h
  have r := stillPre.refl s
  refine { r with tri := fun w => ?_ }
  show ((Function.update s.tri t (f (s.tri t)) w)).stopsAt = _
  by_cases e : w = t
  · subst e; rw [Function.update_self]; exact hf _
  · rw [Function.update_of_ne e]

theorem still_newEvent (c : EvCore K) (t : TId) : Keeps (Still (K := K)) (newEvent c t) := by
  intro s a s' h
  obtain ⟨-, rfl⟩ := newEvent_run_ok.1 h
  have r := stillPre.refl s
  exact { r with }

theorem still_queues (s : St K) (q i : List (Event K)) :
    Still s { s with queue := q, immediate := i } := by
  have r := stillPre.refl s
  exact { r with }

theorem still_queueAdd (e : Event K) : Keeps (Still (K := K)) (queueAdd e) := by
  intro s a s' h
  unfold queueAdd at h
  split_ifs at h
  simp only [Except.ok.injEq, Prod.mk.injEq, true_and] at h
  subst h; exact still_queues s _ _

theorem still_queueDiscard (e : Event K) : Keeps (Still (K := K)) (queueDiscard e) := by
  intro s a s' h
  unfold queueDiscard at h
  simp only [Except.ok.injEq, Prod.mk.injEq, true_and] at h
  subst h; exact still_queues s _ _

theorem still_queueDiscardOpt (e : Option (Event K)) :
    Keeps (Still (K := K)) (queueDiscardOpt e) := by
  intro s a s' h
  unfold queueDiscardOpt at h
  split at h
  · exact still_queueDiscard _ _ _ _ h
  · split_ifs at h
    simp only [Except.ok.injEq, Prod.mk.injEq, true_and] at h
    subst h; exact stillPre.refl _

theorem still_immediateRemove (e : Event K) : Keeps (Still (K := K)) (immediateRemove e) := by
  intro s a s' h
  unfold immediateRemove at h
  simp only [Except.ok.injEq, Prod.mk.injEq, true_and] at h
  subst h; exact still_queues s _ _

theorem still_immediateAppend (e : Event K) : Keeps (Still (K := K)) (immediateAppend e) := by
  intro s a s' h
  unfold immediateAppend at h
  simp only [Except.ok.injEq, Prod.mk.injEq, true_and] at h
  subst h; exact still_queues s _ _

/-- leaves of the proof search of `still` -/
syntax "still_leaf" : tactic

macro_rules | `(tactic| still_leaf) => `(tactic| with_reducible exact Keeps.pure stillPre _)
macro_rules | `(tactic| still_leaf) => `(tactic| with_reducible exact Keeps.raise _)
macro_rules | `(tactic| still_leaf) => `(tactic| with_reducible exact Keeps.of_same stillPre fun _ _ _ h => (assertM_run_ok.1 h).2)
macro_rules | `(tactic| still_leaf) => `(tactic| with_reducible exact Keeps.of_same stillPre fun _ _ _ h => (need_run_ok.1 h).2)
macro_rules | `(tactic| still_leaf) => `(tactic| with_reducible exact Keeps.of_same stillPre fun _ _ _ h => (needIdx_run_ok.1 h).2)
macro_rules | `(tactic| still_leaf) => `(tactic| with_reducible exact Keeps.of_same stillPre fun _ _ _ h => (needNum_run_ok.1 h).2)
macro_rules | `(tactic| still_leaf) => `(tactic| with_reducible exact Keeps.of_same stillPre fun _ _ _ h => (lift_run_ok.1 h).2)
macro_rules | `(tactic| still_leaf) => `(tactic| with_reducible exact Keeps.of_same stillPre fun _ _ _ h => (assertSome_run_ok.1 h).2)
macro_rules | `(tactic| still_leaf) => `(tactic| with_reducible exact Keeps.of_same stillPre fun _ _ _ h => (getV_run_ok.1 h).2.2)
macro_rules | `(tactic| still_leaf) => `(tactic| with_reducible exact Keeps.of_same stillPre fun _ _ _ h => (getK_run_ok.1 h).2.2)
macro_rules | `(tactic| still_leaf) => `(tactic| with_reducible exact Keeps.of_same stillPre fun _ _ _ h => (getT_run_ok.1 h).2.2)
macro_rules | `(tactic| still_leaf) => `(tactic| with_reducible exact Keeps.of_same stillPre fun _ _ _ h => (getN_run_ok.1 h).2.2)
macro_rules | `(tactic| still_leaf) => `(tactic| with_reducible exact Keeps.of_same stillPre fun _ _ _ h => (getLine_run_ok.1 h).2)
macro_rules | `(tactic| still_leaf) => `(tactic| with_reducible exact Keeps.of_same stillPre fun _ _ _ h => (countVertices_run_ok.1 h).2)
macro_rules | `(tactic| still_leaf) => `(tactic| with_reducible exact Keeps.of_same stillPre fun _ _ _ h => (triView_run_ok.1 h).2.2)
macro_rules | `(tactic| still_leaf) => `(tactic| with_reducible exact still_newEvent _ _)
macro_rules | `(tactic| still_leaf) => `(tactic| with_reducible exact still_queueAdd _)
macro_rules | `(tactic| still_leaf) => `(tactic| with_reducible exact still_queueDiscard _)
macro_rules | `(tactic| still_leaf) => `(tactic| with_reducible exact still_queueDiscardOpt _)
macro_rules | `(tactic| still_leaf) => `(tactic| with_reducible exact still_immediateRemove _)
macro_rules | `(tactic| still_leaf) => `(tactic| with_reducible exact still_immediateAppend _)

/-- proof search along the structure of a computation -/
macro "still" : tactic => `(tactic|
  repeat' first
    | still_leaf
    | assumption
    | with_reducible refine Keeps.bind stillPre ?_ fun _ => ?_
    | with_reducible refine Keeps.ite ?_ ?_
    | split
    | dsimp only)

theorem still_setEvent (t : TId) (e : Event K) : Keeps (Still (K := K)) (setEvent t e) :=
  still_modifyT _ _ fun _ => rfl
macro_rules | `(tactic| still_leaf) => `(tactic| with_reducible exact still_setEvent _ _)

theorem still_setVertex (t : TId) (i : Fin 3) (v : VId) :
    Keeps (Still (K := K)) (setVertex t i v) := still_modifyT _ _ fun _ => rfl
macro_rules | `(tactic| still_leaf) => `(tactic| with_reducible exact still_setVertex _ _ _)

theorem still_setNeighbour (t : TId) (i : Fin 3) (n : Option TId) :
    Keeps (Still (K := K)) (setNeighbour t i n) := still_modifyT _ _ fun _ => rfl
macro_rules | `(tactic| still_leaf) => `(tactic| with_reducible exact still_setNeighbour _ _ _)

theorem still_setWf (v : VId) (l r : Option WfId) :
    Keeps (Still (K := K)) (modifyK v fun k => { k with wfl := l, wfr := r }) :=
  still_modifyK _ _ fun _ => ⟨rfl, rfl⟩
macro_rules | `(tactic| still_leaf) => `(tactic| with_reducible exact still_setWf _ _ _)

theorem still_setRight (l r : Option VId) (now : K) : Keeps (Still (K := K)) (setRight l r now) := by
  unfold setRight
  split
  · exact still_modifyK _ _ fun _ => ⟨rfl, rfl⟩
  · exact Keeps.pure stillPre _
macro_rules | `(tactic| still_leaf) => `(tactic| with_reducible exact still_setRight _ _ _)

theorem still_setLeft (l r : Option VId) (now : K) : Keeps (Still (K := K)) (setLeft l r now) := by
  unfold setLeft
  split
  · exact still_modifyK _ _ fun _ => ⟨rfl, rfl⟩
  · exact Keeps.pure stillPre _
macro_rules | `(tactic| still_leaf) => `(tactic| with_reducible exact still_setLeft _ _ _)

theorem still_updateCirc (l r : Option VId) (now : K) :
    Keeps (Still (K := K)) (updateCirc l r now) := by
  unfold updateCirc
  still
macro_rules | `(tactic| still_leaf) => `(tactic| with_reducible exact still_updateCirc _ _ _)

theorem still_storeEvent (c : Option (EvCore K)) (t : TId) :
    Keeps (Still (K := K)) (storeEvent c t) := by
  unfold storeEvent
  still
macro_rules | `(tactic| still_leaf) => `(tactic| with_reducible exact still_storeEvent _ _)

theorem still_computeCollapseTime [HasSqrt K] (t : TId) (now : K) (sieve : Sieve) :
    Keeps (Still (K := K)) (computeCollapseTime t now sieve) := by
  unfold computeCollapseTime
  still
macro_rules | `(tactic| still_leaf) => `(tactic| with_reducible exact still_computeCollapseTime _ _ _)

theorem still_discardEvent (e : Option (Event K)) :
    Keeps (Still (K := K)) (discardEvent e) := by
  unfold discardEvent
  still
macro_rules | `(tactic| still_leaf) => `(tactic| with_reducible exact still_discardEvent _)

theorem still_addEvent (e : Option (Event K)) :
    Keeps (Still (K := K)) (addEvent e) := by
  unfold addEvent
  still
macro_rules | `(tactic| still_leaf) => `(tactic| with_reducible exact still_addEvent _)

theorem still_replaceInQueue [HasSqrt K] (t : TId) (now : K) :
    Keeps (Still (K := K)) (replaceInQueue t now) := by
  unfold replaceInQueue
  still
macro_rules | `(tactic| still_leaf) => `(tactic| with_reducible exact still_replaceInQueue _ _)

theorem still_renewEvent [HasSqrt K] (b : Bool) (t : TId) (now : K) :
    Keeps (Still (K := K)) (renewEvent b t now) := by
  unfold renewEvent
  still
macro_rules | `(tactic| still_leaf) => `(tactic| with_reducible exact still_renewEvent _ _ _)

theorem still_replaceLoop [HasSqrt K] (v newv : VId) (now : K) (dir : Dir) (fuel : ℕ)
    (t : Option TId) (fan : List TId) :
    Keeps (Still (K := K)) (replaceLoop v newv now dir fuel t fan) := by
  induction fuel generalizing t fan with
  | zero =>
    cases t with
    | none => exact Keeps.pure stillPre _
    | some t => intro s a s' h; unfold replaceLoop at h; simp at h
  | succ fuel ih =>
    cases t with
    | none => exact Keeps.pure stillPre _
    | some t =>
      unfold replaceLoop
      still
      exact ih _ _

theorem still_replaceKvertex [HasSqrt K] (t : TId) (v newv : VId) (now : K) (dir : Dir) :
    Keeps (Still (K := K)) (replaceKvertex t v newv now dir) := by
  intro s a s' h
  exact still_replaceLoop _ _ _ _ _ _ _ _ _ _ h
macro_rules | `(tactic| still_leaf) => `(tactic| with_reducible exact still_replaceKvertex _ _ _ _ _)

theorem still_immediateRemoveOpt (e : Option (Event K)) :
    Keeps (Still (K := K)) (immediateRemoveOpt e) := by
  unfold immediateRemoveOpt
  still
macro_rules | `(tactic| still_leaf) => `(tactic| with_reducible exact still_immediateRemoveOpt _)

theorem still_immediateEvent [HasSqrt K] (t : TId) (now : K) :
    Keeps (Still (K := K)) (immediateEvent t now) := by
  unfold immediateEvent
  still
macro_rules | `(tactic| still_leaf) => `(tactic| with_reducible exact still_immediateEvent _ _)

theorem still_scheduleImmediately [HasSqrt K] (t : TId) (now : K) :
    Keeps (Still (K := K)) (scheduleImmediately t now) := by
  unfold scheduleImmediately
  still
macro_rules | `(tactic| still_leaf) => `(tactic| with_reducible exact still_scheduleImmediately _ _)

theorem still_relink (n t : TId) (x : Option TId) : Keeps (Still (K := K)) (relink n t x) := by
  unfold relink
  still
macro_rules | `(tactic| still_leaf) => `(tactic| with_reducible exact still_relink _ _ _)

theorem still_detachAndSchedule [HasSqrt K] (n : Option TId) (t : TId) (now : K) :
    Keeps (Still (K := K)) (detachAndSchedule n t now) := by
  unfold detachAndSchedule
  still
macro_rules | `(tactic| still_leaf) => `(tactic| with_reducible exact still_detachAndSchedule _ _ _)

theorem still_replaceSide [HasSqrt K] [HasTrig K] (t : TId) (now : K) (n other : Option TId) (v kv : VId) (dir : Dir) :
    Keeps (Still (K := K)) (shorterLeg.replaceSide t now n other v kv dir) := by
  unfold shorterLeg.replaceSide
  still
macro_rules | `(tactic| still_leaf) => `(tactic| with_reducible exact still_replaceSide _ _ _ _ _ _ _)

end Grassfire
