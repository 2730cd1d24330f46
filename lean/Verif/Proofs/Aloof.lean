/-
Stopping, creating and linking vertices does not touch the triangles and the queues.
-/
import Verif.Proofs.Growth

set_option linter.unusedSectionVars false

namespace Grassfire

variable {K : Type}

/-- the triangles and the queues are untouched -/
def Aloof (s s' : St K) : Prop :=
  s'.tri = s.tri ∧ s'.queue = s.queue ∧ s'.immediate = s.immediate

theorem aloofPre : Pre (Aloof (K := K)) where
  refl _ := ⟨rfl, rfl, rfl⟩
  trans _ _ _ h g := ⟨g.1.trans h.1, g.2.1.trans h.2.1, g.2.2.trans h.2.2⟩

section
variable [Field K] [LinearOrder K]

theorem al_same {α : Type} {m : M K α} (h : ∀ s a s', m s = .ok (a, s') → s = s') :
    Keeps (Aloof (K := K)) m := Keeps.of_same aloofPre h

theorem al_modifyK (v : VId) (f : KVertex K → KVertex K) :
    Keeps (Aloof (K := K)) (modifyK v f) := by
  intro s a s' h
  obtain ⟨_, _, _, rfl⟩ := modifyK_run_ok.1 h
  exact ⟨rfl, rfl, rfl⟩

theorem al_newNode (n : Node K) : Keeps (Aloof (K := K)) (newNode n) := by
  intro s a s' h
  obtain ⟨-, rfl⟩ := newNode_run_ok.1 h
  exact ⟨rfl, rfl, rfl⟩

theorem al_newK (kv : KVertex K) : Keeps (Aloof (K := K)) (newK kv) := by
  intro s a s' h
  obtain ⟨-, rfl⟩ := newK_run_ok.1 h
  exact ⟨rfl, rfl, rfl⟩

theorem al_appendNode (n : NodeId) : Keeps (Aloof (K := K)) (appendNode n) := by
  intro s a s' h
  obtain rfl := appendNode_run_ok.1 h
  exact ⟨rfl, rfl, rfl⟩

theorem al_appendVertex (v : VId) : Keeps (Aloof (K := K)) (appendVertex v) := by
  intro s a s' h
  obtain rfl := appendVertex_run_ok.1 h
  exact ⟨rfl, rfl, rfl⟩

theorem al_tryIntersection [HasSqrt K] (l r : Line2 K) (now : K) :
    Keeps (Aloof (K := K)) (tryIntersection l r now) := by
  refine al_same fun s a s' h => ?_
  unfold tryIntersection at h
  split at h
  · simp only [Except.ok.injEq, Prod.mk.injEq] at h; exact h.2
  · simp only [Except.ok.injEq, Prod.mk.injEq] at h; exact h.2
  · cases h

/-- leaves of the proof search of `aloof` -/
syntax "al_leaf" : tactic

macro_rules | `(tactic| al_leaf) => `(tactic| with_reducible exact al_same fun _ _ _ h => (assertM_run_ok.1 h).2)
macro_rules | `(tactic| al_leaf) => `(tactic| with_reducible exact al_same fun _ _ _ h => (need_run_ok.1 h).2)
macro_rules | `(tactic| al_leaf) => `(tactic| with_reducible exact al_same fun _ _ _ h => (needIdx_run_ok.1 h).2)
macro_rules | `(tactic| al_leaf) => `(tactic| with_reducible exact al_same fun _ _ _ h => (needNum_run_ok.1 h).2)
macro_rules | `(tactic| al_leaf) => `(tactic| with_reducible exact al_same fun _ _ _ h => (lift_run_ok.1 h).2)
macro_rules | `(tactic| al_leaf) => `(tactic| with_reducible exact al_same fun _ _ _ h => (getV_run_ok.1 h).2.2)
macro_rules | `(tactic| al_leaf) => `(tactic| with_reducible exact al_same fun _ _ _ h => (getK_run_ok.1 h).2.2)
macro_rules | `(tactic| al_leaf) => `(tactic| with_reducible exact al_same fun _ _ _ h => (getT_run_ok.1 h).2.2)
macro_rules | `(tactic| al_leaf) => `(tactic| with_reducible exact al_same fun _ _ _ h => (getN_run_ok.1 h).2.2)
macro_rules | `(tactic| al_leaf) => `(tactic| with_reducible exact al_same fun _ _ _ h => (getLine_run_ok.1 h).2)
macro_rules | `(tactic| al_leaf) => `(tactic| with_reducible exact al_same fun _ _ _ h => (getWfLine_run_ok.1 h).2)
macro_rules | `(tactic| al_leaf) => `(tactic| with_reducible exact al_same fun _ _ _ h => (countVertices_run_ok.1 h).2)
macro_rules | `(tactic| al_leaf) => `(tactic| with_reducible exact al_same fun _ _ _ h => (positionAt_run_ok.1 h).2.2)
macro_rules | `(tactic| al_leaf) => `(tactic| with_reducible exact al_tryIntersection _ _ _)
macro_rules | `(tactic| al_leaf) => `(tactic| with_reducible exact al_modifyK _ _)
macro_rules | `(tactic| al_leaf) => `(tactic| with_reducible exact al_newNode _)
macro_rules | `(tactic| al_leaf) => `(tactic| with_reducible exact al_newK _)
macro_rules | `(tactic| al_leaf) => `(tactic| with_reducible exact al_appendNode _)
macro_rules | `(tactic| al_leaf) => `(tactic| with_reducible exact al_appendVertex _)
macro_rules | `(tactic| al_leaf) => `(tactic| with_reducible exact Keeps.pure aloofPre _)
macro_rules | `(tactic| al_leaf) => `(tactic| with_reducible exact Keeps.raise _)

/-- proof search along the structure of a computation -/
macro "aloof" : tactic => `(tactic|
  repeat' first
    | al_leaf
    | assumption
    | with_reducible refine Keeps.bind aloofPre ?_ fun _ => ?_
    | with_reducible refine Keeps.ite ?_ ?_
    | with_reducible refine Keeps.forEach aloofPre (fun _ => ?_) _
    | with_reducible refine Keeps.mapEach aloofPre (fun _ => ?_) _
    | split
    | dsimp only)

theorem al_stopScan (now : K) (V : List VId) (acc : Option NodeId) :
    Keeps (Aloof (K := K)) (stopScan now V acc) := by
  induction V generalizing acc with
  | nil => exact Keeps.pure aloofPre _
  | cons v vs ih =>
    unfold stopScan
    aloof
    · exact ih _
    · exact ih _
    · exact ih _
macro_rules | `(tactic| al_leaf) => `(tactic| with_reducible exact al_stopScan _ _ _)

theorem al_stopAndRecord (V : List VId) (step : ℤ) (now : K) (pos : Option (Pt K)) :
    Keeps (Aloof (K := K)) (stopAndRecord V step now pos) := by
  unfold stopAndRecord stopKvertices stopAtNode stopAtExisting stopAtNew nodePosition recordNode
    assertStoppedAt readVertex
  aloof
macro_rules | `(tactic| al_leaf) => `(tactic| with_reducible exact al_stopAndRecord _ _ _ _)

theorem al_stopAt (v : VId) (n : NodeId) (now : K) : Keeps (Aloof (K := K)) (stopAt v n now) :=
  al_modifyK _ _
macro_rules | `(tactic| al_leaf) => `(tactic| with_reducible exact al_stopAt _ _ _)

theorem al_updateCirc (l r : Option VId) (now : K) :
    Keeps (Aloof (K := K)) (updateCirc l r now) := by
  unfold updateCirc setRight setLeft
  aloof
macro_rules | `(tactic| al_leaf) => `(tactic| with_reducible exact al_updateCirc _ _ _)

theorem al_computeNewKvertex [HasSqrt K] [HasTrig K] (ul ur : Option LineId) (now : K)
    (node : NodeId) (info : ℕ) (internal : Bool) :
    Keeps (Aloof (K := K)) (computeNewKvertex ul ur now node info internal) := by
  unfold computeNewKvertex
  aloof
macro_rules | `(tactic| al_leaf) => `(tactic| with_reducible exact al_computeNewKvertex _ _ _ _ _ _)

theorem al_checkLinks (v : VId) : Keeps (Aloof (K := K)) (checkLinks v) := by
  unfold checkLinks
  aloof
macro_rules | `(tactic| al_leaf) => `(tactic| with_reducible exact al_checkLinks _)

theorem al_edgeVertex [HasSqrt K] [HasTrig K] (t : TId) (e : Fin 3) (now : K) (step : ℤ) :
    Keeps (Aloof (K := K)) (edgeVertex t e now step) := by
  unfold edgeVertex evalPosition
  aloof

theorem al_splitChecks [HasSqrt K] (v v1 v2 : VId) (now : K) :
    Keeps (Aloof (K := K)) (splitChecks v v1 v2 now) := by
  unfold splitChecks
  aloof

theorem al_splitVertices [HasSqrt K] [HasTrig K] (v v1 v2 : VId) (now : K) (step : ℤ) :
    Keeps (Aloof (K := K)) (splitVertices v v1 v2 now step) := by
  unfold splitVertices
  aloof

end

end Grassfire
