/-
Stopping, creating and linking vertices does not touch the triangles.
-/
import Verif.Proofs.Growth

set_option linter.unusedSectionVars false

namespace Grassfire

variable {K : Type}

/-- the triangles are untouched -/
def SameTris (s s' : St K) : Prop := s'.tri = s.tri

theorem sameTrisPre : Pre (SameTris (K := K)) where
  refl _ := rfl
  trans _ _ _ h g := Eq.trans g h

section
variable [Field K] [LinearOrder K]

theorem st_same {α : Type} {m : M K α} (h : ∀ s a s', m s = .ok (a, s') → s = s') :
    Keeps (SameTris (K := K)) m := Keeps.of_same sameTrisPre h

theorem st_modifyK (v : VId) (f : KVertex K → KVertex K) :
    Keeps (SameTris (K := K)) (modifyK v f) := by
  intro s a s' h
  obtain ⟨_, _, _, rfl⟩ := modifyK_run_ok.1 h
  rfl

theorem st_newNode (n : Node K) : Keeps (SameTris (K := K)) (newNode n) := by
  intro s a s' h
  obtain ⟨-, rfl⟩ := newNode_run_ok.1 h
  rfl

theorem st_newK (kv : KVertex K) : Keeps (SameTris (K := K)) (newK kv) := by
  intro s a s' h
  obtain ⟨-, rfl⟩ := newK_run_ok.1 h
  rfl

theorem st_appendNode (n : NodeId) : Keeps (SameTris (K := K)) (appendNode n) := by
  intro s a s' h
  obtain rfl := appendNode_run_ok.1 h
  rfl

theorem st_appendVertex (v : VId) : Keeps (SameTris (K := K)) (appendVertex v) := by
  intro s a s' h
  obtain rfl := appendVertex_run_ok.1 h
  rfl

theorem st_tryIntersection [HasSqrt K] (l r : Line2 K) (now : K) :
    Keeps (SameTris (K := K)) (tryIntersection l r now) := by
  refine st_same fun s a s' h => ?_
  unfold tryIntersection at h
  split at h
  · simp only [Except.ok.injEq, Prod.mk.injEq] at h; exact h.2
  · simp only [Except.ok.injEq, Prod.mk.injEq] at h; exact h.2
  · cases h

/-- leaves of the proof search of `same_tris` -/
syntax "st_leaf" : tactic

macro_rules | `(tactic| st_leaf) => `(tactic| with_reducible exact st_same fun _ _ _ h => (assertM_run_ok.1 h).2)
macro_rules | `(tactic| st_leaf) => `(tactic| with_reducible exact st_same fun _ _ _ h => (need_run_ok.1 h).2)
macro_rules | `(tactic| st_leaf) => `(tactic| with_reducible exact st_same fun _ _ _ h => (needIdx_run_ok.1 h).2)
macro_rules | `(tactic| st_leaf) => `(tactic| with_reducible exact st_same fun _ _ _ h => (needNum_run_ok.1 h).2)
macro_rules | `(tactic| st_leaf) => `(tactic| with_reducible exact st_same fun _ _ _ h => (lift_run_ok.1 h).2)
macro_rules | `(tactic| st_leaf) => `(tactic| with_reducible exact st_same fun _ _ _ h => (getV_run_ok.1 h).2.2)
macro_rules | `(tactic| st_leaf) => `(tactic| with_reducible exact st_same fun _ _ _ h => (getK_run_ok.1 h).2.2)
macro_rules | `(tactic| st_leaf) => `(tactic| with_reducible exact st_same fun _ _ _ h => (getT_run_ok.1 h).2.2)
macro_rules | `(tactic| st_leaf) => `(tactic| with_reducible exact st_same fun _ _ _ h => (getN_run_ok.1 h).2.2)
macro_rules | `(tactic| st_leaf) => `(tactic| with_reducible exact st_same fun _ _ _ h => (getLine_run_ok.1 h).2)
macro_rules | `(tactic| st_leaf) => `(tactic| with_reducible exact st_same fun _ _ _ h => (getWfLine_run_ok.1 h).2)
macro_rules | `(tactic| st_leaf) => `(tactic| with_reducible exact st_same fun _ _ _ h => (countVertices_run_ok.1 h).2)
macro_rules | `(tactic| st_leaf) => `(tactic| with_reducible exact st_same fun _ _ _ h => (positionAt_run_ok.1 h).2.2)
macro_rules | `(tactic| st_leaf) => `(tactic| with_reducible exact st_tryIntersection _ _ _)
macro_rules | `(tactic| st_leaf) => `(tactic| with_reducible exact st_modifyK _ _)
macro_rules | `(tactic| st_leaf) => `(tactic| with_reducible exact st_newNode _)
macro_rules | `(tactic| st_leaf) => `(tactic| with_reducible exact st_newK _)
macro_rules | `(tactic| st_leaf) => `(tactic| with_reducible exact st_appendNode _)
macro_rules | `(tactic| st_leaf) => `(tactic| with_reducible exact st_appendVertex _)
macro_rules | `(tactic| st_leaf) => `(tactic| with_reducible exact Keeps.pure sameTrisPre _)
macro_rules | `(tactic| st_leaf) => `(tactic| with_reducible exact Keeps.raise _)

/-- proof search along the structure of a computation -/
macro "same_tris" : tactic => `(tactic|
  repeat' first
    | st_leaf
    | assumption
    | with_reducible refine Keeps.bind sameTrisPre ?_ fun _ => ?_
    | with_reducible refine Keeps.ite ?_ ?_
    | with_reducible refine Keeps.forEach sameTrisPre (fun _ => ?_) _
    | with_reducible refine Keeps.mapEach sameTrisPre (fun _ => ?_) _
    | split
    | dsimp only)

theorem st_stopScan (now : K) (V : List VId) (acc : Option NodeId) :
    Keeps (SameTris (K := K)) (stopScan now V acc) := by
  induction V generalizing acc with
  | nil => exact Keeps.pure sameTrisPre _
  | cons v vs ih =>
    unfold stopScan
    same_tris
    · exact ih _
    · exact ih _
    · exact ih _
macro_rules | `(tactic| st_leaf) => `(tactic| with_reducible exact st_stopScan _ _ _)

theorem st_stopAndRecord (V : List VId) (step : ℤ) (now : K) (pos : Option (Pt K)) :
    Keeps (SameTris (K := K)) (stopAndRecord V step now pos) := by
  unfold stopAndRecord stopKvertices stopAtNode stopAtExisting stopAtNew nodePosition recordNode
    assertStoppedAt readVertex
  same_tris
macro_rules | `(tactic| st_leaf) => `(tactic| with_reducible exact st_stopAndRecord _ _ _ _)

theorem st_stopAt (v : VId) (n : NodeId) (now : K) : Keeps (SameTris (K := K)) (stopAt v n now) :=
  st_modifyK _ _
macro_rules | `(tactic| st_leaf) => `(tactic| with_reducible exact st_stopAt _ _ _)

theorem st_updateCirc (l r : Option VId) (now : K) :
    Keeps (SameTris (K := K)) (updateCirc l r now) := by
  unfold updateCirc setRight setLeft
  same_tris
macro_rules | `(tactic| st_leaf) => `(tactic| with_reducible exact st_updateCirc _ _ _)

theorem st_computeNewKvertex [HasSqrt K] [HasTrig K] (ul ur : Option LineId) (now : K)
    (node : NodeId) (info : ℕ) (internal : Bool) :
    Keeps (SameTris (K := K)) (computeNewKvertex ul ur now node info internal) := by
  unfold computeNewKvertex
  same_tris
macro_rules | `(tactic| st_leaf) => `(tactic| with_reducible exact st_computeNewKvertex _ _ _ _ _ _)

theorem st_checkLinks (v : VId) : Keeps (SameTris (K := K)) (checkLinks v) := by
  unfold checkLinks
  same_tris
macro_rules | `(tactic| st_leaf) => `(tactic| with_reducible exact st_checkLinks _)

theorem st_edgeVertex [HasSqrt K] [HasTrig K] (t : TId) (e : Fin 3) (now : K) (step : ℤ) :
    Keeps (SameTris (K := K)) (edgeVertex t e now step) := by
  unfold edgeVertex evalPosition
  same_tris

theorem st_splitChecks [HasSqrt K] (v v1 v2 : VId) (now : K) :
    Keeps (SameTris (K := K)) (splitChecks v v1 v2 now) := by
  unfold splitChecks
  same_tris

theorem st_splitVertices [HasSqrt K] [HasTrig K] (v v1 v2 : VId) (now : K) (step : ℤ) :
    Keeps (SameTris (K := K)) (splitVertices v v1 v2 now step) := by
  unfold splitVertices
  same_tris

end

end Grassfire
