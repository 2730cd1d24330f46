/-
The parts of the code that only change triangles, their events and the queues.
-/
import Verif.Proofs.Growth

set_option linter.unusedSectionVars false

namespace Grassfire

variable {K : Type}

/-- only triangles, events and queues differ -/
def MeshOnly (s s' : St K) : Prop :=
  s' = { s with tri := s'.tri, nE := s'.nE, queue := s'.queue, immediate := s'.immediate }

theorem meshPre : Pre (MeshOnly (K := K)) where
  refl _ := rfl
  trans s s1 s2 h g := by
    unfold MeshOnly at *
    rw [g, h]

variable [Field K] [LinearOrder K]

theorem mo_assertM (c : Prop) [Decidable c] : Keeps (MeshOnly (K := K)) (assertM c) :=
  Keeps.of_same meshPre fun _ _ _ h => (assertM_run_ok.1 h).2

theorem mo_need {α : Type} (o : Option α) : Keeps (MeshOnly (K := K)) (need o) :=
  Keeps.of_same meshPre fun _ _ _ h => (need_run_ok.1 h).2

theorem mo_needIdx {α : Type} (o : Option α) : Keeps (MeshOnly (K := K)) (needIdx o) :=
  Keeps.of_same meshPre fun _ _ _ h => (needIdx_run_ok.1 h).2

theorem mo_needNum (o : Option K) : Keeps (MeshOnly (K := K)) (needNum o) :=
  Keeps.of_same meshPre fun _ _ _ h => (needNum_run_ok.1 h).2

theorem mo_lift {α : Type} (x : Except Err α) : Keeps (MeshOnly (K := K)) (lift x) :=
  Keeps.of_same meshPre fun _ _ _ h => (lift_run_ok.1 h).2

theorem mo_assertSome {α : Type} (o : Option α) : Keeps (MeshOnly (K := K)) (assertSome o) :=
  Keeps.of_same meshPre fun _ _ _ h => (assertSome_run_ok.1 h).2

theorem mo_getV (v : VId) : Keeps (MeshOnly (K := K)) (getV v) :=
  Keeps.of_same meshPre fun _ _ _ h => (getV_run_ok.1 h).2.2

theorem mo_getK (v : VId) : Keeps (MeshOnly (K := K)) (getK v) :=
  Keeps.of_same meshPre fun _ _ _ h => (getK_run_ok.1 h).2.2

theorem mo_getT (t : TId) : Keeps (MeshOnly (K := K)) (getT t) :=
  Keeps.of_same meshPre fun _ _ _ h => (getT_run_ok.1 h).2.2

theorem mo_getN (n : NodeId) : Keeps (MeshOnly (K := K)) (getN n) :=
  Keeps.of_same meshPre fun _ _ _ h => (getN_run_ok.1 h).2.2

theorem mo_getLine (n : LineId) : Keeps (MeshOnly (K := K)) (getLine n) :=
  Keeps.of_same meshPre fun _ _ _ h => (getLine_run_ok.1 h).2

theorem mo_getWfLine (n : WfId) : Keeps (MeshOnly (K := K)) (getWfLine n) :=
  Keeps.of_same meshPre fun _ _ _ h => (getWfLine_run_ok.1 h).2

theorem mo_countVertices : Keeps (MeshOnly (K := K)) countVertices :=
  Keeps.of_same meshPre fun _ _ _ h => (countVertices_run_ok.1 h).2

theorem mo_positionAt (v : VId) (time : K) : Keeps (MeshOnly (K := K)) (positionAt v time) :=
  Keeps.of_same meshPre fun _ _ _ h => (positionAt_run_ok.1 h).2.2

theorem mo_singleSide (l : List (Fin 3)) : Keeps (MeshOnly (K := K)) (singleSide l) := by
  unfold singleSide
  split
  · exact Keeps.pure meshPre _
  · exact Keeps.raise _

theorem mo_tryIntersection [HasSqrt K] (l r : Line2 K) (now : K) :
    Keeps (MeshOnly (K := K)) (tryIntersection l r now) := by
  refine Keeps.of_same meshPre fun s a s' h => ?_
  unfold tryIntersection at h
  split at h <;> simp at h
  · exact h.2
  · exact h.2

theorem mo_triView (t : TId) : Keeps (MeshOnly (K := K)) (triView t) :=
  Keeps.of_same meshPre fun _ _ _ h => (triView_run_ok.1 h).2.2

theorem mo_modifyT (t : TId) (f : KTri K → KTri K) : Keeps (MeshOnly (K := K)) (modifyT t f) := by
  intro s a s' h
  obtain ⟨hv, rfl⟩ := modifyT_run_ok.1 h
  rfl

theorem mo_newEvent (c : EvCore K) (t : TId) : Keeps (MeshOnly (K := K)) (newEvent c t) := by
  intro s a s' h
  obtain ⟨-, rfl⟩ := newEvent_run_ok.1 h
  rfl

/-- the queues are not part of what `MeshOnly` speaks about -/
theorem mesh_queues (s : St K) (q i : List (Event K)) :
    MeshOnly s { s with queue := q, immediate := i } := by
  rfl

theorem mo_queueAdd (e : Event K) : Keeps (MeshOnly (K := K)) (queueAdd e) := by
  intro s a s' h
  unfold queueAdd at h
  split_ifs at h
  simp only [Except.ok.injEq, Prod.mk.injEq, true_and] at h
  subst h; exact mesh_queues s _ _

theorem mo_queueDiscard (e : Event K) : Keeps (MeshOnly (K := K)) (queueDiscard e) := by
  intro s a s' h
  unfold queueDiscard at h
  simp only [Except.ok.injEq, Prod.mk.injEq, true_and] at h
  subst h; exact mesh_queues s _ _

theorem mo_queueDiscardOpt (e : Option (Event K)) :
    Keeps (MeshOnly (K := K)) (queueDiscardOpt e) := by
  intro s a s' h
  unfold queueDiscardOpt at h
  split at h
  · exact mo_queueDiscard _ _ _ _ h
  · split_ifs at h
    simp only [Except.ok.injEq, Prod.mk.injEq, true_and] at h
    subst h; exact meshPre.refl _

theorem mo_immediateRemove (e : Event K) : Keeps (MeshOnly (K := K)) (immediateRemove e) := by
  intro s a s' h
  unfold immediateRemove at h
  simp only [Except.ok.injEq, Prod.mk.injEq, true_and] at h
  subst h; exact mesh_queues s _ _

theorem mo_immediateAppend (e : Event K) : Keeps (MeshOnly (K := K)) (immediateAppend e) := by
  intro s a s' h
  unfold immediateAppend at h
  simp only [Except.ok.injEq, Prod.mk.injEq, true_and] at h
  subst h; exact mesh_queues s _ _

theorem mo_takeEvent (now : K) : Keeps (MeshOnly (K := K)) (takeEvent now) := by
  intro s a s' h
  unfold takeEvent at h
  split at h
  · simp only [Except.ok.injEq, Prod.mk.injEq] at h
    obtain ⟨-, h⟩ := h
    subst h; exact mesh_queues s _ _
  · split at h
    · simp only [Except.ok.injEq, Prod.mk.injEq] at h
      obtain ⟨-, h⟩ := h
      subst h; exact mesh_queues s _ _
    · simp only [Except.ok.injEq, Prod.mk.injEq] at h
      obtain ⟨-, h⟩ := h
      subst h; exact meshPre.refl _

/-! ### the functions -/

/-- leaves of the proof search of `mesh_only` -/
syntax "mesh_leaf" : tactic

macro_rules | `(tactic| mesh_leaf) => `(tactic| with_reducible exact mo_assertM _)
macro_rules | `(tactic| mesh_leaf) => `(tactic| with_reducible exact mo_need _)
macro_rules | `(tactic| mesh_leaf) => `(tactic| with_reducible exact mo_needIdx _)
macro_rules | `(tactic| mesh_leaf) => `(tactic| with_reducible exact mo_needNum _)
macro_rules | `(tactic| mesh_leaf) => `(tactic| with_reducible exact mo_lift _)
macro_rules | `(tactic| mesh_leaf) => `(tactic| with_reducible exact mo_assertSome _)
macro_rules | `(tactic| mesh_leaf) => `(tactic| with_reducible exact mo_getV _)
macro_rules | `(tactic| mesh_leaf) => `(tactic| with_reducible exact mo_getK _)
macro_rules | `(tactic| mesh_leaf) => `(tactic| with_reducible exact mo_getT _)
macro_rules | `(tactic| mesh_leaf) => `(tactic| with_reducible exact mo_getN _)
macro_rules | `(tactic| mesh_leaf) => `(tactic| with_reducible exact mo_getLine _)
macro_rules | `(tactic| mesh_leaf) => `(tactic| with_reducible exact mo_getWfLine _)
macro_rules | `(tactic| mesh_leaf) => `(tactic| with_reducible exact mo_countVertices)
macro_rules | `(tactic| mesh_leaf) => `(tactic| with_reducible exact mo_positionAt _ _)
macro_rules | `(tactic| mesh_leaf) => `(tactic| with_reducible exact mo_singleSide _)
macro_rules | `(tactic| mesh_leaf) => `(tactic| with_reducible exact mo_tryIntersection _ _ _)
macro_rules | `(tactic| mesh_leaf) => `(tactic| with_reducible exact mo_triView _)
macro_rules | `(tactic| mesh_leaf) => `(tactic| with_reducible exact mo_newEvent _ _)
macro_rules | `(tactic| mesh_leaf) => `(tactic| with_reducible exact mo_queueAdd _)
macro_rules | `(tactic| mesh_leaf) => `(tactic| with_reducible exact mo_queueDiscard _)
macro_rules | `(tactic| mesh_leaf) => `(tactic| with_reducible exact mo_queueDiscardOpt _)
macro_rules | `(tactic| mesh_leaf) => `(tactic| with_reducible exact mo_immediateRemove _)
macro_rules | `(tactic| mesh_leaf) => `(tactic| with_reducible exact mo_immediateAppend _)
macro_rules | `(tactic| mesh_leaf) => `(tactic| with_reducible exact mo_takeEvent _)
macro_rules | `(tactic| mesh_leaf) => `(tactic| with_reducible exact Keeps.pure meshPre _)
macro_rules | `(tactic| mesh_leaf) => `(tactic| with_reducible exact Keeps.raise _)

/-- proof search along the structure of a computation -/
macro "mesh_only" : tactic => `(tactic|
  repeat' first
    | mesh_leaf
    | assumption
    | with_reducible refine Keeps.bind meshPre ?_ fun _ => ?_
    | with_reducible refine Keeps.ite ?_ ?_
    | with_reducible refine Keeps.forEach meshPre (fun _ => ?_) _
    | with_reducible refine Keeps.mapEach meshPre (fun _ => ?_) _
    | split
    | dsimp only)

theorem mo_setEvent (t : TId) (e : Event K) : Keeps (MeshOnly (K := K)) (setEvent t e) :=
  mo_modifyT _ _
macro_rules | `(tactic| mesh_leaf) => `(tactic| with_reducible exact mo_setEvent _ _)

theorem mo_setVertex (t : TId) (i : Fin 3) (v : VId) :
    Keeps (MeshOnly (K := K)) (setVertex t i v) := mo_modifyT _ _
macro_rules | `(tactic| mesh_leaf) => `(tactic| with_reducible exact mo_setVertex _ _ _)

theorem mo_setNeighbour (t : TId) (i : Fin 3) (n : Option TId) :
    Keeps (MeshOnly (K := K)) (setNeighbour t i n) := mo_modifyT _ _
macro_rules | `(tactic| mesh_leaf) => `(tactic| with_reducible exact mo_setNeighbour _ _ _)

theorem mo_stopTriangle (t : TId) (now : K) : Keeps (MeshOnly (K := K)) (stopTriangle t now) :=
  mo_modifyT _ _
macro_rules | `(tactic| mesh_leaf) => `(tactic| with_reducible exact mo_stopTriangle _ _)

theorem mo_setTriangle (t : TId) (vs : Fin 3 → VId) (ns : Fin 3 → Option TId) :
    Keeps (MeshOnly (K := K)) (setTriangle t vs ns) := mo_modifyT _ _
macro_rules | `(tactic| mesh_leaf) => `(tactic| with_reducible exact mo_setTriangle _ _ _)

theorem mo_nodePosition (V : List VId) (now : K) (pos : Option (Pt K)) :
    Keeps (MeshOnly (K := K)) (nodePosition V now pos) := by
  unfold nodePosition
  mesh_only
macro_rules | `(tactic| mesh_leaf) => `(tactic| with_reducible exact mo_nodePosition _ _ _)

theorem mo_assertStoppedAt (now : K) (v : VId) :
    Keeps (MeshOnly (K := K)) (assertStoppedAt now v) := by
  unfold assertStoppedAt
  mesh_only
macro_rules | `(tactic| mesh_leaf) => `(tactic| with_reducible exact mo_assertStoppedAt _ _)

theorem mo_readVertex (v : VId) :
    Keeps (MeshOnly (K := K)) (readVertex v) := by
  unfold readVertex
  mesh_only
macro_rules | `(tactic| mesh_leaf) => `(tactic| with_reducible exact mo_readVertex _)

theorem mo_storeEvent (c : Option (EvCore K)) (t : TId) :
    Keeps (MeshOnly (K := K)) (storeEvent c t) := by
  unfold storeEvent
  mesh_only
macro_rules | `(tactic| mesh_leaf) => `(tactic| with_reducible exact mo_storeEvent _ _)

theorem mo_computeCollapseTime [HasSqrt K] (t : TId) (now : K) (sieve : Sieve) :
    Keeps (MeshOnly (K := K)) (computeCollapseTime t now sieve) := by
  unfold computeCollapseTime
  mesh_only
macro_rules | `(tactic| mesh_leaf) => `(tactic| with_reducible exact mo_computeCollapseTime _ _ _)

theorem mo_discardEvent (e : Option (Event K)) :
    Keeps (MeshOnly (K := K)) (discardEvent e) := by
  unfold discardEvent
  mesh_only
macro_rules | `(tactic| mesh_leaf) => `(tactic| with_reducible exact mo_discardEvent _)

theorem mo_addEvent (e : Option (Event K)) :
    Keeps (MeshOnly (K := K)) (addEvent e) := by
  unfold addEvent
  mesh_only
macro_rules | `(tactic| mesh_leaf) => `(tactic| with_reducible exact mo_addEvent _)

theorem mo_replaceInQueue [HasSqrt K] (t : TId) (now : K) :
    Keeps (MeshOnly (K := K)) (replaceInQueue t now) := by
  unfold replaceInQueue
  mesh_only
macro_rules | `(tactic| mesh_leaf) => `(tactic| with_reducible exact mo_replaceInQueue _ _)

theorem mo_renewEvent [HasSqrt K] (b : Bool) (t : TId) (now : K) :
    Keeps (MeshOnly (K := K)) (renewEvent b t now) := by
  unfold renewEvent
  mesh_only
macro_rules | `(tactic| mesh_leaf) => `(tactic| with_reducible exact mo_renewEvent _ _ _)

theorem mo_replaceLoop [HasSqrt K] (v newv : VId) (now : K) (dir : Dir) (fuel : ℕ)
    (t : Option TId) (fan : List TId) :
    Keeps (MeshOnly (K := K)) (replaceLoop v newv now dir fuel t fan) := by
  induction fuel generalizing t fan with
  | zero =>
    cases t with
    | none => exact Keeps.pure meshPre _
    | some t => intro s a s' h; unfold replaceLoop at h; simp at h
  | succ fuel ih =>
    cases t with
    | none => exact Keeps.pure meshPre _
    | some t =>
      unfold replaceLoop
      refine Keeps.bind meshPre (mo_getT _) fun _ => Keeps.bind meshPre (mo_needIdx _) fun _ =>
        Keeps.bind meshPre (mo_setVertex _ _ _) fun _ => Keeps.bind meshPre (mo_getK _) fun _ =>
        Keeps.bind meshPre (mo_renewEvent _ _ _) fun _ =>
        Keeps.bind meshPre (mo_getT _) fun _ => ih _ _

theorem mo_replaceKvertex [HasSqrt K] (t : TId) (v newv : VId) (now : K) (dir : Dir) :
    Keeps (MeshOnly (K := K)) (replaceKvertex t v newv now dir) := by
  intro s a s' h
  exact mo_replaceLoop _ _ _ _ _ _ _ _ _ _ h
macro_rules | `(tactic| mesh_leaf) => `(tactic| with_reducible exact mo_replaceKvertex _ _ _ _ _)

theorem mo_immediateRemoveOpt (e : Option (Event K)) :
    Keeps (MeshOnly (K := K)) (immediateRemoveOpt e) := by
  unfold immediateRemoveOpt
  mesh_only
macro_rules | `(tactic| mesh_leaf) => `(tactic| with_reducible exact mo_immediateRemoveOpt _)

theorem mo_immediateEvent [HasSqrt K] (t : TId) (now : K) :
    Keeps (MeshOnly (K := K)) (immediateEvent t now) := by
  unfold immediateEvent
  mesh_only
macro_rules | `(tactic| mesh_leaf) => `(tactic| with_reducible exact mo_immediateEvent _ _)

theorem mo_scheduleImmediately [HasSqrt K] (t : TId) (now : K) :
    Keeps (MeshOnly (K := K)) (scheduleImmediately t now) := by
  unfold scheduleImmediately
  mesh_only
macro_rules | `(tactic| mesh_leaf) => `(tactic| with_reducible exact mo_scheduleImmediately _ _)

theorem mo_flipSide (n : Option TId) (v : VId) : Keeps (MeshOnly (K := K)) (flipSide n v) := by
  unfold flipSide
  mesh_only
macro_rules | `(tactic| mesh_leaf) => `(tactic| with_reducible exact mo_flipSide _ _)

theorem mo_flipLink (n : Option TId) (i : Option (Fin 3)) (t : TId) :
    Keeps (MeshOnly (K := K)) (flipLink n i t) := by
  unfold flipLink
  mesh_only
macro_rules | `(tactic| mesh_leaf) => `(tactic| with_reducible exact mo_flipLink _ _ _)

theorem mo_flip (t0 : TId) (s0 : Fin 3) (t1 : TId) (s1 : Fin 3) :
    Keeps (MeshOnly (K := K)) (flip t0 s0 t1 s1) := by
  unfold flip
  mesh_only
macro_rules | `(tactic| mesh_leaf) => `(tactic| with_reducible exact mo_flip _ _ _ _)

theorem mo_handleFlip [HasSqrt K] (evt : Event K) : Keeps (MeshOnly (K := K)) (handleFlip evt) := by
  unfold handleFlip
  mesh_only
macro_rules | `(tactic| mesh_leaf) => `(tactic| with_reducible exact mo_handleFlip _)

theorem mo_legDist [HasSqrt K] (t : TId) (leg : Fin 3) (now : K) :
    Keeps (MeshOnly (K := K)) (legDist t leg now) := by
  unfold legDist
  mesh_only
macro_rules | `(tactic| mesh_leaf) => `(tactic| with_reducible exact mo_legDist _ _ _)

theorem mo_vertexIndex (t : TId) (v : VId) : Keeps (MeshOnly (K := K)) (vertexIndex t v) := by
  unfold vertexIndex
  mesh_only
macro_rules | `(tactic| mesh_leaf) => `(tactic| with_reducible exact mo_vertexIndex _ _)

theorem mo_relink (n t : TId) (x : Option TId) : Keeps (MeshOnly (K := K)) (relink n t x) := by
  unfold relink
  mesh_only
macro_rules | `(tactic| mesh_leaf) => `(tactic| with_reducible exact mo_relink _ _ _)

theorem mo_detachAndSchedule [HasSqrt K] (n : Option TId) (t : TId) (now : K) :
    Keeps (MeshOnly (K := K)) (detachAndSchedule n t now) := by
  unfold detachAndSchedule
  mesh_only
macro_rules | `(tactic| mesh_leaf) => `(tactic| with_reducible exact mo_detachAndSchedule _ _ _)

theorem mo_assertVertexStopped (v : VId) :
    Keeps (MeshOnly (K := K)) (assertVertexStopped v) := by
  unfold assertVertexStopped
  mesh_only
macro_rules | `(tactic| mesh_leaf) => `(tactic| with_reducible exact mo_assertVertexStopped _)

theorem mo_velocityOf (v : VId) : Keeps (MeshOnly (K := K)) (velocityOf v) := by
  unfold velocityOf
  mesh_only
macro_rules | `(tactic| mesh_leaf) => `(tactic| with_reducible exact mo_velocityOf _)

theorem mo_replaceSide [HasSqrt K] (t : TId) (now : K) (n other : Option TId) (v kv : VId)
    (dir : Dir) : Keeps (MeshOnly (K := K)) (shorterLeg.replaceSide t now n other v kv dir) := by
  unfold shorterLeg.replaceSide
  mesh_only
macro_rules | `(tactic| mesh_leaf) => `(tactic| with_reducible exact mo_replaceSide _ _ _ _ _ _ _)

theorem mo_evenTriangle [HasSqrt K] (pivot : VId) (now : K) (t : TId) :
    Keeps (MeshOnly (K := K)) (evenTriangle pivot now t) := by
  unfold evenTriangle
  mesh_only
macro_rules | `(tactic| mesh_leaf) => `(tactic| with_reducible exact mo_evenTriangle _ _ _)

theorem mo_hasInfFast (t : TId) : Keeps (MeshOnly (K := K)) (hasInfFast t) := by
  unfold hasInfFast
  mesh_only
macro_rules | `(tactic| mesh_leaf) => `(tactic| with_reducible exact mo_hasInfFast _)

theorem mo_assertStopped (t : TId) : Keeps (MeshOnly (K := K)) (assertStopped t) := by
  unfold assertStopped
  mesh_only
macro_rules | `(tactic| mesh_leaf) => `(tactic| with_reducible exact mo_assertStopped _)

theorem mo_nextFan (kv : VId) (a b : List TId) : Keeps (MeshOnly (K := K)) (nextFan kv a b) := by
  unfold nextFan
  mesh_only
macro_rules | `(tactic| mesh_leaf) => `(tactic| with_reducible exact mo_nextFan _ _ _)

theorem mo_evalPosition (v : Option VId) (now : K) :
    Keeps (MeshOnly (K := K)) (evalPosition v now) := by
  unfold evalPosition
  mesh_only
macro_rules | `(tactic| mesh_leaf) => `(tactic| with_reducible exact mo_evalPosition _ _)

theorem mo_checkLinks (v : VId) : Keeps (MeshOnly (K := K)) (checkLinks v) := by
  unfold checkLinks
  mesh_only
macro_rules | `(tactic| mesh_leaf) => `(tactic| with_reducible exact mo_checkLinks _)

theorem mo_scheduleTiny [HasSqrt K] (fan : List TId) (kv : VId) (dir : Dir) (now : K) :
    Keeps (MeshOnly (K := K)) (scheduleTiny fan kv dir now) := by
  unfold scheduleTiny
  mesh_only
macro_rules | `(tactic| mesh_leaf) => `(tactic| with_reducible exact mo_scheduleTiny _ _ _ _)

theorem mo_edgeSide [HasSqrt K] (n : Option TId) (t : TId) (o : Option TId) (v kv : VId) (now : K)
    (dir : Dir) : Keeps (MeshOnly (K := K)) (edgeSide n t o v kv now dir) := by
  unfold edgeSide
  mesh_only
macro_rules | `(tactic| mesh_leaf) => `(tactic| with_reducible exact mo_edgeSide _ _ _ _ _ _ _)

theorem mo_threeSidesNeighbour [HasSqrt K] (t : TId) (now : K) (i : Fin 3) :
    Keeps (MeshOnly (K := K)) (threeSidesNeighbour t now i) := by
  unfold threeSidesNeighbour
  mesh_only
macro_rules | `(tactic| mesh_leaf) => `(tactic| with_reducible exact mo_threeSidesNeighbour _ _ _)

theorem mo_splitChecks [HasSqrt K] (v v1 v2 : VId) (now : K) :
    Keeps (MeshOnly (K := K)) (splitChecks v v1 v2 now) := by
  unfold splitChecks
  mesh_only
macro_rules | `(tactic| mesh_leaf) => `(tactic| with_reducible exact mo_splitChecks _ _ _ _)

theorem mo_splitSide [HasSqrt K] (t : TId) (i : Fin 3) (v newv : VId) (now : K) (dir : Dir) :
    Keeps (MeshOnly (K := K)) (splitSide t i v newv now dir) := by
  unfold splitSide
  mesh_only
macro_rules | `(tactic| mesh_leaf) => `(tactic| with_reducible exact mo_splitSide _ _ _ _ _ _)

theorem mo_checkBisectorDirection (t : TId) (i : Fin 3) (now : K) :
    Keeps (MeshOnly (K := K)) (checkBisectorDirection t i now) := by
  unfold checkBisectorDirection
  mesh_only
macro_rules | `(tactic| mesh_leaf) => `(tactic| with_reducible exact mo_checkBisectorDirection _ _ _)

theorem mo_checkBisectors (ts : List TId) (now : K) :
    Keeps (MeshOnly (K := K)) (checkBisectors ts now) := by
  unfold checkBisectors
  mesh_only
macro_rules | `(tactic| mesh_leaf) => `(tactic| with_reducible exact mo_checkBisectors _ _)

theorem mo_checkOrientation (ts : List TId) (now : K) :
    Keeps (MeshOnly (K := K)) (checkOrientation ts now) := by
  unfold checkOrientation
  mesh_only
macro_rules | `(tactic| mesh_leaf) => `(tactic| with_reducible exact mo_checkOrientation _ _)

theorem mo_leftOver (t : TId) : Keeps (MeshOnly (K := K)) (leftOver t) := by
  unfold leftOver
  mesh_only
macro_rules | `(tactic| mesh_leaf) => `(tactic| with_reducible exact mo_leftOver _)

theorem mo_checkAllStopped (ts : List TId) : Keeps (MeshOnly (K := K)) (checkAllStopped ts) := by
  unfold checkAllStopped
  mesh_only
macro_rules | `(tactic| mesh_leaf) => `(tactic| with_reducible exact mo_checkAllStopped _)

theorem mo_skelTriangles : Keeps (MeshOnly (K := K)) skelTriangles :=
  Keeps.of_same meshPre fun s a s' h => by
    unfold skelTriangles at h
    simp only [Except.ok.injEq, Prod.mk.injEq] at h
    exact h.2
macro_rules | `(tactic| mesh_leaf) => `(tactic| with_reducible exact mo_skelTriangles)

theorem mo_clearImmediate : Keeps (MeshOnly (K := K)) clearImmediate := fun s a s' h => by
  unfold clearImmediate at h
  simp only [Except.ok.injEq, Prod.mk.injEq, true_and] at h
  subst h; exact mesh_queues s _ _
macro_rules | `(tactic| mesh_leaf) => `(tactic| with_reducible exact mo_clearImmediate)

theorem mo_clearQueue : Keeps (MeshOnly (K := K)) clearQueue := fun s a s' h => by
  unfold clearQueue at h
  simp only [Except.ok.injEq, Prod.mk.injEq, true_and] at h
  subst h; exact mesh_queues s _ _
macro_rules | `(tactic| mesh_leaf) => `(tactic| with_reducible exact mo_clearQueue)

theorem mo_initEvent [HasSqrt K] (t : TId) : Keeps (MeshOnly (K := K)) (initEvent t) := by
  unfold initEvent
  mesh_only
macro_rules | `(tactic| mesh_leaf) => `(tactic| with_reducible exact mo_initEvent _)

theorem mo_initEventList [HasSqrt K] : Keeps (MeshOnly (K := K)) initEventList := by
  unfold initEventList
  mesh_only

end Grassfire
