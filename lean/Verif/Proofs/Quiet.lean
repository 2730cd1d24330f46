/-
Everything but the creation of vertices leaves the vertices as they are, apart from stopping them.
-/
import Verif.Proofs.Growth

set_option linter.unusedSectionVars false

namespace Grassfire

variable {K : Type}

/-- at most `stopsAt` and `stopNode` differ -/
def Restopped (a b : KVertex K) : Prop := b = { a with stopsAt := b.stopsAt, stopNode := b.stopNode }

theorem Restopped.refl (a : KVertex K) : Restopped a a := rfl

theorem Restopped.trans {a b c : KVertex K} (h : Restopped a b) (g : Restopped b c) : Restopped a c := by
  unfold Restopped at *
  rw [g, h]

/-- the same for either kind of vertex -/
def RestoppedV : Vertex K → Vertex K → Prop
  | .kin a, .kin b => Restopped a b
  | .inf a, .inf b => a = b
  | _, _ => False

theorem RestoppedV.refl (a : Vertex K) : RestoppedV a a := by
  cases a with
  | kin a => exact Restopped.refl a
  | inf a => exact rfl

theorem RestoppedV.trans {a b c : Vertex K} (h : RestoppedV a b) (g : RestoppedV b c) :
    RestoppedV a c := by
  cases a with
  | kin a =>
    cases b with
    | inf b => exact h.elim
    | kin b =>
      cases c with
      | inf c => exact g.elim
      | kin c => exact Restopped.trans h g
  | inf a =>
    cases b with
    | kin b => exact h.elim
    | inf b =>
      cases c with
      | kin c => exact g.elim
      | inf c => exact Eq.trans h g

/-- no vertex is created, linked or moved -/
structure Quiet (s s' : St K) : Prop where
  nV : s'.nV = s.nV
  line : s'.line = s.line
  wfLine : s'.wfLine = s.wfLine
  skVertices : s'.skVertices = s.skVertices
  vert : ∀ v, RestoppedV (s.vert v) (s'.vert v)

theorem quietPre : Pre (Quiet (K := K)) where
  refl _ := ⟨rfl, rfl, rfl, rfl, fun _ => RestoppedV.refl _⟩
  trans _ _ _ h g := ⟨g.nV.trans h.nV, g.line.trans h.line, g.wfLine.trans h.wfLine,
    g.skVertices.trans h.skVertices, fun v => (h.vert v).trans (g.vert v)⟩

variable [Field K] [LinearOrder K]

theorem q_assertM (c : Prop) [Decidable c] : Keeps (Quiet (K := K)) (assertM c) :=
  Keeps.of_same quietPre fun _ _ _ h => (assertM_run_ok.1 h).2

theorem q_need {α : Type} (o : Option α) : Keeps (Quiet (K := K)) (need o) :=
  Keeps.of_same quietPre fun _ _ _ h => (need_run_ok.1 h).2

theorem q_needIdx {α : Type} (o : Option α) : Keeps (Quiet (K := K)) (needIdx o) :=
  Keeps.of_same quietPre fun _ _ _ h => (needIdx_run_ok.1 h).2

theorem q_needNum (o : Option K) : Keeps (Quiet (K := K)) (needNum o) :=
  Keeps.of_same quietPre fun _ _ _ h => (needNum_run_ok.1 h).2

theorem q_lift {α : Type} (x : Except Err α) : Keeps (Quiet (K := K)) (lift x) :=
  Keeps.of_same quietPre fun _ _ _ h => (lift_run_ok.1 h).2

theorem q_assertSome {α : Type} (o : Option α) : Keeps (Quiet (K := K)) (assertSome o) :=
  Keeps.of_same quietPre fun _ _ _ h => (assertSome_run_ok.1 h).2

theorem q_getV (v : VId) : Keeps (Quiet (K := K)) (getV v) :=
  Keeps.of_same quietPre fun _ _ _ h => (getV_run_ok.1 h).2.2

theorem q_getK (v : VId) : Keeps (Quiet (K := K)) (getK v) :=
  Keeps.of_same quietPre fun _ _ _ h => (getK_run_ok.1 h).2.2

theorem q_getT (t : TId) : Keeps (Quiet (K := K)) (getT t) :=
  Keeps.of_same quietPre fun _ _ _ h => (getT_run_ok.1 h).2.2

theorem q_getN (n : NodeId) : Keeps (Quiet (K := K)) (getN n) :=
  Keeps.of_same quietPre fun _ _ _ h => (getN_run_ok.1 h).2.2

theorem q_getLine (n : LineId) : Keeps (Quiet (K := K)) (getLine n) :=
  Keeps.of_same quietPre fun _ _ _ h => (getLine_run_ok.1 h).2

theorem q_getWfLine (n : WfId) : Keeps (Quiet (K := K)) (getWfLine n) :=
  Keeps.of_same quietPre fun _ _ _ h => (getWfLine_run_ok.1 h).2

theorem q_countVertices : Keeps (Quiet (K := K)) countVertices :=
  Keeps.of_same quietPre fun _ _ _ h => (countVertices_run_ok.1 h).2

theorem q_positionAt (v : VId) (time : K) : Keeps (Quiet (K := K)) (positionAt v time) :=
  Keeps.of_same quietPre fun _ _ _ h => (positionAt_run_ok.1 h).2.2

theorem q_singleSide (l : List (Fin 3)) : Keeps (Quiet (K := K)) (singleSide l) := by
  unfold singleSide
  split
  · exact Keeps.pure quietPre _
  · exact Keeps.raise _

theorem q_tryIntersection [HasSqrt K] (l r : Line2 K) (now : K) :
    Keeps (Quiet (K := K)) (tryIntersection l r now) := by
  refine Keeps.of_same quietPre fun s a s' h => ?_
  unfold tryIntersection at h
  split at h <;> simp at h
  · exact h.2
  · exact h.2

theorem q_triView (t : TId) : Keeps (Quiet (K := K)) (triView t) :=
  Keeps.of_same quietPre fun _ _ _ h => (triView_run_ok.1 h).2.2

theorem q_modifyK (v : VId) (f : KVertex K → KVertex K) (hf : ∀ kv, Restopped kv (f kv)) :
    Keeps (Quiet (K := K)) (modifyK v f) := by
  intro s a s' h
  obtain ⟨hv, kv, hk, rfl⟩ := modifyK_run_ok.1 h
  have r := quietPre.refl s
  refine { r with vert := fun w => ?_ }
  show RestoppedV (s.vert w) (Function.update s.vert v (.kin (f kv)) w)
  by_cases e : w = v
  · subst e; rw [Function.update_self, hk]; exact hf kv
  · rw [Function.update_of_ne e]; exact RestoppedV.refl _

theorem q_modifyT (t : TId) (f : KTri K → KTri K) : Keeps (Quiet (K := K)) (modifyT t f) := by
  intro s a s' h
  obtain ⟨hv, rfl⟩ := modifyT_run_ok.1 h
  have r := quietPre.refl s
  exact { r with }

theorem q_newNode (n : Node K) : Keeps (Quiet (K := K)) (newNode n) := by
  intro s a s' h
  obtain ⟨-, rfl⟩ := newNode_run_ok.1 h
  have r := quietPre.refl s
  exact { r with }

theorem q_newEvent (c : EvCore K) (t : TId) : Keeps (Quiet (K := K)) (newEvent c t) := by
  intro s a s' h
  obtain ⟨-, rfl⟩ := newEvent_run_ok.1 h
  have r := quietPre.refl s
  exact { r with }

theorem q_appendNode (n : NodeId) : Keeps (Quiet (K := K)) (appendNode n) := by
  intro s a s' h
  obtain rfl := appendNode_run_ok.1 h
  have r := quietPre.refl s
  exact { r with }

/-- the queues are not part of what `Quiet` speaks about -/
theorem quiet_queues (s : St K) (q i : List (Event K)) :
    Quiet s { s with queue := q, immediate := i } := by
  have r := quietPre.refl s
  exact { r with }

theorem q_queueAdd (e : Event K) : Keeps (Quiet (K := K)) (queueAdd e) := by
  intro s a s' h
  unfold queueAdd at h
  split_ifs at h
  simp only [Except.ok.injEq, Prod.mk.injEq, true_and] at h
  subst h; exact quiet_queues s _ _

theorem q_queueDiscard (e : Event K) : Keeps (Quiet (K := K)) (queueDiscard e) := by
  intro s a s' h
  unfold queueDiscard at h
  simp only [Except.ok.injEq, Prod.mk.injEq, true_and] at h
  subst h; exact quiet_queues s _ _

theorem q_queueDiscardOpt (e : Option (Event K)) :
    Keeps (Quiet (K := K)) (queueDiscardOpt e) := by
  intro s a s' h
  unfold queueDiscardOpt at h
  split at h
  · exact q_queueDiscard _ _ _ _ h
  · split_ifs at h
    simp only [Except.ok.injEq, Prod.mk.injEq, true_and] at h
    subst h; exact quietPre.refl _

theorem q_immediateRemove (e : Event K) : Keeps (Quiet (K := K)) (immediateRemove e) := by
  intro s a s' h
  unfold immediateRemove at h
  simp only [Except.ok.injEq, Prod.mk.injEq, true_and] at h
  subst h; exact quiet_queues s _ _

theorem q_immediateAppend (e : Event K) : Keeps (Quiet (K := K)) (immediateAppend e) := by
  intro s a s' h
  unfold immediateAppend at h
  simp only [Except.ok.injEq, Prod.mk.injEq, true_and] at h
  subst h; exact quiet_queues s _ _

theorem q_takeEvent (now : K) : Keeps (Quiet (K := K)) (takeEvent now) := by
  intro s a s' h
  unfold takeEvent at h
  split at h
  · simp only [Except.ok.injEq, Prod.mk.injEq] at h
    obtain ⟨-, h⟩ := h
    subst h; exact quiet_queues s _ _
  · split at h
    · simp only [Except.ok.injEq, Prod.mk.injEq] at h
      obtain ⟨-, h⟩ := h
      subst h; exact quiet_queues s _ _
    · simp only [Except.ok.injEq, Prod.mk.injEq] at h
      obtain ⟨-, h⟩ := h
      subst h; exact quietPre.refl _

/-! ### the functions -/

/-- leaves of the proof search of `quiet` -/
syntax "quiet_leaf" : tactic

macro_rules | `(tactic| quiet_leaf) => `(tactic| with_reducible exact q_assertM _)
macro_rules | `(tactic| quiet_leaf) => `(tactic| with_reducible exact q_need _)
macro_rules | `(tactic| quiet_leaf) => `(tactic| with_reducible exact q_needIdx _)
macro_rules | `(tactic| quiet_leaf) => `(tactic| with_reducible exact q_needNum _)
macro_rules | `(tactic| quiet_leaf) => `(tactic| with_reducible exact q_lift _)
macro_rules | `(tactic| quiet_leaf) => `(tactic| with_reducible exact q_assertSome _)
macro_rules | `(tactic| quiet_leaf) => `(tactic| with_reducible exact q_getV _)
macro_rules | `(tactic| quiet_leaf) => `(tactic| with_reducible exact q_getK _)
macro_rules | `(tactic| quiet_leaf) => `(tactic| with_reducible exact q_getT _)
macro_rules | `(tactic| quiet_leaf) => `(tactic| with_reducible exact q_getN _)
macro_rules | `(tactic| quiet_leaf) => `(tactic| with_reducible exact q_getLine _)
macro_rules | `(tactic| quiet_leaf) => `(tactic| with_reducible exact q_getWfLine _)
macro_rules | `(tactic| quiet_leaf) => `(tactic| with_reducible exact q_countVertices)
macro_rules | `(tactic| quiet_leaf) => `(tactic| with_reducible exact q_positionAt _ _)
macro_rules | `(tactic| quiet_leaf) => `(tactic| with_reducible exact q_singleSide _)
macro_rules | `(tactic| quiet_leaf) => `(tactic| with_reducible exact q_tryIntersection _ _ _)
macro_rules | `(tactic| quiet_leaf) => `(tactic| with_reducible exact q_triView _)
macro_rules | `(tactic| quiet_leaf) => `(tactic| with_reducible exact q_newNode _)
macro_rules | `(tactic| quiet_leaf) => `(tactic| with_reducible exact q_newEvent _ _)
macro_rules | `(tactic| quiet_leaf) => `(tactic| with_reducible exact q_appendNode _)
macro_rules | `(tactic| quiet_leaf) => `(tactic| with_reducible exact q_queueAdd _)
macro_rules | `(tactic| quiet_leaf) => `(tactic| with_reducible exact q_queueDiscard _)
macro_rules | `(tactic| quiet_leaf) => `(tactic| with_reducible exact q_queueDiscardOpt _)
macro_rules | `(tactic| quiet_leaf) => `(tactic| with_reducible exact q_immediateRemove _)
macro_rules | `(tactic| quiet_leaf) => `(tactic| with_reducible exact q_immediateAppend _)
macro_rules | `(tactic| quiet_leaf) => `(tactic| with_reducible exact q_takeEvent _)
macro_rules | `(tactic| quiet_leaf) => `(tactic| with_reducible exact Keeps.pure quietPre _)
macro_rules | `(tactic| quiet_leaf) => `(tactic| with_reducible exact Keeps.raise _)

/-- proof search along the structure of a computation -/
macro "quiet" : tactic => `(tactic|
  repeat' first
    | quiet_leaf
    | assumption
    | with_reducible refine Keeps.bind quietPre ?_ fun _ => ?_
    | with_reducible refine Keeps.ite ?_ ?_
    | with_reducible refine Keeps.forEach quietPre (fun _ => ?_) _
    | with_reducible refine Keeps.mapEach quietPre (fun _ => ?_) _
    | split
    | dsimp only)

theorem q_setEvent (t : TId) (e : Event K) : Keeps (Quiet (K := K)) (setEvent t e) :=
  q_modifyT _ _
macro_rules | `(tactic| quiet_leaf) => `(tactic| with_reducible exact q_setEvent _ _)

theorem q_setVertex (t : TId) (i : Fin 3) (v : VId) :
    Keeps (Quiet (K := K)) (setVertex t i v) := q_modifyT _ _
macro_rules | `(tactic| quiet_leaf) => `(tactic| with_reducible exact q_setVertex _ _ _)

theorem q_setNeighbour (t : TId) (i : Fin 3) (n : Option TId) :
    Keeps (Quiet (K := K)) (setNeighbour t i n) := q_modifyT _ _
macro_rules | `(tactic| quiet_leaf) => `(tactic| with_reducible exact q_setNeighbour _ _ _)

theorem q_stopTriangle (t : TId) (now : K) : Keeps (Quiet (K := K)) (stopTriangle t now) :=
  q_modifyT _ _
macro_rules | `(tactic| quiet_leaf) => `(tactic| with_reducible exact q_stopTriangle _ _)

theorem q_setTriangle (t : TId) (vs : Fin 3 → VId) (ns : Fin 3 → Option TId) :
    Keeps (Quiet (K := K)) (setTriangle t vs ns) := q_modifyT _ _
macro_rules | `(tactic| quiet_leaf) => `(tactic| with_reducible exact q_setTriangle _ _ _)

theorem q_stopAt (v : VId) (n : NodeId) (now : K) : Keeps (Quiet (K := K)) (stopAt v n now) :=
  q_modifyK _ _ fun _ => rfl
macro_rules | `(tactic| quiet_leaf) => `(tactic| with_reducible exact q_stopAt _ _ _)

theorem q_stopScan (now : K) (V : List VId) (acc : Option NodeId) :
    Keeps (Quiet (K := K)) (stopScan now V acc) := by
  induction V generalizing acc with
  | nil => exact Keeps.pure quietPre _
  | cons v vs ih =>
    unfold stopScan
    refine Keeps.bind quietPre (q_getK _) fun _ => Keeps.bind quietPre (q_needNum _) fun _ => ?_
    refine Keeps.ite (ih _) (Keeps.ite (ih _) (Keeps.bind quietPre ?_ fun _ => ih _))
    exact q_modifyK _ _ fun _ => rfl
macro_rules | `(tactic| quiet_leaf) => `(tactic| with_reducible exact q_stopScan _ _ _)

theorem q_setStopNode (v : VId) (n : NodeId) :
    Keeps (Quiet (K := K)) (modifyK v fun kv => { kv with stopNode := some n }) :=
  q_modifyK _ _ fun _ => rfl

theorem q_stopAtExisting (V : List VId) (now : K) (n : NodeId) :
    Keeps (Quiet (K := K)) (stopAtExisting V now n) :=
  Keeps.bind quietPre (Keeps.forEach quietPre (fun v => q_stopAt v n now) _)
    fun _ => Keeps.pure quietPre _
macro_rules | `(tactic| quiet_leaf) => `(tactic| with_reducible exact q_stopAtExisting _ _ _)

theorem q_nodePosition (V : List VId) (now : K) (pos : Option (Pt K)) :
    Keeps (Quiet (K := K)) (nodePosition V now pos) := by
  unfold nodePosition
  quiet
macro_rules | `(tactic| quiet_leaf) => `(tactic| with_reducible exact q_nodePosition _ _ _)

theorem q_stopAtNew (V : List VId) (step : ℤ) (now : K) (pos : Option (Pt K)) :
    Keeps (Quiet (K := K)) (stopAtNew V step now pos) :=
  Keeps.bind quietPre (q_nodePosition _ _ _) fun _ => Keeps.bind quietPre (q_newNode _) fun _ =>
    Keeps.bind quietPre (Keeps.forEach quietPre (fun _ => q_setStopNode _ _) _)
    fun _ => Keeps.pure quietPre _
macro_rules | `(tactic| quiet_leaf) => `(tactic| with_reducible exact q_stopAtNew _ _ _ _)

theorem q_stopAtNode (V : List VId) (step : ℤ) (now : K) (pos : Option (Pt K)) (n : Option NodeId) :
    Keeps (Quiet (K := K)) (stopAtNode V step now pos n) := by
  unfold stopAtNode
  quiet
macro_rules | `(tactic| quiet_leaf) => `(tactic| with_reducible exact q_stopAtNode _ _ _ _ _)

theorem q_assertStoppedAt (now : K) (v : VId) :
    Keeps (Quiet (K := K)) (assertStoppedAt now v) := by
  unfold assertStoppedAt
  quiet
macro_rules | `(tactic| quiet_leaf) => `(tactic| with_reducible exact q_assertStoppedAt _ _)

theorem q_readVertex (v : VId) :
    Keeps (Quiet (K := K)) (readVertex v) := by
  unfold readVertex
  quiet
macro_rules | `(tactic| quiet_leaf) => `(tactic| with_reducible exact q_readVertex _)

theorem q_stopKvertices (V : List VId) (step : ℤ) (now : K) (pos : Option (Pt K)) :
    Keeps (Quiet (K := K)) (stopKvertices V step now pos) := by
  unfold stopKvertices
  quiet
macro_rules | `(tactic| quiet_leaf) => `(tactic| with_reducible exact q_stopKvertices _ _ _ _)

theorem q_recordNode (new : Bool) (n : NodeId) :
    Keeps (Quiet (K := K)) (recordNode new n) := by
  unfold recordNode
  quiet
macro_rules | `(tactic| quiet_leaf) => `(tactic| with_reducible exact q_recordNode _ _)

theorem q_stopAndRecord (V : List VId) (step : ℤ) (now : K) (pos : Option (Pt K)) :
    Keeps (Quiet (K := K)) (stopAndRecord V step now pos) := by
  unfold stopAndRecord
  quiet
macro_rules | `(tactic| quiet_leaf) => `(tactic| with_reducible exact q_stopAndRecord _ _ _ _)

theorem q_storeEvent (c : Option (EvCore K)) (t : TId) :
    Keeps (Quiet (K := K)) (storeEvent c t) := by
  unfold storeEvent
  quiet
macro_rules | `(tactic| quiet_leaf) => `(tactic| with_reducible exact q_storeEvent _ _)

theorem q_computeCollapseTime [HasSqrt K] (t : TId) (now : K) (sieve : Sieve) :
    Keeps (Quiet (K := K)) (computeCollapseTime t now sieve) := by
  unfold computeCollapseTime
  quiet
macro_rules | `(tactic| quiet_leaf) => `(tactic| with_reducible exact q_computeCollapseTime _ _ _)

theorem q_discardEvent (e : Option (Event K)) :
    Keeps (Quiet (K := K)) (discardEvent e) := by
  unfold discardEvent
  quiet
macro_rules | `(tactic| quiet_leaf) => `(tactic| with_reducible exact q_discardEvent _)

theorem q_addEvent (e : Option (Event K)) :
    Keeps (Quiet (K := K)) (addEvent e) := by
  unfold addEvent
  quiet
macro_rules | `(tactic| quiet_leaf) => `(tactic| with_reducible exact q_addEvent _)

theorem q_replaceInQueue [HasSqrt K] (t : TId) (now : K) :
    Keeps (Quiet (K := K)) (replaceInQueue t now) := by
  unfold replaceInQueue
  quiet
macro_rules | `(tactic| quiet_leaf) => `(tactic| with_reducible exact q_replaceInQueue _ _)

theorem q_renewEvent [HasSqrt K] (b : Bool) (t : TId) (now : K) :
    Keeps (Quiet (K := K)) (renewEvent b t now) := by
  unfold renewEvent
  quiet
macro_rules | `(tactic| quiet_leaf) => `(tactic| with_reducible exact q_renewEvent _ _ _)

theorem q_replaceLoop [HasSqrt K] (v newv : VId) (now : K) (dir : Dir) (fuel : ℕ)
    (t : Option TId) (fan : List TId) :
    Keeps (Quiet (K := K)) (replaceLoop v newv now dir fuel t fan) := by
  induction fuel generalizing t fan with
  | zero =>
    cases t with
    | none => exact Keeps.pure quietPre _
    | some t => intro s a s' h; unfold replaceLoop at h; simp at h
  | succ fuel ih =>
    cases t with
    | none => exact Keeps.pure quietPre _
    | some t =>
      unfold replaceLoop
      refine Keeps.bind quietPre (q_getT _) fun _ => Keeps.bind quietPre (q_needIdx _) fun _ =>
        Keeps.bind quietPre (q_setVertex _ _ _) fun _ => Keeps.bind quietPre (q_getK _) fun _ =>
        Keeps.bind quietPre (q_renewEvent _ _ _) fun _ =>
        Keeps.bind quietPre (q_getT _) fun _ => ih _ _

theorem q_replaceKvertex [HasSqrt K] (t : TId) (v newv : VId) (now : K) (dir : Dir) :
    Keeps (Quiet (K := K)) (replaceKvertex t v newv now dir) := by
  intro s a s' h
  exact q_replaceLoop _ _ _ _ _ _ _ _ _ _ h
macro_rules | `(tactic| quiet_leaf) => `(tactic| with_reducible exact q_replaceKvertex _ _ _ _ _)

theorem q_immediateRemoveOpt (e : Option (Event K)) :
    Keeps (Quiet (K := K)) (immediateRemoveOpt e) := by
  unfold immediateRemoveOpt
  quiet
macro_rules | `(tactic| quiet_leaf) => `(tactic| with_reducible exact q_immediateRemoveOpt _)

theorem q_immediateEvent [HasSqrt K] (t : TId) (now : K) :
    Keeps (Quiet (K := K)) (immediateEvent t now) := by
  unfold immediateEvent
  quiet
macro_rules | `(tactic| quiet_leaf) => `(tactic| with_reducible exact q_immediateEvent _ _)

theorem q_scheduleImmediately [HasSqrt K] (t : TId) (now : K) :
    Keeps (Quiet (K := K)) (scheduleImmediately t now) := by
  unfold scheduleImmediately
  quiet
macro_rules | `(tactic| quiet_leaf) => `(tactic| with_reducible exact q_scheduleImmediately _ _)

theorem q_flipSide (n : Option TId) (v : VId) : Keeps (Quiet (K := K)) (flipSide n v) := by
  unfold flipSide
  quiet
macro_rules | `(tactic| quiet_leaf) => `(tactic| with_reducible exact q_flipSide _ _)

theorem q_flipLink (n : Option TId) (i : Option (Fin 3)) (t : TId) :
    Keeps (Quiet (K := K)) (flipLink n i t) := by
  unfold flipLink
  quiet
macro_rules | `(tactic| quiet_leaf) => `(tactic| with_reducible exact q_flipLink _ _ _)

theorem q_flip (t0 : TId) (s0 : Fin 3) (t1 : TId) (s1 : Fin 3) :
    Keeps (Quiet (K := K)) (flip t0 s0 t1 s1) := by
  unfold flip
  quiet
macro_rules | `(tactic| quiet_leaf) => `(tactic| with_reducible exact q_flip _ _ _ _)

theorem q_handleFlip [HasSqrt K] (evt : Event K) : Keeps (Quiet (K := K)) (handleFlip evt) := by
  unfold handleFlip
  quiet
macro_rules | `(tactic| quiet_leaf) => `(tactic| with_reducible exact q_handleFlip _)

theorem q_legDist [HasSqrt K] (t : TId) (leg : Fin 3) (now : K) :
    Keeps (Quiet (K := K)) (legDist t leg now) := by
  unfold legDist
  quiet
macro_rules | `(tactic| quiet_leaf) => `(tactic| with_reducible exact q_legDist _ _ _)

theorem q_vertexIndex (t : TId) (v : VId) : Keeps (Quiet (K := K)) (vertexIndex t v) := by
  unfold vertexIndex
  quiet
macro_rules | `(tactic| quiet_leaf) => `(tactic| with_reducible exact q_vertexIndex _ _)

theorem q_relink (n t : TId) (x : Option TId) : Keeps (Quiet (K := K)) (relink n t x) := by
  unfold relink
  quiet
macro_rules | `(tactic| quiet_leaf) => `(tactic| with_reducible exact q_relink _ _ _)

theorem q_detachAndSchedule [HasSqrt K] (n : Option TId) (t : TId) (now : K) :
    Keeps (Quiet (K := K)) (detachAndSchedule n t now) := by
  unfold detachAndSchedule
  quiet
macro_rules | `(tactic| quiet_leaf) => `(tactic| with_reducible exact q_detachAndSchedule _ _ _)

theorem q_evenLegs [HasSqrt K] (t : TId) (e : Fin 3) (pivot : VId) (now : K) (step : ℤ) :
    Keeps (Quiet (K := K)) (evenLegs t e pivot now step) := by
  unfold evenLegs
  quiet
macro_rules | `(tactic| quiet_leaf) => `(tactic| with_reducible exact q_evenLegs _ _ _ _ _)

theorem q_evenLegsAt [HasSqrt K] (t : TId) (pivot : VId) (now : K) (step : ℤ) :
    Keeps (Quiet (K := K)) (evenLegsAt t pivot now step) := by
  unfold evenLegsAt
  quiet
macro_rules | `(tactic| quiet_leaf) => `(tactic| with_reducible exact q_evenLegsAt _ _ _ _)

theorem q_evenLegsIf [HasSqrt K] (c : Bool) (t : TId) (pivot : VId) (now : K) (step : ℤ) :
    Keeps (Quiet (K := K)) (evenLegsIf c t pivot now step) := by
  unfold evenLegsIf
  quiet
macro_rules | `(tactic| quiet_leaf) => `(tactic| with_reducible exact q_evenLegsIf _ _ _ _ _)

theorem q_assertVertexStopped (v : VId) :
    Keeps (Quiet (K := K)) (assertVertexStopped v) := by
  unfold assertVertexStopped
  quiet
macro_rules | `(tactic| quiet_leaf) => `(tactic| with_reducible exact q_assertVertexStopped _)

theorem q_velocityOf (v : VId) : Keeps (Quiet (K := K)) (velocityOf v) := by
  unfold velocityOf
  quiet
macro_rules | `(tactic| quiet_leaf) => `(tactic| with_reducible exact q_velocityOf _)

theorem q_parallel3tri [HasSqrt K] (t : TId) (e : Fin 3) (pivot : VId) (now : K) (step : ℤ) :
    Keeps (Quiet (K := K)) (parallel3tri t e pivot now step) := by
  unfold parallel3tri
  quiet
macro_rules | `(tactic| quiet_leaf) => `(tactic| with_reducible exact q_parallel3tri _ _ _ _ _)

theorem q_parallel3Collapse [HasSqrt K] (pivot : VId) (now : K) (step : ℤ) (a : TId)
    (near : List (Fin 3)) (zero : Bool) :
    Keeps (Quiet (K := K)) (parallel3.parallel3Collapse pivot now step a near zero) := by
  unfold parallel3.parallel3Collapse
  quiet
macro_rules
  | `(tactic| quiet_leaf) => `(tactic| with_reducible exact q_parallel3Collapse _ _ _ _ _ _)

theorem q_parallel3 [HasSqrt K] (a b : TId) (pivot : VId) (now : K) (step : ℤ) :
    Keeps (Quiet (K := K)) (parallel3 a b pivot now step) := by
  unfold parallel3
  quiet
macro_rules | `(tactic| quiet_leaf) => `(tactic| with_reducible exact q_parallel3 _ _ _ _ _)

theorem q_stopPivot [HasSqrt K] [HasTrig K] (pivot : VId) (now : K) (n : NodeId) :
    Keeps (Quiet (K := K)) (shorterLeg.stopPivot pivot now n) := by
  unfold shorterLeg.stopPivot
  quiet
macro_rules | `(tactic| quiet_leaf) => `(tactic| with_reducible exact q_stopPivot _ _ _)

theorem q_replaceSide [HasSqrt K] (t : TId) (now : K) (n other : Option TId) (v kv : VId)
    (dir : Dir) : Keeps (Quiet (K := K)) (shorterLeg.replaceSide t now n other v kv dir) := by
  unfold shorterLeg.replaceSide
  quiet
macro_rules | `(tactic| quiet_leaf) => `(tactic| with_reducible exact q_replaceSide _ _ _ _ _ _ _)

theorem q_evenTriangle [HasSqrt K] (pivot : VId) (now : K) (t : TId) :
    Keeps (Quiet (K := K)) (evenTriangle pivot now t) := by
  unfold evenTriangle
  quiet
macro_rules | `(tactic| quiet_leaf) => `(tactic| with_reducible exact q_evenTriangle _ _ _)

theorem q_hasInfFast (t : TId) : Keeps (Quiet (K := K)) (hasInfFast t) := by
  unfold hasInfFast
  quiet
macro_rules | `(tactic| quiet_leaf) => `(tactic| with_reducible exact q_hasInfFast _)

theorem q_flipPair [HasSqrt K] (t0 t1 : TId) (pivot : VId) (now : K) (step : ℤ) :
    Keeps (Quiet (K := K)) (flipPair t0 t1 pivot now step) := by
  unfold flipPair
  quiet
macro_rules | `(tactic| quiet_leaf) => `(tactic| with_reducible exact q_flipPair _ _ _ _ _)

theorem q_assertStopped (t : TId) : Keeps (Quiet (K := K)) (assertStopped t) := by
  unfold assertStopped
  quiet
macro_rules | `(tactic| quiet_leaf) => `(tactic| with_reducible exact q_assertStopped _)

theorem q_parallelEven [HasSqrt K] (fan : List TId) (pivot : VId) (now : K) (step : ℤ) :
    Keeps (Quiet (K := K)) (parallelEven fan pivot now step) := by
  unfold parallelEven
  quiet
macro_rules | `(tactic| quiet_leaf) => `(tactic| with_reducible exact q_parallelEven _ _ _ _)

theorem q_nextFan (kv : VId) (a b : List TId) : Keeps (Quiet (K := K)) (nextFan kv a b) := by
  unfold nextFan
  quiet
macro_rules | `(tactic| quiet_leaf) => `(tactic| with_reducible exact q_nextFan _ _ _)

theorem q_evalPosition (v : Option VId) (now : K) :
    Keeps (Quiet (K := K)) (evalPosition v now) := by
  unfold evalPosition
  quiet
macro_rules | `(tactic| quiet_leaf) => `(tactic| with_reducible exact q_evalPosition _ _)

theorem q_checkLinks (v : VId) : Keeps (Quiet (K := K)) (checkLinks v) := by
  unfold checkLinks
  quiet
macro_rules | `(tactic| quiet_leaf) => `(tactic| with_reducible exact q_checkLinks _)

theorem q_scheduleTiny [HasSqrt K] (fan : List TId) (kv : VId) (dir : Dir) (now : K) :
    Keeps (Quiet (K := K)) (scheduleTiny fan kv dir now) := by
  unfold scheduleTiny
  quiet
macro_rules | `(tactic| quiet_leaf) => `(tactic| with_reducible exact q_scheduleTiny _ _ _ _)

theorem q_edgeSide [HasSqrt K] (n : Option TId) (t : TId) (o : Option TId) (v kv : VId) (now : K)
    (dir : Dir) : Keeps (Quiet (K := K)) (edgeSide n t o v kv now dir) := by
  unfold edgeSide
  quiet
macro_rules | `(tactic| quiet_leaf) => `(tactic| with_reducible exact q_edgeSide _ _ _ _ _ _ _)

theorem q_threeSidesNeighbour [HasSqrt K] (t : TId) (now : K) (i : Fin 3) :
    Keeps (Quiet (K := K)) (threeSidesNeighbour t now i) := by
  unfold threeSidesNeighbour
  quiet
macro_rules | `(tactic| quiet_leaf) => `(tactic| with_reducible exact q_threeSidesNeighbour _ _ _)

theorem q_handleEdge3 [HasSqrt K] (evt : Event K) (step : ℤ) :
    Keeps (Quiet (K := K)) (handleEdge3 evt step) := by
  unfold handleEdge3
  quiet
macro_rules | `(tactic| quiet_leaf) => `(tactic| with_reducible exact q_handleEdge3 _ _)

theorem q_splitChecks [HasSqrt K] (v v1 v2 : VId) (now : K) :
    Keeps (Quiet (K := K)) (splitChecks v v1 v2 now) := by
  unfold splitChecks
  quiet
macro_rules | `(tactic| quiet_leaf) => `(tactic| with_reducible exact q_splitChecks _ _ _ _)

theorem q_splitSide [HasSqrt K] (t : TId) (i : Fin 3) (v newv : VId) (now : K) (dir : Dir) :
    Keeps (Quiet (K := K)) (splitSide t i v newv now dir) := by
  unfold splitSide
  quiet
macro_rules | `(tactic| quiet_leaf) => `(tactic| with_reducible exact q_splitSide _ _ _ _ _ _)

theorem q_checkBisectorDirection (t : TId) (i : Fin 3) (now : K) :
    Keeps (Quiet (K := K)) (checkBisectorDirection t i now) := by
  unfold checkBisectorDirection
  quiet
macro_rules | `(tactic| quiet_leaf) => `(tactic| with_reducible exact q_checkBisectorDirection _ _ _)

theorem q_checkBisectors (ts : List TId) (now : K) :
    Keeps (Quiet (K := K)) (checkBisectors ts now) := by
  unfold checkBisectors
  quiet
macro_rules | `(tactic| quiet_leaf) => `(tactic| with_reducible exact q_checkBisectors _ _)

theorem q_checkOrientation (ts : List TId) (now : K) :
    Keeps (Quiet (K := K)) (checkOrientation ts now) := by
  unfold checkOrientation
  quiet
macro_rules | `(tactic| quiet_leaf) => `(tactic| with_reducible exact q_checkOrientation _ _)

theorem q_leftOver (t : TId) : Keeps (Quiet (K := K)) (leftOver t) := by
  unfold leftOver
  quiet
macro_rules | `(tactic| quiet_leaf) => `(tactic| with_reducible exact q_leftOver _)

theorem q_checkAllStopped (ts : List TId) : Keeps (Quiet (K := K)) (checkAllStopped ts) := by
  unfold checkAllStopped
  quiet
macro_rules | `(tactic| quiet_leaf) => `(tactic| with_reducible exact q_checkAllStopped _)

theorem q_skelTriangles : Keeps (Quiet (K := K)) skelTriangles :=
  Keeps.of_same quietPre fun s a s' h => by
    unfold skelTriangles at h
    simp only [Except.ok.injEq, Prod.mk.injEq] at h
    exact h.2
macro_rules | `(tactic| quiet_leaf) => `(tactic| with_reducible exact q_skelTriangles)

theorem q_clearImmediate : Keeps (Quiet (K := K)) clearImmediate := fun s a s' h => by
  unfold clearImmediate at h
  simp only [Except.ok.injEq, Prod.mk.injEq, true_and] at h
  subst h; exact quiet_queues s _ _
macro_rules | `(tactic| quiet_leaf) => `(tactic| with_reducible exact q_clearImmediate)

theorem q_clearQueue : Keeps (Quiet (K := K)) clearQueue := fun s a s' h => by
  unfold clearQueue at h
  simp only [Except.ok.injEq, Prod.mk.injEq, true_and] at h
  subst h; exact quiet_queues s _ _
macro_rules | `(tactic| quiet_leaf) => `(tactic| with_reducible exact q_clearQueue)

theorem q_initEvent [HasSqrt K] (t : TId) : Keeps (Quiet (K := K)) (initEvent t) := by
  unfold initEvent
  quiet
macro_rules | `(tactic| quiet_leaf) => `(tactic| with_reducible exact q_initEvent _)

theorem q_initEventList [HasSqrt K] : Keeps (Quiet (K := K)) initEventList := by
  unfold initEventList
  quiet

end Grassfire
