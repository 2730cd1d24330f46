/-
Every function of the events model only grows the skeleton (lemmas for C37).
-/
import Verif.Proofs.Wp
import Verif.Spec.Growth

set_option linter.unusedSectionVars false

namespace Grassfire

open Spec

variable {K : Type}

theorem SameBirth.refl (a : KVertex K) : SameBirth a a :=
  ⟨rfl, rfl, rfl, rfl, rfl, rfl, rfl, rfl, rfl, id, id, List.prefix_refl _, List.prefix_refl _⟩

theorem SameBirth.trans {a b c : KVertex K} (h : SameBirth a b) (g : SameBirth b c) :
    SameBirth a c :=
  ⟨g.origin.trans h.origin, g.velocity.trans h.velocity, g.startsAt.trans h.startsAt,
   g.startNode.trans h.startNode, g.ul.trans h.ul, g.ur.trans h.ur, g.info.trans h.info,
   g.infFast.trans h.infFast, g.internal.trans h.internal, fun x => g.stopsAt (h.stopsAt x),
   fun x => g.stopNode (h.stopNode x), h.left.trans g.left, h.right.trans g.right⟩

theorem SameVertex.refl (a : Vertex K) : SameVertex a a := by
  cases a with
  | kin a => exact SameBirth.refl a
  | inf a => rfl

theorem SameVertex.trans {a b c : Vertex K} (h : SameVertex a b) (g : SameVertex b c) :
    SameVertex a c := by
  cases a with
  | kin a =>
    cases b with
    | inf b => exact h.elim
    | kin b =>
      cases c with
      | inf c => exact g.elim
      | kin c => exact SameBirth.trans h g
  | inf a =>
    cases b with
    | kin b => exact h.elim
    | inf b =>
      cases c with
      | kin c => exact g.elim
      | inf c => exact Eq.trans h g

theorem growsPre : Pre (Grows (K := K)) where
  refl _ := ⟨le_rfl, rfl, le_rfl, le_rfl, rfl, rfl, rfl, rfl, List.prefix_refl _,
    List.prefix_refl _, rfl, fun _ _ => rfl, fun _ _ => SameVertex.refl _, fun _ => id,
    fun _ => rfl, fun _ => rfl⟩
  trans _ _ _ h g := ⟨h.nV.trans g.nV, g.nT.trans h.nT, h.nN.trans g.nN, h.nE.trans g.nE,
    g.line.trans h.line, g.wfLine.trans h.wfLine, g.pyid.trans h.pyid,
    g.transform.trans h.transform, h.skNodes.trans g.skNodes, h.skVertices.trans g.skVertices,
    g.skTriangles.trans h.skTriangles,
    fun n hn => (g.node n (lt_of_lt_of_le hn h.nN)).trans (h.node n hn),
    fun v hv => SameVertex.trans (h.vert v hv) (g.vert v (lt_of_lt_of_le hv h.nV)),
    fun t ht => g.stopped t (h.stopped t ht), fun t => (g.info t).trans (h.info t),
    fun t => (g.internal t).trans (h.internal t)⟩

variable [Field K] [LinearOrder K]

/-! ### primitives -/

theorem g_assertM (c : Prop) [Decidable c] : Keeps (Grows (K := K)) (assertM c) :=
  Keeps.of_same growsPre fun _ _ _ h => (assertM_run_ok.1 h).2

theorem g_need {α : Type} (o : Option α) : Keeps (Grows (K := K)) (need o) :=
  Keeps.of_same growsPre fun _ _ _ h => (need_run_ok.1 h).2

theorem g_needIdx {α : Type} (o : Option α) : Keeps (Grows (K := K)) (needIdx o) :=
  Keeps.of_same growsPre fun _ _ _ h => (needIdx_run_ok.1 h).2

theorem g_needNum (o : Option K) : Keeps (Grows (K := K)) (needNum o) :=
  Keeps.of_same growsPre fun _ _ _ h => (needNum_run_ok.1 h).2

theorem g_lift {α : Type} (x : Except Err α) : Keeps (Grows (K := K)) (lift x) :=
  Keeps.of_same growsPre fun _ _ _ h => (lift_run_ok.1 h).2

theorem g_assertSome {α : Type} (o : Option α) : Keeps (Grows (K := K)) (assertSome o) :=
  Keeps.of_same growsPre fun _ _ _ h => (assertSome_run_ok.1 h).2

theorem g_getV (v : VId) : Keeps (Grows (K := K)) (getV v) :=
  Keeps.of_same growsPre fun _ _ _ h => (getV_run_ok.1 h).2.2

theorem g_getK (v : VId) : Keeps (Grows (K := K)) (getK v) :=
  Keeps.of_same growsPre fun _ _ _ h => (getK_run_ok.1 h).2.2

theorem g_getT (t : TId) : Keeps (Grows (K := K)) (getT t) :=
  Keeps.of_same growsPre fun _ _ _ h => (getT_run_ok.1 h).2.2

theorem g_getN (n : NodeId) : Keeps (Grows (K := K)) (getN n) :=
  Keeps.of_same growsPre fun _ _ _ h => (getN_run_ok.1 h).2.2

theorem g_getLine (n : LineId) : Keeps (Grows (K := K)) (getLine n) :=
  Keeps.of_same growsPre fun _ _ _ h => (getLine_run_ok.1 h).2

theorem g_getWfLine (n : WfId) : Keeps (Grows (K := K)) (getWfLine n) :=
  Keeps.of_same growsPre fun _ _ _ h => (getWfLine_run_ok.1 h).2

theorem g_countVertices : Keeps (Grows (K := K)) countVertices :=
  Keeps.of_same growsPre fun _ _ _ h => (countVertices_run_ok.1 h).2

theorem g_positionAt (v : VId) (time : K) : Keeps (Grows (K := K)) (positionAt v time) :=
  Keeps.of_same growsPre fun _ _ _ h => (positionAt_run_ok.1 h).2.2

theorem g_singleSide (l : List (Fin 3)) : Keeps (Grows (K := K)) (singleSide l) := by
  unfold singleSide
  split
  · exact Keeps.pure growsPre _
  · exact Keeps.raise _

theorem g_tryIntersection [HasSqrt K] (l r : Line2 K) (now : K) :
    Keeps (Grows (K := K)) (tryIntersection l r now) := by
  refine Keeps.of_same growsPre fun s a s' h => ?_
  unfold tryIntersection at h
  split at h <;> simp at h
  · exact h.2
  · exact h.2

theorem triView_run_ok {t : TId} {b : TView K} {s s' : St K} :
    (triView t : M K _) s = .ok (b, s') ↔
      (t < s.nT ∧ (s.tri t).vertices 0 < s.nV ∧ (s.tri t).vertices 1 < s.nV ∧
        (s.tri t).vertices 2 < s.nV) ∧
      b = ⟨fun i => viewOf s ((s.tri t).vertices i), fun i => ((s.tri t).neighbours i).isNone,
        (s.tri t).stopsAt.isSome⟩ ∧ s = s' := by
  unfold triView
  by_cases h : t < s.nT
  · simp only [h, if_true]
    split_ifs with h2
    · simp [h2, eq_comm]
    · simp [h2]
  · simp [h]

theorem g_triView (t : TId) : Keeps (Grows (K := K)) (triView t) :=
  Keeps.of_same growsPre fun _ _ _ h => (triView_run_ok.1 h).2.2

theorem g_modifyK (v : VId) (f : KVertex K → KVertex K) (hf : ∀ kv, SameBirth kv (f kv)) :
    Keeps (Grows (K := K)) (modifyK v f) := by
  intro s a s' h
  obtain ⟨hv, kv, hk, rfl⟩ := modifyK_run_ok.1 h
  have r := growsPre.refl s
  refine { r with vert := fun w hw => ?_ }
  show SameVertex (s.vert w) (Function.update s.vert v (.kin (f kv)) w)
  by_cases e : w = v
  · subst e; rw [Function.update_self, hk]; exact hf kv
  · rw [Function.update_of_ne e]; exact SameVertex.refl _

theorem g_modifyT (t : TId) (f : KTri K → KTri K)
    (hf : ∀ T, (T.stopsAt.isSome → (f T).stopsAt.isSome) ∧ (f T).info = T.info ∧
      (f T).internal = T.internal) :
    Keeps (Grows (K := K)) (modifyT t f) := by
  intro s a s' h
  obtain ⟨hv, rfl⟩ := modifyT_run_ok.1 h
  have r := growsPre.refl s
  refine { r with stopped := fun w hw => ?_, info := fun w => ?_, internal := fun w => ?_ }
  · show ((Function.update s.tri t (f (s.tri t)) w)).stopsAt.isSome
    by_cases e : w = t
    · subst e; rw [Function.update_self]; exact (hf _).1 hw
    · rw [Function.update_of_ne e]; exact hw
  · show ((Function.update s.tri t (f (s.tri t)) w)).info = _
    by_cases e : w = t
    · subst e; rw [Function.update_self]; exact (hf _).2.1
    · rw [Function.update_of_ne e]
  · show ((Function.update s.tri t (f (s.tri t)) w)).internal = _
    by_cases e : w = t
    · subst e; rw [Function.update_self]; exact (hf _).2.2
    · rw [Function.update_of_ne e]

theorem g_newNode (n : Node K) : Keeps (Grows (K := K)) (newNode n) := by
  intro s a s' h
  obtain ⟨-, rfl⟩ := newNode_run_ok.1 h
  have r := growsPre.refl s
  exact { r with nN := Nat.le_succ _
                 node := fun w hw => Function.update_of_ne (ne_of_lt hw) _ _ }

theorem g_newK (kv : KVertex K) : Keeps (Grows (K := K)) (newK kv) := by
  intro s a s' h
  obtain ⟨-, rfl⟩ := newK_run_ok.1 h
  have r := growsPre.refl s
  refine { r with nV := Nat.le_succ _, vert := fun w hw => ?_ }
  show SameVertex (s.vert w) (Function.update s.vert s.nV (.kin kv) w)
  rw [Function.update_of_ne (ne_of_lt hw)]; exact SameVertex.refl _

theorem g_newEvent (c : EvCore K) (t : TId) : Keeps (Grows (K := K)) (newEvent c t) := by
  intro s a s' h
  obtain ⟨-, rfl⟩ := newEvent_run_ok.1 h
  have r := growsPre.refl s
  exact { r with nE := Nat.le_succ _ }

theorem g_appendNode (n : NodeId) : Keeps (Grows (K := K)) (appendNode n) := by
  intro s a s' h
  obtain rfl := appendNode_run_ok.1 h
  have r := growsPre.refl s
  exact { r with skNodes := List.prefix_append _ _ }

theorem g_appendVertex (n : VId) : Keeps (Grows (K := K)) (appendVertex n) := by
  intro s a s' h
  obtain rfl := appendVertex_run_ok.1 h
  have r := growsPre.refl s
  exact { r with skVertices := List.prefix_append _ _ }

/-- the queues are not part of what `Grows` speaks about -/
theorem grows_queues (s : St K) (q i : List (Event K)) :
    Grows s { s with queue := q, immediate := i } := by
  have r := growsPre.refl s
  exact { r with }

theorem g_queueAdd (e : Event K) : Keeps (Grows (K := K)) (queueAdd e) := by
  intro s a s' h
  unfold queueAdd at h
  split_ifs at h
  simp only [Except.ok.injEq, Prod.mk.injEq, true_and] at h
  subst h; exact grows_queues s _ _

theorem g_queueDiscard (e : Event K) : Keeps (Grows (K := K)) (queueDiscard e) := by
  intro s a s' h
  unfold queueDiscard at h
  simp only [Except.ok.injEq, Prod.mk.injEq, true_and] at h
  subst h; exact grows_queues s _ _

theorem g_queueDiscardOpt (e : Option (Event K)) :
    Keeps (Grows (K := K)) (queueDiscardOpt e) := by
  intro s a s' h
  unfold queueDiscardOpt at h
  split at h
  · exact g_queueDiscard _ _ _ _ h
  · split_ifs at h
    simp only [Except.ok.injEq, Prod.mk.injEq, true_and] at h
    subst h; exact growsPre.refl _

theorem g_immediateRemove (e : Event K) : Keeps (Grows (K := K)) (immediateRemove e) := by
  intro s a s' h
  unfold immediateRemove at h
  simp only [Except.ok.injEq, Prod.mk.injEq, true_and] at h
  subst h; exact grows_queues s _ _

theorem g_immediateAppend (e : Event K) : Keeps (Grows (K := K)) (immediateAppend e) := by
  intro s a s' h
  unfold immediateAppend at h
  simp only [Except.ok.injEq, Prod.mk.injEq, true_and] at h
  subst h; exact grows_queues s _ _

theorem g_takeEvent (now : K) : Keeps (Grows (K := K)) (takeEvent now) := by
  intro s a s' h
  unfold takeEvent at h
  split at h
  · simp only [Except.ok.injEq, Prod.mk.injEq] at h
    obtain ⟨-, h⟩ := h
    subst h; exact grows_queues s _ _
  · split at h
    · simp only [Except.ok.injEq, Prod.mk.injEq] at h
      obtain ⟨-, h⟩ := h
      subst h; exact grows_queues s _ _
    · simp only [Except.ok.injEq, Prod.mk.injEq] at h
      obtain ⟨-, h⟩ := h
      subst h; exact growsPre.refl _

theorem hist_set_prefix {R : Type} (h : Hist K R) (r : R) (t : K) :
    (h.map fun i => (i.start, i.ref)) <+: (h.set r t).map fun i => (i.start, i.ref) := by
  unfold Hist.set
  cases hl : h.getLast? with
  | none =>
    rw [List.getLast?_eq_none_iff] at hl
    subst hl; exact List.nil_prefix
  | some last =>
    obtain ⟨l, rfl⟩ : ∃ l, h = l ++ [last] := ⟨h.dropLast, by
      rw [List.dropLast_append_getLast? _ hl]⟩
    simp only [List.dropLast_concat, List.map_append, List.map_cons, List.map_nil]
    exact ⟨[(t, r)], by simp⟩

/-! ### the functions -/

/-- leaves of the proof search of `grows` -/
syntax "grows_leaf" : tactic

macro_rules | `(tactic| grows_leaf) => `(tactic| with_reducible exact g_assertM _)
macro_rules | `(tactic| grows_leaf) => `(tactic| with_reducible exact g_need _)
macro_rules | `(tactic| grows_leaf) => `(tactic| with_reducible exact g_needIdx _)
macro_rules | `(tactic| grows_leaf) => `(tactic| with_reducible exact g_needNum _)
macro_rules | `(tactic| grows_leaf) => `(tactic| with_reducible exact g_lift _)
macro_rules | `(tactic| grows_leaf) => `(tactic| with_reducible exact g_assertSome _)
macro_rules | `(tactic| grows_leaf) => `(tactic| with_reducible exact g_getV _)
macro_rules | `(tactic| grows_leaf) => `(tactic| with_reducible exact g_getK _)
macro_rules | `(tactic| grows_leaf) => `(tactic| with_reducible exact g_getT _)
macro_rules | `(tactic| grows_leaf) => `(tactic| with_reducible exact g_getN _)
macro_rules | `(tactic| grows_leaf) => `(tactic| with_reducible exact g_getLine _)
macro_rules | `(tactic| grows_leaf) => `(tactic| with_reducible exact g_getWfLine _)
macro_rules | `(tactic| grows_leaf) => `(tactic| with_reducible exact g_countVertices)
macro_rules | `(tactic| grows_leaf) => `(tactic| with_reducible exact g_positionAt _ _)
macro_rules | `(tactic| grows_leaf) => `(tactic| with_reducible exact g_singleSide _)
macro_rules | `(tactic| grows_leaf) => `(tactic| with_reducible exact g_tryIntersection _ _ _)
macro_rules | `(tactic| grows_leaf) => `(tactic| with_reducible exact g_triView _)
macro_rules | `(tactic| grows_leaf) => `(tactic| with_reducible exact g_newNode _)
macro_rules | `(tactic| grows_leaf) => `(tactic| with_reducible exact g_newK _)
macro_rules | `(tactic| grows_leaf) => `(tactic| with_reducible exact g_newEvent _ _)
macro_rules | `(tactic| grows_leaf) => `(tactic| with_reducible exact g_appendNode _)
macro_rules | `(tactic| grows_leaf) => `(tactic| with_reducible exact g_appendVertex _)
macro_rules | `(tactic| grows_leaf) => `(tactic| with_reducible exact g_queueAdd _)
macro_rules | `(tactic| grows_leaf) => `(tactic| with_reducible exact g_queueDiscard _)
macro_rules | `(tactic| grows_leaf) => `(tactic| with_reducible exact g_queueDiscardOpt _)
macro_rules | `(tactic| grows_leaf) => `(tactic| with_reducible exact g_immediateRemove _)
macro_rules | `(tactic| grows_leaf) => `(tactic| with_reducible exact g_immediateAppend _)
macro_rules | `(tactic| grows_leaf) => `(tactic| with_reducible exact g_takeEvent _)
macro_rules | `(tactic| grows_leaf) => `(tactic| with_reducible exact Keeps.pure growsPre _)
macro_rules | `(tactic| grows_leaf) => `(tactic| with_reducible exact Keeps.raise _)

/-- proof search along the structure of a computation -/
macro "grows" : tactic => `(tactic|
  repeat' first
    | grows_leaf
    | assumption
    | with_reducible refine Keeps.bind growsPre ?_ fun _ => ?_
    | with_reducible refine Keeps.ite ?_ ?_
    | with_reducible refine Keeps.forEach growsPre (fun _ => ?_) _
    | with_reducible refine Keeps.mapEach growsPre (fun _ => ?_) _
    | split
    | dsimp only)

theorem g_setEvent (t : TId) (e : Event K) : Keeps (Grows (K := K)) (setEvent t e) :=
  g_modifyT _ _ fun _ => ⟨id, rfl, rfl⟩
macro_rules | `(tactic| grows_leaf) => `(tactic| with_reducible exact g_setEvent _ _)

theorem g_setVertex (t : TId) (i : Fin 3) (v : VId) :
    Keeps (Grows (K := K)) (setVertex t i v) := g_modifyT _ _ fun _ => ⟨id, rfl, rfl⟩
macro_rules | `(tactic| grows_leaf) => `(tactic| with_reducible exact g_setVertex _ _ _)

theorem g_setNeighbour (t : TId) (i : Fin 3) (n : Option TId) :
    Keeps (Grows (K := K)) (setNeighbour t i n) := g_modifyT _ _ fun _ => ⟨id, rfl, rfl⟩
macro_rules | `(tactic| grows_leaf) => `(tactic| with_reducible exact g_setNeighbour _ _ _)

theorem g_stopTriangle (t : TId) (now : K) : Keeps (Grows (K := K)) (stopTriangle t now) :=
  g_modifyT _ _ fun _ => ⟨fun _ => rfl, rfl, rfl⟩
macro_rules | `(tactic| grows_leaf) => `(tactic| with_reducible exact g_stopTriangle _ _)

theorem g_setTriangle (t : TId) (vs : Fin 3 → VId) (ns : Fin 3 → Option TId) :
    Keeps (Grows (K := K)) (setTriangle t vs ns) := g_modifyT _ _ fun _ => ⟨id, rfl, rfl⟩
macro_rules | `(tactic| grows_leaf) => `(tactic| with_reducible exact g_setTriangle _ _ _)

theorem g_stopAt (v : VId) (n : NodeId) (now : K) : Keeps (Grows (K := K)) (stopAt v n now) :=
  g_modifyK _ _ fun kv => { SameBirth.refl kv with
    stopsAt := fun _ => rfl, stopNode := fun _ => rfl }
macro_rules | `(tactic| grows_leaf) => `(tactic| with_reducible exact g_stopAt _ _ _)

theorem g_setWf (v : VId) (l r : Option WfId) :
    Keeps (Grows (K := K)) (modifyK v fun k => { k with wfl := l, wfr := r }) :=
  g_modifyK _ _ fun kv => { SameBirth.refl kv with }
macro_rules | `(tactic| grows_leaf) => `(tactic| with_reducible exact g_setWf _ _ _)

theorem g_setRight (l r : Option VId) (now : K) : Keeps (Grows (K := K)) (setRight l r now) := by
  unfold setRight
  split
  · exact g_modifyK _ _ fun kv => { SameBirth.refl kv with right := hist_set_prefix _ _ _ }
  · exact Keeps.pure growsPre _
macro_rules | `(tactic| grows_leaf) => `(tactic| with_reducible exact g_setRight _ _ _)

theorem g_setLeft (l r : Option VId) (now : K) : Keeps (Grows (K := K)) (setLeft l r now) := by
  unfold setLeft
  split
  · exact g_modifyK _ _ fun kv => { SameBirth.refl kv with left := hist_set_prefix _ _ _ }
  · exact Keeps.pure growsPre _
macro_rules | `(tactic| grows_leaf) => `(tactic| with_reducible exact g_setLeft _ _ _)

theorem g_updateCirc (l r : Option VId) (now : K) :
    Keeps (Grows (K := K)) (updateCirc l r now) := by
  unfold updateCirc
  grows
macro_rules | `(tactic| grows_leaf) => `(tactic| with_reducible exact g_updateCirc _ _ _)

theorem g_stopScan (now : K) (V : List VId) (acc : Option NodeId) :
    Keeps (Grows (K := K)) (stopScan now V acc) := by
  induction V generalizing acc with
  | nil => exact Keeps.pure growsPre _
  | cons v vs ih =>
    unfold stopScan
    refine Keeps.bind growsPre (g_getK _) fun _ => Keeps.bind growsPre (g_needNum _) fun _ => ?_
    refine Keeps.ite (ih _) (Keeps.ite (ih _) (Keeps.bind growsPre ?_ fun _ => ih _))
    exact g_modifyK _ _ fun kv => { SameBirth.refl kv with stopsAt := fun _ => rfl }
macro_rules | `(tactic| grows_leaf) => `(tactic| with_reducible exact g_stopScan _ _ _)

theorem g_setStopNode (v : VId) (n : NodeId) :
    Keeps (Grows (K := K)) (modifyK v fun kv => { kv with stopNode := some n }) :=
  g_modifyK _ _ fun kv => { SameBirth.refl kv with stopNode := fun _ => rfl }

theorem g_stopAtExisting (V : List VId) (now : K) (n : NodeId) :
    Keeps (Grows (K := K)) (stopAtExisting V now n) :=
  Keeps.bind growsPre (Keeps.forEach growsPre (fun v => g_stopAt v n now) _)
    fun _ => Keeps.pure growsPre _
macro_rules | `(tactic| grows_leaf) => `(tactic| with_reducible exact g_stopAtExisting _ _ _)

theorem g_nodePosition (V : List VId) (now : K) (pos : Option (Pt K)) :
    Keeps (Grows (K := K)) (nodePosition V now pos) := by
  unfold nodePosition
  grows
macro_rules | `(tactic| grows_leaf) => `(tactic| with_reducible exact g_nodePosition _ _ _)

theorem g_stopAtNew (V : List VId) (step : ℤ) (now : K) (pos : Option (Pt K)) :
    Keeps (Grows (K := K)) (stopAtNew V step now pos) :=
  Keeps.bind growsPre (g_nodePosition _ _ _) fun _ => Keeps.bind growsPre (g_newNode _) fun _ =>
    Keeps.bind growsPre (Keeps.forEach growsPre (fun _ => g_setStopNode _ _) _)
    fun _ => Keeps.pure growsPre _
macro_rules | `(tactic| grows_leaf) => `(tactic| with_reducible exact g_stopAtNew _ _ _ _)

theorem g_stopAtNode (V : List VId) (step : ℤ) (now : K) (pos : Option (Pt K)) (n : Option NodeId) :
    Keeps (Grows (K := K)) (stopAtNode V step now pos n) := by
  unfold stopAtNode
  grows
macro_rules | `(tactic| grows_leaf) => `(tactic| with_reducible exact g_stopAtNode _ _ _ _ _)

theorem g_assertStoppedAt (now : K) (v : VId) :
    Keeps (Grows (K := K)) (assertStoppedAt now v) := by
  unfold assertStoppedAt
  grows
macro_rules | `(tactic| grows_leaf) => `(tactic| with_reducible exact g_assertStoppedAt _ _)

theorem g_readVertex (v : VId) :
    Keeps (Grows (K := K)) (readVertex v) := by
  unfold readVertex
  grows
macro_rules | `(tactic| grows_leaf) => `(tactic| with_reducible exact g_readVertex _)

theorem g_stopKvertices (V : List VId) (step : ℤ) (now : K) (pos : Option (Pt K)) :
    Keeps (Grows (K := K)) (stopKvertices V step now pos) := by
  unfold stopKvertices
  grows
macro_rules | `(tactic| grows_leaf) => `(tactic| with_reducible exact g_stopKvertices _ _ _ _)

theorem g_recordNode (new : Bool) (n : NodeId) :
    Keeps (Grows (K := K)) (recordNode new n) := by
  unfold recordNode
  grows
macro_rules | `(tactic| grows_leaf) => `(tactic| with_reducible exact g_recordNode _ _)

theorem g_stopAndRecord (V : List VId) (step : ℤ) (now : K) (pos : Option (Pt K)) :
    Keeps (Grows (K := K)) (stopAndRecord V step now pos) := by
  unfold stopAndRecord
  grows
macro_rules | `(tactic| grows_leaf) => `(tactic| with_reducible exact g_stopAndRecord _ _ _ _)

theorem g_computeNewKvertex [HasSqrt K] [HasTrig K] (ul ur : Option LineId) (now : K)
    (node : NodeId) (info : ℕ) (internal : Bool) :
    Keeps (Grows (K := K)) (computeNewKvertex ul ur now node info internal) := by
  unfold computeNewKvertex
  grows
macro_rules | `(tactic| grows_leaf) => `(tactic| with_reducible exact g_computeNewKvertex _ _ _ _ _ _)

theorem g_storeEvent (c : Option (EvCore K)) (t : TId) :
    Keeps (Grows (K := K)) (storeEvent c t) := by
  unfold storeEvent
  grows
macro_rules | `(tactic| grows_leaf) => `(tactic| with_reducible exact g_storeEvent _ _)

theorem g_computeCollapseTime [HasSqrt K] (t : TId) (now : K) (sieve : Sieve) :
    Keeps (Grows (K := K)) (computeCollapseTime t now sieve) := by
  unfold computeCollapseTime
  grows
macro_rules | `(tactic| grows_leaf) => `(tactic| with_reducible exact g_computeCollapseTime _ _ _)

theorem g_discardEvent (e : Option (Event K)) :
    Keeps (Grows (K := K)) (discardEvent e) := by
  unfold discardEvent
  grows
macro_rules | `(tactic| grows_leaf) => `(tactic| with_reducible exact g_discardEvent _)

theorem g_addEvent (e : Option (Event K)) :
    Keeps (Grows (K := K)) (addEvent e) := by
  unfold addEvent
  grows
macro_rules | `(tactic| grows_leaf) => `(tactic| with_reducible exact g_addEvent _)

theorem g_replaceInQueue [HasSqrt K] (t : TId) (now : K) :
    Keeps (Grows (K := K)) (replaceInQueue t now) := by
  unfold replaceInQueue
  grows
macro_rules | `(tactic| grows_leaf) => `(tactic| with_reducible exact g_replaceInQueue _ _)

theorem g_renewEvent [HasSqrt K] (b : Bool) (t : TId) (now : K) :
    Keeps (Grows (K := K)) (renewEvent b t now) := by
  unfold renewEvent
  grows
macro_rules | `(tactic| grows_leaf) => `(tactic| with_reducible exact g_renewEvent _ _ _)

theorem g_replaceLoop [HasSqrt K] (v newv : VId) (now : K) (dir : Dir) (fuel : ℕ)
    (t : Option TId) (fan : List TId) :
    Keeps (Grows (K := K)) (replaceLoop v newv now dir fuel t fan) := by
  induction fuel generalizing t fan with
  | zero =>
    cases t with
    | none => exact Keeps.pure growsPre _
    | some t => intro s a s' h; unfold replaceLoop at h; simp at h
  | succ fuel ih =>
    cases t with
    | none => exact Keeps.pure growsPre _
    | some t =>
      unfold replaceLoop
      refine Keeps.bind growsPre (g_getT _) fun _ => Keeps.bind growsPre (g_needIdx _) fun _ =>
        Keeps.bind growsPre (g_setVertex _ _ _) fun _ => Keeps.bind growsPre (g_getK _) fun _ =>
        Keeps.bind growsPre (g_renewEvent _ _ _) fun _ =>
        Keeps.bind growsPre (g_getT _) fun _ => ih _ _

theorem g_replaceKvertex [HasSqrt K] (t : TId) (v newv : VId) (now : K) (dir : Dir) :
    Keeps (Grows (K := K)) (replaceKvertex t v newv now dir) := by
  intro s a s' h
  exact g_replaceLoop _ _ _ _ _ _ _ _ _ _ h
macro_rules | `(tactic| grows_leaf) => `(tactic| with_reducible exact g_replaceKvertex _ _ _ _ _)

theorem g_immediateRemoveOpt (e : Option (Event K)) :
    Keeps (Grows (K := K)) (immediateRemoveOpt e) := by
  unfold immediateRemoveOpt
  grows
macro_rules | `(tactic| grows_leaf) => `(tactic| with_reducible exact g_immediateRemoveOpt _)

theorem g_immediateEvent [HasSqrt K] (t : TId) (now : K) :
    Keeps (Grows (K := K)) (immediateEvent t now) := by
  unfold immediateEvent
  grows
macro_rules | `(tactic| grows_leaf) => `(tactic| with_reducible exact g_immediateEvent _ _)

theorem g_scheduleImmediately [HasSqrt K] (t : TId) (now : K) :
    Keeps (Grows (K := K)) (scheduleImmediately t now) := by
  unfold scheduleImmediately
  grows
macro_rules | `(tactic| grows_leaf) => `(tactic| with_reducible exact g_scheduleImmediately _ _)

theorem g_flipSide (n : Option TId) (v : VId) : Keeps (Grows (K := K)) (flipSide n v) := by
  unfold flipSide
  grows
macro_rules | `(tactic| grows_leaf) => `(tactic| with_reducible exact g_flipSide _ _)

theorem g_flipLink (n : Option TId) (i : Option (Fin 3)) (t : TId) :
    Keeps (Grows (K := K)) (flipLink n i t) := by
  unfold flipLink
  grows
macro_rules | `(tactic| grows_leaf) => `(tactic| with_reducible exact g_flipLink _ _ _)

theorem g_flip (t0 : TId) (s0 : Fin 3) (t1 : TId) (s1 : Fin 3) :
    Keeps (Grows (K := K)) (flip t0 s0 t1 s1) := by
  unfold flip
  grows
macro_rules | `(tactic| grows_leaf) => `(tactic| with_reducible exact g_flip _ _ _ _)

theorem g_handleFlip [HasSqrt K] (evt : Event K) : Keeps (Grows (K := K)) (handleFlip evt) := by
  unfold handleFlip
  grows
macro_rules | `(tactic| grows_leaf) => `(tactic| with_reducible exact g_handleFlip _)

theorem g_legDist [HasSqrt K] (t : TId) (leg : Fin 3) (now : K) :
    Keeps (Grows (K := K)) (legDist t leg now) := by
  unfold legDist
  grows
macro_rules | `(tactic| grows_leaf) => `(tactic| with_reducible exact g_legDist _ _ _)

theorem g_vertexIndex (t : TId) (v : VId) : Keeps (Grows (K := K)) (vertexIndex t v) := by
  unfold vertexIndex
  grows
macro_rules | `(tactic| grows_leaf) => `(tactic| with_reducible exact g_vertexIndex _ _)

theorem g_relink (n t : TId) (x : Option TId) : Keeps (Grows (K := K)) (relink n t x) := by
  unfold relink
  grows
macro_rules | `(tactic| grows_leaf) => `(tactic| with_reducible exact g_relink _ _ _)

theorem g_detachAndSchedule [HasSqrt K] (n : Option TId) (t : TId) (now : K) :
    Keeps (Grows (K := K)) (detachAndSchedule n t now) := by
  unfold detachAndSchedule
  grows
macro_rules | `(tactic| grows_leaf) => `(tactic| with_reducible exact g_detachAndSchedule _ _ _)

theorem g_evenLegs [HasSqrt K] (t : TId) (e : Fin 3) (pivot : VId) (now : K) (step : ℤ) :
    Keeps (Grows (K := K)) (evenLegs t e pivot now step) := by
  unfold evenLegs
  grows
macro_rules | `(tactic| grows_leaf) => `(tactic| with_reducible exact g_evenLegs _ _ _ _ _)

theorem g_evenLegsAt [HasSqrt K] (t : TId) (pivot : VId) (now : K) (step : ℤ) :
    Keeps (Grows (K := K)) (evenLegsAt t pivot now step) := by
  unfold evenLegsAt
  grows
macro_rules | `(tactic| grows_leaf) => `(tactic| with_reducible exact g_evenLegsAt _ _ _ _)

theorem g_evenLegsIf [HasSqrt K] (c : Bool) (t : TId) (pivot : VId) (now : K) (step : ℤ) :
    Keeps (Grows (K := K)) (evenLegsIf c t pivot now step) := by
  unfold evenLegsIf
  grows
macro_rules | `(tactic| grows_leaf) => `(tactic| with_reducible exact g_evenLegsIf _ _ _ _ _)

theorem g_assertVertexStopped (v : VId) :
    Keeps (Grows (K := K)) (assertVertexStopped v) := by
  unfold assertVertexStopped
  grows
macro_rules | `(tactic| grows_leaf) => `(tactic| with_reducible exact g_assertVertexStopped _)

theorem g_velocityOf (v : VId) : Keeps (Grows (K := K)) (velocityOf v) := by
  unfold velocityOf
  grows
macro_rules | `(tactic| grows_leaf) => `(tactic| with_reducible exact g_velocityOf _)

theorem g_parallel3tri [HasSqrt K] (t : TId) (e : Fin 3) (pivot : VId) (now : K) (step : ℤ) :
    Keeps (Grows (K := K)) (parallel3tri t e pivot now step) := by
  unfold parallel3tri
  grows
macro_rules | `(tactic| grows_leaf) => `(tactic| with_reducible exact g_parallel3tri _ _ _ _ _)

theorem g_parallel3Collapse [HasSqrt K] (pivot : VId) (now : K) (step : ℤ) (a : TId)
    (near : List (Fin 3)) (zero : Bool) :
    Keeps (Grows (K := K)) (parallel3.parallel3Collapse pivot now step a near zero) := by
  unfold parallel3.parallel3Collapse
  grows
macro_rules
  | `(tactic| grows_leaf) => `(tactic| with_reducible exact g_parallel3Collapse _ _ _ _ _ _)

theorem g_parallel3 [HasSqrt K] (a b : TId) (pivot : VId) (now : K) (step : ℤ) :
    Keeps (Grows (K := K)) (parallel3 a b pivot now step) := by
  unfold parallel3
  grows
macro_rules | `(tactic| grows_leaf) => `(tactic| with_reducible exact g_parallel3 _ _ _ _ _)

theorem g_stopPivot [HasSqrt K] [HasTrig K] (pivot : VId) (now : K) (n : NodeId) :
    Keeps (Grows (K := K)) (shorterLeg.stopPivot pivot now n) := by
  unfold shorterLeg.stopPivot
  grows
macro_rules | `(tactic| grows_leaf) => `(tactic| with_reducible exact g_stopPivot _ _ _)

theorem g_replaceSide [HasSqrt K] (t : TId) (now : K) (n other : Option TId) (v kv : VId)
    (dir : Dir) : Keeps (Grows (K := K)) (shorterLeg.replaceSide t now n other v kv dir) := by
  unfold shorterLeg.replaceSide
  grows
macro_rules | `(tactic| grows_leaf) => `(tactic| with_reducible exact g_replaceSide _ _ _ _ _ _ _)

theorem g_shorterLeg [HasSqrt K] [HasTrig K] (t : TId) (e : Fin 3) (pivot : VId) (now : K)
    (step : ℤ) : Keeps (Grows (K := K)) (shorterLeg t e pivot now step) := by
  unfold shorterLeg
  grows
macro_rules | `(tactic| grows_leaf) => `(tactic| with_reducible exact g_shorterLeg _ _ _ _ _)

theorem g_evenTriangle [HasSqrt K] (pivot : VId) (now : K) (t : TId) :
    Keeps (Grows (K := K)) (evenTriangle pivot now t) := by
  unfold evenTriangle
  grows
macro_rules | `(tactic| grows_leaf) => `(tactic| with_reducible exact g_evenTriangle _ _ _)

theorem g_hasInfFast (t : TId) : Keeps (Grows (K := K)) (hasInfFast t) := by
  unfold hasInfFast
  grows
macro_rules | `(tactic| grows_leaf) => `(tactic| with_reducible exact g_hasInfFast _)

theorem g_flipPair [HasSqrt K] (t0 t1 : TId) (pivot : VId) (now : K) (step : ℤ) :
    Keeps (Grows (K := K)) (flipPair t0 t1 pivot now step) := by
  unfold flipPair
  grows
macro_rules | `(tactic| grows_leaf) => `(tactic| with_reducible exact g_flipPair _ _ _ _ _)

theorem g_assertStopped (t : TId) : Keeps (Grows (K := K)) (assertStopped t) := by
  unfold assertStopped
  grows
macro_rules | `(tactic| grows_leaf) => `(tactic| with_reducible exact g_assertStopped _)

theorem g_parallelEven [HasSqrt K] (fan : List TId) (pivot : VId) (now : K) (step : ℤ) :
    Keeps (Grows (K := K)) (parallelEven fan pivot now step) := by
  unfold parallelEven
  grows
macro_rules | `(tactic| grows_leaf) => `(tactic| with_reducible exact g_parallelEven _ _ _ _)

theorem g_nextFan (kv : VId) (a b : List TId) : Keeps (Grows (K := K)) (nextFan kv a b) := by
  unfold nextFan
  grows
macro_rules | `(tactic| grows_leaf) => `(tactic| with_reducible exact g_nextFan _ _ _)

theorem g_parallelLegs [HasSqrt K] [HasTrig K] (fan : List TId) (a b : TId) (pivot : VId)
    (now : K) (dir : Dir) (step : ℤ) :
    Keeps (Grows (K := K)) (parallelLegs fan a b pivot now dir step) := by
  unfold parallelLegs
  grows
macro_rules | `(tactic| grows_leaf) => `(tactic| with_reducible exact g_parallelLegs _ _ _ _ _ _ _)

theorem g_parallelStep [HasSqrt K] [HasTrig K] (fan : List TId) (pivot : VId)
    (now : K) (dir : Dir) (step : ℤ) :
    Keeps (Grows (K := K)) (parallelStep fan pivot now dir step) := by
  unfold parallelStep
  grows
macro_rules | `(tactic| grows_leaf) => `(tactic| with_reducible exact g_parallelStep _ _ _ _ _)

theorem g_parallelFan [HasSqrt K] [HasTrig K] (depth : ℕ) (fan : List TId) (pivot : VId)
    (now : K) (dir : Dir) (step : ℤ) :
    Keeps (Grows (K := K)) (parallelFan depth fan pivot now dir step) := by
  induction depth generalizing fan pivot dir with
  | zero => exact Keeps.raise _
  | succ d ih =>
    unfold parallelFan
    refine Keeps.bind growsPre (g_parallelStep _ _ _ _ _) fun r => ?_
    cases r with
    | none => exact Keeps.pure growsPre _
    | some r => exact ih _ _ _
macro_rules | `(tactic| grows_leaf) => `(tactic| with_reducible exact g_parallelFan _ _ _ _ _ _)

theorem g_evalPosition (v : Option VId) (now : K) :
    Keeps (Grows (K := K)) (evalPosition v now) := by
  unfold evalPosition
  grows
macro_rules | `(tactic| grows_leaf) => `(tactic| with_reducible exact g_evalPosition _ _)

theorem g_checkLinks (v : VId) : Keeps (Grows (K := K)) (checkLinks v) := by
  unfold checkLinks
  grows
macro_rules | `(tactic| grows_leaf) => `(tactic| with_reducible exact g_checkLinks _)

theorem g_scheduleTiny [HasSqrt K] (fan : List TId) (kv : VId) (dir : Dir) (now : K) :
    Keeps (Grows (K := K)) (scheduleTiny fan kv dir now) := by
  unfold scheduleTiny
  grows
macro_rules | `(tactic| grows_leaf) => `(tactic| with_reducible exact g_scheduleTiny _ _ _ _)

theorem g_edgeSide [HasSqrt K] (n : Option TId) (t : TId) (o : Option TId) (v kv : VId) (now : K)
    (dir : Dir) : Keeps (Grows (K := K)) (edgeSide n t o v kv now dir) := by
  unfold edgeSide
  grows
macro_rules | `(tactic| grows_leaf) => `(tactic| with_reducible exact g_edgeSide _ _ _ _ _ _ _)

theorem g_edgeFan [HasSqrt K] [HasTrig K] (depth : ℕ) (kv : VId) (a b : List TId) (now : K)
    (step : ℤ) : Keeps (Grows (K := K)) (edgeFan depth kv a b now step) := by
  unfold edgeFan
  grows
macro_rules | `(tactic| grows_leaf) => `(tactic| with_reducible exact g_edgeFan _ _ _ _ _ _)

theorem g_edgeVertex [HasSqrt K] [HasTrig K] (t : TId) (e : Fin 3) (now : K) (step : ℤ) :
    Keeps (Grows (K := K)) (edgeVertex t e now step) := by
  unfold edgeVertex
  grows
macro_rules | `(tactic| grows_leaf) => `(tactic| with_reducible exact g_edgeVertex _ _ _ _)

theorem g_handleEdge [HasSqrt K] [HasTrig K] (depth : ℕ) (evt : Event K) (step : ℤ) :
    Keeps (Grows (K := K)) (handleEdge depth evt step) := by
  unfold handleEdge
  grows
macro_rules | `(tactic| grows_leaf) => `(tactic| with_reducible exact g_handleEdge _ _ _)

theorem g_threeSidesNeighbour [HasSqrt K] (t : TId) (now : K) (i : Fin 3) :
    Keeps (Grows (K := K)) (threeSidesNeighbour t now i) := by
  unfold threeSidesNeighbour
  grows
macro_rules | `(tactic| grows_leaf) => `(tactic| with_reducible exact g_threeSidesNeighbour _ _ _)

theorem g_handleEdge3 [HasSqrt K] (evt : Event K) (step : ℤ) :
    Keeps (Grows (K := K)) (handleEdge3 evt step) := by
  unfold handleEdge3
  grows
macro_rules | `(tactic| grows_leaf) => `(tactic| with_reducible exact g_handleEdge3 _ _)

theorem g_handleEdge1 [HasSqrt K] [HasTrig K] (evt : Event K) (step : ℤ) :
    Keeps (Grows (K := K)) (handleEdge1 evt step) := by
  unfold handleEdge1
  grows
macro_rules | `(tactic| grows_leaf) => `(tactic| with_reducible exact g_handleEdge1 _ _)

theorem g_splitChecks [HasSqrt K] (v v1 v2 : VId) (now : K) :
    Keeps (Grows (K := K)) (splitChecks v v1 v2 now) := by
  unfold splitChecks
  grows
macro_rules | `(tactic| grows_leaf) => `(tactic| with_reducible exact g_splitChecks _ _ _ _)

theorem g_splitVertices [HasSqrt K] [HasTrig K] (v v1 v2 : VId) (now : K) (step : ℤ) :
    Keeps (Grows (K := K)) (splitVertices v v1 v2 now step) := by
  unfold splitVertices
  grows
macro_rules | `(tactic| grows_leaf) => `(tactic| with_reducible exact g_splitVertices _ _ _ _ _)

theorem g_splitSide [HasSqrt K] (t : TId) (i : Fin 3) (v newv : VId) (now : K) (dir : Dir) :
    Keeps (Grows (K := K)) (splitSide t i v newv now dir) := by
  unfold splitSide
  grows
macro_rules | `(tactic| grows_leaf) => `(tactic| with_reducible exact g_splitSide _ _ _ _ _ _)

theorem g_splitFan [HasSqrt K] [HasTrig K] (depth : ℕ) (v : VId) (fan : List TId) (now : K)
    (dir : Dir) (step : ℤ) : Keeps (Grows (K := K)) (splitFan depth v fan now dir step) := by
  unfold splitFan
  grows
macro_rules | `(tactic| grows_leaf) => `(tactic| with_reducible exact g_splitFan _ _ _ _ _ _)

theorem g_handleSplit [HasSqrt K] [HasTrig K] (depth : ℕ) (evt : Event K) (step : ℤ) :
    Keeps (Grows (K := K)) (handleSplit depth evt step) := by
  unfold handleSplit
  grows
macro_rules | `(tactic| grows_leaf) => `(tactic| with_reducible exact g_handleSplit _ _ _)

theorem g_handleEvent [HasSqrt K] [HasTrig K] (depth : ℕ) (evt : Event K) (step : ℤ) :
    Keeps (Grows (K := K)) (handleEvent depth evt step) := by
  unfold handleEvent
  grows
macro_rules | `(tactic| grows_leaf) => `(tactic| with_reducible exact g_handleEvent _ _ _)

theorem g_loopStep [HasSqrt K] [HasTrig K] (depth : ℕ) (step : ℤ) (now : K) :
    Keeps (Grows (K := K)) (loopStep depth step now) := by
  unfold loopStep
  grows
macro_rules | `(tactic| grows_leaf) => `(tactic| with_reducible exact g_loopStep _ _ _)

theorem g_loop [HasSqrt K] [HasTrig K] (depth fuel : ℕ) (step : ℤ) (now : K) :
    Keeps (Grows (K := K)) (loop depth fuel step now) := by
  induction fuel generalizing step now with
  | zero =>
    intro s a s' h
    unfold loop at h
    split_ifs at h
    simp only [Except.ok.injEq, Prod.mk.injEq] at h
    rw [h.2]; exact growsPre.refl _
  | succ fuel ih =>
    unfold loop
    refine Keeps.bind growsPre (g_loopStep _ _ _) fun r => ?_
    cases r with
    | none => exact Keeps.pure growsPre _
    | some r => exact ih _ _
macro_rules | `(tactic| grows_leaf) => `(tactic| with_reducible exact g_loop _ _ _ _)

theorem g_checkBisectorDirection (t : TId) (i : Fin 3) (now : K) :
    Keeps (Grows (K := K)) (checkBisectorDirection t i now) := by
  unfold checkBisectorDirection
  grows
macro_rules | `(tactic| grows_leaf) => `(tactic| with_reducible exact g_checkBisectorDirection _ _ _)

theorem g_checkBisectors (ts : List TId) (now : K) :
    Keeps (Grows (K := K)) (checkBisectors ts now) := by
  unfold checkBisectors
  grows
macro_rules | `(tactic| grows_leaf) => `(tactic| with_reducible exact g_checkBisectors _ _)

theorem g_checkOrientation (ts : List TId) (now : K) :
    Keeps (Grows (K := K)) (checkOrientation ts now) := by
  unfold checkOrientation
  grows
macro_rules | `(tactic| grows_leaf) => `(tactic| with_reducible exact g_checkOrientation _ _)

theorem g_leftOver (t : TId) : Keeps (Grows (K := K)) (leftOver t) := by
  unfold leftOver
  grows
macro_rules | `(tactic| grows_leaf) => `(tactic| with_reducible exact g_leftOver _)

theorem g_checkAllStopped (ts : List TId) : Keeps (Grows (K := K)) (checkAllStopped ts) := by
  unfold checkAllStopped
  grows
macro_rules | `(tactic| grows_leaf) => `(tactic| with_reducible exact g_checkAllStopped _)

theorem g_skelTriangles : Keeps (Grows (K := K)) skelTriangles :=
  Keeps.of_same growsPre fun s a s' h => by
    unfold skelTriangles at h
    simp only [Except.ok.injEq, Prod.mk.injEq] at h
    exact h.2
macro_rules | `(tactic| grows_leaf) => `(tactic| with_reducible exact g_skelTriangles)

theorem g_clearImmediate : Keeps (Grows (K := K)) clearImmediate := fun s a s' h => by
  unfold clearImmediate at h
  simp only [Except.ok.injEq, Prod.mk.injEq, true_and] at h
  subst h; exact grows_queues s _ _
macro_rules | `(tactic| grows_leaf) => `(tactic| with_reducible exact g_clearImmediate)

theorem g_clearQueue : Keeps (Grows (K := K)) clearQueue := fun s a s' h => by
  unfold clearQueue at h
  simp only [Except.ok.injEq, Prod.mk.injEq, true_and] at h
  subst h; exact grows_queues s _ _
macro_rules | `(tactic| grows_leaf) => `(tactic| with_reducible exact g_clearQueue)

theorem g_eventLoop [HasSqrt K] [HasTrig K] (depth : ℕ) :
    Keeps (Grows (K := K)) (eventLoop depth) := by
  unfold eventLoop
  grows

theorem g_initEvent [HasSqrt K] (t : TId) : Keeps (Grows (K := K)) (initEvent t) := by
  unfold initEvent
  grows
macro_rules | `(tactic| grows_leaf) => `(tactic| with_reducible exact g_initEvent _)

theorem g_initEventList [HasSqrt K] : Keeps (Grows (K := K)) initEventList := by
  unfold initEventList
  grows

end Grassfire
