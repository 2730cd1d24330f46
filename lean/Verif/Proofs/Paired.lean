/-
Two runs whose queues hold the same events, each in the order of its own ids of the triangles, do the
same until they take an event from the queue (lemmas for C104).
-/
import Verif.Proofs.Wp
import Verif.Props.Queue

set_option linter.unusedSectionVars false

namespace Grassfire

variable {K : Type} [Field K] [LinearOrder K]

/-- The two states are the same but for the ids of the triangles and the order of the queue. -/
structure Twin (p q : TId → ℕ) (s s' : St K) : Prop where
  same : s' = { s with pyid := q, queue := s'.queue }
  pyid : s.pyid = p
  perm : s'.queue.Perm s.queue
  ord : Ordered p s.queue
  ord' : Ordered q s'.queue

/-- Two computations end in the same way: with the same fault or the same result and twin states. -/
inductive Alike (p q : TId → ℕ) {α : Type} : Except Fault (α × St K) → Except Fault (α × St K) → Prop where
  | ok {a : α} {s s' : St K} : Twin p q s s' → Alike p q (.ok (a, s)) (.ok (a, s'))
  | error {e : Fault} : Alike p q (.error e) (.error e)

/-- The computation does the same in twin states. -/
def Paired {α : Type} (m : M K α) : Prop :=
  ∀ p q : TId → ℕ, p.Injective → q.Injective → ∀ s s', Twin p q s s' → Alike p q (m s) (m s')

theorem Paired.pure {α : Type} (a : α) : Paired (pure a : M K α) := fun _ _ _ _ _ _ h => .ok h

theorem Paired.raise {α : Type} (e : Err) : Paired (raise e : M K α) := fun _ _ _ _ _ _ _ => .error

theorem Alike.bind {p q : TId → ℕ} {α β : Type} {m : M K α} {f : α → M K β} {s s' : St K} (hm : Alike p q (m s) (m s'))
    (hf : ∀ a t t', m s = .ok (a, t) → Twin p q t t' → Alike p q (f a t) (f a t')) :
    Alike p q ((m >>= f) s) ((m >>= f) s') := by
  rw [bind_run, bind_run]
  generalize h : m s = x at *
  generalize m s' = y at *
  cases hm with
  | error => exact .error
  | ok ht => exact hf _ _ _ rfl ht

theorem Paired.bind {α β : Type} {m : M K α} {f : α → M K β} (hm : Paired m)
    (hf : ∀ a, Paired (f a)) : Paired (m >>= f) :=
  fun p q hp hq s s' h => (hm p q hp hq s s' h).bind fun a t t' _ ht => hf a p q hp hq t t' ht

theorem Paired.ite {α : Type} {c : Prop} [Decidable c] {m n : M K α} (hm : Paired m)
    (hn : Paired n) : Paired (if c then m else n) := by
  split
  · exact hm
  · exact hn

theorem Paired.forEach {α : Type} {f : α → M K Unit} (hf : ∀ a, Paired (f a)) (l : List α) :
    Paired (forEach f l) := by
  induction l with
  | nil => exact Paired.pure _
  | cons x xs ih => exact Paired.bind (hf x) fun _ => ih

theorem Paired.mapEach {α β : Type} {f : α → M K β} (hf : ∀ a, Paired (f a)) (l : List α) :
    Paired (mapEach f l) := by
  induction l with
  | nil => exact Paired.pure _
  | cons x xs ih => exact Paired.bind (hf x) fun _ => Paired.bind ih fun _ => Paired.pure _

/-! ### primitives -/

/-- other ids for the triangles and another queue -/
structure Reorder (K : Type) where
  pyid : TId → ℕ
  queue : List (Event K)

/-- the state with the other ids and queue -/
def Reorder.st (R : Reorder K) (s : St K) : St K := { s with pyid := R.pyid, queue := R.queue }

/-- the state that a computation leaves with the other ids and queue -/
def Reorder.res {α : Type} (R : Reorder K) : Except Fault (α × St K) → Except Fault (α × St K)
  | .ok r => .ok (r.1, R.st r.2)
  | .error e => .error e

/-- computations that have nothing to do with the ids and the queue -/
theorem Paired.plain {α : Type} {m : M K α} (h : ∀ (R : Reorder K) s, m (R.st s) = R.res (m s)) :
    Paired m := by
  intro p q _ _ s s' ht
  have h1 := h ⟨q, s'.queue⟩ s
  have e1 : (⟨q, s'.queue⟩ : Reorder K).st s = s' := ht.same.symm
  rw [e1] at h1
  have h2 := h ⟨s.pyid, s.queue⟩ s
  have e2 : (⟨s.pyid, s.queue⟩ : Reorder K).st s = s := rfl
  rw [e2] at h2
  rw [h1]
  cases hm : m s with
  | error e => exact .error
  | ok r =>
    rw [hm] at h2
    have e3 : r.2 = (⟨s.pyid, s.queue⟩ : Reorder K).st r.2 := congrArg Prod.snd (Except.ok.inj h2)
    have e4 : r.2.pyid = s.pyid := (congrArg St.pyid e3).trans rfl
    have e5 : r.2.queue = s.queue := (congrArg St.queue e3).trans rfl
    refine .ok (s := r.2) (s' := (⟨q, s'.queue⟩ : Reorder K).st r.2) ⟨rfl, e4.trans ht.pyid, ?_, ?_, ht.ord'⟩
    · rw [e5]; exact ht.perm
    · rw [e5]; exact ht.ord

theorem twin_zero {p q : TId → ℕ} (hp : p.Injective) (hq : q.Injective) (e x : Event K) :
    compareEvents q e x = 0 ↔ compareEvents p e x = 0 := by
  rw [C31_zero_iff q e x fun h => hq h, C31_zero_iff p e x fun h => hp h]

/-- a computation written as a function of the state -/
macro "twin_prim" f:ident : tactic => `(tactic| (
  refine Paired.plain ?_
  intro R s
  unfold $f
  first
    | rfl
    | (simp only [Reorder.st]; (repeat' split) <;> first
        | rfl
        | simp_all [Reorder.res, Reorder.st, Grassfire.raise])))

theorem tw_assertM (c : Prop) [Decidable c] : Paired (assertM c : M K _) := by
  twin_prim assertM

theorem tw_need {α : Type} (o : Option α) : Paired (need o : M K _) := by
  twin_prim need

theorem tw_needIdx {α : Type} (o : Option α) : Paired (needIdx o : M K _) := by
  twin_prim needIdx

theorem tw_needNum (o : Option K) : Paired (needNum o : M K _) := by
  twin_prim needNum

theorem tw_lift {α : Type} (x : Except Err α) : Paired (lift x : M K _) := by
  twin_prim lift

theorem tw_assertSome {α : Type} (o : Option α) : Paired (assertSome o : M K _) := by
  twin_prim assertSome

theorem tw_getV (v : VId) : Paired (getV v : M K _) := by
  refine Paired.plain ?_
  intro R s
  by_cases h : v < s.nV <;> simp [getV, Reorder.st, Reorder.res, h]

theorem tw_getK (v : VId) : Paired (getK v : M K _) := by
  refine Paired.plain ?_
  intro R s
  by_cases h : v < s.nV
  · cases hk : s.vert v <;> simp [getK, Reorder.st, Reorder.res, h, hk]
  · simp [getK, Reorder.st, Reorder.res, h]

theorem tw_getT (v : TId) : Paired (getT v : M K _) := by
  refine Paired.plain ?_
  intro R s
  by_cases h : v < s.nT <;> simp [getT, Reorder.st, Reorder.res, h]

theorem tw_getN (v : NodeId) : Paired (getN v : M K _) := by
  refine Paired.plain ?_
  intro R s
  by_cases h : v < s.nN <;> simp [getN, Reorder.st, Reorder.res, h]

theorem tw_getLine (v : LineId) : Paired (getLine v : M K _) := by
  twin_prim getLine

theorem tw_getWfLine (v : WfId) : Paired (getWfLine v : M K _) := by
  twin_prim getWfLine

theorem tw_countVertices  : Paired (countVertices : M K _) := by
  twin_prim countVertices

theorem tw_positionAt (v : VId) (time : K) : Paired (positionAt v time : M K _) := by
  refine Paired.plain ?_
  intro R s
  by_cases h : v < s.nV
  · cases hp : (s.vert v).positionAt (fun n => (s.node n).pos) time <;>
      simp [positionAt, Reorder.st, Reorder.res, h, hp]
  · simp [positionAt, Reorder.st, Reorder.res, h]

theorem tw_singleSide (l : List (Fin 3)) : Paired (singleSide l : M K _) := by
  twin_prim singleSide

theorem tw_tryIntersection [HasSqrt K] (l r : Line2 K) (now : K) : Paired (tryIntersection l r now : M K _) := by
  twin_prim tryIntersection

theorem tw_triView (t : TId) : Paired (triView t : M K _) := by
  refine Paired.plain ?_
  intro R s
  have hv : ∀ v, viewOf (R.st s) v = viewOf s v := fun _ => rfl
  by_cases h : t < s.nT
  · by_cases h2 : (s.tri t).vertices 0 < s.nV ∧ (s.tri t).vertices 1 < s.nV ∧
        (s.tri t).vertices 2 < s.nV
    · simp [triView, hv]
      simp [Reorder.st, Reorder.res, h, h2]
    · simp [triView, hv]
      simp [Reorder.st, Reorder.res, h, h2]
  · simp [triView, Reorder.st, Reorder.res, h]

theorem tw_modifyK (v : VId) (f : KVertex K → KVertex K) : Paired (modifyK v f : M K _) := by
  refine Paired.plain ?_
  intro R s
  by_cases h : v < s.nV
  · cases hk : s.vert v <;> simp [modifyK, Reorder.st, Reorder.res, h, hk]
  · simp [modifyK, Reorder.st, Reorder.res, h]

theorem tw_modifyT (v : TId) (f : KTri K → KTri K) : Paired (modifyT v f : M K _) := by
  refine Paired.plain ?_
  intro R s
  by_cases h : v < s.nT <;> simp [modifyT, Reorder.st, Reorder.res, h]

theorem tw_newNode (n : Node K) : Paired (newNode n : M K _) := by
  twin_prim newNode

theorem tw_newK (kv : KVertex K) : Paired (newK kv : M K _) := by
  twin_prim newK

theorem tw_newEvent (c : EvCore K) (t : TId) : Paired (newEvent c t : M K _) := by
  twin_prim newEvent

theorem tw_appendNode (n : NodeId) : Paired (appendNode n : M K _) := by
  twin_prim appendNode

theorem tw_appendVertex (n : VId) : Paired (appendVertex n : M K _) := by
  twin_prim appendVertex

theorem tw_queueAdd (e : Event K) : Paired (queueAdd e : M K _) := by
  intro p q hp hq s s' h
  have h1 : s'.pyid = q := congrArg St.pyid h.same
  have ha : (s'.queue.any fun x => decide (compareEvents s'.pyid e x = 0)) =
      s.queue.any fun x => decide (compareEvents s.pyid e x = 0) := by
    rw [h1, h.pyid, h.perm.any_eq]
    simp only [twin_zero hp hq]
  by_cases c : (s.queue.any fun x => decide (compareEvents s.pyid e x = 0)) = true
  · have e1 : queueAdd e s = .error .outside := if_pos c
    have e2 : queueAdd e s' = .error .outside := if_pos (ha.trans c)
    rw [e1, e2]; exact .error
  · have e1 : queueAdd e s = .ok ((), { s with queue := queueInsert s.pyid e s.queue }) := if_neg c
    have e2 : queueAdd e s' = .ok ((), { s' with queue := queueInsert s'.pyid e s'.queue }) := if_neg (ha ▸ c)
    have n1 : ∀ x ∈ s.queue, compareEvents p e x ≠ 0 := fun x hx hz =>
      c (List.any_eq_true.2 ⟨x, hx, decide_eq_true (h.pyid ▸ hz)⟩)
    have n2 : ∀ x ∈ s'.queue, compareEvents q e x ≠ 0 := fun x hx hz =>
      n1 x (h.perm.mem_iff.1 hx) ((twin_zero hp hq e x).1 hz)
    obtain ⟨o1, p1⟩ := C31_add_ordered p e s.queue h.ord n1
    obtain ⟨o2, p2⟩ := C31_add_ordered q e s'.queue h.ord' n2
    have q1 : queueInsert s.pyid e s.queue = queueInsert p e s.queue := by rw [h.pyid]
    have q2 : queueInsert s'.pyid e s'.queue = queueInsert q e s'.queue := by rw [h1]
    rw [e1, e2, q1, q2]
    refine .ok ⟨?_, h.pyid, p2.trans ((h.perm.cons e).trans p1.symm), o1, o2⟩
    have := h.same
    generalize s'.queue = Q at *
    subst this
    rfl

theorem tw_queueDiscard (e : Event K) : Paired (queueDiscard e : M K _) := by
  intro p q hp hq s s' h
  have h1 : s'.pyid = q := congrArg St.pyid h.same
  have hf : (s'.queue.filter fun x => decide (compareEvents s'.pyid e x ≠ 0)) =
      s'.queue.filter fun x => decide (compareEvents s.pyid e x ≠ 0) := by
    simp only [h1, h.pyid, ne_eq, twin_zero hp hq]
  unfold queueDiscard
  rw [hf]
  refine .ok ⟨?_, h.pyid, h.perm.filter _, h.ord.sublist List.filter_sublist, h.ord'.sublist List.filter_sublist⟩
  have := h.same
  generalize s'.queue = Q at *
  subst this
  rfl

theorem tw_queueDiscardOpt (e : Option (Event K)) : Paired (queueDiscardOpt e : M K _) := by
  intro p q hp hq s s' h
  cases e with
  | some e => exact tw_queueDiscard e p q hp hq s s' h
  | none =>
    show Alike p q (if s.queue.isEmpty then .ok ((), s) else .error (.py .attributeError))
      (if s'.queue.isEmpty then .ok ((), s') else .error (.py .attributeError))
    rw [h.perm.isEmpty_eq]
    split
    · exact .ok h
    · exact .error

theorem tw_immediateRemove (e : Event K) : Paired (immediateRemove e : M K _) := by
  twin_prim immediateRemove

theorem tw_immediateAppend (e : Event K) : Paired (immediateAppend e : M K _) := by
  twin_prim immediateAppend

/-! ### the functions -/

/-- leaves of the proof search of `twin` -/
syntax "twin_leaf" : tactic

macro_rules | `(tactic| twin_leaf) => `(tactic| with_reducible exact tw_assertM _)
macro_rules | `(tactic| twin_leaf) => `(tactic| with_reducible exact tw_need _)
macro_rules | `(tactic| twin_leaf) => `(tactic| with_reducible exact tw_needIdx _)
macro_rules | `(tactic| twin_leaf) => `(tactic| with_reducible exact tw_needNum _)
macro_rules | `(tactic| twin_leaf) => `(tactic| with_reducible exact tw_lift _)
macro_rules | `(tactic| twin_leaf) => `(tactic| with_reducible exact tw_assertSome _)
macro_rules | `(tactic| twin_leaf) => `(tactic| with_reducible exact tw_getV _)
macro_rules | `(tactic| twin_leaf) => `(tactic| with_reducible exact tw_getK _)
macro_rules | `(tactic| twin_leaf) => `(tactic| with_reducible exact tw_getT _)
macro_rules | `(tactic| twin_leaf) => `(tactic| with_reducible exact tw_getN _)
macro_rules | `(tactic| twin_leaf) => `(tactic| with_reducible exact tw_getLine _)
macro_rules | `(tactic| twin_leaf) => `(tactic| with_reducible exact tw_getWfLine _)
macro_rules | `(tactic| twin_leaf) => `(tactic| with_reducible exact tw_countVertices)
macro_rules | `(tactic| twin_leaf) => `(tactic| with_reducible exact tw_positionAt _ _)
macro_rules | `(tactic| twin_leaf) => `(tactic| with_reducible exact tw_singleSide _)
macro_rules | `(tactic| twin_leaf) => `(tactic| with_reducible exact tw_tryIntersection _ _ _)
macro_rules | `(tactic| twin_leaf) => `(tactic| with_reducible exact tw_triView _)
macro_rules | `(tactic| twin_leaf) => `(tactic| with_reducible exact tw_newNode _)
macro_rules | `(tactic| twin_leaf) => `(tactic| with_reducible exact tw_newK _)
macro_rules | `(tactic| twin_leaf) => `(tactic| with_reducible exact tw_newEvent _ _)
macro_rules | `(tactic| twin_leaf) => `(tactic| with_reducible exact tw_appendNode _)
macro_rules | `(tactic| twin_leaf) => `(tactic| with_reducible exact tw_appendVertex _)
macro_rules | `(tactic| twin_leaf) => `(tactic| with_reducible exact tw_queueAdd _)
macro_rules | `(tactic| twin_leaf) => `(tactic| with_reducible exact tw_queueDiscard _)
macro_rules | `(tactic| twin_leaf) => `(tactic| with_reducible exact tw_queueDiscardOpt _)
macro_rules | `(tactic| twin_leaf) => `(tactic| with_reducible exact tw_immediateRemove _)
macro_rules | `(tactic| twin_leaf) => `(tactic| with_reducible exact tw_immediateAppend _)
macro_rules | `(tactic| twin_leaf) => `(tactic| with_reducible exact tw_modifyK _ _)
macro_rules | `(tactic| twin_leaf) => `(tactic| with_reducible exact tw_modifyT _ _)
macro_rules | `(tactic| twin_leaf) => `(tactic| with_reducible exact Paired.pure _)
macro_rules | `(tactic| twin_leaf) => `(tactic| with_reducible exact Paired.raise _)

/-- proof search along the structure of a computation -/
macro "twin" : tactic => `(tactic|
  repeat' first
    | twin_leaf
    | assumption
    | with_reducible refine Paired.bind ?_ fun _ => ?_
    | with_reducible refine Paired.ite ?_ ?_
    | with_reducible refine Paired.forEach (fun _ => ?_) _
    | with_reducible refine Paired.mapEach (fun _ => ?_) _
    | split
    | dsimp only)

theorem tw_setEvent (t : TId) (e : Event K) : Paired (K := K) (setEvent t e) :=
  tw_modifyT _ _
macro_rules | `(tactic| twin_leaf) => `(tactic| with_reducible exact tw_setEvent _ _)

theorem tw_setVertex (t : TId) (i : Fin 3) (v : VId) :
    Paired (K := K) (setVertex t i v) := tw_modifyT _ _
macro_rules | `(tactic| twin_leaf) => `(tactic| with_reducible exact tw_setVertex _ _ _)

theorem tw_setNeighbour (t : TId) (i : Fin 3) (n : Option TId) :
    Paired (K := K) (setNeighbour t i n) := tw_modifyT _ _
macro_rules | `(tactic| twin_leaf) => `(tactic| with_reducible exact tw_setNeighbour _ _ _)

theorem tw_stopTriangle (t : TId) (now : K) : Paired (K := K) (stopTriangle t now) :=
  tw_modifyT _ _
macro_rules | `(tactic| twin_leaf) => `(tactic| with_reducible exact tw_stopTriangle _ _)

theorem tw_setTriangle (t : TId) (vs : Fin 3 → VId) (ns : Fin 3 → Option TId) :
    Paired (K := K) (setTriangle t vs ns) := tw_modifyT _ _
macro_rules | `(tactic| twin_leaf) => `(tactic| with_reducible exact tw_setTriangle _ _ _)

theorem tw_stopAt (v : VId) (n : NodeId) (now : K) : Paired (K := K) (stopAt v n now) :=
  tw_modifyK _ _
macro_rules | `(tactic| twin_leaf) => `(tactic| with_reducible exact tw_stopAt _ _ _)

theorem tw_setWf (v : VId) (l r : Option WfId) :
    Paired (K := K) (modifyK v fun k => { k with wfl := l, wfr := r }) :=
  tw_modifyK _ _
macro_rules | `(tactic| twin_leaf) => `(tactic| with_reducible exact tw_setWf _ _ _)

theorem tw_setRight (l r : Option VId) (now : K) : Paired (K := K) (setRight l r now) := by
  unfold setRight
  split
  · exact tw_modifyK _ _
  · exact Paired.pure _
macro_rules | `(tactic| twin_leaf) => `(tactic| with_reducible exact tw_setRight _ _ _)

theorem tw_setLeft (l r : Option VId) (now : K) : Paired (K := K) (setLeft l r now) := by
  unfold setLeft
  split
  · exact tw_modifyK _ _
  · exact Paired.pure _
macro_rules | `(tactic| twin_leaf) => `(tactic| with_reducible exact tw_setLeft _ _ _)

theorem tw_updateCirc (l r : Option VId) (now : K) :
    Paired (K := K) (updateCirc l r now) := by
  unfold updateCirc
  twin
macro_rules | `(tactic| twin_leaf) => `(tactic| with_reducible exact tw_updateCirc _ _ _)

theorem tw_stopScan (now : K) (V : List VId) (acc : Option NodeId) :
    Paired (K := K) (stopScan now V acc) := by
  induction V generalizing acc with
  | nil => exact Paired.pure _
  | cons v vs ih =>
    unfold stopScan
    refine Paired.bind (tw_getK _) fun _ => Paired.bind (tw_needNum _) fun _ => ?_
    refine Paired.ite (ih _) (Paired.ite (ih _) (Paired.bind ?_ fun _ => ih _))
    exact tw_modifyK _ _
macro_rules | `(tactic| twin_leaf) => `(tactic| with_reducible exact tw_stopScan _ _ _)

theorem tw_setStopNode (v : VId) (n : NodeId) :
    Paired (K := K) (modifyK v fun kv => { kv with stopNode := some n }) :=
  tw_modifyK _ _

theorem tw_stopAtExisting (V : List VId) (now : K) (n : NodeId) :
    Paired (K := K) (stopAtExisting V now n) :=
  Paired.bind (Paired.forEach (fun v => tw_stopAt v n now) _)
    fun _ => Paired.pure _
macro_rules | `(tactic| twin_leaf) => `(tactic| with_reducible exact tw_stopAtExisting _ _ _)

theorem tw_nodePosition (V : List VId) (now : K) (pos : Option (Pt K)) :
    Paired (K := K) (nodePosition V now pos) := by
  unfold nodePosition
  twin
macro_rules | `(tactic| twin_leaf) => `(tactic| with_reducible exact tw_nodePosition _ _ _)

theorem tw_stopAtNew (V : List VId) (step : ℤ) (now : K) (pos : Option (Pt K)) :
    Paired (K := K) (stopAtNew V step now pos) :=
  Paired.bind (tw_nodePosition _ _ _) fun _ => Paired.bind (tw_newNode _) fun _ =>
    Paired.bind (Paired.forEach (fun _ => tw_setStopNode _ _) _)
    fun _ => Paired.pure _
macro_rules | `(tactic| twin_leaf) => `(tactic| with_reducible exact tw_stopAtNew _ _ _ _)

theorem tw_stopAtNode (V : List VId) (step : ℤ) (now : K) (pos : Option (Pt K)) (n : Option NodeId) :
    Paired (K := K) (stopAtNode V step now pos n) := by
  unfold stopAtNode
  twin
macro_rules | `(tactic| twin_leaf) => `(tactic| with_reducible exact tw_stopAtNode _ _ _ _ _)

theorem tw_assertStoppedAt (now : K) (v : VId) :
    Paired (K := K) (assertStoppedAt now v) := by
  unfold assertStoppedAt
  twin
macro_rules | `(tactic| twin_leaf) => `(tactic| with_reducible exact tw_assertStoppedAt _ _)

theorem tw_readVertex (v : VId) :
    Paired (K := K) (readVertex v) := by
  unfold readVertex
  twin
macro_rules | `(tactic| twin_leaf) => `(tactic| with_reducible exact tw_readVertex _)

theorem tw_stopKvertices (V : List VId) (step : ℤ) (now : K) (pos : Option (Pt K)) :
    Paired (K := K) (stopKvertices V step now pos) := by
  unfold stopKvertices
  twin
macro_rules | `(tactic| twin_leaf) => `(tactic| with_reducible exact tw_stopKvertices _ _ _ _)

theorem tw_recordNode (new : Bool) (n : NodeId) :
    Paired (K := K) (recordNode new n) := by
  unfold recordNode
  twin
macro_rules | `(tactic| twin_leaf) => `(tactic| with_reducible exact tw_recordNode _ _)

theorem tw_stopAndRecord (V : List VId) (step : ℤ) (now : K) (pos : Option (Pt K)) :
    Paired (K := K) (stopAndRecord V step now pos) := by
  unfold stopAndRecord
  twin
macro_rules | `(tactic| twin_leaf) => `(tactic| with_reducible exact tw_stopAndRecord _ _ _ _)

theorem tw_computeNewKvertex [HasSqrt K] [HasTrig K] (ul ur : Option LineId) (now : K)
    (node : NodeId) (info : ℕ) (internal : Bool) :
    Paired (K := K) (computeNewKvertex ul ur now node info internal) := by
  unfold computeNewKvertex
  twin
macro_rules | `(tactic| twin_leaf) => `(tactic| with_reducible exact tw_computeNewKvertex _ _ _ _ _ _)

theorem tw_storeEvent (c : Option (EvCore K)) (t : TId) :
    Paired (K := K) (storeEvent c t) := by
  unfold storeEvent
  twin
macro_rules | `(tactic| twin_leaf) => `(tactic| with_reducible exact tw_storeEvent _ _)

theorem tw_computeCollapseTime [HasSqrt K] (t : TId) (now : K) (sieve : Sieve) :
    Paired (K := K) (computeCollapseTime t now sieve) := by
  unfold computeCollapseTime
  twin
macro_rules | `(tactic| twin_leaf) => `(tactic| with_reducible exact tw_computeCollapseTime _ _ _)

theorem tw_discardEvent (e : Option (Event K)) :
    Paired (K := K) (discardEvent e) := by
  unfold discardEvent
  twin
macro_rules | `(tactic| twin_leaf) => `(tactic| with_reducible exact tw_discardEvent _)

theorem tw_addEvent (e : Option (Event K)) :
    Paired (K := K) (addEvent e) := by
  unfold addEvent
  twin
macro_rules | `(tactic| twin_leaf) => `(tactic| with_reducible exact tw_addEvent _)

theorem tw_replaceInQueue [HasSqrt K] (t : TId) (now : K) :
    Paired (K := K) (replaceInQueue t now) := by
  unfold replaceInQueue
  twin
macro_rules | `(tactic| twin_leaf) => `(tactic| with_reducible exact tw_replaceInQueue _ _)

theorem tw_renewEvent [HasSqrt K] (b : Bool) (t : TId) (now : K) :
    Paired (K := K) (renewEvent b t now) := by
  unfold renewEvent
  twin
macro_rules | `(tactic| twin_leaf) => `(tactic| with_reducible exact tw_renewEvent _ _ _)

theorem tw_replaceLoop [HasSqrt K] (v newv : VId) (now : K) (dir : Dir) (fuel : ℕ)
    (t : Option TId) (fan : List TId) :
    Paired (K := K) (replaceLoop v newv now dir fuel t fan) := by
  induction fuel generalizing t fan with
  | zero =>
    cases t with
    | none => exact Paired.pure _
    | some t => exact Paired.plain fun R s => rfl
  | succ fuel ih =>
    cases t with
    | none => exact Paired.pure _
    | some t =>
      unfold replaceLoop
      refine Paired.bind (tw_getT _) fun _ => Paired.bind (tw_needIdx _) fun _ =>
        Paired.bind (tw_setVertex _ _ _) fun _ => Paired.bind (tw_getK _) fun _ =>
        Paired.bind (tw_renewEvent _ _ _) fun _ =>
        Paired.bind (tw_getT _) fun _ => ih _ _

theorem tw_replaceKvertex [HasSqrt K] (t : TId) (v newv : VId) (now : K) (dir : Dir) :
    Paired (K := K) (replaceKvertex t v newv now dir) := by
  intro p q hp hq s s' h
  have e : s'.nT = s.nT := (congrArg St.nT h.same).trans rfl
  show Alike p q (replaceLoop _ _ _ _ _ _ _ s) (replaceLoop _ _ _ _ _ _ _ s')
  rw [e]
  exact tw_replaceLoop _ _ _ _ _ _ _ p q hp hq s s' h
macro_rules | `(tactic| twin_leaf) => `(tactic| with_reducible exact tw_replaceKvertex _ _ _ _ _)

theorem tw_immediateRemoveOpt (e : Option (Event K)) :
    Paired (K := K) (immediateRemoveOpt e) := by
  unfold immediateRemoveOpt
  twin
macro_rules | `(tactic| twin_leaf) => `(tactic| with_reducible exact tw_immediateRemoveOpt _)

theorem tw_immediateEvent [HasSqrt K] (t : TId) (now : K) :
    Paired (K := K) (immediateEvent t now) := by
  unfold immediateEvent
  twin
macro_rules | `(tactic| twin_leaf) => `(tactic| with_reducible exact tw_immediateEvent _ _)

theorem tw_scheduleImmediately [HasSqrt K] (t : TId) (now : K) :
    Paired (K := K) (scheduleImmediately t now) := by
  unfold scheduleImmediately
  twin
macro_rules | `(tactic| twin_leaf) => `(tactic| with_reducible exact tw_scheduleImmediately _ _)

theorem tw_flipSide (n : Option TId) (v : VId) : Paired (K := K) (flipSide n v) := by
  unfold flipSide
  twin
macro_rules | `(tactic| twin_leaf) => `(tactic| with_reducible exact tw_flipSide _ _)

theorem tw_flipLink (n : Option TId) (i : Option (Fin 3)) (t : TId) :
    Paired (K := K) (flipLink n i t) := by
  unfold flipLink
  twin
macro_rules | `(tactic| twin_leaf) => `(tactic| with_reducible exact tw_flipLink _ _ _)

theorem tw_flip (t0 : TId) (s0 : Fin 3) (t1 : TId) (s1 : Fin 3) :
    Paired (K := K) (flip t0 s0 t1 s1) := by
  unfold flip
  twin
macro_rules | `(tactic| twin_leaf) => `(tactic| with_reducible exact tw_flip _ _ _ _)

theorem tw_handleFlip [HasSqrt K] (evt : Event K) : Paired (K := K) (handleFlip evt) := by
  unfold handleFlip
  twin
macro_rules | `(tactic| twin_leaf) => `(tactic| with_reducible exact tw_handleFlip _)

theorem tw_legDist [HasSqrt K] (t : TId) (leg : Fin 3) (now : K) :
    Paired (K := K) (legDist t leg now) := by
  unfold legDist
  twin
macro_rules | `(tactic| twin_leaf) => `(tactic| with_reducible exact tw_legDist _ _ _)

theorem tw_vertexIndex (t : TId) (v : VId) : Paired (K := K) (vertexIndex t v) := by
  unfold vertexIndex
  twin
macro_rules | `(tactic| twin_leaf) => `(tactic| with_reducible exact tw_vertexIndex _ _)

theorem tw_relink (n t : TId) (x : Option TId) : Paired (K := K) (relink n t x) := by
  unfold relink
  twin
macro_rules | `(tactic| twin_leaf) => `(tactic| with_reducible exact tw_relink _ _ _)

theorem tw_detachAndSchedule [HasSqrt K] (n : Option TId) (t : TId) (now : K) :
    Paired (K := K) (detachAndSchedule n t now) := by
  unfold detachAndSchedule
  twin
macro_rules | `(tactic| twin_leaf) => `(tactic| with_reducible exact tw_detachAndSchedule _ _ _)

theorem tw_evenLegs [HasSqrt K] (t : TId) (e : Fin 3) (pivot : VId) (now : K) (step : ℤ) :
    Paired (K := K) (evenLegs t e pivot now step) := by
  unfold evenLegs
  twin
macro_rules | `(tactic| twin_leaf) => `(tactic| with_reducible exact tw_evenLegs _ _ _ _ _)

theorem tw_evenLegsAt [HasSqrt K] (t : TId) (pivot : VId) (now : K) (step : ℤ) :
    Paired (K := K) (evenLegsAt t pivot now step) := by
  unfold evenLegsAt
  twin
macro_rules | `(tactic| twin_leaf) => `(tactic| with_reducible exact tw_evenLegsAt _ _ _ _)

theorem tw_evenLegsIf [HasSqrt K] (c : Bool) (t : TId) (pivot : VId) (now : K) (step : ℤ) :
    Paired (K := K) (evenLegsIf c t pivot now step) := by
  unfold evenLegsIf
  twin
macro_rules | `(tactic| twin_leaf) => `(tactic| with_reducible exact tw_evenLegsIf _ _ _ _ _)

theorem tw_assertVertexStopped (v : VId) :
    Paired (K := K) (assertVertexStopped v) := by
  unfold assertVertexStopped
  twin
macro_rules | `(tactic| twin_leaf) => `(tactic| with_reducible exact tw_assertVertexStopped _)

theorem tw_velocityOf (v : VId) : Paired (K := K) (velocityOf v) := by
  unfold velocityOf
  twin
macro_rules | `(tactic| twin_leaf) => `(tactic| with_reducible exact tw_velocityOf _)

theorem tw_parallel3tri [HasSqrt K] (t : TId) (e : Fin 3) (pivot : VId) (now : K) (step : ℤ) :
    Paired (K := K) (parallel3tri t e pivot now step) := by
  unfold parallel3tri
  twin
macro_rules | `(tactic| twin_leaf) => `(tactic| with_reducible exact tw_parallel3tri _ _ _ _ _)

theorem tw_parallel3Collapse [HasSqrt K] (pivot : VId) (now : K) (step : ℤ) (a : TId)
    (near : List (Fin 3)) (zero : Bool) :
    Paired (K := K) (parallel3.parallel3Collapse pivot now step a near zero) := by
  unfold parallel3.parallel3Collapse
  twin
macro_rules
  | `(tactic| twin_leaf) => `(tactic| with_reducible exact tw_parallel3Collapse _ _ _ _ _ _)

theorem tw_parallel3 [HasSqrt K] (a b : TId) (pivot : VId) (now : K) (step : ℤ) :
    Paired (K := K) (parallel3 a b pivot now step) := by
  unfold parallel3
  twin
macro_rules | `(tactic| twin_leaf) => `(tactic| with_reducible exact tw_parallel3 _ _ _ _ _)

theorem tw_stopPivot [HasSqrt K] [HasTrig K] (pivot : VId) (now : K) (n : NodeId) :
    Paired (K := K) (shorterLeg.stopPivot pivot now n) := by
  unfold shorterLeg.stopPivot
  twin
macro_rules | `(tactic| twin_leaf) => `(tactic| with_reducible exact tw_stopPivot _ _ _)

theorem tw_replaceSide [HasSqrt K] (t : TId) (now : K) (n other : Option TId) (v kv : VId)
    (dir : Dir) : Paired (K := K) (shorterLeg.replaceSide t now n other v kv dir) := by
  unfold shorterLeg.replaceSide
  twin
macro_rules | `(tactic| twin_leaf) => `(tactic| with_reducible exact tw_replaceSide _ _ _ _ _ _ _)

theorem tw_shorterLeg [HasSqrt K] [HasTrig K] (t : TId) (e : Fin 3) (pivot : VId) (now : K)
    (step : ℤ) : Paired (K := K) (shorterLeg t e pivot now step) := by
  unfold shorterLeg
  twin
macro_rules | `(tactic| twin_leaf) => `(tactic| with_reducible exact tw_shorterLeg _ _ _ _ _)

theorem tw_evenTriangle [HasSqrt K] (pivot : VId) (now : K) (t : TId) :
    Paired (K := K) (evenTriangle pivot now t) := by
  unfold evenTriangle
  twin
macro_rules | `(tactic| twin_leaf) => `(tactic| with_reducible exact tw_evenTriangle _ _ _)

theorem tw_hasInfFast (t : TId) : Paired (K := K) (hasInfFast t) := by
  unfold hasInfFast
  twin
macro_rules | `(tactic| twin_leaf) => `(tactic| with_reducible exact tw_hasInfFast _)

theorem tw_flipPair [HasSqrt K] (t0 t1 : TId) (pivot : VId) (now : K) (step : ℤ) :
    Paired (K := K) (flipPair t0 t1 pivot now step) := by
  unfold flipPair
  twin
macro_rules | `(tactic| twin_leaf) => `(tactic| with_reducible exact tw_flipPair _ _ _ _ _)

theorem tw_assertStopped (t : TId) : Paired (K := K) (assertStopped t) := by
  unfold assertStopped
  twin
macro_rules | `(tactic| twin_leaf) => `(tactic| with_reducible exact tw_assertStopped _)

theorem tw_parallelEven [HasSqrt K] (fan : List TId) (pivot : VId) (now : K) (step : ℤ) :
    Paired (K := K) (parallelEven fan pivot now step) := by
  unfold parallelEven
  twin
macro_rules | `(tactic| twin_leaf) => `(tactic| with_reducible exact tw_parallelEven _ _ _ _)

theorem tw_nextFan (kv : VId) (a b : List TId) : Paired (K := K) (nextFan kv a b) := by
  unfold nextFan
  twin
macro_rules | `(tactic| twin_leaf) => `(tactic| with_reducible exact tw_nextFan _ _ _)

theorem tw_parallelLegs [HasSqrt K] [HasTrig K] (fan : List TId) (a b : TId) (pivot : VId)
    (now : K) (dir : Dir) (step : ℤ) :
    Paired (K := K) (parallelLegs fan a b pivot now dir step) := by
  unfold parallelLegs
  twin
macro_rules | `(tactic| twin_leaf) => `(tactic| with_reducible exact tw_parallelLegs _ _ _ _ _ _ _)

theorem tw_parallelStep [HasSqrt K] [HasTrig K] (fan : List TId) (pivot : VId)
    (now : K) (dir : Dir) (step : ℤ) :
    Paired (K := K) (parallelStep fan pivot now dir step) := by
  unfold parallelStep
  twin
macro_rules | `(tactic| twin_leaf) => `(tactic| with_reducible exact tw_parallelStep _ _ _ _ _)

theorem tw_parallelFan [HasSqrt K] [HasTrig K] (depth : ℕ) (fan : List TId) (pivot : VId)
    (now : K) (dir : Dir) (step : ℤ) :
    Paired (K := K) (parallelFan depth fan pivot now dir step) := by
  induction depth generalizing fan pivot dir with
  | zero => exact Paired.raise _
  | succ d ih =>
    unfold parallelFan
    refine Paired.bind (tw_parallelStep _ _ _ _ _) fun r => ?_
    cases r with
    | none => exact Paired.pure _
    | some r => exact ih _ _ _
macro_rules | `(tactic| twin_leaf) => `(tactic| with_reducible exact tw_parallelFan _ _ _ _ _ _)

theorem tw_evalPosition (v : Option VId) (now : K) :
    Paired (K := K) (evalPosition v now) := by
  unfold evalPosition
  twin
macro_rules | `(tactic| twin_leaf) => `(tactic| with_reducible exact tw_evalPosition _ _)

theorem tw_checkLinks (v : VId) : Paired (K := K) (checkLinks v) := by
  unfold checkLinks
  twin
macro_rules | `(tactic| twin_leaf) => `(tactic| with_reducible exact tw_checkLinks _)

theorem tw_scheduleTiny [HasSqrt K] (fan : List TId) (kv : VId) (dir : Dir) (now : K) :
    Paired (K := K) (scheduleTiny fan kv dir now) := by
  unfold scheduleTiny
  twin
macro_rules | `(tactic| twin_leaf) => `(tactic| with_reducible exact tw_scheduleTiny _ _ _ _)

theorem tw_edgeSide [HasSqrt K] (n : Option TId) (t : TId) (o : Option TId) (v kv : VId) (now : K)
    (dir : Dir) : Paired (K := K) (edgeSide n t o v kv now dir) := by
  unfold edgeSide
  twin
macro_rules | `(tactic| twin_leaf) => `(tactic| with_reducible exact tw_edgeSide _ _ _ _ _ _ _)

theorem tw_edgeFan [HasSqrt K] [HasTrig K] (depth : ℕ) (kv : VId) (a b : List TId) (now : K)
    (step : ℤ) : Paired (K := K) (edgeFan depth kv a b now step) := by
  unfold edgeFan
  twin
macro_rules | `(tactic| twin_leaf) => `(tactic| with_reducible exact tw_edgeFan _ _ _ _ _ _)

theorem tw_edgeVertex [HasSqrt K] [HasTrig K] (t : TId) (e : Fin 3) (now : K) (step : ℤ) :
    Paired (K := K) (edgeVertex t e now step) := by
  unfold edgeVertex
  twin
macro_rules | `(tactic| twin_leaf) => `(tactic| with_reducible exact tw_edgeVertex _ _ _ _)

theorem tw_handleEdge [HasSqrt K] [HasTrig K] (depth : ℕ) (evt : Event K) (step : ℤ) :
    Paired (K := K) (handleEdge depth evt step) := by
  unfold handleEdge
  twin
macro_rules | `(tactic| twin_leaf) => `(tactic| with_reducible exact tw_handleEdge _ _ _)

theorem tw_threeSidesNeighbour [HasSqrt K] (t : TId) (now : K) (i : Fin 3) :
    Paired (K := K) (threeSidesNeighbour t now i) := by
  unfold threeSidesNeighbour
  twin
macro_rules | `(tactic| twin_leaf) => `(tactic| with_reducible exact tw_threeSidesNeighbour _ _ _)

theorem tw_handleEdge3 [HasSqrt K] (evt : Event K) (step : ℤ) :
    Paired (K := K) (handleEdge3 evt step) := by
  unfold handleEdge3
  twin
macro_rules | `(tactic| twin_leaf) => `(tactic| with_reducible exact tw_handleEdge3 _ _)

theorem tw_handleEdge1 [HasSqrt K] [HasTrig K] (evt : Event K) (step : ℤ) :
    Paired (K := K) (handleEdge1 evt step) := by
  unfold handleEdge1
  twin
macro_rules | `(tactic| twin_leaf) => `(tactic| with_reducible exact tw_handleEdge1 _ _)

theorem tw_splitChecks [HasSqrt K] (v v1 v2 : VId) (now : K) :
    Paired (K := K) (splitChecks v v1 v2 now) := by
  unfold splitChecks
  twin
macro_rules | `(tactic| twin_leaf) => `(tactic| with_reducible exact tw_splitChecks _ _ _ _)

theorem tw_splitVertices [HasSqrt K] [HasTrig K] (v v1 v2 : VId) (now : K) (step : ℤ) :
    Paired (K := K) (splitVertices v v1 v2 now step) := by
  unfold splitVertices
  twin
macro_rules | `(tactic| twin_leaf) => `(tactic| with_reducible exact tw_splitVertices _ _ _ _ _)

theorem tw_splitSide [HasSqrt K] (t : TId) (i : Fin 3) (v newv : VId) (now : K) (dir : Dir) :
    Paired (K := K) (splitSide t i v newv now dir) := by
  unfold splitSide
  twin
macro_rules | `(tactic| twin_leaf) => `(tactic| with_reducible exact tw_splitSide _ _ _ _ _ _)

theorem tw_splitFan [HasSqrt K] [HasTrig K] (depth : ℕ) (v : VId) (fan : List TId) (now : K)
    (dir : Dir) (step : ℤ) : Paired (K := K) (splitFan depth v fan now dir step) := by
  unfold splitFan
  twin
macro_rules | `(tactic| twin_leaf) => `(tactic| with_reducible exact tw_splitFan _ _ _ _ _ _)

theorem tw_handleSplit [HasSqrt K] [HasTrig K] (depth : ℕ) (evt : Event K) (step : ℤ) :
    Paired (K := K) (handleSplit depth evt step) := by
  unfold handleSplit
  twin
macro_rules | `(tactic| twin_leaf) => `(tactic| with_reducible exact tw_handleSplit _ _ _)

theorem tw_handleEvent [HasSqrt K] [HasTrig K] (depth : ℕ) (evt : Event K) (step : ℤ) :
    Paired (K := K) (handleEvent depth evt step) := by
  unfold handleEvent
  twin
macro_rules | `(tactic| twin_leaf) => `(tactic| with_reducible exact tw_handleEvent _ _ _)

theorem tw_checkBisectorDirection (t : TId) (i : Fin 3) (now : K) :
    Paired (K := K) (checkBisectorDirection t i now) := by
  unfold checkBisectorDirection
  twin
macro_rules | `(tactic| twin_leaf) => `(tactic| with_reducible exact tw_checkBisectorDirection _ _ _)

theorem tw_checkBisectors (ts : List TId) (now : K) :
    Paired (K := K) (checkBisectors ts now) := by
  unfold checkBisectors
  twin
macro_rules | `(tactic| twin_leaf) => `(tactic| with_reducible exact tw_checkBisectors _ _)

theorem tw_checkOrientation (ts : List TId) (now : K) :
    Paired (K := K) (checkOrientation ts now) := by
  unfold checkOrientation
  twin
macro_rules | `(tactic| twin_leaf) => `(tactic| with_reducible exact tw_checkOrientation _ _)

theorem tw_leftOver (t : TId) : Paired (K := K) (leftOver t) := by
  unfold leftOver
  twin
macro_rules | `(tactic| twin_leaf) => `(tactic| with_reducible exact tw_leftOver _)

theorem tw_checkAllStopped (ts : List TId) : Paired (K := K) (checkAllStopped ts) := by
  unfold checkAllStopped
  twin
macro_rules | `(tactic| twin_leaf) => `(tactic| with_reducible exact tw_checkAllStopped _)

theorem tw_skelTriangles : Paired (K := K) skelTriangles := by
  twin_prim skelTriangles
macro_rules | `(tactic| twin_leaf) => `(tactic| with_reducible exact tw_skelTriangles)

theorem tw_clearImmediate : Paired (K := K) clearImmediate := by
  twin_prim clearImmediate
macro_rules | `(tactic| twin_leaf) => `(tactic| with_reducible exact tw_clearImmediate)

theorem tw_clearQueue : Paired (K := K) clearQueue := by
  intro p q hp hq s s' h
  refine .ok ⟨?_, h.pyid, .refl _, .nil, .nil⟩
  have := h.same
  generalize s'.queue = Q at *
  subst this
  rfl
macro_rules | `(tactic| twin_leaf) => `(tactic| with_reducible exact tw_clearQueue)

theorem tw_initEvent [HasSqrt K] (t : TId) : Paired (K := K) (initEvent t) := by
  unfold initEvent
  twin
macro_rules | `(tactic| twin_leaf) => `(tactic| with_reducible exact tw_initEvent _)

theorem tw_initEventList [HasSqrt K] : Paired (K := K) initEventList := by
  unfold initEventList
  twin

end Grassfire
