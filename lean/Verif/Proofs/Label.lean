/-
Nothing in the event loop looks at the labels of the nodes (lemmas for C109).
-/
import Verif.Proofs.Wp
import Verif.Spec.Label

set_option linter.unusedSectionVars false

namespace Grassfire

open Spec

variable {K : Type}

/-- The computation neither uses nor changes the labels: started with other labels it gives the same result and the same
state, but for the labels. -/
def Unlabelled {α : Type} (m : M K α) : Prop :=
  ∀ (R : Labelling) s, m (labelledState R s) = labelledResult R (m s)

theorem Unlabelled.pure {α : Type} (a : α) : Unlabelled (pure a : M K α) := fun _ _ => rfl

theorem Unlabelled.raise {α : Type} (e : Err) : Unlabelled (raise e : M K α) := fun _ _ => rfl

theorem Unlabelled.bind {α β : Type} {m : M K α} {f : α → M K β} (hm : Unlabelled m)
    (hf : ∀ a, Unlabelled (f a)) : Unlabelled (m >>= f) := by
  intro R s
  rw [bind_run, bind_run, hm R s]
  cases h : m s with
  | error e => rfl
  | ok r => exact hf r.1 R r.2

theorem Unlabelled.ite {α : Type} {c : Prop} [Decidable c] {m n : M K α} (hm : Unlabelled m)
    (hn : Unlabelled n) : Unlabelled (if c then m else n) := by
  split
  · exact hm
  · exact hn

theorem Unlabelled.forEach {α : Type} {f : α → M K Unit} (hf : ∀ a, Unlabelled (f a)) (l : List α) :
    Unlabelled (forEach f l) := by
  induction l with
  | nil => exact Unlabelled.pure _
  | cons x xs ih => exact Unlabelled.bind (hf x) fun _ => ih

theorem Unlabelled.mapEach {α β : Type} {f : α → M K β} (hf : ∀ a, Unlabelled (f a)) (l : List α) :
    Unlabelled (mapEach f l) := by
  induction l with
  | nil => exact Unlabelled.pure _
  | cons x xs ih => exact Unlabelled.bind (hf x) fun _ => Unlabelled.bind ih fun _ => Unlabelled.pure _

variable [Field K] [LinearOrder K]

/-! ### primitives -/

/-- a computation written as a function of the state -/
macro "unlab_prim" f:ident : tactic => `(tactic| (
  intro R s
  unfold $f
  first
    | rfl
    | (simp only [labelledState]; (repeat' split) <;> first
        | rfl
        | simp_all [labelledResult, labelledState, Grassfire.raise])))

theorem ul_assertM (c : Prop) [Decidable c] : Unlabelled (assertM c : M K _) := by
  unlab_prim assertM

theorem ul_need {α : Type} (o : Option α) : Unlabelled (need o : M K _) := by
  unlab_prim need

theorem ul_needIdx {α : Type} (o : Option α) : Unlabelled (needIdx o : M K _) := by
  unlab_prim needIdx

theorem ul_needNum (o : Option K) : Unlabelled (needNum o : M K _) := by
  unlab_prim needNum

theorem ul_lift {α : Type} (x : Except Err α) : Unlabelled (lift x : M K _) := by
  unlab_prim lift

theorem ul_assertSome {α : Type} (o : Option α) : Unlabelled (assertSome o : M K _) := by
  unlab_prim assertSome

theorem ul_getV (v : VId) : Unlabelled (getV v : M K _) := by
  intro R s
  by_cases h : v < s.nV <;> simp [getV, labelledState, labelledResult, h]

theorem ul_getK (v : VId) : Unlabelled (getK v : M K _) := by
  intro R s
  by_cases h : v < s.nV
  · cases hk : s.vert v <;> simp [getK, labelledState, labelledResult, h, hk]
  · simp [getK, labelledState, labelledResult, h]

theorem ul_getT (v : TId) : Unlabelled (getT v : M K _) := by
  intro R s
  by_cases h : v < s.nT <;> simp [getT, labelledState, labelledResult, h]

theorem ul_getN_bind {α : Type} (n : NodeId) {k : Node K → M K α} (hk : ∀ N, Unlabelled (k N))
    (hi : ∀ (N : Node K) (i : Option ℕ), k { N with info := i } = k N) : Unlabelled (getN n >>= k) := by
  intro R s
  rw [bind_run, bind_run]
  by_cases h : n < s.nN
  · have e1 : getN n s = .ok (s.node n, s) := if_pos h
    have e2 : getN n ((labelledState R s)) = .ok ({ s.node n with info := R.f (s.node n).info }, (labelledState R s)) := if_pos h
    rw [e1, e2]
    show k _ _ = _
    rw [hi]
    exact hk _ R s
  · have e1 : getN n s = .error .dangling := if_neg h
    have e2 : getN n ((labelledState R s)) = .error .dangling := if_neg h
    rw [e1, e2]
    rfl

theorem ul_getLine (v : LineId) : Unlabelled (getLine v : M K _) := by
  unlab_prim getLine

theorem ul_getWfLine (v : WfId) : Unlabelled (getWfLine v : M K _) := by
  unlab_prim getWfLine

theorem ul_countVertices  : Unlabelled (countVertices : M K _) := by
  unlab_prim countVertices

theorem ul_positionAt (v : VId) (time : K) : Unlabelled (positionAt v time : M K _) := by
  intro R s
  by_cases h : v < s.nV
  · cases hp : (s.vert v).positionAt (fun n => (s.node n).pos) time <;>
      simp [positionAt, labelledState, labelledResult, h, hp]
  · simp [positionAt, labelledState, labelledResult, h]

theorem ul_singleSide (l : List (Fin 3)) : Unlabelled (singleSide l : M K _) := by
  unlab_prim singleSide

theorem ul_tryIntersection [HasSqrt K] (l r : Line2 K) (now : K) : Unlabelled (tryIntersection l r now : M K _) := by
  unlab_prim tryIntersection

theorem ul_triView (t : TId) : Unlabelled (triView t : M K _) := by
  intro R s
  have hv : ∀ v, viewOf ((labelledState R s)) v = viewOf s v := fun _ => rfl
  by_cases h : t < s.nT
  · by_cases h2 : (s.tri t).vertices 0 < s.nV ∧ (s.tri t).vertices 1 < s.nV ∧
        (s.tri t).vertices 2 < s.nV
    · simp [triView, hv]
      simp [labelledState, labelledResult, h, h2]
    · simp [triView, hv]
      simp [labelledState, labelledResult, h, h2]
  · simp [triView, labelledState, labelledResult, h]

theorem ul_modifyK (v : VId) (f : KVertex K → KVertex K) : Unlabelled (modifyK v f : M K _) := by
  intro R s
  by_cases h : v < s.nV
  · cases hk : s.vert v <;> simp [modifyK, labelledState, labelledResult, h, hk]
  · simp [modifyK, labelledState, labelledResult, h]

theorem ul_modifyT (v : TId) (f : KTri K → KTri K) : Unlabelled (modifyT v f : M K _) := by
  intro R s
  by_cases h : v < s.nT <;> simp [modifyT, labelledState, labelledResult, h]

theorem ul_newNode (p : Pt K) (step : ℤ) : Unlabelled (newNode ⟨p, step, none⟩ : M K _) := by
  intro R s
  have h : Function.update (fun n => ({ s.node n with info := R.f (s.node n).info } : Node K)) s.nN ⟨p, step, none⟩ =
      fun n => { Function.update s.node s.nN ⟨p, step, none⟩ n with
        info := R.f (Function.update s.node s.nN ⟨p, step, none⟩ n).info } := by
    funext n
    by_cases h : n = s.nN
    · subst h
      rw [Function.update_self, Function.update_self, R.none]
    · rw [Function.update_of_ne h, Function.update_of_ne h]
  exact congrArg (fun f => Except.ok (s.nN, ({ s with node := f, nN := s.nN + 1 } : St K))) h

theorem ul_newK (kv : KVertex K) : Unlabelled (newK kv : M K _) := by
  unlab_prim newK

theorem ul_newEvent (c : EvCore K) (t : TId) : Unlabelled (newEvent c t : M K _) := by
  unlab_prim newEvent

theorem ul_appendNode (n : NodeId) : Unlabelled (appendNode n : M K _) := by
  unlab_prim appendNode

theorem ul_appendVertex (n : VId) : Unlabelled (appendVertex n : M K _) := by
  unlab_prim appendVertex

theorem ul_queueAdd (e : Event K) : Unlabelled (queueAdd e : M K _) := by
  intro R s
  show (if (s.queue.any fun x => decide (compareEvents s.pyid e x = 0)) = true then _ else _) =
    labelledResult R (if (s.queue.any fun x => decide (compareEvents s.pyid e x = 0)) = true then _ else _)
  split <;> rfl

theorem ul_queueDiscard (e : Event K) : Unlabelled (queueDiscard e : M K _) := fun _ _ => rfl

theorem ul_queueDiscardOpt (e : Option (Event K)) : Unlabelled (queueDiscardOpt e : M K _) := by
  intro R s
  cases e with
  | some e => exact ul_queueDiscard e R s
  | none =>
    show (if s.queue.isEmpty then .ok ((), (labelledState R s)) else .error (.py .attributeError)) =
      labelledResult R (if s.queue.isEmpty then .ok ((), s) else .error (.py .attributeError))
    split <;> rfl

theorem ul_immediateRemove (e : Event K) : Unlabelled (immediateRemove e : M K _) := by
  unlab_prim immediateRemove

theorem ul_immediateAppend (e : Event K) : Unlabelled (immediateAppend e : M K _) := by
  unlab_prim immediateAppend

theorem ul_takeEvent (now : K) : Unlabelled (takeEvent now : M K _) := by
  unlab_prim takeEvent

/-! ### the functions -/

/-- leaves of the proof search of `unlab` -/
syntax "unlab_leaf" : tactic

macro_rules | `(tactic| unlab_leaf) => `(tactic| with_reducible exact ul_assertM _)
macro_rules | `(tactic| unlab_leaf) => `(tactic| with_reducible exact ul_need _)
macro_rules | `(tactic| unlab_leaf) => `(tactic| with_reducible exact ul_needIdx _)
macro_rules | `(tactic| unlab_leaf) => `(tactic| with_reducible exact ul_needNum _)
macro_rules | `(tactic| unlab_leaf) => `(tactic| with_reducible exact ul_lift _)
macro_rules | `(tactic| unlab_leaf) => `(tactic| with_reducible exact ul_assertSome _)
macro_rules | `(tactic| unlab_leaf) => `(tactic| with_reducible exact ul_getV _)
macro_rules | `(tactic| unlab_leaf) => `(tactic| with_reducible exact ul_getK _)
macro_rules | `(tactic| unlab_leaf) => `(tactic| with_reducible exact ul_getT _)
macro_rules | `(tactic| unlab_leaf) => `(tactic| with_reducible exact ul_getLine _)
macro_rules | `(tactic| unlab_leaf) => `(tactic| with_reducible exact ul_getWfLine _)
macro_rules | `(tactic| unlab_leaf) => `(tactic| with_reducible exact ul_countVertices)
macro_rules | `(tactic| unlab_leaf) => `(tactic| with_reducible exact ul_positionAt _ _)
macro_rules | `(tactic| unlab_leaf) => `(tactic| with_reducible exact ul_singleSide _)
macro_rules | `(tactic| unlab_leaf) => `(tactic| with_reducible exact ul_tryIntersection _ _ _)
macro_rules | `(tactic| unlab_leaf) => `(tactic| with_reducible exact ul_triView _)
macro_rules | `(tactic| unlab_leaf) => `(tactic| with_reducible exact ul_newNode _ _)
macro_rules | `(tactic| unlab_leaf) => `(tactic| with_reducible exact ul_newK _)
macro_rules | `(tactic| unlab_leaf) => `(tactic| with_reducible exact ul_newEvent _ _)
macro_rules | `(tactic| unlab_leaf) => `(tactic| with_reducible exact ul_appendNode _)
macro_rules | `(tactic| unlab_leaf) => `(tactic| with_reducible exact ul_appendVertex _)
macro_rules | `(tactic| unlab_leaf) => `(tactic| with_reducible exact ul_queueAdd _)
macro_rules | `(tactic| unlab_leaf) => `(tactic| with_reducible exact ul_queueDiscard _)
macro_rules | `(tactic| unlab_leaf) => `(tactic| with_reducible exact ul_queueDiscardOpt _)
macro_rules | `(tactic| unlab_leaf) => `(tactic| with_reducible exact ul_immediateRemove _)
macro_rules | `(tactic| unlab_leaf) => `(tactic| with_reducible exact ul_immediateAppend _)
macro_rules | `(tactic| unlab_leaf) => `(tactic| with_reducible exact ul_takeEvent _)
macro_rules | `(tactic| unlab_leaf) => `(tactic| with_reducible exact ul_modifyK _ _)
macro_rules | `(tactic| unlab_leaf) => `(tactic| with_reducible exact ul_modifyT _ _)
macro_rules | `(tactic| unlab_leaf) => `(tactic| with_reducible exact Unlabelled.pure _)
macro_rules | `(tactic| unlab_leaf) => `(tactic| with_reducible exact Unlabelled.raise _)

/-- proof search along the structure of a computation -/
macro "unlab" : tactic => `(tactic|
  repeat' first
    | unlab_leaf
    | assumption
    | with_reducible refine Unlabelled.bind ?_ fun _ => ?_
    | with_reducible refine Unlabelled.ite ?_ ?_
    | with_reducible refine Unlabelled.forEach (fun _ => ?_) _
    | with_reducible refine Unlabelled.mapEach (fun _ => ?_) _
    | split
    | dsimp only)

theorem ul_setEvent (t : TId) (e : Event K) : Unlabelled (K := K) (setEvent t e) :=
  ul_modifyT _ _
macro_rules | `(tactic| unlab_leaf) => `(tactic| with_reducible exact ul_setEvent _ _)

theorem ul_setVertex (t : TId) (i : Fin 3) (v : VId) :
    Unlabelled (K := K) (setVertex t i v) := ul_modifyT _ _
macro_rules | `(tactic| unlab_leaf) => `(tactic| with_reducible exact ul_setVertex _ _ _)

theorem ul_setNeighbour (t : TId) (i : Fin 3) (n : Option TId) :
    Unlabelled (K := K) (setNeighbour t i n) := ul_modifyT _ _
macro_rules | `(tactic| unlab_leaf) => `(tactic| with_reducible exact ul_setNeighbour _ _ _)

theorem ul_stopTriangle (t : TId) (now : K) : Unlabelled (K := K) (stopTriangle t now) :=
  ul_modifyT _ _
macro_rules | `(tactic| unlab_leaf) => `(tactic| with_reducible exact ul_stopTriangle _ _)

theorem ul_setTriangle (t : TId) (vs : Fin 3 → VId) (ns : Fin 3 → Option TId) :
    Unlabelled (K := K) (setTriangle t vs ns) := ul_modifyT _ _
macro_rules | `(tactic| unlab_leaf) => `(tactic| with_reducible exact ul_setTriangle _ _ _)

theorem ul_stopAt (v : VId) (n : NodeId) (now : K) : Unlabelled (K := K) (stopAt v n now) :=
  ul_modifyK _ _
macro_rules | `(tactic| unlab_leaf) => `(tactic| with_reducible exact ul_stopAt _ _ _)

theorem ul_setWf (v : VId) (l r : Option WfId) :
    Unlabelled (K := K) (modifyK v fun k => { k with wfl := l, wfr := r }) :=
  ul_modifyK _ _
macro_rules | `(tactic| unlab_leaf) => `(tactic| with_reducible exact ul_setWf _ _ _)

theorem ul_setRight (l r : Option VId) (now : K) : Unlabelled (K := K) (setRight l r now) := by
  unfold setRight
  split
  · exact ul_modifyK _ _
  · exact Unlabelled.pure _
macro_rules | `(tactic| unlab_leaf) => `(tactic| with_reducible exact ul_setRight _ _ _)

theorem ul_setLeft (l r : Option VId) (now : K) : Unlabelled (K := K) (setLeft l r now) := by
  unfold setLeft
  split
  · exact ul_modifyK _ _
  · exact Unlabelled.pure _
macro_rules | `(tactic| unlab_leaf) => `(tactic| with_reducible exact ul_setLeft _ _ _)

theorem ul_updateCirc (l r : Option VId) (now : K) :
    Unlabelled (K := K) (updateCirc l r now) := by
  unfold updateCirc
  unlab
macro_rules | `(tactic| unlab_leaf) => `(tactic| with_reducible exact ul_updateCirc _ _ _)

theorem ul_stopScan (now : K) (V : List VId) (acc : Option NodeId) :
    Unlabelled (K := K) (stopScan now V acc) := by
  induction V generalizing acc with
  | nil => exact Unlabelled.pure _
  | cons v vs ih =>
    unfold stopScan
    refine Unlabelled.bind (ul_getK _) fun _ => Unlabelled.bind (ul_needNum _) fun _ => ?_
    refine Unlabelled.ite (ih _) (Unlabelled.ite (ih _) (Unlabelled.bind ?_ fun _ => ih _))
    exact ul_modifyK _ _
macro_rules | `(tactic| unlab_leaf) => `(tactic| with_reducible exact ul_stopScan _ _ _)

theorem ul_setStopNode (v : VId) (n : NodeId) :
    Unlabelled (K := K) (modifyK v fun kv => { kv with stopNode := some n }) :=
  ul_modifyK _ _

theorem ul_stopAtExisting (V : List VId) (now : K) (n : NodeId) :
    Unlabelled (K := K) (stopAtExisting V now n) :=
  Unlabelled.bind (Unlabelled.forEach (fun v => ul_stopAt v n now) _)
    fun _ => Unlabelled.pure _
macro_rules | `(tactic| unlab_leaf) => `(tactic| with_reducible exact ul_stopAtExisting _ _ _)

theorem ul_nodePosition (V : List VId) (now : K) (pos : Option (Pt K)) :
    Unlabelled (K := K) (nodePosition V now pos) := by
  unfold nodePosition
  unlab
macro_rules | `(tactic| unlab_leaf) => `(tactic| with_reducible exact ul_nodePosition _ _ _)

theorem ul_stopAtNew (V : List VId) (step : ℤ) (now : K) (pos : Option (Pt K)) :
    Unlabelled (K := K) (stopAtNew V step now pos) :=
  Unlabelled.bind (ul_nodePosition _ _ _) fun _ => Unlabelled.bind (ul_newNode _ _) fun _ =>
    Unlabelled.bind (Unlabelled.forEach (fun _ => ul_setStopNode _ _) _)
    fun _ => Unlabelled.pure _
macro_rules | `(tactic| unlab_leaf) => `(tactic| with_reducible exact ul_stopAtNew _ _ _ _)

theorem ul_stopAtNode (V : List VId) (step : ℤ) (now : K) (pos : Option (Pt K)) (n : Option NodeId) :
    Unlabelled (K := K) (stopAtNode V step now pos n) := by
  unfold stopAtNode
  unlab
macro_rules | `(tactic| unlab_leaf) => `(tactic| with_reducible exact ul_stopAtNode _ _ _ _ _)

theorem ul_assertStoppedAt (now : K) (v : VId) :
    Unlabelled (K := K) (assertStoppedAt now v) := by
  unfold assertStoppedAt
  unlab
macro_rules | `(tactic| unlab_leaf) => `(tactic| with_reducible exact ul_assertStoppedAt _ _)

theorem ul_readVertex (v : VId) :
    Unlabelled (K := K) (readVertex v) := by
  unfold readVertex
  unlab
macro_rules | `(tactic| unlab_leaf) => `(tactic| with_reducible exact ul_readVertex _)

theorem ul_stopKvertices (V : List VId) (step : ℤ) (now : K) (pos : Option (Pt K)) :
    Unlabelled (K := K) (stopKvertices V step now pos) := by
  unfold stopKvertices
  unlab
macro_rules | `(tactic| unlab_leaf) => `(tactic| with_reducible exact ul_stopKvertices _ _ _ _)

theorem ul_recordNode (new : Bool) (n : NodeId) :
    Unlabelled (K := K) (recordNode new n) := by
  unfold recordNode
  unlab
macro_rules | `(tactic| unlab_leaf) => `(tactic| with_reducible exact ul_recordNode _ _)

theorem ul_stopAndRecord (V : List VId) (step : ℤ) (now : K) (pos : Option (Pt K)) :
    Unlabelled (K := K) (stopAndRecord V step now pos) := by
  unfold stopAndRecord
  unlab
macro_rules | `(tactic| unlab_leaf) => `(tactic| with_reducible exact ul_stopAndRecord _ _ _ _)

theorem ul_computeNewKvertex [HasSqrt K] [HasTrig K] (ul ur : Option LineId) (now : K)
    (node : NodeId) (info : ℕ) (internal : Bool) :
    Unlabelled (K := K) (computeNewKvertex ul ur now node info internal) := by
  unfold computeNewKvertex
  refine ul_getN_bind node (fun N => ?_) fun _ _ => rfl
  unlab
macro_rules | `(tactic| unlab_leaf) => `(tactic| with_reducible exact ul_computeNewKvertex _ _ _ _ _ _)

theorem ul_storeEvent (c : Option (EvCore K)) (t : TId) :
    Unlabelled (K := K) (storeEvent c t) := by
  unfold storeEvent
  unlab
macro_rules | `(tactic| unlab_leaf) => `(tactic| with_reducible exact ul_storeEvent _ _)

theorem ul_computeCollapseTime [HasSqrt K] (t : TId) (now : K) (sieve : Sieve) :
    Unlabelled (K := K) (computeCollapseTime t now sieve) := by
  unfold computeCollapseTime
  unlab
macro_rules | `(tactic| unlab_leaf) => `(tactic| with_reducible exact ul_computeCollapseTime _ _ _)

theorem ul_discardEvent (e : Option (Event K)) :
    Unlabelled (K := K) (discardEvent e) := by
  unfold discardEvent
  unlab
macro_rules | `(tactic| unlab_leaf) => `(tactic| with_reducible exact ul_discardEvent _)

theorem ul_addEvent (e : Option (Event K)) :
    Unlabelled (K := K) (addEvent e) := by
  unfold addEvent
  unlab
macro_rules | `(tactic| unlab_leaf) => `(tactic| with_reducible exact ul_addEvent _)

theorem ul_replaceInQueue [HasSqrt K] (t : TId) (now : K) :
    Unlabelled (K := K) (replaceInQueue t now) := by
  unfold replaceInQueue
  unlab
macro_rules | `(tactic| unlab_leaf) => `(tactic| with_reducible exact ul_replaceInQueue _ _)

theorem ul_renewEvent [HasSqrt K] (b : Bool) (t : TId) (now : K) :
    Unlabelled (K := K) (renewEvent b t now) := by
  unfold renewEvent
  unlab
macro_rules | `(tactic| unlab_leaf) => `(tactic| with_reducible exact ul_renewEvent _ _ _)

theorem ul_replaceLoop [HasSqrt K] (v newv : VId) (now : K) (dir : Dir) (fuel : ℕ)
    (t : Option TId) (fan : List TId) :
    Unlabelled (K := K) (replaceLoop v newv now dir fuel t fan) := by
  induction fuel generalizing t fan with
  | zero =>
    cases t with
    | none => exact Unlabelled.pure _
    | some t => intro R s; rfl
  | succ fuel ih =>
    cases t with
    | none => exact Unlabelled.pure _
    | some t =>
      unfold replaceLoop
      refine Unlabelled.bind (ul_getT _) fun _ => Unlabelled.bind (ul_needIdx _) fun _ =>
        Unlabelled.bind (ul_setVertex _ _ _) fun _ => Unlabelled.bind (ul_getK _) fun _ =>
        Unlabelled.bind (ul_renewEvent _ _ _) fun _ =>
        Unlabelled.bind (ul_getT _) fun _ => ih _ _

theorem ul_replaceKvertex [HasSqrt K] (t : TId) (v newv : VId) (now : K) (dir : Dir) :
    Unlabelled (K := K) (replaceKvertex t v newv now dir) := by
  intro R s
  exact ul_replaceLoop _ _ _ _ _ _ _ R s
macro_rules | `(tactic| unlab_leaf) => `(tactic| with_reducible exact ul_replaceKvertex _ _ _ _ _)

theorem ul_immediateRemoveOpt (e : Option (Event K)) :
    Unlabelled (K := K) (immediateRemoveOpt e) := by
  unfold immediateRemoveOpt
  unlab
macro_rules | `(tactic| unlab_leaf) => `(tactic| with_reducible exact ul_immediateRemoveOpt _)

theorem ul_immediateEvent [HasSqrt K] (t : TId) (now : K) :
    Unlabelled (K := K) (immediateEvent t now) := by
  unfold immediateEvent
  unlab
macro_rules | `(tactic| unlab_leaf) => `(tactic| with_reducible exact ul_immediateEvent _ _)

theorem ul_scheduleImmediately [HasSqrt K] (t : TId) (now : K) :
    Unlabelled (K := K) (scheduleImmediately t now) := by
  unfold scheduleImmediately
  unlab
macro_rules | `(tactic| unlab_leaf) => `(tactic| with_reducible exact ul_scheduleImmediately _ _)

theorem ul_flipSide (n : Option TId) (v : VId) : Unlabelled (K := K) (flipSide n v) := by
  unfold flipSide
  unlab
macro_rules | `(tactic| unlab_leaf) => `(tactic| with_reducible exact ul_flipSide _ _)

theorem ul_flipLink (n : Option TId) (i : Option (Fin 3)) (t : TId) :
    Unlabelled (K := K) (flipLink n i t) := by
  unfold flipLink
  unlab
macro_rules | `(tactic| unlab_leaf) => `(tactic| with_reducible exact ul_flipLink _ _ _)

theorem ul_flip (t0 : TId) (s0 : Fin 3) (t1 : TId) (s1 : Fin 3) :
    Unlabelled (K := K) (flip t0 s0 t1 s1) := by
  unfold flip
  unlab
macro_rules | `(tactic| unlab_leaf) => `(tactic| with_reducible exact ul_flip _ _ _ _)

theorem ul_handleFlip [HasSqrt K] (evt : Event K) : Unlabelled (K := K) (handleFlip evt) := by
  unfold handleFlip
  unlab
macro_rules | `(tactic| unlab_leaf) => `(tactic| with_reducible exact ul_handleFlip _)

theorem ul_legDist [HasSqrt K] (t : TId) (leg : Fin 3) (now : K) :
    Unlabelled (K := K) (legDist t leg now) := by
  unfold legDist
  unlab
macro_rules | `(tactic| unlab_leaf) => `(tactic| with_reducible exact ul_legDist _ _ _)

theorem ul_vertexIndex (t : TId) (v : VId) : Unlabelled (K := K) (vertexIndex t v) := by
  unfold vertexIndex
  unlab
macro_rules | `(tactic| unlab_leaf) => `(tactic| with_reducible exact ul_vertexIndex _ _)

theorem ul_relink (n t : TId) (x : Option TId) : Unlabelled (K := K) (relink n t x) := by
  unfold relink
  unlab
macro_rules | `(tactic| unlab_leaf) => `(tactic| with_reducible exact ul_relink _ _ _)

theorem ul_detachAndSchedule [HasSqrt K] (n : Option TId) (t : TId) (now : K) :
    Unlabelled (K := K) (detachAndSchedule n t now) := by
  unfold detachAndSchedule
  unlab
macro_rules | `(tactic| unlab_leaf) => `(tactic| with_reducible exact ul_detachAndSchedule _ _ _)

theorem ul_evenLegs [HasSqrt K] (t : TId) (e : Fin 3) (pivot : VId) (now : K) (step : ℤ) :
    Unlabelled (K := K) (evenLegs t e pivot now step) := by
  unfold evenLegs
  unlab
macro_rules | `(tactic| unlab_leaf) => `(tactic| with_reducible exact ul_evenLegs _ _ _ _ _)

theorem ul_evenLegsAt [HasSqrt K] (t : TId) (pivot : VId) (now : K) (step : ℤ) :
    Unlabelled (K := K) (evenLegsAt t pivot now step) := by
  unfold evenLegsAt
  unlab
macro_rules | `(tactic| unlab_leaf) => `(tactic| with_reducible exact ul_evenLegsAt _ _ _ _)

theorem ul_evenLegsIf [HasSqrt K] (c : Bool) (t : TId) (pivot : VId) (now : K) (step : ℤ) :
    Unlabelled (K := K) (evenLegsIf c t pivot now step) := by
  unfold evenLegsIf
  unlab
macro_rules | `(tactic| unlab_leaf) => `(tactic| with_reducible exact ul_evenLegsIf _ _ _ _ _)

theorem ul_assertVertexStopped (v : VId) :
    Unlabelled (K := K) (assertVertexStopped v) := by
  unfold assertVertexStopped
  unlab
macro_rules | `(tactic| unlab_leaf) => `(tactic| with_reducible exact ul_assertVertexStopped _)

theorem ul_velocityOf (v : VId) : Unlabelled (K := K) (velocityOf v) := by
  unfold velocityOf
  unlab
macro_rules | `(tactic| unlab_leaf) => `(tactic| with_reducible exact ul_velocityOf _)

theorem ul_parallel3tri [HasSqrt K] (t : TId) (e : Fin 3) (pivot : VId) (now : K) (step : ℤ) :
    Unlabelled (K := K) (parallel3tri t e pivot now step) := by
  unfold parallel3tri
  unlab
macro_rules | `(tactic| unlab_leaf) => `(tactic| with_reducible exact ul_parallel3tri _ _ _ _ _)

theorem ul_parallel3Collapse [HasSqrt K] (pivot : VId) (now : K) (step : ℤ) (a : TId)
    (near : List (Fin 3)) (zero : Bool) :
    Unlabelled (K := K) (parallel3.parallel3Collapse pivot now step a near zero) := by
  unfold parallel3.parallel3Collapse
  unlab
macro_rules
  | `(tactic| unlab_leaf) => `(tactic| with_reducible exact ul_parallel3Collapse _ _ _ _ _ _)

theorem ul_parallel3 [HasSqrt K] (a b : TId) (pivot : VId) (now : K) (step : ℤ) :
    Unlabelled (K := K) (parallel3 a b pivot now step) := by
  unfold parallel3
  unlab
macro_rules | `(tactic| unlab_leaf) => `(tactic| with_reducible exact ul_parallel3 _ _ _ _ _)

theorem ul_stopPivot [HasSqrt K] [HasTrig K] (pivot : VId) (now : K) (n : NodeId) :
    Unlabelled (K := K) (shorterLeg.stopPivot pivot now n) := by
  unfold shorterLeg.stopPivot
  unlab
macro_rules | `(tactic| unlab_leaf) => `(tactic| with_reducible exact ul_stopPivot _ _ _)

theorem ul_replaceSide [HasSqrt K] (t : TId) (now : K) (n other : Option TId) (v kv : VId)
    (dir : Dir) : Unlabelled (K := K) (shorterLeg.replaceSide t now n other v kv dir) := by
  unfold shorterLeg.replaceSide
  unlab
macro_rules | `(tactic| unlab_leaf) => `(tactic| with_reducible exact ul_replaceSide _ _ _ _ _ _ _)

theorem ul_shorterLeg [HasSqrt K] [HasTrig K] (t : TId) (e : Fin 3) (pivot : VId) (now : K)
    (step : ℤ) : Unlabelled (K := K) (shorterLeg t e pivot now step) := by
  unfold shorterLeg
  unlab
macro_rules | `(tactic| unlab_leaf) => `(tactic| with_reducible exact ul_shorterLeg _ _ _ _ _)

theorem ul_evenTriangle [HasSqrt K] (pivot : VId) (now : K) (t : TId) :
    Unlabelled (K := K) (evenTriangle pivot now t) := by
  unfold evenTriangle
  unlab
macro_rules | `(tactic| unlab_leaf) => `(tactic| with_reducible exact ul_evenTriangle _ _ _)

theorem ul_hasInfFast (t : TId) : Unlabelled (K := K) (hasInfFast t) := by
  unfold hasInfFast
  unlab
macro_rules | `(tactic| unlab_leaf) => `(tactic| with_reducible exact ul_hasInfFast _)

theorem ul_flipPair [HasSqrt K] (t0 t1 : TId) (pivot : VId) (now : K) (step : ℤ) :
    Unlabelled (K := K) (flipPair t0 t1 pivot now step) := by
  unfold flipPair
  unlab
macro_rules | `(tactic| unlab_leaf) => `(tactic| with_reducible exact ul_flipPair _ _ _ _ _)

theorem ul_assertStopped (t : TId) : Unlabelled (K := K) (assertStopped t) := by
  unfold assertStopped
  unlab
macro_rules | `(tactic| unlab_leaf) => `(tactic| with_reducible exact ul_assertStopped _)

theorem ul_parallelEven [HasSqrt K] (fan : List TId) (pivot : VId) (now : K) (step : ℤ) :
    Unlabelled (K := K) (parallelEven fan pivot now step) := by
  unfold parallelEven
  unlab
macro_rules | `(tactic| unlab_leaf) => `(tactic| with_reducible exact ul_parallelEven _ _ _ _)

theorem ul_nextFan (kv : VId) (a b : List TId) : Unlabelled (K := K) (nextFan kv a b) := by
  unfold nextFan
  unlab
macro_rules | `(tactic| unlab_leaf) => `(tactic| with_reducible exact ul_nextFan _ _ _)

theorem ul_parallelLegs [HasSqrt K] [HasTrig K] (fan : List TId) (a b : TId) (pivot : VId)
    (now : K) (dir : Dir) (step : ℤ) :
    Unlabelled (K := K) (parallelLegs fan a b pivot now dir step) := by
  unfold parallelLegs
  unlab
macro_rules | `(tactic| unlab_leaf) => `(tactic| with_reducible exact ul_parallelLegs _ _ _ _ _ _ _)

theorem ul_parallelStep [HasSqrt K] [HasTrig K] (fan : List TId) (pivot : VId)
    (now : K) (dir : Dir) (step : ℤ) :
    Unlabelled (K := K) (parallelStep fan pivot now dir step) := by
  unfold parallelStep
  unlab
macro_rules | `(tactic| unlab_leaf) => `(tactic| with_reducible exact ul_parallelStep _ _ _ _ _)

theorem ul_parallelFan [HasSqrt K] [HasTrig K] (depth : ℕ) (fan : List TId) (pivot : VId)
    (now : K) (dir : Dir) (step : ℤ) :
    Unlabelled (K := K) (parallelFan depth fan pivot now dir step) := by
  induction depth generalizing fan pivot dir with
  | zero => exact Unlabelled.raise _
  | succ d ih =>
    unfold parallelFan
    refine Unlabelled.bind (ul_parallelStep _ _ _ _ _) fun r => ?_
    cases r with
    | none => exact Unlabelled.pure _
    | some r => exact ih _ _ _
macro_rules | `(tactic| unlab_leaf) => `(tactic| with_reducible exact ul_parallelFan _ _ _ _ _ _)

theorem ul_evalPosition (v : Option VId) (now : K) :
    Unlabelled (K := K) (evalPosition v now) := by
  unfold evalPosition
  unlab
macro_rules | `(tactic| unlab_leaf) => `(tactic| with_reducible exact ul_evalPosition _ _)

theorem ul_checkLinks (v : VId) : Unlabelled (K := K) (checkLinks v) := by
  unfold checkLinks
  unlab
macro_rules | `(tactic| unlab_leaf) => `(tactic| with_reducible exact ul_checkLinks _)

theorem ul_scheduleTiny [HasSqrt K] (fan : List TId) (kv : VId) (dir : Dir) (now : K) :
    Unlabelled (K := K) (scheduleTiny fan kv dir now) := by
  unfold scheduleTiny
  unlab
macro_rules | `(tactic| unlab_leaf) => `(tactic| with_reducible exact ul_scheduleTiny _ _ _ _)

theorem ul_edgeSide [HasSqrt K] (n : Option TId) (t : TId) (o : Option TId) (v kv : VId) (now : K)
    (dir : Dir) : Unlabelled (K := K) (edgeSide n t o v kv now dir) := by
  unfold edgeSide
  unlab
macro_rules | `(tactic| unlab_leaf) => `(tactic| with_reducible exact ul_edgeSide _ _ _ _ _ _ _)

theorem ul_edgeFan [HasSqrt K] [HasTrig K] (depth : ℕ) (kv : VId) (a b : List TId) (now : K)
    (step : ℤ) : Unlabelled (K := K) (edgeFan depth kv a b now step) := by
  unfold edgeFan
  unlab
macro_rules | `(tactic| unlab_leaf) => `(tactic| with_reducible exact ul_edgeFan _ _ _ _ _ _)

theorem ul_edgeVertex [HasSqrt K] [HasTrig K] (t : TId) (e : Fin 3) (now : K) (step : ℤ) :
    Unlabelled (K := K) (edgeVertex t e now step) := by
  unfold edgeVertex
  unlab
macro_rules | `(tactic| unlab_leaf) => `(tactic| with_reducible exact ul_edgeVertex _ _ _ _)

theorem ul_handleEdge [HasSqrt K] [HasTrig K] (depth : ℕ) (evt : Event K) (step : ℤ) :
    Unlabelled (K := K) (handleEdge depth evt step) := by
  unfold handleEdge
  unlab
macro_rules | `(tactic| unlab_leaf) => `(tactic| with_reducible exact ul_handleEdge _ _ _)

theorem ul_threeSidesNeighbour [HasSqrt K] (t : TId) (now : K) (i : Fin 3) :
    Unlabelled (K := K) (threeSidesNeighbour t now i) := by
  unfold threeSidesNeighbour
  unlab
macro_rules | `(tactic| unlab_leaf) => `(tactic| with_reducible exact ul_threeSidesNeighbour _ _ _)

theorem ul_handleEdge3 [HasSqrt K] (evt : Event K) (step : ℤ) :
    Unlabelled (K := K) (handleEdge3 evt step) := by
  unfold handleEdge3
  unlab
macro_rules | `(tactic| unlab_leaf) => `(tactic| with_reducible exact ul_handleEdge3 _ _)

theorem ul_handleEdge1 [HasSqrt K] [HasTrig K] (evt : Event K) (step : ℤ) :
    Unlabelled (K := K) (handleEdge1 evt step) := by
  unfold handleEdge1
  unlab
macro_rules | `(tactic| unlab_leaf) => `(tactic| with_reducible exact ul_handleEdge1 _ _)

theorem ul_splitChecks [HasSqrt K] (v v1 v2 : VId) (now : K) :
    Unlabelled (K := K) (splitChecks v v1 v2 now) := by
  unfold splitChecks
  unlab
macro_rules | `(tactic| unlab_leaf) => `(tactic| with_reducible exact ul_splitChecks _ _ _ _)

theorem ul_splitVertices [HasSqrt K] [HasTrig K] (v v1 v2 : VId) (now : K) (step : ℤ) :
    Unlabelled (K := K) (splitVertices v v1 v2 now step) := by
  unfold splitVertices
  unlab
macro_rules | `(tactic| unlab_leaf) => `(tactic| with_reducible exact ul_splitVertices _ _ _ _ _)

theorem ul_splitSide [HasSqrt K] (t : TId) (i : Fin 3) (v newv : VId) (now : K) (dir : Dir) :
    Unlabelled (K := K) (splitSide t i v newv now dir) := by
  unfold splitSide
  unlab
macro_rules | `(tactic| unlab_leaf) => `(tactic| with_reducible exact ul_splitSide _ _ _ _ _ _)

theorem ul_splitFan [HasSqrt K] [HasTrig K] (depth : ℕ) (v : VId) (fan : List TId) (now : K)
    (dir : Dir) (step : ℤ) : Unlabelled (K := K) (splitFan depth v fan now dir step) := by
  unfold splitFan
  unlab
macro_rules | `(tactic| unlab_leaf) => `(tactic| with_reducible exact ul_splitFan _ _ _ _ _ _)

theorem ul_handleSplit [HasSqrt K] [HasTrig K] (depth : ℕ) (evt : Event K) (step : ℤ) :
    Unlabelled (K := K) (handleSplit depth evt step) := by
  unfold handleSplit
  unlab
macro_rules | `(tactic| unlab_leaf) => `(tactic| with_reducible exact ul_handleSplit _ _ _)

theorem ul_handleEvent [HasSqrt K] [HasTrig K] (depth : ℕ) (evt : Event K) (step : ℤ) :
    Unlabelled (K := K) (handleEvent depth evt step) := by
  unfold handleEvent
  unlab
macro_rules | `(tactic| unlab_leaf) => `(tactic| with_reducible exact ul_handleEvent _ _ _)

theorem ul_loopStep [HasSqrt K] [HasTrig K] (depth : ℕ) (step : ℤ) (now : K) :
    Unlabelled (K := K) (loopStep depth step now) := by
  unfold loopStep
  unlab
macro_rules | `(tactic| unlab_leaf) => `(tactic| with_reducible exact ul_loopStep _ _ _)

theorem ul_loop [HasSqrt K] [HasTrig K] (depth fuel : ℕ) (step : ℤ) (now : K) :
    Unlabelled (K := K) (loop depth fuel step now) := by
  induction fuel generalizing step now with
  | zero =>
    unlab_prim loop
  | succ fuel ih =>
    unfold loop
    refine Unlabelled.bind (ul_loopStep _ _ _) fun r => ?_
    cases r with
    | none => exact Unlabelled.pure _
    | some r => exact ih _ _
macro_rules | `(tactic| unlab_leaf) => `(tactic| with_reducible exact ul_loop _ _ _ _)

theorem ul_checkBisectorDirection (t : TId) (i : Fin 3) (now : K) :
    Unlabelled (K := K) (checkBisectorDirection t i now) := by
  unfold checkBisectorDirection
  unlab
macro_rules | `(tactic| unlab_leaf) => `(tactic| with_reducible exact ul_checkBisectorDirection _ _ _)

theorem ul_checkBisectors (ts : List TId) (now : K) :
    Unlabelled (K := K) (checkBisectors ts now) := by
  unfold checkBisectors
  unlab
macro_rules | `(tactic| unlab_leaf) => `(tactic| with_reducible exact ul_checkBisectors _ _)

theorem ul_checkOrientation (ts : List TId) (now : K) :
    Unlabelled (K := K) (checkOrientation ts now) := by
  unfold checkOrientation
  unlab
macro_rules | `(tactic| unlab_leaf) => `(tactic| with_reducible exact ul_checkOrientation _ _)

theorem ul_leftOver (t : TId) : Unlabelled (K := K) (leftOver t) := by
  unfold leftOver
  unlab
macro_rules | `(tactic| unlab_leaf) => `(tactic| with_reducible exact ul_leftOver _)

theorem ul_checkAllStopped (ts : List TId) : Unlabelled (K := K) (checkAllStopped ts) := by
  unfold checkAllStopped
  unlab
macro_rules | `(tactic| unlab_leaf) => `(tactic| with_reducible exact ul_checkAllStopped _)

theorem ul_skelTriangles : Unlabelled (K := K) skelTriangles := by
  unlab_prim skelTriangles
macro_rules | `(tactic| unlab_leaf) => `(tactic| with_reducible exact ul_skelTriangles)

theorem ul_clearImmediate : Unlabelled (K := K) clearImmediate := by
  unlab_prim clearImmediate
macro_rules | `(tactic| unlab_leaf) => `(tactic| with_reducible exact ul_clearImmediate)

theorem ul_clearQueue : Unlabelled (K := K) clearQueue := by
  unlab_prim clearQueue
macro_rules | `(tactic| unlab_leaf) => `(tactic| with_reducible exact ul_clearQueue)

theorem ul_eventLoop [HasSqrt K] [HasTrig K] (depth : ℕ) :
    Unlabelled (K := K) (eventLoop depth) := by
  unfold eventLoop
  unlab

theorem ul_initEvent [HasSqrt K] (t : TId) : Unlabelled (K := K) (initEvent t) := by
  unfold initEvent
  unlab
macro_rules | `(tactic| unlab_leaf) => `(tactic| with_reducible exact ul_initEvent _)

theorem ul_initEventList [HasSqrt K] : Unlabelled (K := K) initEventList := by
  unfold initEventList
  unlab

end Grassfire
