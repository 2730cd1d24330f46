/-
Nothing in the event loop looks at the transform, or at the ids of the triangles for more than their
order (lemmas for C102 and C103).
-/
import Verif.Proofs.Wp

set_option linter.unusedSectionVars false

namespace Grassfire

variable {K : Type}

/-- another transform and other ids for the triangles, in the same order -/
structure Relabel (K : Type) where
  transform : Option (Transform K) → Option (Transform K)
  pyid : (TId → ℕ) → TId → ℕ
  order : ∀ p a b, pyid p a < pyid p b ↔ p a < p b

/-- the state with the other transform and ids -/
def Relabel.st (R : Relabel K) (s : St K) : St K :=
  { s with transform := R.transform s.transform, pyid := R.pyid s.pyid }

/-- the state that a computation leaves with the other transform and ids -/
def Relabel.res {α : Type} (R : Relabel K) : Except Fault (α × St K) → Except Fault (α × St K)
  | .ok r => .ok (r.1, R.st r.2)
  | .error e => .error e

/-- The computation neither uses nor writes the transform, and of the ids of the triangles it uses
only the order: started with another transform and other ids it gives the same result and the same
state, but for the transform and the ids. -/
def Blind {α : Type} (m : M K α) : Prop :=
  ∀ (R : Relabel K) s, m (R.st s) = R.res (m s)

theorem Blind.pure {α : Type} (a : α) : Blind (pure a : M K α) := fun _ _ => rfl

theorem Blind.raise {α : Type} (e : Err) : Blind (raise e : M K α) := fun _ _ => rfl

theorem Blind.bind {α β : Type} {m : M K α} {f : α → M K β} (hm : Blind m)
    (hf : ∀ a, Blind (f a)) : Blind (m >>= f) := by
  intro R s
  rw [bind_run, bind_run, hm R s]
  cases h : m s with
  | error e => rfl
  | ok r => exact hf r.1 R r.2

theorem Blind.ite {α : Type} {c : Prop} [Decidable c] {m n : M K α} (hm : Blind m)
    (hn : Blind n) : Blind (if c then m else n) := by
  split
  · exact hm
  · exact hn

theorem Blind.forEach {α : Type} {f : α → M K Unit} (hf : ∀ a, Blind (f a)) (l : List α) :
    Blind (forEach f l) := by
  induction l with
  | nil => exact Blind.pure _
  | cons x xs ih => exact Blind.bind (hf x) fun _ => ih

theorem Blind.mapEach {α β : Type} {f : α → M K β} (hf : ∀ a, Blind (f a)) (l : List α) :
    Blind (mapEach f l) := by
  induction l with
  | nil => exact Blind.pure _
  | cons x xs ih => exact Blind.bind (hf x) fun _ => Blind.bind ih fun _ => Blind.pure _

variable [Field K] [LinearOrder K]

/-! ### primitives -/

theorem Relabel.compare (R : Relabel K) (s : St K) (e x : Event K) :
    compareEvents (R.st s).pyid e x = compareEvents s.pyid e x := by
  have h : ∀ a b, (R.st s).pyid a < (R.st s).pyid b ↔ s.pyid a < s.pyid b := R.order s.pyid
  simp only [compareEvents, gt_iff_lt, h]

theorem Relabel.insert (R : Relabel K) (s : St K) (e : Event K) (l : List (Event K)) :
    queueInsert (R.st s).pyid e l = queueInsert s.pyid e l := by
  induction l with
  | nil => rfl
  | cons x xs ih => simp only [queueInsert, R.compare, ih]

/-- a computation written as a function of the state -/
macro "blind_prim" f:ident : tactic => `(tactic| (
  intro R s
  unfold $f
  first
    | rfl
    | (simp only [Relabel.st]; (repeat' split) <;> first
        | rfl
        | simp_all [Relabel.res, Relabel.st, Grassfire.raise])))

theorem b_assertM (c : Prop) [Decidable c] : Blind (assertM c : M K _) := by
  blind_prim assertM

theorem b_need {α : Type} (o : Option α) : Blind (need o : M K _) := by
  blind_prim need

theorem b_needIdx {α : Type} (o : Option α) : Blind (needIdx o : M K _) := by
  blind_prim needIdx

theorem b_needNum (o : Option K) : Blind (needNum o : M K _) := by
  blind_prim needNum

theorem b_lift {α : Type} (x : Except Err α) : Blind (lift x : M K _) := by
  blind_prim lift

theorem b_assertSome {α : Type} (o : Option α) : Blind (assertSome o : M K _) := by
  blind_prim assertSome

theorem b_getV (v : VId) : Blind (getV v : M K _) := by
  intro R s
  by_cases h : v < s.nV <;> simp [getV, Relabel.st, Relabel.res, h]

theorem b_getK (v : VId) : Blind (getK v : M K _) := by
  intro R s
  by_cases h : v < s.nV
  · cases hk : s.vert v <;> simp [getK, Relabel.st, Relabel.res, h, hk]
  · simp [getK, Relabel.st, Relabel.res, h]

theorem b_getT (v : TId) : Blind (getT v : M K _) := by
  intro R s
  by_cases h : v < s.nT <;> simp [getT, Relabel.st, Relabel.res, h]

theorem b_getN (v : NodeId) : Blind (getN v : M K _) := by
  intro R s
  by_cases h : v < s.nN <;> simp [getN, Relabel.st, Relabel.res, h]

theorem b_getLine (v : LineId) : Blind (getLine v : M K _) := by
  blind_prim getLine

theorem b_getWfLine (v : WfId) : Blind (getWfLine v : M K _) := by
  blind_prim getWfLine

theorem b_countVertices  : Blind (countVertices : M K _) := by
  blind_prim countVertices

theorem b_positionAt (v : VId) (time : K) : Blind (positionAt v time : M K _) := by
  intro R s
  by_cases h : v < s.nV
  · cases hp : (s.vert v).positionAt (fun n => (s.node n).pos) time <;>
      simp [positionAt, Relabel.st, Relabel.res, h, hp]
  · simp [positionAt, Relabel.st, Relabel.res, h]

theorem b_singleSide (l : List (Fin 3)) : Blind (singleSide l : M K _) := by
  blind_prim singleSide

theorem b_tryIntersection [HasSqrt K] (l r : Line2 K) (now : K) : Blind (tryIntersection l r now : M K _) := by
  blind_prim tryIntersection

theorem b_triView (t : TId) : Blind (triView t : M K _) := by
  intro R s
  have hv : ∀ v, viewOf (R.st s) v = viewOf s v := fun _ => rfl
  by_cases h : t < s.nT
  · by_cases h2 : (s.tri t).vertices 0 < s.nV ∧ (s.tri t).vertices 1 < s.nV ∧
        (s.tri t).vertices 2 < s.nV
    · simp [triView, hv]
      simp [Relabel.st, Relabel.res, h, h2]
    · simp [triView, hv]
      simp [Relabel.st, Relabel.res, h, h2]
  · simp [triView, Relabel.st, Relabel.res, h]

theorem b_modifyK (v : VId) (f : KVertex K → KVertex K) : Blind (modifyK v f : M K _) := by
  intro R s
  by_cases h : v < s.nV
  · cases hk : s.vert v <;> simp [modifyK, Relabel.st, Relabel.res, h, hk]
  · simp [modifyK, Relabel.st, Relabel.res, h]

theorem b_modifyT (v : TId) (f : KTri K → KTri K) : Blind (modifyT v f : M K _) := by
  intro R s
  by_cases h : v < s.nT <;> simp [modifyT, Relabel.st, Relabel.res, h]

theorem b_newNode (n : Node K) : Blind (newNode n : M K _) := by
  blind_prim newNode

theorem b_newK (kv : KVertex K) : Blind (newK kv : M K _) := by
  blind_prim newK

theorem b_newEvent (c : EvCore K) (t : TId) : Blind (newEvent c t : M K _) := by
  blind_prim newEvent

theorem b_appendNode (n : NodeId) : Blind (appendNode n : M K _) := by
  blind_prim appendNode

theorem b_appendVertex (n : VId) : Blind (appendVertex n : M K _) := by
  blind_prim appendVertex

theorem b_queueAdd (e : Event K) : Blind (queueAdd e : M K _) := by
  intro R s
  have hc : ∀ x, compareEvents (R.st s).pyid e x = compareEvents s.pyid e x := fun x => R.compare s e x
  have hi : queueInsert (R.st s).pyid e (R.st s).queue = queueInsert s.pyid e s.queue := R.insert s e _
  have ha : ((R.st s).queue.any fun x => decide (compareEvents (R.st s).pyid e x = 0)) =
      s.queue.any fun x => decide (compareEvents s.pyid e x = 0) := by
    simp only [hc]; rfl
  by_cases h : (s.queue.any fun x => decide (compareEvents s.pyid e x = 0)) = true
  · have e1 : queueAdd e s = .error .outside := if_pos h
    have e2 : queueAdd e (R.st s) = .error .outside := if_pos (ha.trans h)
    rw [e1, e2]; rfl
  · have e1 : queueAdd e s = .ok ((), { s with queue := queueInsert s.pyid e s.queue }) := if_neg h
    have e2 : queueAdd e (R.st s) =
        .ok ((), { R.st s with queue := queueInsert (R.st s).pyid e (R.st s).queue }) :=
      if_neg (ha ▸ h)
    rw [e1, e2, hi]; rfl

theorem b_queueDiscard (e : Event K) : Blind (queueDiscard e : M K _) := by
  intro R s
  have hc : ∀ x, compareEvents (R.st s).pyid e x = compareEvents s.pyid e x := fun x => R.compare s e x
  have hf : ((R.st s).queue.filter fun x => decide (compareEvents (R.st s).pyid e x ≠ 0)) =
      s.queue.filter fun x => decide (compareEvents s.pyid e x ≠ 0) := by
    simp only [hc]; rfl
  unfold queueDiscard
  rw [hf]
  rfl

theorem b_queueDiscardOpt (e : Option (Event K)) : Blind (queueDiscardOpt e : M K _) := by
  intro R s
  cases e with
  | some e => exact b_queueDiscard e R s
  | none =>
    show (if s.queue.isEmpty then .ok ((), R.st s) else .error (.py .attributeError)) =
      R.res (if s.queue.isEmpty then .ok ((), s) else .error (.py .attributeError))
    split <;> rfl

theorem b_immediateRemove (e : Event K) : Blind (immediateRemove e : M K _) := by
  blind_prim immediateRemove

theorem b_immediateAppend (e : Event K) : Blind (immediateAppend e : M K _) := by
  blind_prim immediateAppend

theorem b_takeEvent (now : K) : Blind (takeEvent now : M K _) := by
  blind_prim takeEvent

/-! ### the functions -/

/-- leaves of the proof search of `blind` -/
syntax "blind_leaf" : tactic

macro_rules | `(tactic| blind_leaf) => `(tactic| with_reducible exact b_assertM _)
macro_rules | `(tactic| blind_leaf) => `(tactic| with_reducible exact b_need _)
macro_rules | `(tactic| blind_leaf) => `(tactic| with_reducible exact b_needIdx _)
macro_rules | `(tactic| blind_leaf) => `(tactic| with_reducible exact b_needNum _)
macro_rules | `(tactic| blind_leaf) => `(tactic| with_reducible exact b_lift _)
macro_rules | `(tactic| blind_leaf) => `(tactic| with_reducible exact b_assertSome _)
macro_rules | `(tactic| blind_leaf) => `(tactic| with_reducible exact b_getV _)
macro_rules | `(tactic| blind_leaf) => `(tactic| with_reducible exact b_getK _)
macro_rules | `(tactic| blind_leaf) => `(tactic| with_reducible exact b_getT _)
macro_rules | `(tactic| blind_leaf) => `(tactic| with_reducible exact b_getN _)
macro_rules | `(tactic| blind_leaf) => `(tactic| with_reducible exact b_getLine _)
macro_rules | `(tactic| blind_leaf) => `(tactic| with_reducible exact b_getWfLine _)
macro_rules | `(tactic| blind_leaf) => `(tactic| with_reducible exact b_countVertices)
macro_rules | `(tactic| blind_leaf) => `(tactic| with_reducible exact b_positionAt _ _)
macro_rules | `(tactic| blind_leaf) => `(tactic| with_reducible exact b_singleSide _)
macro_rules | `(tactic| blind_leaf) => `(tactic| with_reducible exact b_tryIntersection _ _ _)
macro_rules | `(tactic| blind_leaf) => `(tactic| with_reducible exact b_triView _)
macro_rules | `(tactic| blind_leaf) => `(tactic| with_reducible exact b_newNode _)
macro_rules | `(tactic| blind_leaf) => `(tactic| with_reducible exact b_newK _)
macro_rules | `(tactic| blind_leaf) => `(tactic| with_reducible exact b_newEvent _ _)
macro_rules | `(tactic| blind_leaf) => `(tactic| with_reducible exact b_appendNode _)
macro_rules | `(tactic| blind_leaf) => `(tactic| with_reducible exact b_appendVertex _)
macro_rules | `(tactic| blind_leaf) => `(tactic| with_reducible exact b_queueAdd _)
macro_rules | `(tactic| blind_leaf) => `(tactic| with_reducible exact b_queueDiscard _)
macro_rules | `(tactic| blind_leaf) => `(tactic| with_reducible exact b_queueDiscardOpt _)
macro_rules | `(tactic| blind_leaf) => `(tactic| with_reducible exact b_immediateRemove _)
macro_rules | `(tactic| blind_leaf) => `(tactic| with_reducible exact b_immediateAppend _)
macro_rules | `(tactic| blind_leaf) => `(tactic| with_reducible exact b_takeEvent _)
macro_rules | `(tactic| blind_leaf) => `(tactic| with_reducible exact b_modifyK _ _)
macro_rules | `(tactic| blind_leaf) => `(tactic| with_reducible exact b_modifyT _ _)
macro_rules | `(tactic| blind_leaf) => `(tactic| with_reducible exact Blind.pure _)
macro_rules | `(tactic| blind_leaf) => `(tactic| with_reducible exact Blind.raise _)

/-- proof search along the structure of a computation -/
macro "blind" : tactic => `(tactic|
  repeat' first
    | blind_leaf
    | assumption
    | with_reducible refine Blind.bind ?_ fun _ => ?_
    | with_reducible refine Blind.ite ?_ ?_
    | with_reducible refine Blind.forEach (fun _ => ?_) _
    | with_reducible refine Blind.mapEach (fun _ => ?_) _
    | split
    | dsimp only)

theorem b_setEvent (t : TId) (e : Event K) : Blind (K := K) (setEvent t e) :=
  b_modifyT _ _
macro_rules | `(tactic| blind_leaf) => `(tactic| with_reducible exact b_setEvent _ _)

theorem b_setVertex (t : TId) (i : Fin 3) (v : VId) :
    Blind (K := K) (setVertex t i v) := b_modifyT _ _
macro_rules | `(tactic| blind_leaf) => `(tactic| with_reducible exact b_setVertex _ _ _)

theorem b_setNeighbour (t : TId) (i : Fin 3) (n : Option TId) :
    Blind (K := K) (setNeighbour t i n) := b_modifyT _ _
macro_rules | `(tactic| blind_leaf) => `(tactic| with_reducible exact b_setNeighbour _ _ _)

theorem b_stopTriangle (t : TId) (now : K) : Blind (K := K) (stopTriangle t now) :=
  b_modifyT _ _
macro_rules | `(tactic| blind_leaf) => `(tactic| with_reducible exact b_stopTriangle _ _)

theorem b_setTriangle (t : TId) (vs : Fin 3 → VId) (ns : Fin 3 → Option TId) :
    Blind (K := K) (setTriangle t vs ns) := b_modifyT _ _
macro_rules | `(tactic| blind_leaf) => `(tactic| with_reducible exact b_setTriangle _ _ _)

theorem b_stopAt (v : VId) (n : NodeId) (now : K) : Blind (K := K) (stopAt v n now) :=
  b_modifyK _ _
macro_rules | `(tactic| blind_leaf) => `(tactic| with_reducible exact b_stopAt _ _ _)

theorem b_setWf (v : VId) (l r : Option WfId) :
    Blind (K := K) (modifyK v fun k => { k with wfl := l, wfr := r }) :=
  b_modifyK _ _
macro_rules | `(tactic| blind_leaf) => `(tactic| with_reducible exact b_setWf _ _ _)

theorem b_setRight (l r : Option VId) (now : K) : Blind (K := K) (setRight l r now) := by
  unfold setRight
  split
  · exact b_modifyK _ _
  · exact Blind.pure _
macro_rules | `(tactic| blind_leaf) => `(tactic| with_reducible exact b_setRight _ _ _)

theorem b_setLeft (l r : Option VId) (now : K) : Blind (K := K) (setLeft l r now) := by
  unfold setLeft
  split
  · exact b_modifyK _ _
  · exact Blind.pure _
macro_rules | `(tactic| blind_leaf) => `(tactic| with_reducible exact b_setLeft _ _ _)

theorem b_updateCirc (l r : Option VId) (now : K) :
    Blind (K := K) (updateCirc l r now) := by
  unfold updateCirc
  blind
macro_rules | `(tactic| blind_leaf) => `(tactic| with_reducible exact b_updateCirc _ _ _)

theorem b_stopScan (now : K) (V : List VId) (acc : Option NodeId) :
    Blind (K := K) (stopScan now V acc) := by
  induction V generalizing acc with
  | nil => exact Blind.pure _
  | cons v vs ih =>
    unfold stopScan
    refine Blind.bind (b_getK _) fun _ => Blind.bind (b_needNum _) fun _ => ?_
    refine Blind.ite (ih _) (Blind.ite (ih _) (Blind.bind ?_ fun _ => ih _))
    exact b_modifyK _ _
macro_rules | `(tactic| blind_leaf) => `(tactic| with_reducible exact b_stopScan _ _ _)

theorem b_setStopNode (v : VId) (n : NodeId) :
    Blind (K := K) (modifyK v fun kv => { kv with stopNode := some n }) :=
  b_modifyK _ _

theorem b_stopAtExisting (V : List VId) (now : K) (n : NodeId) :
    Blind (K := K) (stopAtExisting V now n) :=
  Blind.bind (Blind.forEach (fun v => b_stopAt v n now) _)
    fun _ => Blind.pure _
macro_rules | `(tactic| blind_leaf) => `(tactic| with_reducible exact b_stopAtExisting _ _ _)

theorem b_nodePosition (V : List VId) (now : K) (pos : Option (Pt K)) :
    Blind (K := K) (nodePosition V now pos) := by
  unfold nodePosition
  blind
macro_rules | `(tactic| blind_leaf) => `(tactic| with_reducible exact b_nodePosition _ _ _)

theorem b_stopAtNew (V : List VId) (step : ℤ) (now : K) (pos : Option (Pt K)) :
    Blind (K := K) (stopAtNew V step now pos) :=
  Blind.bind (b_nodePosition _ _ _) fun _ => Blind.bind (b_newNode _) fun _ =>
    Blind.bind (Blind.forEach (fun _ => b_setStopNode _ _) _)
    fun _ => Blind.pure _
macro_rules | `(tactic| blind_leaf) => `(tactic| with_reducible exact b_stopAtNew _ _ _ _)

theorem b_stopAtNode (V : List VId) (step : ℤ) (now : K) (pos : Option (Pt K)) (n : Option NodeId) :
    Blind (K := K) (stopAtNode V step now pos n) := by
  unfold stopAtNode
  blind
macro_rules | `(tactic| blind_leaf) => `(tactic| with_reducible exact b_stopAtNode _ _ _ _ _)

theorem b_assertStoppedAt (now : K) (v : VId) :
    Blind (K := K) (assertStoppedAt now v) := by
  unfold assertStoppedAt
  blind
macro_rules | `(tactic| blind_leaf) => `(tactic| with_reducible exact b_assertStoppedAt _ _)

theorem b_readVertex (v : VId) :
    Blind (K := K) (readVertex v) := by
  unfold readVertex
  blind
macro_rules | `(tactic| blind_leaf) => `(tactic| with_reducible exact b_readVertex _)

theorem b_stopKvertices (V : List VId) (step : ℤ) (now : K) (pos : Option (Pt K)) :
    Blind (K := K) (stopKvertices V step now pos) := by
  unfold stopKvertices
  blind
macro_rules | `(tactic| blind_leaf) => `(tactic| with_reducible exact b_stopKvertices _ _ _ _)

theorem b_recordNode (new : Bool) (n : NodeId) :
    Blind (K := K) (recordNode new n) := by
  unfold recordNode
  blind
macro_rules | `(tactic| blind_leaf) => `(tactic| with_reducible exact b_recordNode _ _)

theorem b_stopAndRecord (V : List VId) (step : ℤ) (now : K) (pos : Option (Pt K)) :
    Blind (K := K) (stopAndRecord V step now pos) := by
  unfold stopAndRecord
  blind
macro_rules | `(tactic| blind_leaf) => `(tactic| with_reducible exact b_stopAndRecord _ _ _ _)

theorem b_computeNewKvertex [HasSqrt K] [HasTrig K] (ul ur : Option LineId) (now : K)
    (node : NodeId) (info : ℕ) (internal : Bool) :
    Blind (K := K) (computeNewKvertex ul ur now node info internal) := by
  unfold computeNewKvertex
  blind
macro_rules | `(tactic| blind_leaf) => `(tactic| with_reducible exact b_computeNewKvertex _ _ _ _ _ _)

theorem b_storeEvent (c : Option (EvCore K)) (t : TId) :
    Blind (K := K) (storeEvent c t) := by
  unfold storeEvent
  blind
macro_rules | `(tactic| blind_leaf) => `(tactic| with_reducible exact b_storeEvent _ _)

theorem b_computeCollapseTime [HasSqrt K] (t : TId) (now : K) (sieve : Sieve) :
    Blind (K := K) (computeCollapseTime t now sieve) := by
  unfold computeCollapseTime
  blind
macro_rules | `(tactic| blind_leaf) => `(tactic| with_reducible exact b_computeCollapseTime _ _ _)

theorem b_discardEvent (e : Option (Event K)) :
    Blind (K := K) (discardEvent e) := by
  unfold discardEvent
  blind
macro_rules | `(tactic| blind_leaf) => `(tactic| with_reducible exact b_discardEvent _)

theorem b_addEvent (e : Option (Event K)) :
    Blind (K := K) (addEvent e) := by
  unfold addEvent
  blind
macro_rules | `(tactic| blind_leaf) => `(tactic| with_reducible exact b_addEvent _)

theorem b_replaceInQueue [HasSqrt K] (t : TId) (now : K) :
    Blind (K := K) (replaceInQueue t now) := by
  unfold replaceInQueue
  blind
macro_rules | `(tactic| blind_leaf) => `(tactic| with_reducible exact b_replaceInQueue _ _)

theorem b_renewEvent [HasSqrt K] (b : Bool) (t : TId) (now : K) :
    Blind (K := K) (renewEvent b t now) := by
  unfold renewEvent
  blind
macro_rules | `(tactic| blind_leaf) => `(tactic| with_reducible exact b_renewEvent _ _ _)

theorem b_replaceLoop [HasSqrt K] (v newv : VId) (now : K) (dir : Dir) (fuel : ℕ)
    (t : Option TId) (fan : List TId) :
    Blind (K := K) (replaceLoop v newv now dir fuel t fan) := by
  induction fuel generalizing t fan with
  | zero =>
    cases t with
    | none => exact Blind.pure _
    | some t => intro R s; rfl
  | succ fuel ih =>
    cases t with
    | none => exact Blind.pure _
    | some t =>
      unfold replaceLoop
      refine Blind.bind (b_getT _) fun _ => Blind.bind (b_needIdx _) fun _ =>
        Blind.bind (b_setVertex _ _ _) fun _ => Blind.bind (b_getK _) fun _ =>
        Blind.bind (b_renewEvent _ _ _) fun _ =>
        Blind.bind (b_getT _) fun _ => ih _ _

theorem b_replaceKvertex [HasSqrt K] (t : TId) (v newv : VId) (now : K) (dir : Dir) :
    Blind (K := K) (replaceKvertex t v newv now dir) := by
  intro R s
  exact b_replaceLoop _ _ _ _ _ _ _ R s
macro_rules | `(tactic| blind_leaf) => `(tactic| with_reducible exact b_replaceKvertex _ _ _ _ _)

theorem b_immediateRemoveOpt (e : Option (Event K)) :
    Blind (K := K) (immediateRemoveOpt e) := by
  unfold immediateRemoveOpt
  blind
macro_rules | `(tactic| blind_leaf) => `(tactic| with_reducible exact b_immediateRemoveOpt _)

theorem b_immediateEvent [HasSqrt K] (t : TId) (now : K) :
    Blind (K := K) (immediateEvent t now) := by
  unfold immediateEvent
  blind
macro_rules | `(tactic| blind_leaf) => `(tactic| with_reducible exact b_immediateEvent _ _)

theorem b_scheduleImmediately [HasSqrt K] (t : TId) (now : K) :
    Blind (K := K) (scheduleImmediately t now) := by
  unfold scheduleImmediately
  blind
macro_rules | `(tactic| blind_leaf) => `(tactic| with_reducible exact b_scheduleImmediately _ _)

theorem b_flipSide (n : Option TId) (v : VId) : Blind (K := K) (flipSide n v) := by
  unfold flipSide
  blind
macro_rules | `(tactic| blind_leaf) => `(tactic| with_reducible exact b_flipSide _ _)

theorem b_flipLink (n : Option TId) (i : Option (Fin 3)) (t : TId) :
    Blind (K := K) (flipLink n i t) := by
  unfold flipLink
  blind
macro_rules | `(tactic| blind_leaf) => `(tactic| with_reducible exact b_flipLink _ _ _)

theorem b_flip (t0 : TId) (s0 : Fin 3) (t1 : TId) (s1 : Fin 3) :
    Blind (K := K) (flip t0 s0 t1 s1) := by
  unfold flip
  blind
macro_rules | `(tactic| blind_leaf) => `(tactic| with_reducible exact b_flip _ _ _ _)

theorem b_handleFlip [HasSqrt K] (evt : Event K) : Blind (K := K) (handleFlip evt) := by
  unfold handleFlip
  blind
macro_rules | `(tactic| blind_leaf) => `(tactic| with_reducible exact b_handleFlip _)

theorem b_legDist [HasSqrt K] (t : TId) (leg : Fin 3) (now : K) :
    Blind (K := K) (legDist t leg now) := by
  unfold legDist
  blind
macro_rules | `(tactic| blind_leaf) => `(tactic| with_reducible exact b_legDist _ _ _)

theorem b_vertexIndex (t : TId) (v : VId) : Blind (K := K) (vertexIndex t v) := by
  unfold vertexIndex
  blind
macro_rules | `(tactic| blind_leaf) => `(tactic| with_reducible exact b_vertexIndex _ _)

theorem b_relink (n t : TId) (x : Option TId) : Blind (K := K) (relink n t x) := by
  unfold relink
  blind
macro_rules | `(tactic| blind_leaf) => `(tactic| with_reducible exact b_relink _ _ _)

theorem b_detachAndSchedule [HasSqrt K] (n : Option TId) (t : TId) (now : K) :
    Blind (K := K) (detachAndSchedule n t now) := by
  unfold detachAndSchedule
  blind
macro_rules | `(tactic| blind_leaf) => `(tactic| with_reducible exact b_detachAndSchedule _ _ _)

theorem b_evenLegs [HasSqrt K] (t : TId) (e : Fin 3) (pivot : VId) (now : K) (step : ℤ) :
    Blind (K := K) (evenLegs t e pivot now step) := by
  unfold evenLegs
  blind
macro_rules | `(tactic| blind_leaf) => `(tactic| with_reducible exact b_evenLegs _ _ _ _ _)

theorem b_evenLegsAt [HasSqrt K] (t : TId) (pivot : VId) (now : K) (step : ℤ) :
    Blind (K := K) (evenLegsAt t pivot now step) := by
  unfold evenLegsAt
  blind
macro_rules | `(tactic| blind_leaf) => `(tactic| with_reducible exact b_evenLegsAt _ _ _ _)

theorem b_evenLegsIf [HasSqrt K] (c : Bool) (t : TId) (pivot : VId) (now : K) (step : ℤ) :
    Blind (K := K) (evenLegsIf c t pivot now step) := by
  unfold evenLegsIf
  blind
macro_rules | `(tactic| blind_leaf) => `(tactic| with_reducible exact b_evenLegsIf _ _ _ _ _)

theorem b_assertVertexStopped (v : VId) :
    Blind (K := K) (assertVertexStopped v) := by
  unfold assertVertexStopped
  blind
macro_rules | `(tactic| blind_leaf) => `(tactic| with_reducible exact b_assertVertexStopped _)

theorem b_velocityOf (v : VId) : Blind (K := K) (velocityOf v) := by
  unfold velocityOf
  blind
macro_rules | `(tactic| blind_leaf) => `(tactic| with_reducible exact b_velocityOf _)

theorem b_parallel3tri [HasSqrt K] (t : TId) (e : Fin 3) (pivot : VId) (now : K) (step : ℤ) :
    Blind (K := K) (parallel3tri t e pivot now step) := by
  unfold parallel3tri
  blind
macro_rules | `(tactic| blind_leaf) => `(tactic| with_reducible exact b_parallel3tri _ _ _ _ _)

theorem b_parallel3Collapse [HasSqrt K] (pivot : VId) (now : K) (step : ℤ) (a : TId)
    (near : List (Fin 3)) (zero : Bool) :
    Blind (K := K) (parallel3.parallel3Collapse pivot now step a near zero) := by
  unfold parallel3.parallel3Collapse
  blind
macro_rules
  | `(tactic| blind_leaf) => `(tactic| with_reducible exact b_parallel3Collapse _ _ _ _ _ _)

theorem b_parallel3 [HasSqrt K] (a b : TId) (pivot : VId) (now : K) (step : ℤ) :
    Blind (K := K) (parallel3 a b pivot now step) := by
  unfold parallel3
  blind
macro_rules | `(tactic| blind_leaf) => `(tactic| with_reducible exact b_parallel3 _ _ _ _ _)

theorem b_stopPivot [HasSqrt K] [HasTrig K] (pivot : VId) (now : K) (n : NodeId) :
    Blind (K := K) (shorterLeg.stopPivot pivot now n) := by
  unfold shorterLeg.stopPivot
  blind
macro_rules | `(tactic| blind_leaf) => `(tactic| with_reducible exact b_stopPivot _ _ _)

theorem b_replaceSide [HasSqrt K] (t : TId) (now : K) (n other : Option TId) (v kv : VId)
    (dir : Dir) : Blind (K := K) (shorterLeg.replaceSide t now n other v kv dir) := by
  unfold shorterLeg.replaceSide
  blind
macro_rules | `(tactic| blind_leaf) => `(tactic| with_reducible exact b_replaceSide _ _ _ _ _ _ _)

theorem b_shorterLeg [HasSqrt K] [HasTrig K] (t : TId) (e : Fin 3) (pivot : VId) (now : K)
    (step : ℤ) : Blind (K := K) (shorterLeg t e pivot now step) := by
  unfold shorterLeg
  blind
macro_rules | `(tactic| blind_leaf) => `(tactic| with_reducible exact b_shorterLeg _ _ _ _ _)

theorem b_evenTriangle [HasSqrt K] (pivot : VId) (now : K) (t : TId) :
    Blind (K := K) (evenTriangle pivot now t) := by
  unfold evenTriangle
  blind
macro_rules | `(tactic| blind_leaf) => `(tactic| with_reducible exact b_evenTriangle _ _ _)

theorem b_hasInfFast (t : TId) : Blind (K := K) (hasInfFast t) := by
  unfold hasInfFast
  blind
macro_rules | `(tactic| blind_leaf) => `(tactic| with_reducible exact b_hasInfFast _)

theorem b_flipPair [HasSqrt K] (t0 t1 : TId) (pivot : VId) (now : K) (step : ℤ) :
    Blind (K := K) (flipPair t0 t1 pivot now step) := by
  unfold flipPair
  blind
macro_rules | `(tactic| blind_leaf) => `(tactic| with_reducible exact b_flipPair _ _ _ _ _)

theorem b_assertStopped (t : TId) : Blind (K := K) (assertStopped t) := by
  unfold assertStopped
  blind
macro_rules | `(tactic| blind_leaf) => `(tactic| with_reducible exact b_assertStopped _)

theorem b_parallelEven [HasSqrt K] (fan : List TId) (pivot : VId) (now : K) (step : ℤ) :
    Blind (K := K) (parallelEven fan pivot now step) := by
  unfold parallelEven
  blind
macro_rules | `(tactic| blind_leaf) => `(tactic| with_reducible exact b_parallelEven _ _ _ _)

theorem b_nextFan (kv : VId) (a b : List TId) : Blind (K := K) (nextFan kv a b) := by
  unfold nextFan
  blind
macro_rules | `(tactic| blind_leaf) => `(tactic| with_reducible exact b_nextFan _ _ _)

theorem b_parallelLegs [HasSqrt K] [HasTrig K] (fan : List TId) (a b : TId) (pivot : VId)
    (now : K) (dir : Dir) (step : ℤ) :
    Blind (K := K) (parallelLegs fan a b pivot now dir step) := by
  unfold parallelLegs
  blind
macro_rules | `(tactic| blind_leaf) => `(tactic| with_reducible exact b_parallelLegs _ _ _ _ _ _ _)

theorem b_parallelStep [HasSqrt K] [HasTrig K] (fan : List TId) (pivot : VId)
    (now : K) (dir : Dir) (step : ℤ) :
    Blind (K := K) (parallelStep fan pivot now dir step) := by
  unfold parallelStep
  blind
macro_rules | `(tactic| blind_leaf) => `(tactic| with_reducible exact b_parallelStep _ _ _ _ _)

theorem b_parallelFan [HasSqrt K] [HasTrig K] (depth : ℕ) (fan : List TId) (pivot : VId)
    (now : K) (dir : Dir) (step : ℤ) :
    Blind (K := K) (parallelFan depth fan pivot now dir step) := by
  induction depth generalizing fan pivot dir with
  | zero => exact Blind.raise _
  | succ d ih =>
    unfold parallelFan
    refine Blind.bind (b_parallelStep _ _ _ _ _) fun r => ?_
    cases r with
    | none => exact Blind.pure _
    | some r => exact ih _ _ _
macro_rules | `(tactic| blind_leaf) => `(tactic| with_reducible exact b_parallelFan _ _ _ _ _ _)

theorem b_evalPosition (v : Option VId) (now : K) :
    Blind (K := K) (evalPosition v now) := by
  unfold evalPosition
  blind
macro_rules | `(tactic| blind_leaf) => `(tactic| with_reducible exact b_evalPosition _ _)

theorem b_checkLinks (v : VId) : Blind (K := K) (checkLinks v) := by
  unfold checkLinks
  blind
macro_rules | `(tactic| blind_leaf) => `(tactic| with_reducible exact b_checkLinks _)

theorem b_scheduleTiny [HasSqrt K] (fan : List TId) (kv : VId) (dir : Dir) (now : K) :
    Blind (K := K) (scheduleTiny fan kv dir now) := by
  unfold scheduleTiny
  blind
macro_rules | `(tactic| blind_leaf) => `(tactic| with_reducible exact b_scheduleTiny _ _ _ _)

theorem b_edgeSide [HasSqrt K] (n : Option TId) (t : TId) (o : Option TId) (v kv : VId) (now : K)
    (dir : Dir) : Blind (K := K) (edgeSide n t o v kv now dir) := by
  unfold edgeSide
  blind
macro_rules | `(tactic| blind_leaf) => `(tactic| with_reducible exact b_edgeSide _ _ _ _ _ _ _)

theorem b_edgeFan [HasSqrt K] [HasTrig K] (depth : ℕ) (kv : VId) (a b : List TId) (now : K)
    (step : ℤ) : Blind (K := K) (edgeFan depth kv a b now step) := by
  unfold edgeFan
  blind
macro_rules | `(tactic| blind_leaf) => `(tactic| with_reducible exact b_edgeFan _ _ _ _ _ _)

theorem b_edgeVertex [HasSqrt K] [HasTrig K] (t : TId) (e : Fin 3) (now : K) (step : ℤ) :
    Blind (K := K) (edgeVertex t e now step) := by
  unfold edgeVertex
  blind
macro_rules | `(tactic| blind_leaf) => `(tactic| with_reducible exact b_edgeVertex _ _ _ _)

theorem b_handleEdge [HasSqrt K] [HasTrig K] (depth : ℕ) (evt : Event K) (step : ℤ) :
    Blind (K := K) (handleEdge depth evt step) := by
  unfold handleEdge
  blind
macro_rules | `(tactic| blind_leaf) => `(tactic| with_reducible exact b_handleEdge _ _ _)

theorem b_threeSidesNeighbour [HasSqrt K] (t : TId) (now : K) (i : Fin 3) :
    Blind (K := K) (threeSidesNeighbour t now i) := by
  unfold threeSidesNeighbour
  blind
macro_rules | `(tactic| blind_leaf) => `(tactic| with_reducible exact b_threeSidesNeighbour _ _ _)

theorem b_handleEdge3 [HasSqrt K] (evt : Event K) (step : ℤ) :
    Blind (K := K) (handleEdge3 evt step) := by
  unfold handleEdge3
  blind
macro_rules | `(tactic| blind_leaf) => `(tactic| with_reducible exact b_handleEdge3 _ _)

theorem b_handleEdge1 [HasSqrt K] [HasTrig K] (evt : Event K) (step : ℤ) :
    Blind (K := K) (handleEdge1 evt step) := by
  unfold handleEdge1
  blind
macro_rules | `(tactic| blind_leaf) => `(tactic| with_reducible exact b_handleEdge1 _ _)

theorem b_splitChecks [HasSqrt K] (v v1 v2 : VId) (now : K) :
    Blind (K := K) (splitChecks v v1 v2 now) := by
  unfold splitChecks
  blind
macro_rules | `(tactic| blind_leaf) => `(tactic| with_reducible exact b_splitChecks _ _ _ _)

theorem b_splitVertices [HasSqrt K] [HasTrig K] (v v1 v2 : VId) (now : K) (step : ℤ) :
    Blind (K := K) (splitVertices v v1 v2 now step) := by
  unfold splitVertices
  blind
macro_rules | `(tactic| blind_leaf) => `(tactic| with_reducible exact b_splitVertices _ _ _ _ _)

theorem b_splitSide [HasSqrt K] (t : TId) (i : Fin 3) (v newv : VId) (now : K) (dir : Dir) :
    Blind (K := K) (splitSide t i v newv now dir) := by
  unfold splitSide
  blind
macro_rules | `(tactic| blind_leaf) => `(tactic| with_reducible exact b_splitSide _ _ _ _ _ _)

theorem b_splitFan [HasSqrt K] [HasTrig K] (depth : ℕ) (v : VId) (fan : List TId) (now : K)
    (dir : Dir) (step : ℤ) : Blind (K := K) (splitFan depth v fan now dir step) := by
  unfold splitFan
  blind
macro_rules | `(tactic| blind_leaf) => `(tactic| with_reducible exact b_splitFan _ _ _ _ _ _)

theorem b_handleSplit [HasSqrt K] [HasTrig K] (depth : ℕ) (evt : Event K) (step : ℤ) :
    Blind (K := K) (handleSplit depth evt step) := by
  unfold handleSplit
  blind
macro_rules | `(tactic| blind_leaf) => `(tactic| with_reducible exact b_handleSplit _ _ _)

theorem b_handleEvent [HasSqrt K] [HasTrig K] (depth : ℕ) (evt : Event K) (step : ℤ) :
    Blind (K := K) (handleEvent depth evt step) := by
  unfold handleEvent
  blind
macro_rules | `(tactic| blind_leaf) => `(tactic| with_reducible exact b_handleEvent _ _ _)

theorem b_loopStep [HasSqrt K] [HasTrig K] (depth : ℕ) (step : ℤ) (now : K) :
    Blind (K := K) (loopStep depth step now) := by
  unfold loopStep
  blind
macro_rules | `(tactic| blind_leaf) => `(tactic| with_reducible exact b_loopStep _ _ _)

theorem b_loop [HasSqrt K] [HasTrig K] (depth fuel : ℕ) (step : ℤ) (now : K) :
    Blind (K := K) (loop depth fuel step now) := by
  induction fuel generalizing step now with
  | zero =>
    blind_prim loop
  | succ fuel ih =>
    unfold loop
    refine Blind.bind (b_loopStep _ _ _) fun r => ?_
    cases r with
    | none => exact Blind.pure _
    | some r => exact ih _ _
macro_rules | `(tactic| blind_leaf) => `(tactic| with_reducible exact b_loop _ _ _ _)

theorem b_checkBisectorDirection (t : TId) (i : Fin 3) (now : K) :
    Blind (K := K) (checkBisectorDirection t i now) := by
  unfold checkBisectorDirection
  blind
macro_rules | `(tactic| blind_leaf) => `(tactic| with_reducible exact b_checkBisectorDirection _ _ _)

theorem b_checkBisectors (ts : List TId) (now : K) :
    Blind (K := K) (checkBisectors ts now) := by
  unfold checkBisectors
  blind
macro_rules | `(tactic| blind_leaf) => `(tactic| with_reducible exact b_checkBisectors _ _)

theorem b_checkOrientation (ts : List TId) (now : K) :
    Blind (K := K) (checkOrientation ts now) := by
  unfold checkOrientation
  blind
macro_rules | `(tactic| blind_leaf) => `(tactic| with_reducible exact b_checkOrientation _ _)

theorem b_leftOver (t : TId) : Blind (K := K) (leftOver t) := by
  unfold leftOver
  blind
macro_rules | `(tactic| blind_leaf) => `(tactic| with_reducible exact b_leftOver _)

theorem b_checkAllStopped (ts : List TId) : Blind (K := K) (checkAllStopped ts) := by
  unfold checkAllStopped
  blind
macro_rules | `(tactic| blind_leaf) => `(tactic| with_reducible exact b_checkAllStopped _)

theorem b_skelTriangles : Blind (K := K) skelTriangles := by
  blind_prim skelTriangles
macro_rules | `(tactic| blind_leaf) => `(tactic| with_reducible exact b_skelTriangles)

theorem b_clearImmediate : Blind (K := K) clearImmediate := by
  blind_prim clearImmediate
macro_rules | `(tactic| blind_leaf) => `(tactic| with_reducible exact b_clearImmediate)

theorem b_clearQueue : Blind (K := K) clearQueue := by
  blind_prim clearQueue
macro_rules | `(tactic| blind_leaf) => `(tactic| with_reducible exact b_clearQueue)

theorem b_eventLoop [HasSqrt K] [HasTrig K] (depth : ℕ) :
    Blind (K := K) (eventLoop depth) := by
  unfold eventLoop
  blind

theorem b_initEvent [HasSqrt K] (t : TId) : Blind (K := K) (initEvent t) := by
  unfold initEvent
  blind
macro_rules | `(tactic| blind_leaf) => `(tactic| with_reducible exact b_initEvent _)

theorem b_initEventList [HasSqrt K] : Blind (K := K) initEventList := by
  unfold initEventList
  blind

end Grassfire
