/-
The event loop commutes with quarter turns (lemmas for C107).
-/
import Verif.Proofs.TurnPure
import Verif.Proofs.Wp

set_option linter.unusedSectionVars false

namespace Grassfire

open Spec

variable {K : Type}

/-- the result and the state that a computation leaves, turned -/
def turnedRes {α β : Type} [Field K] (f : α → β) : Except Fault (α × St K) → Except Fault (β × St K)
  | .ok r => .ok (f r.1, turnedState r.2)
  | .error e => .error e

/-- In the turned state, `m'` does what `m` does in the state itself, and its result is the turned one. -/
def Turns {α β : Type} [Field K] (f : α → β) (m : M K α) (m' : M K β) : Prop :=
  ∀ s, m' (turnedState s) = turnedRes f (m s)

/-- the same computation, the same result -/
abbrev Turns1 {α : Type} [Field K] (m m' : M K α) : Prop := Turns (fun x => x) m m'

section
variable [Field K]

theorem Turns.pure {α : Type} (a : α) : Turns1 (pure a : M K α) (pure a) := fun _ => rfl

theorem Turns.raise {α : Type} (e : Err) : Turns1 (raise e : M K α) (raise e) := fun _ => rfl

theorem Turns.bind {α β γ δ : Type} {f : α → γ} {g : β → δ} {m : M K α} {m' : M K γ} {k : α → M K β} {k' : γ → M K δ}
    (hm : Turns f m m') (hk : ∀ a, Turns g (k a) (k' (f a))) : Turns g (m >>= k) (m' >>= k') := by
  intro s
  rw [bind_run, bind_run, hm s]
  cases h : m s with
  | error e => rfl
  | ok r => exact hk r.1 r.2

theorem Turns.bind1 {α β δ : Type} {g : β → δ} {m m' : M K α} {k : α → M K β} {k' : α → M K δ}
    (hm : Turns1 m m') (hk : ∀ a, Turns g (k a) (k' a)) : Turns g (m >>= k) (m' >>= k') := Turns.bind hm hk

theorem Turns.ite {α β : Type} {f : α → β} {c c' : Prop} [Decidable c] [Decidable c'] {m n : M K α} {m' n' : M K β}
    (h : c ↔ c') (hm : Turns f m m') (hn : Turns f n n') : Turns f (if c then m else n) (if c' then m' else n') := by
  by_cases q : c
  · rw [if_pos q, if_pos (h.1 q)]; exact hm
  · rw [if_neg q, if_neg (fun z => q (h.2 z))]; exact hn

variable [LinearOrder K]

theorem Turns.forEach {α : Type} {f f' : α → M K Unit} (hf : ∀ a, Turns1 (f a) (f' a)) (l : List α) :
    Turns1 (forEach f l) (forEach f' l) := by
  induction l with
  | nil => exact Turns.pure _
  | cons x xs ih => exact Turns.bind1 (hf x) fun _ => ih

theorem Turns.mapEach {α β γ : Type} {g : β → γ} {f : α → M K β} {f' : α → M K γ} (hf : ∀ a, Turns g (f a) (f' a))
    (l : List α) : Turns (List.map g) (mapEach f l) (mapEach f' l) := by
  induction l with
  | nil => exact fun _ => rfl
  | cons x xs ih => exact Turns.bind (hf x) fun _ => Turns.bind ih fun _ => fun _ => rfl

theorem Turns.mapEach1 {α β : Type} {f f' : α → M K β} (hf : ∀ a, Turns1 (f a) (f' a))
    (l : List α) : Turns1 (Grassfire.mapEach f l) (Grassfire.mapEach f' l) := by
  induction l with
  | nil => exact Turns.pure _
  | cons x xs ih => exact Turns.bind1 (hf x) fun _ => Turns.bind1 (ih) fun _ => Turns.pure _

end

variable [Field K] [LinearOrder K] [IsStrictOrderedRing K]

/-! ### primitives -/

theorem tn_assertM {c c' : Prop} [Decidable c] [Decidable c'] (h : c ↔ c') : Turns1 (assertM c : M K _) (assertM c') := by
  intro s
  unfold assertM
  by_cases q : c
  · rw [if_pos q, if_pos (h.1 q)]; rfl
  · rw [if_neg q, if_neg (fun z => q (h.2 z))]; rfl

theorem tn_need {α : Type} (o : Option α) : Turns1 (need o : M K _) (need o) := by
  cases o <;> exact fun _ => rfl

theorem tn_needIdx {α : Type} (o : Option α) : Turns1 (needIdx o : M K _) (needIdx o) := by
  cases o <;> exact fun _ => rfl

theorem tn_needNum (o : Option K) : Turns1 (needNum o : M K _) (needNum o) := by
  cases o <;> exact fun _ => rfl

theorem tn_lift {α : Type} (x : Except Err α) : Turns1 (lift x : M K _) (lift x) := by
  cases x <;> exact fun _ => rfl

theorem tn_liftOk {α β : Type} (f : α → β) {x : Except Err α} {y : Except Err β} (h : y = mapOk f x) :
    Turns f (lift x : M K _) (lift y) := by
  subst h
  cases x <;> exact fun _ => rfl

theorem tn_assertSome {α : Type} (o : Option α) : Turns1 (assertSome o : M K _) (assertSome o) := by
  cases o <;> exact fun _ => rfl

theorem tn_getV (v : VId) : Turns turnedVertex (getV v : M K _) (getV v) := by
  intro s
  by_cases h : v < s.nV <;> simp [getV, turnedState, turnedRes, h]

theorem tn_getK (v : VId) : Turns turnedK (getK v : M K _) (getK v) := by
  intro s
  by_cases h : v < s.nV
  · cases hk : s.vert v <;> simp [getK, turnedState, turnedRes, turnedVertex, h, hk]
  · simp [getK, turnedState, turnedRes, h]

theorem tn_getT (v : TId) : Turns1 (getT v : M K _) (getT v) := by
  intro s
  by_cases h : v < s.nT <;> simp [getT, turnedState, turnedRes, h]

theorem tn_getN (v : NodeId) : Turns turnedNode (getN v : M K _) (getN v) := by
  intro s
  by_cases h : v < s.nN <;> simp [getN, turnedState, turnedRes, h]

theorem tn_getLine (v : LineId) : Turns turnedLine (getLine v : M K _) (getLine v) := fun _ => rfl

theorem tn_getWfLine (v : WfId) : Turns turnedLine (getWfLine v : M K _) (getWfLine v) := fun _ => rfl

theorem tn_countVertices : Turns1 (countVertices : M K _) countVertices := fun _ => rfl

theorem vertex_positionAt_turned (v : Vertex K) (p : NodeId → Node K) (x : K) :
    (turnedVertex v).positionAt (fun n => (turnedNode (p n)).pos) x =
      mapOk turned (v.positionAt (fun n => (p n).pos) x) := by
  cases v with
  | inf o => rfl
  | kin k =>
    obtain ⟨o, w, l, r, sa, st, sn, en, ul, ur, wl, wr, i, f, t⟩ := k
    cases f
    · show Except.ok (-o.2 + x * -w.2, o.1 + x * w.1) = Except.ok (-(o.2 + x * w.2), o.1 + x * w.1)
      rw [mul_neg, neg_add]
    · cases sn <;> rfl

theorem tn_positionAt (v : VId) (time : K) : Turns turned (positionAt v time : M K _) (positionAt v time) := by
  intro s
  have e : ((turnedState s).vert v).positionAt (fun n => ((turnedState s).node n).pos) time =
      mapOk turned ((s.vert v).positionAt (fun n => (s.node n).pos) time) := vertex_positionAt_turned _ _ _
  unfold positionAt
  rw [e]
  by_cases h : v < s.nV
  · rw [if_pos h, if_pos (show v < (turnedState s).nV from h)]
    cases (s.vert v).positionAt (fun n => (s.node n).pos) time <;> rfl
  · rw [if_neg h, if_neg (show ¬ v < (turnedState s).nV from h)]; rfl

theorem tn_singleSide (l : List (Fin 3)) : Turns1 (singleSide l : M K _) (singleSide l) := by
  unfold singleSide
  split
  · exact Turns.pure _
  · exact Turns.raise _

theorem tn_tryIntersection [HasSqrt K] (l r : Line2 K) (now : K) :
    Turns (Option.map turned) (tryIntersection l r now : M K _) (tryIntersection (turnedLine l) (turnedLine r) now) := by
  intro s
  unfold tryIntersection
  rw [getIntersectionAtT_turned]
  cases getIntersectionAtT l r now with
  | ok p => rfl
  | error e => cases e <;> rfl

theorem tn_triView (t : TId) : Turns turnedTView (triView t : M K _) (triView t) := by
  intro s
  unfold triView
  by_cases h : t < s.nT
  · rw [if_pos h, if_pos (show t < (turnedState s).nT from h)]
    dsimp only
    by_cases h2 : (s.tri t).vertices 0 < s.nV ∧ (s.tri t).vertices 1 < s.nV ∧ (s.tri t).vertices 2 < s.nV
    · rw [if_pos h2, if_pos (show ((turnedState s).tri t).vertices 0 < (turnedState s).nV ∧
        ((turnedState s).tri t).vertices 1 < (turnedState s).nV ∧
        ((turnedState s).tri t).vertices 2 < (turnedState s).nV from h2)]
      simp only [viewOf_turned]
      rfl
    · rw [if_neg h2, if_neg (show ¬ (((turnedState s).tri t).vertices 0 < (turnedState s).nV ∧
        ((turnedState s).tri t).vertices 1 < (turnedState s).nV ∧
        ((turnedState s).tri t).vertices 2 < (turnedState s).nV) from h2)]
      rfl
  · rw [if_neg h, if_neg (show ¬ t < (turnedState s).nT from h)]
    rfl

theorem tn_modifyK (v : VId) {f f' : KVertex K → KVertex K} (hf : ∀ k, f' (turnedK k) = turnedK (f k)) :
    Turns1 (modifyK v f : M K _) (modifyK v f') := by
  intro s
  by_cases h : v < s.nV
  · cases hk : s.vert v with
    | inf o => simp [modifyK, turnedState, turnedRes, turnedVertex, h, hk]
    | kin k =>
      simp only [modifyK, turnedState, turnedRes, turnedVertex, h, hk, if_true, hf]
      congr 3
      funext u
      by_cases hu : u = v
      · subst hu; simp
      · simp [Function.update_of_ne hu]
  · simp [modifyK, turnedState, turnedRes, h]

theorem tn_modifyT (v : TId) (f : KTri K → KTri K) : Turns1 (modifyT v f : M K _) (modifyT v f) := by
  intro s
  by_cases h : v < s.nT <;> simp [modifyT, turnedState, turnedRes, h]

theorem tn_newNode (n n' : Node K) (hn : n' = turnedNode n) : Turns1 (newNode n : M K _) (newNode n') := by
  subst hn
  intro s
  simp only [newNode, turnedState, turnedRes]
  congr 3
  funext u
  by_cases hu : u = s.nN
  · subst hu; simp
  · simp [Function.update_of_ne hu]

theorem tn_newK (kv kv' : KVertex K) (hk : kv' = turnedK kv) : Turns1 (newK kv : M K _) (newK kv') := by
  subst hk
  intro s
  simp only [newK, turnedState, turnedRes]
  congr 3
  funext u
  by_cases hu : u = s.nV
  · subst hu; simp [turnedVertex]
  · simp [Function.update_of_ne hu]

theorem tn_newEvent (c : EvCore K) (t : TId) : Turns1 (newEvent c t : M K _) (newEvent c t) := fun _ => rfl

theorem tn_appendNode (n : NodeId) : Turns1 (appendNode n : M K _) (appendNode n) := fun _ => rfl

theorem tn_appendVertex (n : VId) : Turns1 (appendVertex n : M K _) (appendVertex n) := fun _ => rfl

theorem tn_queueAdd (e : Event K) : Turns1 (queueAdd e : M K _) (queueAdd e) := by
  intro s
  unfold queueAdd
  by_cases h : (s.queue.any fun x => decide (compareEvents s.pyid e x = 0)) = true
  · rw [if_pos h, if_pos (show ((turnedState s).queue.any fun x =>
      decide (compareEvents (turnedState s).pyid e x = 0)) = true from h)]
    rfl
  · rw [if_neg h, if_neg (show ¬ ((turnedState s).queue.any fun x =>
      decide (compareEvents (turnedState s).pyid e x = 0)) = true from h)]
    rfl

theorem tn_queueDiscard (e : Event K) : Turns1 (queueDiscard e : M K _) (queueDiscard e) := fun _ => rfl

theorem tn_queueDiscardOpt (e : Option (Event K)) : Turns1 (queueDiscardOpt e : M K _) (queueDiscardOpt e) := by
  intro s
  cases e with
  | some e => exact tn_queueDiscard e s
  | none =>
    show (if s.queue.isEmpty then .ok ((), turnedState s) else .error (.py .attributeError)) =
      turnedRes _ (if s.queue.isEmpty then .ok ((), s) else .error (.py .attributeError))
    split <;> rfl

theorem tn_immediateRemove (e : Event K) : Turns1 (immediateRemove e : M K _) (immediateRemove e) := fun _ => rfl

theorem tn_immediateAppend (e : Event K) : Turns1 (immediateAppend e : M K _) (immediateAppend e) := fun _ => rfl

theorem tn_takeEvent (now : K) : Turns1 (takeEvent now : M K _) (takeEvent now) := by
  intro s
  obtain ⟨_, _, _, _, _, _, _, _, _, _, _, _, _, _, q, i⟩ := s
  cases i with
  | cons e l => rfl
  | nil => cases q <;> rfl

/-! ### the functions -/

theorem leftRef_turned (k : KVertex K) : (turnedK k).leftRef = k.leftRef := rfl

theorem rightRef_turned (k : KVertex K) : (turnedK k).rightRef = k.rightRef := rfl

theorem infFast_turned (k : KVertex K) : (turnedK k).infFast = k.infFast := rfl

/-- leaves of the proof search of `turns` -/
syntax "turns_leaf" : tactic
/-- computations that give something that is turned -/
syntax "turns_geo" : tactic
macro_rules | `(tactic| turns_geo) => `(tactic| with_reducible refine Turns.bind (tn_liftOk _ (getBisector_turned _ _)) fun _ => ?_)

macro_rules | `(tactic| turns_leaf) => `(tactic| with_reducible exact tn_need _)
macro_rules | `(tactic| turns_leaf) => `(tactic| with_reducible exact tn_needIdx _)
macro_rules | `(tactic| turns_leaf) => `(tactic| with_reducible exact tn_needNum _)
macro_rules | `(tactic| turns_leaf) => `(tactic| with_reducible exact tn_lift _)
macro_rules | `(tactic| turns_leaf) => `(tactic| with_reducible exact tn_assertSome _)
macro_rules | `(tactic| turns_leaf) => `(tactic| with_reducible exact tn_getT _)
macro_rules | `(tactic| turns_leaf) => `(tactic| with_reducible exact tn_countVertices)
macro_rules | `(tactic| turns_leaf) => `(tactic| with_reducible exact tn_singleSide _)
macro_rules | `(tactic| turns_leaf) => `(tactic| with_reducible exact tn_newEvent _ _)
macro_rules | `(tactic| turns_leaf) => `(tactic| with_reducible exact tn_appendNode _)
macro_rules | `(tactic| turns_leaf) => `(tactic| with_reducible exact tn_appendVertex _)
macro_rules | `(tactic| turns_leaf) => `(tactic| with_reducible exact tn_queueAdd _)
macro_rules | `(tactic| turns_leaf) => `(tactic| with_reducible exact tn_queueDiscard _)
macro_rules | `(tactic| turns_leaf) => `(tactic| with_reducible exact tn_queueDiscardOpt _)
macro_rules | `(tactic| turns_leaf) => `(tactic| with_reducible exact tn_immediateRemove _)
macro_rules | `(tactic| turns_leaf) => `(tactic| with_reducible exact tn_immediateAppend _)
macro_rules | `(tactic| turns_leaf) => `(tactic| with_reducible exact tn_takeEvent _)
macro_rules | `(tactic| turns_leaf) => `(tactic| with_reducible exact tn_modifyT _ _)
macro_rules | `(tactic| turns_leaf) => `(tactic| with_reducible refine tn_assertM ?_)
macro_rules | `(tactic| turns_leaf) => `(tactic| with_reducible refine tn_modifyK _ fun _ => ?_)
macro_rules | `(tactic| turns_leaf) => `(tactic| with_reducible exact Turns.pure _)
macro_rules | `(tactic| turns_leaf) => `(tactic| with_reducible exact Turns.raise _)
macro_rules | `(tactic| turns_geo) => `(tactic| with_reducible refine Turns.bind (tn_getV _) fun _ => ?_)
macro_rules | `(tactic| turns_geo) => `(tactic| with_reducible refine Turns.bind (tn_getK _) fun _ => ?_)
macro_rules | `(tactic| turns_geo) => `(tactic| with_reducible refine Turns.bind (tn_getN _) fun _ => ?_)
macro_rules | `(tactic| turns_geo) => `(tactic| with_reducible refine Turns.bind (tn_getLine _) fun _ => ?_)
macro_rules | `(tactic| turns_geo) => `(tactic| with_reducible refine Turns.bind (tn_getWfLine _) fun _ => ?_)
macro_rules | `(tactic| turns_geo) => `(tactic| with_reducible refine Turns.bind (tn_positionAt _ _) fun _ => ?_)
macro_rules | `(tactic| turns_geo) => `(tactic| with_reducible refine Turns.bind (tn_tryIntersection _ _ _) fun _ => ?_)
macro_rules | `(tactic| turns_geo) => `(tactic| with_reducible refine Turns.bind (tn_triView _) fun _ => ?_)

/-- proof search along the structure of a computation -/
macro "turns" : tactic => `(tactic|
  repeat' first
    | turns_leaf
    | assumption
    | turns_geo
    | with_reducible refine Turns.bind1 ?_ fun _ => ?_
    | with_reducible refine Turns.ite ?_ ?_ ?_
    | exact Iff.rfl
    | exact rfl
    | with_reducible refine Turns.forEach (fun _ => ?_) _
    | with_reducible refine Turns.mapEach1 (fun _ => ?_) _
    | simp only [leftRef_turned, rightRef_turned]
    | split
    | dsimp only)

theorem tn_setEvent (t : TId) (e : Event K) : Turns1 (K := K) (setEvent t e)
      (setEvent t e) :=
  tn_modifyT _ _
macro_rules | `(tactic| turns_leaf) => `(tactic| with_reducible exact tn_setEvent _ _)

theorem tn_setVertex (t : TId) (i : Fin 3) (v : VId) :
    Turns1 (K := K) (setVertex t i v)
      (setVertex t i v) := tn_modifyT _ _
macro_rules | `(tactic| turns_leaf) => `(tactic| with_reducible exact tn_setVertex _ _ _)

theorem tn_setNeighbour (t : TId) (i : Fin 3) (n : Option TId) :
    Turns1 (K := K) (setNeighbour t i n)
      (setNeighbour t i n) := tn_modifyT _ _
macro_rules | `(tactic| turns_leaf) => `(tactic| with_reducible exact tn_setNeighbour _ _ _)

theorem tn_stopTriangle (t : TId) (now : K) : Turns1 (K := K) (stopTriangle t now)
      (stopTriangle t now) :=
  tn_modifyT _ _
macro_rules | `(tactic| turns_leaf) => `(tactic| with_reducible exact tn_stopTriangle _ _)

theorem tn_setTriangle (t : TId) (vs : Fin 3 → VId) (ns : Fin 3 → Option TId) :
    Turns1 (K := K) (setTriangle t vs ns)
      (setTriangle t vs ns) := tn_modifyT _ _
macro_rules | `(tactic| turns_leaf) => `(tactic| with_reducible exact tn_setTriangle _ _ _)

theorem tn_stopAt (v : VId) (n : NodeId) (now : K) : Turns1 (K := K) (stopAt v n now)
      (stopAt v n now) :=
  tn_modifyK _ fun _ => rfl
macro_rules | `(tactic| turns_leaf) => `(tactic| with_reducible exact tn_stopAt _ _ _)

theorem tn_setWf (v : VId) (l r : Option WfId) :
    Turns1 (K := K) (modifyK v fun k => { k with wfl := l, wfr := r })
      (modifyK v fun k => { k with wfl := l, wfr := r }) :=
  tn_modifyK _ fun _ => rfl
macro_rules | `(tactic| turns_leaf) => `(tactic| with_reducible exact tn_setWf _ _ _)

theorem tn_setRight (l r : Option VId) (now : K) : Turns1 (K := K) (setRight l r now)
      (setRight l r now) := by
  unfold setRight
  split
  · exact tn_modifyK _ fun _ => rfl
  · exact Turns.pure _
macro_rules | `(tactic| turns_leaf) => `(tactic| with_reducible exact tn_setRight _ _ _)

theorem tn_setLeft (l r : Option VId) (now : K) : Turns1 (K := K) (setLeft l r now)
      (setLeft l r now) := by
  unfold setLeft
  split
  · exact tn_modifyK _ fun _ => rfl
  · exact Turns.pure _
macro_rules | `(tactic| turns_leaf) => `(tactic| with_reducible exact tn_setLeft _ _ _)

theorem tn_updateCirc (l r : Option VId) (now : K) :
    Turns1 (K := K) (updateCirc l r now)
      (updateCirc l r now) := by
  unfold updateCirc
  turns
macro_rules | `(tactic| turns_leaf) => `(tactic| with_reducible exact tn_updateCirc _ _ _)

theorem tn_stopScan (now : K) (V : List VId) (acc : Option NodeId) :
    Turns1 (K := K) (stopScan now V acc)
      (stopScan now V acc) := by
  induction V generalizing acc with
  | nil => exact Turns.pure _
  | cons v vs ih =>
    unfold stopScan
    refine Turns.bind (tn_getK _) fun _ => Turns.bind1 (tn_needNum _) fun _ => ?_
    refine Turns.ite Iff.rfl (ih _) (Turns.ite Iff.rfl (ih _) (Turns.bind1 ?_ fun _ => ih _))
    exact tn_modifyK _ fun _ => rfl
macro_rules | `(tactic| turns_leaf) => `(tactic| with_reducible exact tn_stopScan _ _ _)

theorem tn_setStopNode (v : VId) (n : NodeId) :
    Turns1 (K := K) (modifyK v fun kv => { kv with stopNode := some n })
      (modifyK v fun kv => { kv with stopNode := some n }) :=
  tn_modifyK _ fun _ => rfl

theorem tn_stopAtExisting (V : List VId) (now : K) (n : NodeId) :
    Turns1 (K := K) (stopAtExisting V now n)
      (stopAtExisting V now n) :=
  Turns.bind1 (Turns.forEach (fun v => tn_stopAt v n now) _)
    fun _ => Turns.pure _
macro_rules | `(tactic| turns_leaf) => `(tactic| with_reducible exact tn_stopAtExisting _ _ _)

theorem tn_nodePosition (V : List VId) (now : K) {pos pos' : Option (Pt K)} (h : pos' = pos.map turned) :
    Turns (K := K) turned (nodePosition V now pos) (nodePosition V now pos') := by
  subst h
  unfold nodePosition
  cases pos with
  | some p => exact fun _ => rfl
  | none =>
    exact Turns.bind (Turns.mapEach (fun _ => tn_positionAt _ _) _) fun l => tn_liftOk _ (averagePos_turned l)
theorem tn_stopAtNew (V : List VId) (step : ℤ) (now : K) {pos pos' : Option (Pt K)} (h : pos' = pos.map turned) :
    Turns1 (K := K) (stopAtNew V step now pos) (stopAtNew V step now pos') :=
  Turns.bind (tn_nodePosition _ _ h) fun _ => Turns.bind1 (tn_newNode _ _ rfl) fun _ =>
    Turns.bind1 (Turns.forEach (fun _ => tn_setStopNode _ _) _)
    fun _ => Turns.pure _
macro_rules | `(tactic| turns_leaf) => `(tactic| with_reducible refine tn_stopAtNew _ _ _ ?_)

theorem tn_stopAtNode (V : List VId) (step : ℤ) (now : K) {pos pos' : Option (Pt K)} (n : Option NodeId)
    (h : pos' = pos.map turned) :
    Turns1 (K := K) (stopAtNode V step now pos n) (stopAtNode V step now pos' n) := by
  cases n with
  | some n => exact tn_stopAtExisting _ _ _
  | none => exact tn_stopAtNew _ _ _ h
macro_rules | `(tactic| turns_leaf) => `(tactic| with_reducible refine tn_stopAtNode _ _ _ _ ?_)

theorem tn_assertStoppedAt (now : K) (v : VId) :
    Turns1 (K := K) (assertStoppedAt now v)
      (assertStoppedAt now v) := by
  unfold assertStoppedAt
  turns
macro_rules | `(tactic| turns_leaf) => `(tactic| with_reducible exact tn_assertStoppedAt _ _)

theorem tn_readVertex (v : VId) :
    Turns1 (K := K) (readVertex v)
      (readVertex v) := by
  unfold readVertex
  turns
macro_rules | `(tactic| turns_leaf) => `(tactic| with_reducible exact tn_readVertex _)

theorem tn_stopKvertices (V : List VId) (step : ℤ) (now : K) {pos pos' : Option (Pt K)} (h : pos' = pos.map turned) :
    Turns1 (K := K) (stopKvertices V step now pos) (stopKvertices V step now pos') := by
  unfold stopKvertices
  turns
macro_rules | `(tactic| turns_leaf) => `(tactic| with_reducible refine tn_stopKvertices _ _ _ ?_)

theorem tn_recordNode (new : Bool) (n : NodeId) :
    Turns1 (K := K) (recordNode new n)
      (recordNode new n) := by
  unfold recordNode
  turns
macro_rules | `(tactic| turns_leaf) => `(tactic| with_reducible exact tn_recordNode _ _)

theorem tn_stopAndRecord (V : List VId) (step : ℤ) (now : K) {pos pos' : Option (Pt K)} (h : pos' = pos.map turned) :
    Turns1 (K := K) (stopAndRecord V step now pos) (stopAndRecord V step now pos') := by
  unfold stopAndRecord
  turns
macro_rules | `(tactic| turns_leaf) => `(tactic| with_reducible refine tn_stopAndRecord _ _ _ ?_)

theorem tn_computeNewKvertex [HasSqrt K] [HasTrig K] (ul ur : Option LineId) (now : K)
    (node : NodeId) (info : ℕ) (internal : Bool) :
    Turns1 (K := K) (computeNewKvertex ul ur now node info internal)
      (computeNewKvertex ul ur now node info internal) := by
  unfold computeNewKvertex
  refine Turns.bind (tn_getN _) fun nd => Turns.bind1 (tn_need _) fun _ => Turns.bind1 (tn_need _) fun _ =>
    Turns.bind (tn_getLine _) fun l => Turns.bind (tn_getLine _) fun r =>
    Turns.bind (tn_liftOk _ (newMotion_turned l r now nd.pos)) fun m => tn_newK _ _ ?_
  obtain ⟨a, b⟩ := m
  by_cases q : a = (0, 0)
  · subst q
    have z : turned ((0, 0) : Pt K) = (0, 0) := turned_zero.2 rfl
    simp [turnedK, z]
  · have q' : ¬ turned a = (0, 0) := fun h => q (turned_zero.1 h)
    cases b <;> simp [turnedK, q, q']
macro_rules | `(tactic| turns_leaf) => `(tactic| with_reducible refine tn_computeNewKvertex _ _ _ _ _ _)

theorem tn_storeEvent (c : Option (EvCore K)) (t : TId) :
    Turns1 (K := K) (storeEvent c t)
      (storeEvent c t) := by
  unfold storeEvent
  turns
macro_rules | `(tactic| turns_leaf) => `(tactic| with_reducible exact tn_storeEvent _ _)

theorem tn_computeCollapseTime [HasSqrt K] (t : TId) (now : K) (sieve : Sieve) :
    Turns1 (K := K) (computeCollapseTime t now sieve)
      (computeCollapseTime t now sieve) := by
  unfold computeCollapseTime
  refine Turns.bind (tn_triView _) fun v => ?_
  rw [computeCollapse_turned]
  turns
macro_rules | `(tactic| turns_leaf) => `(tactic| with_reducible refine tn_computeCollapseTime _ _ _)

theorem tn_discardEvent (e : Option (Event K)) :
    Turns1 (K := K) (discardEvent e)
      (discardEvent e) := by
  unfold discardEvent
  turns
macro_rules | `(tactic| turns_leaf) => `(tactic| with_reducible exact tn_discardEvent _)

theorem tn_addEvent (e : Option (Event K)) :
    Turns1 (K := K) (addEvent e)
      (addEvent e) := by
  unfold addEvent
  turns
macro_rules | `(tactic| turns_leaf) => `(tactic| with_reducible exact tn_addEvent _)

theorem tn_replaceInQueue [HasSqrt K] (t : TId) (now : K) :
    Turns1 (K := K) (replaceInQueue t now)
      (replaceInQueue t now) := by
  unfold replaceInQueue
  turns
macro_rules | `(tactic| turns_leaf) => `(tactic| with_reducible exact tn_replaceInQueue _ _)

theorem tn_renewEvent [HasSqrt K] (b : Bool) (t : TId) (now : K) :
    Turns1 (K := K) (renewEvent b t now)
      (renewEvent b t now) := by
  unfold renewEvent
  turns
macro_rules | `(tactic| turns_leaf) => `(tactic| with_reducible exact tn_renewEvent _ _ _)

theorem tn_replaceLoop [HasSqrt K] (v newv : VId) (now : K) (dir : Dir) (fuel : ℕ)
    (t : Option TId) (fan : List TId) :
    Turns1 (K := K) (replaceLoop v newv now dir fuel t fan)
      (replaceLoop v newv now dir fuel t fan) := by
  induction fuel generalizing t fan with
  | zero =>
    cases t with
    | none => exact Turns.pure _
    | some t => exact fun _ => rfl
  | succ fuel ih =>
    cases t with
    | none => exact Turns.pure _
    | some t =>
      unfold replaceLoop
      refine Turns.bind1 (tn_getT _) fun _ => Turns.bind1 (tn_needIdx _) fun _ =>
        Turns.bind1 (tn_setVertex _ _ _) fun _ => Turns.bind (tn_getK _) fun _ =>
        Turns.bind1 (tn_renewEvent _ _ _) fun _ =>
        Turns.bind1 (tn_getT _) fun _ => ih _ _

theorem tn_replaceKvertex [HasSqrt K] (t : TId) (v newv : VId) (now : K) (dir : Dir) :
    Turns1 (K := K) (replaceKvertex t v newv now dir)
      (replaceKvertex t v newv now dir) := by
  intro s
  exact tn_replaceLoop _ _ _ _ _ _ _ s
macro_rules | `(tactic| turns_leaf) => `(tactic| with_reducible exact tn_replaceKvertex _ _ _ _ _)

theorem tn_immediateRemoveOpt (e : Option (Event K)) :
    Turns1 (K := K) (immediateRemoveOpt e)
      (immediateRemoveOpt e) := by
  unfold immediateRemoveOpt
  turns
macro_rules | `(tactic| turns_leaf) => `(tactic| with_reducible exact tn_immediateRemoveOpt _)

theorem tn_immediateEvent [HasSqrt K] (t : TId) (now : K) :
    Turns1 (K := K) (immediateEvent t now)
      (immediateEvent t now) := by
  unfold immediateEvent
  refine Turns.bind (tn_triView _) fun v => ?_
  rw [newEdgeCollapse_turned]
  turns
macro_rules | `(tactic| turns_leaf) => `(tactic| with_reducible refine tn_immediateEvent _ _)

theorem tn_scheduleImmediately [HasSqrt K] (t : TId) (now : K) :
    Turns1 (K := K) (scheduleImmediately t now)
      (scheduleImmediately t now) := by
  unfold scheduleImmediately
  turns
macro_rules | `(tactic| turns_leaf) => `(tactic| with_reducible exact tn_scheduleImmediately _ _)

theorem tn_flipSide (n : Option TId) (v : VId) : Turns1 (K := K) (flipSide n v)
      (flipSide n v) := by
  unfold flipSide
  turns
macro_rules | `(tactic| turns_leaf) => `(tactic| with_reducible exact tn_flipSide _ _)

theorem tn_flipLink (n : Option TId) (i : Option (Fin 3)) (t : TId) :
    Turns1 (K := K) (flipLink n i t)
      (flipLink n i t) := by
  unfold flipLink
  turns
macro_rules | `(tactic| turns_leaf) => `(tactic| with_reducible exact tn_flipLink _ _ _)

theorem tn_flip (t0 : TId) (s0 : Fin 3) (t1 : TId) (s1 : Fin 3) :
    Turns1 (K := K) (flip t0 s0 t1 s1)
      (flip t0 s0 t1 s1) := by
  unfold flip
  turns
macro_rules | `(tactic| turns_leaf) => `(tactic| with_reducible exact tn_flip _ _ _ _)

theorem tn_handleFlip [HasSqrt K] (evt : Event K) : Turns1 (K := K) (handleFlip evt)
      (handleFlip evt) := by
  unfold handleFlip
  turns
macro_rules | `(tactic| turns_leaf) => `(tactic| with_reducible exact tn_handleFlip _)

theorem tn_legDist [HasSqrt K] (t : TId) (leg : Fin 3) (now : K) :
    Turns1 (K := K) (legDist t leg now) (legDist t leg now) := by
  unfold legDist
  refine Turns.bind1 (tn_getT _) fun _ => Turns.bind (tn_positionAt _ _) fun _ => Turns.bind (tn_positionAt _ _) fun _ => ?_
  rw [sub2_turned, norm2d_turned]
  exact Turns.pure _
macro_rules | `(tactic| turns_leaf) => `(tactic| with_reducible refine tn_legDist _ _ _)

theorem tn_vertexIndex (t : TId) (v : VId) : Turns1 (K := K) (vertexIndex t v)
      (vertexIndex t v) := by
  unfold vertexIndex
  turns
macro_rules | `(tactic| turns_leaf) => `(tactic| with_reducible exact tn_vertexIndex _ _)

theorem tn_relink (n t : TId) (x : Option TId) : Turns1 (K := K) (relink n t x)
      (relink n t x) := by
  unfold relink
  turns
macro_rules | `(tactic| turns_leaf) => `(tactic| with_reducible exact tn_relink _ _ _)

theorem tn_detachAndSchedule [HasSqrt K] (n : Option TId) (t : TId) (now : K) :
    Turns1 (K := K) (detachAndSchedule n t now)
      (detachAndSchedule n t now) := by
  unfold detachAndSchedule
  turns
macro_rules | `(tactic| turns_leaf) => `(tactic| with_reducible exact tn_detachAndSchedule _ _ _)

theorem tn_evenLegs [HasSqrt K] (t : TId) (e : Fin 3) (pivot : VId) (now : K) (step : ℤ) :
    Turns1 (K := K) (evenLegs t e pivot now step)
      (evenLegs t e pivot now step) := by
  unfold evenLegs
  turns
macro_rules | `(tactic| turns_leaf) => `(tactic| with_reducible exact tn_evenLegs _ _ _ _ _)

theorem tn_evenLegsAt [HasSqrt K] (t : TId) (pivot : VId) (now : K) (step : ℤ) :
    Turns1 (K := K) (evenLegsAt t pivot now step)
      (evenLegsAt t pivot now step) := by
  unfold evenLegsAt
  turns
macro_rules | `(tactic| turns_leaf) => `(tactic| with_reducible exact tn_evenLegsAt _ _ _ _)

theorem tn_evenLegsIf [HasSqrt K] (c : Bool) (t : TId) (pivot : VId) (now : K) (step : ℤ) :
    Turns1 (K := K) (evenLegsIf c t pivot now step)
      (evenLegsIf c t pivot now step) := by
  unfold evenLegsIf
  turns
macro_rules | `(tactic| turns_leaf) => `(tactic| with_reducible exact tn_evenLegsIf _ _ _ _ _)

theorem tn_assertVertexStopped (v : VId) :
    Turns1 (K := K) (assertVertexStopped v)
      (assertVertexStopped v) := by
  unfold assertVertexStopped
  turns
macro_rules | `(tactic| turns_leaf) => `(tactic| with_reducible exact tn_assertVertexStopped _)

theorem tn_velocityOf (v : VId) : Turns (K := K) turned (velocityOf v) (velocityOf v) := by
  unfold velocityOf
  refine Turns.bind (tn_getV _) fun x => ?_
  intro s
  cases x with
  | kin k => rfl
  | inf o => exact congrArg (fun p => Except.ok (p, turnedState s)) (turned_zero.2 rfl).symm
macro_rules | `(tactic| turns_geo) => `(tactic| with_reducible refine Turns.bind (tn_velocityOf _) fun _ => ?_)

theorem tn_parallel3tri [HasSqrt K] (t : TId) (e : Fin 3) (pivot : VId) (now : K) (step : ℤ) :
    Turns1 (K := K) (parallel3tri t e pivot now step)
      (parallel3tri t e pivot now step) := by
  unfold parallel3tri
  refine Turns.bind1 (tn_getT _) fun _ => Turns.bind1 (tn_assertM Iff.rfl) fun _ => Turns.bind1 (tn_assertM Iff.rfl) fun _ =>
    Turns.bind1 (tn_legDist _ _ _) fun _ => Turns.bind1 (tn_legDist _ _ _) fun _ => Turns.bind1 (tn_assertM Iff.rfl) fun _ =>
    Turns.bind1 (tn_assertM Iff.rfl) fun _ => Turns.bind (tn_velocityOf _) fun _ => Turns.bind (tn_velocityOf _) fun _ => ?_
  simp only [norm2d_turned]
  turns
macro_rules | `(tactic| turns_leaf) => `(tactic| with_reducible exact tn_parallel3tri _ _ _ _ _)

theorem tn_parallel3Collapse [HasSqrt K] (pivot : VId) (now : K) (step : ℤ) (a : TId)
    (near : List (Fin 3)) (zero : Bool) :
    Turns1 (K := K) (parallel3.parallel3Collapse pivot now step a near zero)
      (parallel3.parallel3Collapse pivot now step a near zero) := by
  unfold parallel3.parallel3Collapse
  turns
macro_rules
  | `(tactic| turns_leaf) => `(tactic| with_reducible exact tn_parallel3Collapse _ _ _ _ _ _)

theorem tn_parallel3 [HasSqrt K] (a b : TId) (pivot : VId) (now : K) (step : ℤ) :
    Turns1 (K := K) (parallel3 a b pivot now step)
      (parallel3 a b pivot now step) := by
  unfold parallel3
  turns
macro_rules | `(tactic| turns_leaf) => `(tactic| with_reducible exact tn_parallel3 _ _ _ _ _)

theorem tn_stopPivot [HasSqrt K] [HasTrig K] (pivot : VId) (now : K) (n : NodeId) :
    Turns1 (K := K) (shorterLeg.stopPivot pivot now n)
      (shorterLeg.stopPivot pivot now n) := by
  unfold shorterLeg.stopPivot
  turns
macro_rules | `(tactic| turns_leaf) => `(tactic| with_reducible exact tn_stopPivot _ _ _)

theorem tn_replaceSide [HasSqrt K] (t : TId) (now : K) (n other : Option TId) (v kv : VId)
    (dir : Dir) : Turns1 (K := K) (shorterLeg.replaceSide t now n other v kv dir)
      (shorterLeg.replaceSide t now n other v kv dir) := by
  unfold shorterLeg.replaceSide
  turns
macro_rules | `(tactic| turns_leaf) => `(tactic| with_reducible exact tn_replaceSide _ _ _ _ _ _ _)

theorem tn_shorterLeg [HasSqrt K] [HasTrig K] (t : TId) (e : Fin 3) (pivot : VId) (now : K)
    (step : ℤ) : Turns1 (K := K) (shorterLeg t e pivot now step)
      (shorterLeg t e pivot now step) := by
  unfold shorterLeg
  turns
macro_rules | `(tactic| turns_leaf) => `(tactic| with_reducible exact tn_shorterLeg _ _ _ _ _)

theorem tn_evenTriangle [HasSqrt K] (pivot : VId) (now : K) (t : TId) :
    Turns1 (K := K) (evenTriangle pivot now t)
      (evenTriangle pivot now t) := by
  unfold evenTriangle
  turns
macro_rules | `(tactic| turns_leaf) => `(tactic| with_reducible exact tn_evenTriangle _ _ _)

theorem tn_hasInfFast (t : TId) : Turns1 (K := K) (hasInfFast t)
      (hasInfFast t) := by
  unfold hasInfFast
  turns
macro_rules | `(tactic| turns_leaf) => `(tactic| with_reducible exact tn_hasInfFast _)

theorem tn_flipPair [HasSqrt K] (t0 t1 : TId) (pivot : VId) (now : K) (step : ℤ) :
    Turns1 (K := K) (flipPair t0 t1 pivot now step)
      (flipPair t0 t1 pivot now step) := by
  unfold flipPair
  turns
macro_rules | `(tactic| turns_leaf) => `(tactic| with_reducible exact tn_flipPair _ _ _ _ _)

theorem tn_assertStopped (t : TId) : Turns1 (K := K) (assertStopped t)
      (assertStopped t) := by
  unfold assertStopped
  turns
macro_rules | `(tactic| turns_leaf) => `(tactic| with_reducible exact tn_assertStopped _)

theorem tn_parallelEven [HasSqrt K] (fan : List TId) (pivot : VId) (now : K) (step : ℤ) :
    Turns1 (K := K) (parallelEven fan pivot now step)
      (parallelEven fan pivot now step) := by
  unfold parallelEven
  turns
macro_rules | `(tactic| turns_leaf) => `(tactic| with_reducible exact tn_parallelEven _ _ _ _)

theorem tn_nextFan (kv : VId) (a b : List TId) : Turns1 (K := K) (nextFan kv a b)
      (nextFan kv a b) := by
  unfold nextFan
  turns
macro_rules | `(tactic| turns_leaf) => `(tactic| with_reducible exact tn_nextFan _ _ _)

theorem tn_parallelLegs [HasSqrt K] [HasTrig K] (fan : List TId) (a b : TId) (pivot : VId)
    (now : K) (dir : Dir) (step : ℤ) :
    Turns1 (K := K) (parallelLegs fan a b pivot now dir step)
      (parallelLegs fan a b pivot now dir step) := by
  unfold parallelLegs
  turns
macro_rules | `(tactic| turns_leaf) => `(tactic| with_reducible exact tn_parallelLegs _ _ _ _ _ _ _)

theorem tn_parallelStep [HasSqrt K] [HasTrig K] (fan : List TId) (pivot : VId)
    (now : K) (dir : Dir) (step : ℤ) :
    Turns1 (K := K) (parallelStep fan pivot now dir step)
      (parallelStep fan pivot now dir step) := by
  unfold parallelStep
  turns
macro_rules | `(tactic| turns_leaf) => `(tactic| with_reducible exact tn_parallelStep _ _ _ _ _)

theorem tn_parallelFan [HasSqrt K] [HasTrig K] (depth : ℕ) (fan : List TId) (pivot : VId)
    (now : K) (dir : Dir) (step : ℤ) :
    Turns1 (K := K) (parallelFan depth fan pivot now dir step)
      (parallelFan depth fan pivot now dir step) := by
  induction depth generalizing fan pivot dir with
  | zero => exact Turns.raise _
  | succ d ih =>
    unfold parallelFan
    refine Turns.bind1 (tn_parallelStep _ _ _ _ _) fun r => ?_
    cases r with
    | none => exact Turns.pure _
    | some r => exact ih _ _ _
macro_rules | `(tactic| turns_leaf) => `(tactic| with_reducible exact tn_parallelFan _ _ _ _ _ _)

theorem tn_evalPosition (v : Option VId) (now : K) :
    Turns1 (K := K) (evalPosition v now)
      (evalPosition v now) := by
  unfold evalPosition
  turns
macro_rules | `(tactic| turns_leaf) => `(tactic| with_reducible exact tn_evalPosition _ _)

theorem tn_checkLinks (v : VId) : Turns1 (K := K) (checkLinks v)
      (checkLinks v) := by
  unfold checkLinks
  turns
macro_rules | `(tactic| turns_leaf) => `(tactic| with_reducible exact tn_checkLinks _)

theorem tn_scheduleTiny [HasSqrt K] (fan : List TId) (kv : VId) (dir : Dir) (now : K) :
    Turns1 (K := K) (scheduleTiny fan kv dir now) (scheduleTiny fan kv dir now) := by
  unfold scheduleTiny
  split
  · exact Turns.pure _
  · refine Turns.bind1 (tn_vertexIndex _ _) fun _ => Turns.bind1 (tn_getT _) fun _ =>
      Turns.bind (tn_positionAt _ _) fun p => Turns.bind (tn_positionAt _ _) fun q => ?_
    have e : ((turned p).1 - (turned q).1) * ((turned p).1 - (turned q).1) +
        ((turned p).2 - (turned q).2) * ((turned p).2 - (turned q).2) =
        (p.1 - q.1) * (p.1 - q.1) + (p.2 - q.2) * (p.2 - q.2) := by
      unfold turned; ring
    rw [e]
    turns
macro_rules | `(tactic| turns_leaf) => `(tactic| with_reducible refine tn_scheduleTiny _ _ _ _)

theorem tn_edgeSide [HasSqrt K] (n : Option TId) (t : TId) (o : Option TId) (v kv : VId) (now : K)
    (dir : Dir) : Turns1 (K := K) (edgeSide n t o v kv now dir)
      (edgeSide n t o v kv now dir) := by
  unfold edgeSide
  turns
macro_rules | `(tactic| turns_leaf) => `(tactic| with_reducible exact tn_edgeSide _ _ _ _ _ _ _)

theorem tn_edgeFan [HasSqrt K] [HasTrig K] (depth : ℕ) (kv : VId) (a b : List TId) (now : K)
    (step : ℤ) : Turns1 (K := K) (edgeFan depth kv a b now step)
      (edgeFan depth kv a b now step) := by
  unfold edgeFan
  turns
macro_rules | `(tactic| turns_leaf) => `(tactic| with_reducible exact tn_edgeFan _ _ _ _ _ _)

theorem tn_edgeVertex [HasSqrt K] [HasTrig K] (t : TId) (e : Fin 3) (now : K) (step : ℤ) :
    Turns1 (K := K) (edgeVertex t e now step)
      (edgeVertex t e now step) := by
  unfold edgeVertex
  turns
macro_rules | `(tactic| turns_leaf) => `(tactic| with_reducible exact tn_edgeVertex _ _ _ _)

theorem tn_handleEdge [HasSqrt K] [HasTrig K] (depth : ℕ) (evt : Event K) (step : ℤ) :
    Turns1 (K := K) (handleEdge depth evt step)
      (handleEdge depth evt step) := by
  unfold handleEdge
  turns
macro_rules | `(tactic| turns_leaf) => `(tactic| with_reducible exact tn_handleEdge _ _ _)

theorem tn_threeSidesNeighbour [HasSqrt K] (t : TId) (now : K) (i : Fin 3) :
    Turns1 (K := K) (threeSidesNeighbour t now i)
      (threeSidesNeighbour t now i) := by
  unfold threeSidesNeighbour
  turns
macro_rules | `(tactic| turns_leaf) => `(tactic| with_reducible exact tn_threeSidesNeighbour _ _ _)

theorem tn_handleEdge3 [HasSqrt K] (evt : Event K) (step : ℤ) :
    Turns1 (K := K) (handleEdge3 evt step)
      (handleEdge3 evt step) := by
  unfold handleEdge3
  turns
macro_rules | `(tactic| turns_leaf) => `(tactic| with_reducible exact tn_handleEdge3 _ _)

theorem tn_handleEdge1 [HasSqrt K] [HasTrig K] (evt : Event K) (step : ℤ) :
    Turns1 (K := K) (handleEdge1 evt step)
      (handleEdge1 evt step) := by
  unfold handleEdge1
  turns
macro_rules | `(tactic| turns_leaf) => `(tactic| with_reducible exact tn_handleEdge1 _ _)

theorem tn_splitChecks [HasSqrt K] (v v1 v2 : VId) (now : K) :
    Turns1 (K := K) (splitChecks v v1 v2 now)
      (splitChecks v v1 v2 now) := by
  unfold splitChecks
  turns
macro_rules | `(tactic| turns_leaf) => `(tactic| with_reducible exact tn_splitChecks _ _ _ _)

theorem tn_splitVertices [HasSqrt K] [HasTrig K] (v v1 v2 : VId) (now : K) (step : ℤ) :
    Turns1 (K := K) (splitVertices v v1 v2 now step)
      (splitVertices v v1 v2 now step) := by
  unfold splitVertices
  turns
macro_rules | `(tactic| turns_leaf) => `(tactic| with_reducible exact tn_splitVertices _ _ _ _ _)

theorem tn_splitSide [HasSqrt K] (t : TId) (i : Fin 3) (v newv : VId) (now : K) (dir : Dir) :
    Turns1 (K := K) (splitSide t i v newv now dir)
      (splitSide t i v newv now dir) := by
  unfold splitSide
  turns
macro_rules | `(tactic| turns_leaf) => `(tactic| with_reducible exact tn_splitSide _ _ _ _ _ _)

theorem tn_splitFan [HasSqrt K] [HasTrig K] (depth : ℕ) (v : VId) (fan : List TId) (now : K)
    (dir : Dir) (step : ℤ) : Turns1 (K := K) (splitFan depth v fan now dir step)
      (splitFan depth v fan now dir step) := by
  unfold splitFan
  turns
macro_rules | `(tactic| turns_leaf) => `(tactic| with_reducible exact tn_splitFan _ _ _ _ _ _)

theorem tn_handleSplit [HasSqrt K] [HasTrig K] (depth : ℕ) (evt : Event K) (step : ℤ) :
    Turns1 (K := K) (handleSplit depth evt step)
      (handleSplit depth evt step) := by
  unfold handleSplit
  turns
macro_rules | `(tactic| turns_leaf) => `(tactic| with_reducible exact tn_handleSplit _ _ _)

theorem tn_handleEvent [HasSqrt K] [HasTrig K] (depth : ℕ) (evt : Event K) (step : ℤ) :
    Turns1 (K := K) (handleEvent depth evt step)
      (handleEvent depth evt step) := by
  unfold handleEvent
  turns
macro_rules | `(tactic| turns_leaf) => `(tactic| with_reducible exact tn_handleEvent _ _ _)

theorem tn_loopStep [HasSqrt K] [HasTrig K] (depth : ℕ) (step : ℤ) (now : K) :
    Turns1 (K := K) (loopStep depth step now)
      (loopStep depth step now) := by
  unfold loopStep
  turns
macro_rules | `(tactic| turns_leaf) => `(tactic| with_reducible exact tn_loopStep _ _ _)

theorem tn_loop [HasSqrt K] [HasTrig K] (depth fuel : ℕ) (step : ℤ) (now : K) :
    Turns1 (K := K) (loop depth fuel step now)
      (loop depth fuel step now) := by
  induction fuel generalizing step now with
  | zero =>
    intro s
    show (if (s.immediate.isEmpty && s.queue.isEmpty) = true then _ else _) =
      turnedRes _ (if (s.immediate.isEmpty && s.queue.isEmpty) = true then _ else _)
    split <;> rfl
  | succ fuel ih =>
    unfold loop
    refine Turns.bind1 (tn_loopStep _ _ _) fun r => ?_
    cases r with
    | none => exact Turns.pure _
    | some r => exact ih _ _
macro_rules | `(tactic| turns_leaf) => `(tactic| with_reducible exact tn_loop _ _ _ _)

theorem tn_checkBisectorDirection (t : TId) (i : Fin 3) (now : K) :
    Turns1 (K := K) (checkBisectorDirection t i now) (checkBisectorDirection t i now) := by
  unfold checkBisectorDirection
  refine Turns.bind1 (tn_getT _) fun _ => Turns.bind (tn_positionAt _ _) fun p => Turns.bind (tn_velocityOf _) fun q =>
    Turns.bind (tn_positionAt _ _) fun r => ?_
  rw [add2_turned, orient2d_turned]
  exact tn_assertM Iff.rfl
macro_rules | `(tactic| turns_leaf) => `(tactic| with_reducible refine tn_checkBisectorDirection _ _ _)

theorem tn_checkBisectors (ts : List TId) (now : K) :
    Turns1 (K := K) (checkBisectors ts now)
      (checkBisectors ts now) := by
  unfold checkBisectors
  turns
macro_rules | `(tactic| turns_leaf) => `(tactic| with_reducible exact tn_checkBisectors _ _)

theorem tn_checkOrientation (ts : List TId) (now : K) :
    Turns1 (K := K) (checkOrientation ts now)
      (checkOrientation ts now) := by
  unfold checkOrientation
  refine Turns.forEach (fun t => Turns.bind1 (tn_getT _) fun _ => Turns.ite Iff.rfl ?_ (Turns.pure _)) _
  refine Turns.bind (tn_positionAt _ _) fun p => Turns.bind (tn_positionAt _ _) fun q =>
    Turns.bind (tn_positionAt _ _) fun r => Turns.bind (tn_getV _) fun x => Turns.bind (tn_getV _) fun y =>
    Turns.bind (tn_getV _) fun z => ?_
  rw [orient2d_turned]
  cases x <;> cases y <;> cases z <;>
    exact Turns.ite Iff.rfl (tn_assertM Iff.rfl) (tn_assertM Iff.rfl)
macro_rules | `(tactic| turns_leaf) => `(tactic| with_reducible exact tn_checkOrientation _ _)

theorem tn_leftOver (t : TId) : Turns1 (K := K) (leftOver t)
      (leftOver t) := by
  unfold leftOver
  refine Turns.bind1 (tn_getT _) fun _ => Turns.bind (tn_getV _) fun x => Turns.bind (tn_getV _) fun y =>
    Turns.bind (tn_getV _) fun z => ?_
  cases x <;> cases y <;> cases z <;> exact Turns.pure _
macro_rules | `(tactic| turns_leaf) => `(tactic| with_reducible exact tn_leftOver _)

theorem tn_checkAllStopped (ts : List TId) : Turns1 (K := K) (checkAllStopped ts)
      (checkAllStopped ts) := by
  unfold checkAllStopped
  turns
macro_rules | `(tactic| turns_leaf) => `(tactic| with_reducible exact tn_checkAllStopped _)

theorem tn_skelTriangles : Turns1 (K := K) skelTriangles
      skelTriangles := by
  exact fun _ => rfl
macro_rules | `(tactic| turns_leaf) => `(tactic| with_reducible exact tn_skelTriangles)

theorem tn_clearImmediate : Turns1 (K := K) clearImmediate
      clearImmediate := by
  exact fun _ => rfl
macro_rules | `(tactic| turns_leaf) => `(tactic| with_reducible exact tn_clearImmediate)

theorem tn_clearQueue : Turns1 (K := K) clearQueue
      clearQueue := by
  exact fun _ => rfl
macro_rules | `(tactic| turns_leaf) => `(tactic| with_reducible exact tn_clearQueue)

theorem tn_eventLoop [HasSqrt K] [HasTrig K] (depth : ℕ) :
    Turns1 (K := K) (eventLoop depth)
      (eventLoop depth) := by
  unfold eventLoop
  turns

theorem tn_initEvent [HasSqrt K] (t : TId) : Turns1 (K := K) (initEvent t)
      (initEvent t) := by
  unfold initEvent
  turns
macro_rules | `(tactic| turns_leaf) => `(tactic| with_reducible exact tn_initEvent _)

theorem tn_initEventList [HasSqrt K] : Turns1 (K := K) initEventList
      initEventList := by
  unfold initEventList
  turns

end Grassfire
