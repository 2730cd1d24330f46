/-
What the functions of the events model do to the vertices, they do at the time of the event (lemmas for C94).
-/
import Verif.Proofs.Growth

set_option linter.unusedSectionVars false

namespace Grassfire

open Spec

variable {K : Type}

/-- `b` is what has become of vertex `a` when everything has been done to it at times with `y` -/
structure SinceK (y : K → Prop) (a b : KVertex K) : Prop where
  startsAt : b.startsAt = a.startsAt
  stopsAt : b.stopsAt = a.stopsAt ∨ ∃ t, b.stopsAt = some t ∧ y t
  left : ∃ l, (b.left.map fun i => (i.start, i.ref)) = (a.left.map fun i => (i.start, i.ref)) ++ l ∧ ∀ i ∈ l, y i.1
  right : ∃ l, (b.right.map fun i => (i.start, i.ref)) = (a.right.map fun i => (i.start, i.ref)) ++ l ∧ ∀ i ∈ l, y i.1

/-- the same for a vertex that may be infinite -/
def SinceV (y : K → Prop) : Vertex K → Vertex K → Prop
  | .kin a, .kin b => SinceK y a b
  | .inf _, .inf _ => True
  | _, _ => False

/-- what has been done to the vertices from `s` to `s'` has been done at times with `y` -/
structure Since (y : K → Prop) (s s' : St K) : Prop where
  nV : s.nV ≤ s'.nV
  kept : ∀ v < s.nV, SinceV y (s.vert v) (s'.vert v)
  fresh : ∀ v, s.nV ≤ v → v < s'.nV → ∀ k, s'.vert v = .kin k → ∃ t, k.startsAt = some t ∧ y t

theorem SinceK.refl (y : K → Prop) (a : KVertex K) : SinceK y a a :=
  ⟨rfl, .inl rfl, ⟨[], by simp, by simp⟩, ⟨[], by simp, by simp⟩⟩

theorem SinceK.trans {y : K → Prop} {a b c : KVertex K} (h : SinceK y a b) (g : SinceK y b c) : SinceK y a c := by
  obtain ⟨h1, h2, ⟨l, h3, h4⟩, ⟨r, h5, h6⟩⟩ := h
  obtain ⟨g1, g2, ⟨l', g3, g4⟩, ⟨r', g5, g6⟩⟩ := g
  refine ⟨g1.trans h1, ?_, ⟨l ++ l', by rw [g3, h3, List.append_assoc], fun i hi => ?_⟩,
    ⟨r ++ r', by rw [g5, h5, List.append_assoc], fun i hi => ?_⟩⟩
  · rcases g2 with q | q
    · rw [q]; exact h2
    · exact .inr q
  · exact (List.mem_append.1 hi).elim (h4 i) (g4 i)
  · exact (List.mem_append.1 hi).elim (h6 i) (g6 i)

theorem SinceV.refl (y : K → Prop) (a : Vertex K) : SinceV y a a := by
  cases a with
  | kin a => exact SinceK.refl y a
  | inf a => trivial

theorem SinceV.trans {y : K → Prop} {a b c : Vertex K} (h : SinceV y a b) (g : SinceV y b c) : SinceV y a c := by
  cases a <;> cases b <;> cases c <;> first | exact h.elim | exact g.elim | exact SinceK.trans h g | trivial

theorem sincePre {y : K → Prop} : Pre (Since y) where
  refl s := ⟨le_rfl, fun v _ => SinceV.refl y _, fun v h1 h2 => absurd h2 (Nat.not_lt.2 h1)⟩
  trans a b c h g := by
    refine ⟨h.nV.trans g.nV, fun v hv => (h.kept v hv).trans (g.kept v (lt_of_lt_of_le hv h.nV)), fun v h1 h2 k hk => ?_⟩
    by_cases hb : v < b.nV
    · have q := g.kept v hb
      rw [hk] at q
      cases e : b.vert v with
      | inf o => rw [e] at q; exact q.elim
      | kin k' =>
        rw [e] at q
        rw [SinceK.startsAt q]
        exact h.fresh v h1 hb k' e
    · exact g.fresh v (Nat.le_of_not_lt hb) h2 k hk

theorem since_same {y : K → Prop} {s s' : St K} (h1 : s'.nV = s.nV) (h2 : s'.vert = s.vert) : Since y s s' :=
  ⟨h1.ge, fun v _ => by rw [h2]; exact SinceV.refl y _, fun v h3 h4 => by rw [h1] at h4; exact absurd h4 (Nat.not_lt.2 h3)⟩

theorem hist_set_append {R : Type} (h : Hist K R) (r : R) (t : K) :
    ∃ l, ((h.set r t).map fun i => (i.start, i.ref)) = (h.map fun i => (i.start, i.ref)) ++ l ∧ ∀ i ∈ l, i.1 = t := by
  refine ⟨[(t, r)], ?_, by simp⟩
  unfold Hist.set
  cases hl : h.getLast? with
  | none =>
    rw [List.getLast?_eq_none_iff] at hl
    subst hl; rfl
  | some last =>
    obtain ⟨l, rfl⟩ : ∃ l, h = l ++ [last] := ⟨h.dropLast, by rw [List.dropLast_append_getLast? _ hl]⟩
    simp

variable [Field K] [LinearOrder K] {now : K}

/-! ### primitives -/

theorem si_assertM (c : Prop) [Decidable c] : Keeps (Since (· = now)) (assertM c) :=
  Keeps.of_same sincePre fun _ _ _ h => (assertM_run_ok.1 h).2

theorem si_need {α : Type} (o : Option α) : Keeps (Since (· = now)) (need o) :=
  Keeps.of_same sincePre fun _ _ _ h => (need_run_ok.1 h).2

theorem si_needIdx {α : Type} (o : Option α) : Keeps (Since (· = now)) (needIdx o) :=
  Keeps.of_same sincePre fun _ _ _ h => (needIdx_run_ok.1 h).2

theorem si_needNum (o : Option K) : Keeps (Since (· = now)) (needNum o) :=
  Keeps.of_same sincePre fun _ _ _ h => (needNum_run_ok.1 h).2

theorem si_lift {α : Type} (x : Except Err α) : Keeps (Since (· = now)) (lift x) :=
  Keeps.of_same sincePre fun _ _ _ h => (lift_run_ok.1 h).2

theorem si_assertSome {α : Type} (o : Option α) : Keeps (Since (· = now)) (assertSome o) :=
  Keeps.of_same sincePre fun _ _ _ h => (assertSome_run_ok.1 h).2

theorem si_getV (v : VId) : Keeps (Since (· = now)) (getV v) :=
  Keeps.of_same sincePre fun _ _ _ h => (getV_run_ok.1 h).2.2

theorem si_getK (v : VId) : Keeps (Since (· = now)) (getK v) :=
  Keeps.of_same sincePre fun _ _ _ h => (getK_run_ok.1 h).2.2

theorem si_getT (t : TId) : Keeps (Since (· = now)) (getT t) :=
  Keeps.of_same sincePre fun _ _ _ h => (getT_run_ok.1 h).2.2

theorem si_getN (n : NodeId) : Keeps (Since (· = now)) (getN n) :=
  Keeps.of_same sincePre fun _ _ _ h => (getN_run_ok.1 h).2.2

theorem si_getLine (n : LineId) : Keeps (Since (· = now)) (getLine n) :=
  Keeps.of_same sincePre fun _ _ _ h => (getLine_run_ok.1 h).2

theorem si_getWfLine (n : WfId) : Keeps (Since (· = now)) (getWfLine n) :=
  Keeps.of_same sincePre fun _ _ _ h => (getWfLine_run_ok.1 h).2

theorem si_countVertices : Keeps (Since (· = now)) countVertices :=
  Keeps.of_same sincePre fun _ _ _ h => (countVertices_run_ok.1 h).2

theorem si_positionAt (v : VId) (time : K) : Keeps (Since (· = now)) (positionAt v time) :=
  Keeps.of_same sincePre fun _ _ _ h => (positionAt_run_ok.1 h).2.2

theorem si_singleSide (l : List (Fin 3)) : Keeps (Since (· = now)) (singleSide l) := by
  unfold singleSide
  split
  · exact Keeps.pure sincePre _
  · exact Keeps.raise _

theorem si_tryIntersection [HasSqrt K] (l r : Line2 K) (now : K) :
    Keeps (Since (· = now)) (tryIntersection l r now) := by
  refine Keeps.of_same sincePre fun s a s' h => ?_
  unfold tryIntersection at h
  split at h <;> simp at h
  · exact h.2
  · exact h.2

theorem si_triView (t : TId) : Keeps (Since (· = now)) (triView t) :=
  Keeps.of_same sincePre fun _ _ _ h => (triView_run_ok.1 h).2.2

theorem SinceK.mono {y z : K → Prop} (hyz : ∀ t, y t → z t) {a b : KVertex K} (h : SinceK y a b) : SinceK z a b := by
  obtain ⟨h1, h2, ⟨l, h3, h4⟩, ⟨r, h5, h6⟩⟩ := h
  exact ⟨h1, h2.imp_right fun ⟨t, e, q⟩ => ⟨t, e, hyz t q⟩, ⟨l, h3, fun i hi => hyz _ (h4 i hi)⟩,
    ⟨r, h5, fun i hi => hyz _ (h6 i hi)⟩⟩

theorem Since.mono {y z : K → Prop} (hyz : ∀ t, y t → z t) {s s' : St K} (h : Since y s s') : Since z s s' := by
  refine ⟨h.nV, fun v hv => ?_, fun v h1 h2 k hk => ?_⟩
  · have := h.kept v hv
    revert this
    cases s.vert v <;> cases s'.vert v <;> intro q <;> first | exact SinceK.mono hyz q | exact q
  · obtain ⟨t, e, q⟩ := h.fresh v h1 h2 k hk
    exact ⟨t, e, hyz t q⟩

theorem si_modifyK (v : VId) (f : KVertex K → KVertex K) (hf : ∀ kv, SinceK (· = now) kv (f kv)) :
    Keeps (Since (· = now)) (modifyK v f) := by
  intro s a s' h
  obtain ⟨hv, kv, hk, rfl⟩ := modifyK_run_ok.1 h
  refine ⟨le_rfl, fun w hw => ?_, fun v h1 h2 => absurd h2 (Nat.not_lt.2 h1)⟩
  show SinceV (· = now) (s.vert w) (Function.update s.vert v (.kin (f kv)) w)
  by_cases e : w = v
  · subst e; rw [Function.update_self, hk]; exact hf kv
  · rw [Function.update_of_ne e]; exact SinceV.refl _ _

theorem si_modifyT (t : TId) (f : KTri K → KTri K) : Keeps (Since (· = now)) (modifyT t f) := by
  intro s a s' h
  obtain ⟨hv, rfl⟩ := modifyT_run_ok.1 h
  exact since_same rfl rfl

theorem si_newNode (n : Node K) : Keeps (Since (· = now)) (newNode n) := by
  intro s a s' h
  obtain ⟨-, rfl⟩ := newNode_run_ok.1 h
  exact since_same rfl rfl

theorem si_newK (kv : KVertex K) (hs : kv.startsAt = some now) : Keeps (Since (· = now)) (newK kv) := by
  intro s a s' h
  obtain ⟨-, rfl⟩ := newK_run_ok.1 h
  refine ⟨Nat.le_succ _, fun w hw => ?_, fun w h1 h2 k hk => ?_⟩
  · show SinceV (· = now) (s.vert w) (Function.update s.vert s.nV (.kin kv) w)
    rw [Function.update_of_ne (ne_of_lt hw)]; exact SinceV.refl _ _
  · obtain rfl : w = s.nV := Nat.le_antisymm (Nat.le_of_lt_succ h2) h1
    change Function.update s.vert s.nV (.kin kv) s.nV = _ at hk
    rw [Function.update_self] at hk
    cases hk
    exact ⟨_, hs, rfl⟩

theorem si_newEvent (c : EvCore K) (t : TId) : Keeps (Since (· = now)) (newEvent c t) := by
  intro s a s' h
  obtain ⟨-, rfl⟩ := newEvent_run_ok.1 h
  exact since_same rfl rfl

theorem si_appendNode (n : NodeId) : Keeps (Since (· = now)) (appendNode n) := by
  intro s a s' h
  obtain rfl := appendNode_run_ok.1 h
  exact since_same rfl rfl

theorem si_appendVertex (n : VId) : Keeps (Since (· = now)) (appendVertex n) := by
  intro s a s' h
  obtain rfl := appendVertex_run_ok.1 h
  exact since_same rfl rfl

theorem si_queueAdd (e : Event K) : Keeps (Since (· = now)) (queueAdd e) := by
  intro s a s' h
  unfold queueAdd at h
  split_ifs at h
  simp only [Except.ok.injEq, Prod.mk.injEq, true_and] at h
  subst h; exact since_same rfl rfl

theorem si_queueDiscard (e : Event K) : Keeps (Since (· = now)) (queueDiscard e) := by
  intro s a s' h
  unfold queueDiscard at h
  simp only [Except.ok.injEq, Prod.mk.injEq, true_and] at h
  subst h; exact since_same rfl rfl

theorem si_queueDiscardOpt (e : Option (Event K)) :
    Keeps (Since (· = now)) (queueDiscardOpt e) := by
  intro s a s' h
  unfold queueDiscardOpt at h
  split at h
  · exact si_queueDiscard _ _ _ _ h
  · split_ifs at h
    simp only [Except.ok.injEq, Prod.mk.injEq, true_and] at h
    subst h; exact sincePre.refl _

theorem si_immediateRemove (e : Event K) : Keeps (Since (· = now)) (immediateRemove e) := by
  intro s a s' h
  unfold immediateRemove at h
  simp only [Except.ok.injEq, Prod.mk.injEq, true_and] at h
  subst h; exact since_same rfl rfl

theorem si_immediateAppend (e : Event K) : Keeps (Since (· = now)) (immediateAppend e) := by
  intro s a s' h
  unfold immediateAppend at h
  simp only [Except.ok.injEq, Prod.mk.injEq, true_and] at h
  subst h; exact since_same rfl rfl

theorem si_takeEvent (now : K) : Keeps (Since (· = now)) (takeEvent now) := by
  intro s a s' h
  unfold takeEvent at h
  split at h
  · simp only [Except.ok.injEq, Prod.mk.injEq] at h
    obtain ⟨-, h⟩ := h
    subst h; exact since_same rfl rfl
  · split at h
    · simp only [Except.ok.injEq, Prod.mk.injEq] at h
      obtain ⟨-, h⟩ := h
      subst h; exact since_same rfl rfl
    · simp only [Except.ok.injEq, Prod.mk.injEq] at h
      obtain ⟨-, h⟩ := h
      subst h; exact sincePre.refl _

/-! ### the functions -/

/-- leaves of the proof search of `since` -/
syntax "since_leaf" : tactic

macro_rules | `(tactic| since_leaf) => `(tactic| with_reducible exact si_assertM _)
macro_rules | `(tactic| since_leaf) => `(tactic| with_reducible exact si_need _)
macro_rules | `(tactic| since_leaf) => `(tactic| with_reducible exact si_needIdx _)
macro_rules | `(tactic| since_leaf) => `(tactic| with_reducible exact si_needNum _)
macro_rules | `(tactic| since_leaf) => `(tactic| with_reducible exact si_lift _)
macro_rules | `(tactic| since_leaf) => `(tactic| with_reducible exact si_assertSome _)
macro_rules | `(tactic| since_leaf) => `(tactic| with_reducible exact si_getV _)
macro_rules | `(tactic| since_leaf) => `(tactic| with_reducible exact si_getK _)
macro_rules | `(tactic| since_leaf) => `(tactic| with_reducible exact si_getT _)
macro_rules | `(tactic| since_leaf) => `(tactic| with_reducible exact si_getN _)
macro_rules | `(tactic| since_leaf) => `(tactic| with_reducible exact si_getLine _)
macro_rules | `(tactic| since_leaf) => `(tactic| with_reducible exact si_getWfLine _)
macro_rules | `(tactic| since_leaf) => `(tactic| with_reducible exact si_countVertices)
macro_rules | `(tactic| since_leaf) => `(tactic| with_reducible exact si_positionAt _ _)
macro_rules | `(tactic| since_leaf) => `(tactic| with_reducible exact si_singleSide _)
macro_rules | `(tactic| since_leaf) => `(tactic| with_reducible exact si_tryIntersection _ _ _)
macro_rules | `(tactic| since_leaf) => `(tactic| with_reducible exact si_triView _)
macro_rules | `(tactic| since_leaf) => `(tactic| with_reducible exact si_newNode _)
macro_rules | `(tactic| since_leaf) => `(tactic| with_reducible exact si_newK _ rfl)
macro_rules | `(tactic| since_leaf) => `(tactic| with_reducible exact si_newEvent _ _)
macro_rules | `(tactic| since_leaf) => `(tactic| with_reducible exact si_appendNode _)
macro_rules | `(tactic| since_leaf) => `(tactic| with_reducible exact si_appendVertex _)
macro_rules | `(tactic| since_leaf) => `(tactic| with_reducible exact si_queueAdd _)
macro_rules | `(tactic| since_leaf) => `(tactic| with_reducible exact si_queueDiscard _)
macro_rules | `(tactic| since_leaf) => `(tactic| with_reducible exact si_queueDiscardOpt _)
macro_rules | `(tactic| since_leaf) => `(tactic| with_reducible exact si_immediateRemove _)
macro_rules | `(tactic| since_leaf) => `(tactic| with_reducible exact si_immediateAppend _)
macro_rules | `(tactic| since_leaf) => `(tactic| with_reducible exact si_takeEvent _)
macro_rules | `(tactic| since_leaf) => `(tactic| with_reducible exact Keeps.pure sincePre _)
macro_rules | `(tactic| since_leaf) => `(tactic| with_reducible exact Keeps.raise _)

/-- proof search along the structure of a computation -/
macro "since" : tactic => `(tactic|
  repeat' first
    | since_leaf
    | assumption
    | with_reducible refine Keeps.bind sincePre ?_ fun _ => ?_
    | with_reducible refine Keeps.ite ?_ ?_
    | with_reducible refine Keeps.forEach sincePre (fun _ => ?_) _
    | with_reducible refine Keeps.mapEach sincePre (fun _ => ?_) _
    | split
    | dsimp only)

theorem si_setEvent (t : TId) (e : Event K) : Keeps (Since (· = now)) (setEvent t e) :=
  si_modifyT _ _
macro_rules | `(tactic| since_leaf) => `(tactic| with_reducible exact si_setEvent _ _)

theorem si_setVertex (t : TId) (i : Fin 3) (v : VId) :
    Keeps (Since (· = now)) (setVertex t i v) := si_modifyT _ _
macro_rules | `(tactic| since_leaf) => `(tactic| with_reducible exact si_setVertex _ _ _)

theorem si_setNeighbour (t : TId) (i : Fin 3) (n : Option TId) :
    Keeps (Since (· = now)) (setNeighbour t i n) := si_modifyT _ _
macro_rules | `(tactic| since_leaf) => `(tactic| with_reducible exact si_setNeighbour _ _ _)

theorem si_stopTriangle (t : TId) (now : K) : Keeps (Since (· = now)) (stopTriangle t now) :=
  si_modifyT _ _
macro_rules | `(tactic| since_leaf) => `(tactic| with_reducible exact si_stopTriangle _ _)

theorem si_setTriangle (t : TId) (vs : Fin 3 → VId) (ns : Fin 3 → Option TId) :
    Keeps (Since (· = now)) (setTriangle t vs ns) := si_modifyT _ _
macro_rules | `(tactic| since_leaf) => `(tactic| with_reducible exact si_setTriangle _ _ _)

theorem si_stopAt (v : VId) (n : NodeId) (now : K) : Keeps (Since (· = now)) (stopAt v n now) :=
  si_modifyK _ _ fun kv => { SinceK.refl (· = now) kv with stopsAt := .inr ⟨_, rfl, rfl⟩ }
macro_rules | `(tactic| since_leaf) => `(tactic| with_reducible exact si_stopAt _ _ _)

theorem si_setWf (v : VId) (l r : Option WfId) :
    Keeps (Since (· = now)) (modifyK v fun k => { k with wfl := l, wfr := r }) :=
  si_modifyK _ _ fun kv => { SinceK.refl (· = now) kv with }
macro_rules | `(tactic| since_leaf) => `(tactic| with_reducible exact si_setWf _ _ _)

theorem si_setRight (l r : Option VId) (now : K) : Keeps (Since (· = now)) (setRight l r now) := by
  unfold setRight
  split
  · exact si_modifyK _ _ fun kv => { SinceK.refl (· = now) kv with right := hist_set_append _ _ _ }
  · exact Keeps.pure sincePre _
macro_rules | `(tactic| since_leaf) => `(tactic| with_reducible exact si_setRight _ _ _)

theorem si_setLeft (l r : Option VId) (now : K) : Keeps (Since (· = now)) (setLeft l r now) := by
  unfold setLeft
  split
  · exact si_modifyK _ _ fun kv => { SinceK.refl (· = now) kv with left := hist_set_append _ _ _ }
  · exact Keeps.pure sincePre _
macro_rules | `(tactic| since_leaf) => `(tactic| with_reducible exact si_setLeft _ _ _)

theorem si_updateCirc (l r : Option VId) (now : K) :
    Keeps (Since (· = now)) (updateCirc l r now) := by
  unfold updateCirc
  since
macro_rules | `(tactic| since_leaf) => `(tactic| with_reducible exact si_updateCirc _ _ _)

theorem si_stopScan (now : K) (V : List VId) (acc : Option NodeId) :
    Keeps (Since (· = now)) (stopScan now V acc) := by
  induction V generalizing acc with
  | nil => exact Keeps.pure sincePre _
  | cons v vs ih =>
    unfold stopScan
    refine Keeps.bind sincePre (si_getK _) fun _ => Keeps.bind sincePre (si_needNum _) fun _ => ?_
    refine Keeps.ite (ih _) (Keeps.ite (ih _) (Keeps.bind sincePre ?_ fun _ => ih _))
    exact si_modifyK _ _ fun kv => { SinceK.refl (· = now) kv with stopsAt := .inr ⟨_, rfl, rfl⟩ }
macro_rules | `(tactic| since_leaf) => `(tactic| with_reducible exact si_stopScan _ _ _)

theorem si_setStopNode (v : VId) (n : NodeId) :
    Keeps (Since (· = now)) (modifyK v fun kv => { kv with stopNode := some n }) :=
  si_modifyK _ _ fun kv => { SinceK.refl (· = now) kv with }

theorem si_stopAtExisting (V : List VId) (now : K) (n : NodeId) :
    Keeps (Since (· = now)) (stopAtExisting V now n) :=
  Keeps.bind sincePre (Keeps.forEach sincePre (fun v => si_stopAt v n now) _)
    fun _ => Keeps.pure sincePre _
macro_rules | `(tactic| since_leaf) => `(tactic| with_reducible exact si_stopAtExisting _ _ _)

theorem si_nodePosition (V : List VId) (now : K) (pos : Option (Pt K)) :
    Keeps (Since (· = now)) (nodePosition V now pos) := by
  unfold nodePosition
  since
macro_rules | `(tactic| since_leaf) => `(tactic| with_reducible exact si_nodePosition _ _ _)

theorem si_stopAtNew (V : List VId) (step : ℤ) (now : K) (pos : Option (Pt K)) :
    Keeps (Since (· = now)) (stopAtNew V step now pos) :=
  Keeps.bind sincePre (si_nodePosition _ _ _) fun _ => Keeps.bind sincePre (si_newNode _) fun _ =>
    Keeps.bind sincePre (Keeps.forEach sincePre (fun _ => si_setStopNode _ _) _)
    fun _ => Keeps.pure sincePre _
macro_rules | `(tactic| since_leaf) => `(tactic| with_reducible exact si_stopAtNew _ _ _ _)

theorem si_stopAtNode (V : List VId) (step : ℤ) (now : K) (pos : Option (Pt K)) (n : Option NodeId) :
    Keeps (Since (· = now)) (stopAtNode V step now pos n) := by
  unfold stopAtNode
  since
macro_rules | `(tactic| since_leaf) => `(tactic| with_reducible exact si_stopAtNode _ _ _ _ _)

theorem si_assertStoppedAt (now : K) (v : VId) :
    Keeps (Since (· = now)) (assertStoppedAt now v) := by
  unfold assertStoppedAt
  since
macro_rules | `(tactic| since_leaf) => `(tactic| with_reducible exact si_assertStoppedAt _ _)

theorem si_readVertex (v : VId) :
    Keeps (Since (· = now)) (readVertex v) := by
  unfold readVertex
  since
macro_rules | `(tactic| since_leaf) => `(tactic| with_reducible exact si_readVertex _)

theorem si_stopKvertices (V : List VId) (step : ℤ) (now : K) (pos : Option (Pt K)) :
    Keeps (Since (· = now)) (stopKvertices V step now pos) := by
  unfold stopKvertices
  since
macro_rules | `(tactic| since_leaf) => `(tactic| with_reducible exact si_stopKvertices _ _ _ _)

theorem si_recordNode (new : Bool) (n : NodeId) :
    Keeps (Since (· = now)) (recordNode new n) := by
  unfold recordNode
  since
macro_rules | `(tactic| since_leaf) => `(tactic| with_reducible exact si_recordNode _ _)

theorem si_stopAndRecord (V : List VId) (step : ℤ) (now : K) (pos : Option (Pt K)) :
    Keeps (Since (· = now)) (stopAndRecord V step now pos) := by
  unfold stopAndRecord
  since
macro_rules | `(tactic| since_leaf) => `(tactic| with_reducible exact si_stopAndRecord _ _ _ _)

theorem si_computeNewKvertex [HasSqrt K] [HasTrig K] (ul ur : Option LineId) (now : K)
    (node : NodeId) (info : ℕ) (internal : Bool) :
    Keeps (Since (· = now)) (computeNewKvertex ul ur now node info internal) := by
  unfold computeNewKvertex
  since
macro_rules | `(tactic| since_leaf) => `(tactic| with_reducible exact si_computeNewKvertex _ _ _ _ _ _)

theorem si_storeEvent (c : Option (EvCore K)) (t : TId) :
    Keeps (Since (· = now)) (storeEvent c t) := by
  unfold storeEvent
  since
macro_rules | `(tactic| since_leaf) => `(tactic| with_reducible exact si_storeEvent _ _)

theorem si_computeCollapseTime [HasSqrt K] (t : TId) (now : K) (sieve : Sieve) :
    Keeps (Since (· = now)) (computeCollapseTime t now sieve) := by
  unfold computeCollapseTime
  since
macro_rules | `(tactic| since_leaf) => `(tactic| with_reducible exact si_computeCollapseTime _ _ _)

theorem si_discardEvent (e : Option (Event K)) :
    Keeps (Since (· = now)) (discardEvent e) := by
  unfold discardEvent
  since
macro_rules | `(tactic| since_leaf) => `(tactic| with_reducible exact si_discardEvent _)

theorem si_addEvent (e : Option (Event K)) :
    Keeps (Since (· = now)) (addEvent e) := by
  unfold addEvent
  since
macro_rules | `(tactic| since_leaf) => `(tactic| with_reducible exact si_addEvent _)

theorem si_replaceInQueue [HasSqrt K] (t : TId) (now : K) :
    Keeps (Since (· = now)) (replaceInQueue t now) := by
  unfold replaceInQueue
  since
macro_rules | `(tactic| since_leaf) => `(tactic| with_reducible exact si_replaceInQueue _ _)

theorem si_renewEvent [HasSqrt K] (b : Bool) (t : TId) (now : K) :
    Keeps (Since (· = now)) (renewEvent b t now) := by
  unfold renewEvent
  since
macro_rules | `(tactic| since_leaf) => `(tactic| with_reducible exact si_renewEvent _ _ _)

theorem si_replaceLoop [HasSqrt K] (v newv : VId) (now : K) (dir : Dir) (fuel : ℕ)
    (t : Option TId) (fan : List TId) :
    Keeps (Since (· = now)) (replaceLoop v newv now dir fuel t fan) := by
  induction fuel generalizing t fan with
  | zero =>
    cases t with
    | none => exact Keeps.pure sincePre _
    | some t => intro s a s' h; unfold replaceLoop at h; simp at h
  | succ fuel ih =>
    cases t with
    | none => exact Keeps.pure sincePre _
    | some t =>
      unfold replaceLoop
      refine Keeps.bind sincePre (si_getT _) fun _ => Keeps.bind sincePre (si_needIdx _) fun _ =>
        Keeps.bind sincePre (si_setVertex _ _ _) fun _ => Keeps.bind sincePre (si_getK _) fun _ =>
        Keeps.bind sincePre (si_renewEvent _ _ _) fun _ =>
        Keeps.bind sincePre (si_getT _) fun _ => ih _ _

theorem si_replaceKvertex [HasSqrt K] (t : TId) (v newv : VId) (now : K) (dir : Dir) :
    Keeps (Since (· = now)) (replaceKvertex t v newv now dir) := by
  intro s a s' h
  exact si_replaceLoop _ _ _ _ _ _ _ _ _ _ h
macro_rules | `(tactic| since_leaf) => `(tactic| with_reducible exact si_replaceKvertex _ _ _ _ _)

theorem si_immediateRemoveOpt (e : Option (Event K)) :
    Keeps (Since (· = now)) (immediateRemoveOpt e) := by
  unfold immediateRemoveOpt
  since
macro_rules | `(tactic| since_leaf) => `(tactic| with_reducible exact si_immediateRemoveOpt _)

theorem si_immediateEvent [HasSqrt K] (t : TId) (now : K) :
    Keeps (Since (· = now)) (immediateEvent t now) := by
  unfold immediateEvent
  since
macro_rules | `(tactic| since_leaf) => `(tactic| with_reducible exact si_immediateEvent _ _)

theorem si_scheduleImmediately [HasSqrt K] (t : TId) (now : K) :
    Keeps (Since (· = now)) (scheduleImmediately t now) := by
  unfold scheduleImmediately
  since
macro_rules | `(tactic| since_leaf) => `(tactic| with_reducible exact si_scheduleImmediately _ _)

theorem si_flipSide (n : Option TId) (v : VId) : Keeps (Since (· = now)) (flipSide n v) := by
  unfold flipSide
  since
macro_rules | `(tactic| since_leaf) => `(tactic| with_reducible exact si_flipSide _ _)

theorem si_flipLink (n : Option TId) (i : Option (Fin 3)) (t : TId) :
    Keeps (Since (· = now)) (flipLink n i t) := by
  unfold flipLink
  since
macro_rules | `(tactic| since_leaf) => `(tactic| with_reducible exact si_flipLink _ _ _)

theorem si_flip (t0 : TId) (s0 : Fin 3) (t1 : TId) (s1 : Fin 3) :
    Keeps (Since (· = now)) (flip t0 s0 t1 s1) := by
  unfold flip
  since
macro_rules | `(tactic| since_leaf) => `(tactic| with_reducible exact si_flip _ _ _ _)

theorem si_handleFlip [HasSqrt K] (evt : Event K) : Keeps (Since (· = evt.time)) (handleFlip evt) := by
  unfold handleFlip
  since
macro_rules | `(tactic| since_leaf) => `(tactic| with_reducible exact si_handleFlip _)

theorem si_legDist [HasSqrt K] (t : TId) (leg : Fin 3) (now : K) :
    Keeps (Since (· = now)) (legDist t leg now) := by
  unfold legDist
  since
macro_rules | `(tactic| since_leaf) => `(tactic| with_reducible exact si_legDist _ _ _)

theorem si_vertexIndex (t : TId) (v : VId) : Keeps (Since (· = now)) (vertexIndex t v) := by
  unfold vertexIndex
  since
macro_rules | `(tactic| since_leaf) => `(tactic| with_reducible exact si_vertexIndex _ _)

theorem si_relink (n t : TId) (x : Option TId) : Keeps (Since (· = now)) (relink n t x) := by
  unfold relink
  since
macro_rules | `(tactic| since_leaf) => `(tactic| with_reducible exact si_relink _ _ _)

theorem si_detachAndSchedule [HasSqrt K] (n : Option TId) (t : TId) (now : K) :
    Keeps (Since (· = now)) (detachAndSchedule n t now) := by
  unfold detachAndSchedule
  since
macro_rules | `(tactic| since_leaf) => `(tactic| with_reducible exact si_detachAndSchedule _ _ _)

theorem si_evenLegs [HasSqrt K] (t : TId) (e : Fin 3) (pivot : VId) (now : K) (step : ℤ) :
    Keeps (Since (· = now)) (evenLegs t e pivot now step) := by
  unfold evenLegs
  since
macro_rules | `(tactic| since_leaf) => `(tactic| with_reducible exact si_evenLegs _ _ _ _ _)

theorem si_evenLegsAt [HasSqrt K] (t : TId) (pivot : VId) (now : K) (step : ℤ) :
    Keeps (Since (· = now)) (evenLegsAt t pivot now step) := by
  unfold evenLegsAt
  since
macro_rules | `(tactic| since_leaf) => `(tactic| with_reducible exact si_evenLegsAt _ _ _ _)

theorem si_evenLegsIf [HasSqrt K] (c : Bool) (t : TId) (pivot : VId) (now : K) (step : ℤ) :
    Keeps (Since (· = now)) (evenLegsIf c t pivot now step) := by
  unfold evenLegsIf
  since
macro_rules | `(tactic| since_leaf) => `(tactic| with_reducible exact si_evenLegsIf _ _ _ _ _)

theorem si_assertVertexStopped (v : VId) :
    Keeps (Since (· = now)) (assertVertexStopped v) := by
  unfold assertVertexStopped
  since
macro_rules | `(tactic| since_leaf) => `(tactic| with_reducible exact si_assertVertexStopped _)

theorem si_velocityOf (v : VId) : Keeps (Since (· = now)) (velocityOf v) := by
  unfold velocityOf
  since
macro_rules | `(tactic| since_leaf) => `(tactic| with_reducible exact si_velocityOf _)

theorem si_parallel3tri [HasSqrt K] (t : TId) (e : Fin 3) (pivot : VId) (now : K) (step : ℤ) :
    Keeps (Since (· = now)) (parallel3tri t e pivot now step) := by
  unfold parallel3tri
  since
macro_rules | `(tactic| since_leaf) => `(tactic| with_reducible exact si_parallel3tri _ _ _ _ _)

theorem si_parallel3Collapse [HasSqrt K] (pivot : VId) (now : K) (step : ℤ) (a : TId)
    (near : List (Fin 3)) (zero : Bool) :
    Keeps (Since (· = now)) (parallel3.parallel3Collapse pivot now step a near zero) := by
  unfold parallel3.parallel3Collapse
  since
macro_rules
  | `(tactic| since_leaf) => `(tactic| with_reducible exact si_parallel3Collapse _ _ _ _ _ _)

theorem si_parallel3 [HasSqrt K] (a b : TId) (pivot : VId) (now : K) (step : ℤ) :
    Keeps (Since (· = now)) (parallel3 a b pivot now step) := by
  unfold parallel3
  since
macro_rules | `(tactic| since_leaf) => `(tactic| with_reducible exact si_parallel3 _ _ _ _ _)

theorem si_stopPivot [HasSqrt K] [HasTrig K] (pivot : VId) (now : K) (n : NodeId) :
    Keeps (Since (· = now)) (shorterLeg.stopPivot pivot now n) := by
  unfold shorterLeg.stopPivot
  since
macro_rules | `(tactic| since_leaf) => `(tactic| with_reducible exact si_stopPivot _ _ _)

theorem si_replaceSide [HasSqrt K] (t : TId) (now : K) (n other : Option TId) (v kv : VId)
    (dir : Dir) : Keeps (Since (· = now)) (shorterLeg.replaceSide t now n other v kv dir) := by
  unfold shorterLeg.replaceSide
  since
macro_rules | `(tactic| since_leaf) => `(tactic| with_reducible exact si_replaceSide _ _ _ _ _ _ _)

theorem si_shorterLeg [HasSqrt K] [HasTrig K] (t : TId) (e : Fin 3) (pivot : VId) (now : K)
    (step : ℤ) : Keeps (Since (· = now)) (shorterLeg t e pivot now step) := by
  unfold shorterLeg
  since
macro_rules | `(tactic| since_leaf) => `(tactic| with_reducible exact si_shorterLeg _ _ _ _ _)

theorem si_evenTriangle [HasSqrt K] (pivot : VId) (now : K) (t : TId) :
    Keeps (Since (· = now)) (evenTriangle pivot now t) := by
  unfold evenTriangle
  since
macro_rules | `(tactic| since_leaf) => `(tactic| with_reducible exact si_evenTriangle _ _ _)

theorem si_hasInfFast (t : TId) : Keeps (Since (· = now)) (hasInfFast t) := by
  unfold hasInfFast
  since
macro_rules | `(tactic| since_leaf) => `(tactic| with_reducible exact si_hasInfFast _)

theorem si_flipPair [HasSqrt K] (t0 t1 : TId) (pivot : VId) (now : K) (step : ℤ) :
    Keeps (Since (· = now)) (flipPair t0 t1 pivot now step) := by
  unfold flipPair
  since
macro_rules | `(tactic| since_leaf) => `(tactic| with_reducible exact si_flipPair _ _ _ _ _)

theorem si_assertStopped (t : TId) : Keeps (Since (· = now)) (assertStopped t) := by
  unfold assertStopped
  since
macro_rules | `(tactic| since_leaf) => `(tactic| with_reducible exact si_assertStopped _)

theorem si_parallelEven [HasSqrt K] (fan : List TId) (pivot : VId) (now : K) (step : ℤ) :
    Keeps (Since (· = now)) (parallelEven fan pivot now step) := by
  unfold parallelEven
  since
macro_rules | `(tactic| since_leaf) => `(tactic| with_reducible exact si_parallelEven _ _ _ _)

theorem si_nextFan (kv : VId) (a b : List TId) : Keeps (Since (· = now)) (nextFan kv a b) := by
  unfold nextFan
  since
macro_rules | `(tactic| since_leaf) => `(tactic| with_reducible exact si_nextFan _ _ _)

theorem si_parallelLegs [HasSqrt K] [HasTrig K] (fan : List TId) (a b : TId) (pivot : VId)
    (now : K) (dir : Dir) (step : ℤ) :
    Keeps (Since (· = now)) (parallelLegs fan a b pivot now dir step) := by
  unfold parallelLegs
  since
macro_rules | `(tactic| since_leaf) => `(tactic| with_reducible exact si_parallelLegs _ _ _ _ _ _ _)

theorem si_parallelStep [HasSqrt K] [HasTrig K] (fan : List TId) (pivot : VId)
    (now : K) (dir : Dir) (step : ℤ) :
    Keeps (Since (· = now)) (parallelStep fan pivot now dir step) := by
  unfold parallelStep
  since
macro_rules | `(tactic| since_leaf) => `(tactic| with_reducible exact si_parallelStep _ _ _ _ _)

theorem si_parallelFan [HasSqrt K] [HasTrig K] (depth : ℕ) (fan : List TId) (pivot : VId)
    (now : K) (dir : Dir) (step : ℤ) :
    Keeps (Since (· = now)) (parallelFan depth fan pivot now dir step) := by
  induction depth generalizing fan pivot dir with
  | zero => exact Keeps.raise _
  | succ d ih =>
    unfold parallelFan
    refine Keeps.bind sincePre (si_parallelStep _ _ _ _ _) fun r => ?_
    cases r with
    | none => exact Keeps.pure sincePre _
    | some r => exact ih _ _ _
macro_rules | `(tactic| since_leaf) => `(tactic| with_reducible exact si_parallelFan _ _ _ _ _ _)

theorem si_evalPosition (v : Option VId) (now : K) :
    Keeps (Since (· = now)) (evalPosition v now) := by
  unfold evalPosition
  since
macro_rules | `(tactic| since_leaf) => `(tactic| with_reducible exact si_evalPosition _ _)

theorem si_checkLinks (v : VId) : Keeps (Since (· = now)) (checkLinks v) := by
  unfold checkLinks
  since
macro_rules | `(tactic| since_leaf) => `(tactic| with_reducible exact si_checkLinks _)

theorem si_scheduleTiny [HasSqrt K] (fan : List TId) (kv : VId) (dir : Dir) (now : K) :
    Keeps (Since (· = now)) (scheduleTiny fan kv dir now) := by
  unfold scheduleTiny
  since
macro_rules | `(tactic| since_leaf) => `(tactic| with_reducible exact si_scheduleTiny _ _ _ _)

theorem si_edgeSide [HasSqrt K] (n : Option TId) (t : TId) (o : Option TId) (v kv : VId) (now : K)
    (dir : Dir) : Keeps (Since (· = now)) (edgeSide n t o v kv now dir) := by
  unfold edgeSide
  since
macro_rules | `(tactic| since_leaf) => `(tactic| with_reducible exact si_edgeSide _ _ _ _ _ _ _)

theorem si_edgeFan [HasSqrt K] [HasTrig K] (depth : ℕ) (kv : VId) (a b : List TId) (now : K)
    (step : ℤ) : Keeps (Since (· = now)) (edgeFan depth kv a b now step) := by
  unfold edgeFan
  since
macro_rules | `(tactic| since_leaf) => `(tactic| with_reducible exact si_edgeFan _ _ _ _ _ _)

theorem si_edgeVertex [HasSqrt K] [HasTrig K] (t : TId) (e : Fin 3) (now : K) (step : ℤ) :
    Keeps (Since (· = now)) (edgeVertex t e now step) := by
  unfold edgeVertex
  since
macro_rules | `(tactic| since_leaf) => `(tactic| with_reducible exact si_edgeVertex _ _ _ _)

theorem si_handleEdge [HasSqrt K] [HasTrig K] (depth : ℕ) (evt : Event K) (step : ℤ) :
    Keeps (Since (· = evt.time)) (handleEdge depth evt step) := by
  unfold handleEdge
  since
macro_rules | `(tactic| since_leaf) => `(tactic| with_reducible exact si_handleEdge _ _ _)

theorem si_threeSidesNeighbour [HasSqrt K] (t : TId) (now : K) (i : Fin 3) :
    Keeps (Since (· = now)) (threeSidesNeighbour t now i) := by
  unfold threeSidesNeighbour
  since
macro_rules | `(tactic| since_leaf) => `(tactic| with_reducible exact si_threeSidesNeighbour _ _ _)

theorem si_handleEdge3 [HasSqrt K] (evt : Event K) (step : ℤ) :
    Keeps (Since (· = evt.time)) (handleEdge3 evt step) := by
  unfold handleEdge3
  since
macro_rules | `(tactic| since_leaf) => `(tactic| with_reducible exact si_handleEdge3 _ _)

theorem si_handleEdge1 [HasSqrt K] [HasTrig K] (evt : Event K) (step : ℤ) :
    Keeps (Since (· = evt.time)) (handleEdge1 evt step) := by
  unfold handleEdge1
  since
macro_rules | `(tactic| since_leaf) => `(tactic| with_reducible exact si_handleEdge1 _ _)

theorem si_splitChecks [HasSqrt K] (v v1 v2 : VId) (now : K) :
    Keeps (Since (· = now)) (splitChecks v v1 v2 now) := by
  unfold splitChecks
  since
macro_rules | `(tactic| since_leaf) => `(tactic| with_reducible exact si_splitChecks _ _ _ _)

theorem si_splitVertices [HasSqrt K] [HasTrig K] (v v1 v2 : VId) (now : K) (step : ℤ) :
    Keeps (Since (· = now)) (splitVertices v v1 v2 now step) := by
  unfold splitVertices
  since
macro_rules | `(tactic| since_leaf) => `(tactic| with_reducible exact si_splitVertices _ _ _ _ _)

theorem si_splitSide [HasSqrt K] (t : TId) (i : Fin 3) (v newv : VId) (now : K) (dir : Dir) :
    Keeps (Since (· = now)) (splitSide t i v newv now dir) := by
  unfold splitSide
  since
macro_rules | `(tactic| since_leaf) => `(tactic| with_reducible exact si_splitSide _ _ _ _ _ _)

theorem si_splitFan [HasSqrt K] [HasTrig K] (depth : ℕ) (v : VId) (fan : List TId) (now : K)
    (dir : Dir) (step : ℤ) : Keeps (Since (· = now)) (splitFan depth v fan now dir step) := by
  unfold splitFan
  since
macro_rules | `(tactic| since_leaf) => `(tactic| with_reducible exact si_splitFan _ _ _ _ _ _)

theorem si_handleSplit [HasSqrt K] [HasTrig K] (depth : ℕ) (evt : Event K) (step : ℤ) :
    Keeps (Since (· = evt.time)) (handleSplit depth evt step) := by
  unfold handleSplit
  since
macro_rules | `(tactic| since_leaf) => `(tactic| with_reducible exact si_handleSplit _ _ _)

theorem si_handleEvent [HasSqrt K] [HasTrig K] (depth : ℕ) (evt : Event K) (step : ℤ) :
    Keeps (Since (· = evt.time)) (handleEvent depth evt step) := by
  unfold handleEvent
  since
macro_rules | `(tactic| since_leaf) => `(tactic| with_reducible exact si_handleEvent _ _ _)

end Grassfire
