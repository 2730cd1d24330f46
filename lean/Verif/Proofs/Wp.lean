/-
Proof rules for computations on the state.
-/
import Verif.Events.Loop
import Mathlib.Tactic.SplitIfs

set_option linter.unusedSectionVars false

namespace Grassfire

variable {K : Type} {α β : Type}

/-! ### running -/

theorem pure_run (a : α) (s : St K) : (pure a : M K α) s = .ok (a, s) := rfl

theorem bind_run (m : M K α) (f : α → M K β) (s : St K) :
    (m >>= f) s = match m s with
      | .ok (a, s') => f a s'
      | .error e => .error e := by
  show (StateT.bind m f) s = _
  unfold StateT.bind
  cases m s <;> rfl

theorem bind_run_ok {m : M K α} {f : α → M K β} {s s'' : St K} {b : β} :
    (m >>= f) s = .ok (b, s'') ↔ ∃ a s', m s = .ok (a, s') ∧ f a s' = .ok (b, s'') := by
  rw [bind_run]
  constructor
  · intro h
    cases hm : m s with
    | error e => rw [hm] at h; cases h
    | ok x => obtain ⟨a, s'⟩ := x; rw [hm] at h; exact ⟨a, s', rfl, h⟩
  · rintro ⟨a, s', h1, h2⟩
    rw [h1]; exact h2

theorem pure_run_ok {a b : α} {s s' : St K} :
    (pure a : M K α) s = .ok (b, s') ↔ a = b ∧ s = s' := by
  rw [pure_run]; simp only [Except.ok.injEq, Prod.mk.injEq]

theorem raise_run_ok {e : Err} {b : α} {s s' : St K} :
    (raise e : M K α) s = .ok (b, s') ↔ False := by
  unfold raise; simp

theorem assertM_run_ok {c : Prop} [Decidable c] {b : Unit} {s s' : St K} :
    (assertM c : M K Unit) s = .ok (b, s') ↔ c ∧ s = s' := by
  unfold assertM
  split_ifs with h <;> simp [h]

theorem need_run_ok {o : Option α} {b : α} {s s' : St K} :
    (need o : M K α) s = .ok (b, s') ↔ o = some b ∧ s = s' := by
  unfold need; cases o <;> simp

theorem needIdx_run_ok {o : Option α} {b : α} {s s' : St K} :
    (needIdx o : M K α) s = .ok (b, s') ↔ o = some b ∧ s = s' := by
  unfold needIdx; cases o <;> simp

theorem lift_run_ok {x : Except Err α} {b : α} {s s' : St K} :
    (lift x : M K α) s = .ok (b, s') ↔ x = .ok b ∧ s = s' := by
  unfold lift; cases x <;> simp

theorem assertSome_run_ok [Field K] [LinearOrder K] {o : Option α} {b : α} {s s' : St K} :
    (assertSome o : M K α) s = .ok (b, s') ↔ o = some b ∧ s = s' := by
  unfold assertSome
  cases o with
  | none => simp [raise_run_ok]
  | some a => simp [pure_run_ok]

section
variable [Field K] [LinearOrder K]

theorem needNum_run_ok {o : Option K} {b : K} {s s' : St K} :
    (needNum o : M K K) s = .ok (b, s') ↔ o = some b ∧ s = s' := by
  unfold needNum; cases o <;> simp

theorem getV_run_ok {v : VId} {b : Vertex K} {s s' : St K} :
    (getV v : M K _) s = .ok (b, s') ↔ v < s.nV ∧ s.vert v = b ∧ s = s' := by
  unfold getV; split_ifs with h <;> simp [h]

theorem getK_run_ok {v : VId} {b : KVertex K} {s s' : St K} :
    (getK v : M K _) s = .ok (b, s') ↔ v < s.nV ∧ s.vert v = .kin b ∧ s = s' := by
  unfold getK
  split_ifs with h
  · cases hv : s.vert v <;> simp [h]
  · simp [h]

theorem getT_run_ok {t : TId} {b : KTri K} {s s' : St K} :
    (getT t : M K _) s = .ok (b, s') ↔ t < s.nT ∧ s.tri t = b ∧ s = s' := by
  unfold getT; split_ifs with h <;> simp [h]

theorem getN_run_ok {n : NodeId} {b : Node K} {s s' : St K} :
    (getN n : M K _) s = .ok (b, s') ↔ n < s.nN ∧ s.node n = b ∧ s = s' := by
  unfold getN; split_ifs with h <;> simp [h]

theorem getLine_run_ok {l : LineId} {b : Line2 K} {s s' : St K} :
    (getLine l : M K _) s = .ok (b, s') ↔ s.line l = b ∧ s = s' := by
  unfold getLine; simp

theorem getWfLine_run_ok {l : WfId} {b : Line2 K} {s s' : St K} :
    (getWfLine l : M K _) s = .ok (b, s') ↔ s.line (s.wfLine l) = b ∧ s = s' := by
  unfold getWfLine; simp

theorem countVertices_run_ok {b : ℕ} {s s' : St K} :
    (countVertices : M K _) s = .ok (b, s') ↔ s.skVertices.length = b ∧ s = s' := by
  unfold countVertices; simp

theorem modifyK_run_ok {v : VId} {f : KVertex K → KVertex K} {b : Unit} {s s' : St K} :
    (modifyK v f : M K _) s = .ok (b, s') ↔
      v < s.nV ∧ ∃ kv, s.vert v = .kin kv ∧
        s' = { s with vert := Function.update s.vert v (.kin (f kv)) } := by
  unfold modifyK
  split_ifs with h
  · cases hv : s.vert v with
    | kin kv => simp [h, eq_comm]
    | inf o => simp
  · simp [h]

theorem modifyT_run_ok {t : TId} {f : KTri K → KTri K} {b : Unit} {s s' : St K} :
    (modifyT t f : M K _) s = .ok (b, s') ↔
      t < s.nT ∧ s' = { s with tri := Function.update s.tri t (f (s.tri t)) } := by
  unfold modifyT
  split_ifs with h <;> simp [h, eq_comm]

theorem newNode_run_ok {n : Node K} {b : NodeId} {s s' : St K} :
    (newNode n : M K _) s = .ok (b, s') ↔
      b = s.nN ∧ s' = { s with node := Function.update s.node s.nN n, nN := s.nN + 1 } := by
  unfold newNode; simp only [Except.ok.injEq, Prod.mk.injEq, eq_comm]

theorem newK_run_ok {kv : KVertex K} {b : VId} {s s' : St K} :
    (newK kv : M K _) s = .ok (b, s') ↔
      b = s.nV ∧
      s' = { s with vert := Function.update s.vert s.nV (.kin kv), nV := s.nV + 1 } := by
  unfold newK; simp only [Except.ok.injEq, Prod.mk.injEq, eq_comm]

theorem newEvent_run_ok {c : EvCore K} {t : TId} {b : Event K} {s s' : St K} :
    (newEvent c t : M K _) s = .ok (b, s') ↔
      b = { c with eid := s.nE, tri := t } ∧ s' = { s with nE := s.nE + 1 } := by
  unfold newEvent; simp only [Except.ok.injEq, Prod.mk.injEq, eq_comm]

theorem appendNode_run_ok {n : NodeId} {b : Unit} {s s' : St K} :
    (appendNode n : M K _) s = .ok (b, s') ↔ s' = { s with skNodes := s.skNodes ++ [n] } := by
  unfold appendNode; simp [eq_comm]

theorem appendVertex_run_ok {n : VId} {b : Unit} {s s' : St K} :
    (appendVertex n : M K _) s = .ok (b, s') ↔
      s' = { s with skVertices := s.skVertices ++ [n] } := by
  unfold appendVertex; simp [eq_comm]

theorem positionAt_run_ok {v : VId} {time : K} {b : Pt K} {s s' : St K} :
    (positionAt v time : M K _) s = .ok (b, s') ↔
      v < s.nV ∧ (s.vert v).positionAt (fun n => (s.node n).pos) time = .ok b ∧ s = s' := by
  unfold positionAt
  split_ifs with h
  · cases hp : (s.vert v).positionAt (fun n => (s.node n).pos) time <;> simp [h]
  · simp [h]

end

/-! ### weakest precondition

`wp m Q s`: run from `s`, `m` either ends with a python exception or with a result
that satisfies `Q`.  None of the faults of the model occurs. -/

/-- the fault is a python exception -/
def Fault.isPy : Fault → Prop
  | .py _ => True
  | _ => False

/-- weakest precondition -/
def wp (m : M K α) (Q : α → St K → Prop) (s : St K) : Prop :=
  match m s with
  | .ok (a, s') => Q a s'
  | .error f => f.isPy

theorem wp_bind {m : M K α} {f : α → M K β} {Q : β → St K → Prop} {s : St K} :
    wp (m >>= f) Q s ↔ wp m (fun a s' => wp (f a) Q s') s := by
  unfold wp
  rw [bind_run]
  cases m s <;> rfl

theorem wp_mono {m : M K α} {Q Q' : α → St K → Prop} {s : St K} (h : wp m Q s)
    (hQ : ∀ a s', m s = .ok (a, s') → Q a s' → Q' a s') : wp m Q' s := by
  unfold wp at *
  cases hm : m s with
  | error f => rw [hm] at h; exact h
  | ok x => obtain ⟨a, s'⟩ := x; rw [hm] at h; exact hQ a s' hm h

theorem wp_ok {m : M K α} {Q : α → St K → Prop} {s s' : St K} {a : α} (h : wp m Q s)
    (hm : m s = .ok (a, s')) : Q a s' := by
  unfold wp at h; rw [hm] at h; exact h

theorem wp_py {m : M K α} {Q : α → St K → Prop} {s : St K} {f : Fault} (h : wp m Q s)
    (hm : m s = .error f) : ∃ e, f = .py e := by
  unfold wp at h; rw [hm] at h
  cases f with
  | py e => exact ⟨e, rfl⟩
  | dangling => exact h.elim
  | nonTermination => exact h.elim
  | outside => exact h.elim

theorem wp_pure {a : α} {Q : α → St K → Prop} {s : St K} : wp (pure a) Q s ↔ Q a s := Iff.rfl

theorem wp_raise {e : Err} {Q : α → St K → Prop} {s : St K} : wp (raise e) Q s := trivial

theorem wp_assertM {c : Prop} [Decidable c] {Q : Unit → St K → Prop} {s : St K}
    (h : c → Q () s) : wp (assertM c) Q s := by
  unfold wp assertM
  split_ifs with hc
  · exact h hc
  · trivial

theorem wp_need {o : Option α} {Q : α → St K → Prop} {s : St K} (h : ∀ a, o = some a → Q a s) :
    wp (need o) Q s := by
  unfold wp need
  cases o with
  | none => trivial
  | some a => exact h a rfl

theorem wp_needIdx {o : Option α} {Q : α → St K → Prop} {s : St K}
    (h : ∀ a, o = some a → Q a s) : wp (needIdx o) Q s := by
  unfold wp needIdx
  cases o with
  | none => trivial
  | some a => exact h a rfl

theorem wp_lift {x : Except Err α} {Q : α → St K → Prop} {s : St K}
    (h : ∀ a, x = .ok a → Q a s) : wp (lift x) Q s := by
  unfold wp lift
  cases x with
  | error e => trivial
  | ok a => exact h a rfl

section
variable [Field K] [LinearOrder K]

theorem wp_assertSome {o : Option α} {Q : α → St K → Prop} {s : St K}
    (h : ∀ a, o = some a → Q a s) : wp (assertSome o) Q s := by
  unfold assertSome
  cases o with
  | none => exact wp_raise
  | some a => exact h a rfl

theorem wp_needNum {o : Option K} {Q : K → St K → Prop} {s : St K}
    (h : ∀ a, o = some a → Q a s) : wp (needNum o) Q s := by
  unfold wp needNum
  cases o with
  | none => trivial
  | some a => exact h a rfl

theorem wp_getV {v : VId} {Q : Vertex K → St K → Prop} {s : St K} (hv : v < s.nV)
    (h : Q (s.vert v) s) : wp (getV v) Q s := by
  unfold wp getV; rw [if_pos hv]; exact h

theorem wp_getK {v : VId} {Q : KVertex K → St K → Prop} {s : St K} (hv : v < s.nV)
    (h : ∀ kv, s.vert v = .kin kv → Q kv s) : wp (getK v) Q s := by
  unfold wp getK; rw [if_pos hv]
  cases hk : s.vert v with
  | inf o => trivial
  | kin kv => exact h kv hk

theorem wp_getT {t : TId} {Q : KTri K → St K → Prop} {s : St K} (ht : t < s.nT)
    (h : Q (s.tri t) s) : wp (getT t) Q s := by
  unfold wp getT; rw [if_pos ht]; exact h

theorem wp_getN {n : NodeId} {Q : Node K → St K → Prop} {s : St K} (hn : n < s.nN)
    (h : Q (s.node n) s) : wp (getN n) Q s := by
  unfold wp getN; rw [if_pos hn]; exact h

theorem wp_getLine {l : LineId} {Q : Line2 K → St K → Prop} {s : St K} (h : Q (s.line l) s) :
    wp (getLine l) Q s := h

theorem wp_getWfLine {l : WfId} {Q : Line2 K → St K → Prop} {s : St K}
    (h : Q (s.line (s.wfLine l)) s) : wp (getWfLine l) Q s := h

theorem wp_countVertices {Q : ℕ → St K → Prop} {s : St K} (h : Q s.skVertices.length s) :
    wp countVertices Q s := h

theorem wp_modifyK {v : VId} {f : KVertex K → KVertex K} {Q : Unit → St K → Prop} {s : St K}
    (hv : v < s.nV)
    (h : ∀ kv, s.vert v = .kin kv →
      Q () { s with vert := Function.update s.vert v (.kin (f kv)) }) :
    wp (modifyK v f) Q s := by
  unfold wp modifyK; rw [if_pos hv]
  cases hk : s.vert v with
  | inf o => trivial
  | kin kv => exact h kv hk

theorem wp_modifyT {t : TId} {f : KTri K → KTri K} {Q : Unit → St K → Prop} {s : St K}
    (ht : t < s.nT) (h : Q () { s with tri := Function.update s.tri t (f (s.tri t)) }) :
    wp (modifyT t f) Q s := by
  unfold wp modifyT; rw [if_pos ht]; exact h

theorem wp_positionAt {v : VId} {time : K} {Q : Pt K → St K → Prop} {s : St K} (hv : v < s.nV)
    (h : ∀ p, Q p s) : wp (positionAt v time) Q s := by
  unfold wp positionAt; rw [if_pos hv]
  cases (s.vert v).positionAt (fun n => (s.node n).pos) time with
  | error e => trivial
  | ok p => exact h p

theorem wp_tryIntersection [HasSqrt K] {l r : Line2 K} {now : K} {Q : Option (Pt K) → St K → Prop}
    {s : St K} (h : ∀ p, Q p s) : wp (tryIntersection l r now) Q s := by
  unfold wp tryIntersection
  cases getIntersectionAtT l r now with
  | ok p => exact h _
  | error e => cases e <;> first | exact h _ | trivial

theorem wp_singleSide {l : List (Fin 3)} {Q : Fin 3 → St K → Prop} {s : St K}
    (h : ∀ e, l = [e] → Q e s) : wp (singleSide l) Q s := by
  unfold singleSide
  split
  · exact h _ rfl
  · exact wp_raise

end

/-! ### relations kept by every successful run -/

/-- every successful run of `m` is related by `R` -/
def Keeps (R : St K → St K → Prop) (m : M K α) : Prop :=
  ∀ s a s', m s = .ok (a, s') → R s s'

/-- A reflexive and transitive relation. -/
structure Pre (R : St K → St K → Prop) : Prop where
  refl : ∀ s, R s s
  trans : ∀ a b c, R a b → R b c → R a c

namespace Keeps

variable {R : St K → St K → Prop}

theorem bind (pre : Pre R) {m : M K α} {f : α → M K β} (hm : Keeps R m)
    (hf : ∀ a, Keeps R (f a)) : Keeps R (m >>= f) := by
  intro s b s'' h
  obtain ⟨a, s', h1, h2⟩ := bind_run_ok.1 h
  exact pre.trans _ _ _ (hm _ _ _ h1) (hf _ _ _ _ h2)

theorem pure (pre : Pre R) (a : α) : Keeps R (Pure.pure a : M K α) := by
  intro s b s' h
  obtain ⟨_, rfl⟩ := pure_run_ok.1 h
  exact pre.refl _

theorem raise (e : Err) : Keeps R (raise e : M K α) := by
  intro s b s' h; exact (raise_run_ok.1 h).elim

/-- computations that leave the state alone -/
theorem of_same (pre : Pre R) {m : M K α} (h : ∀ s a s', m s = .ok (a, s') → s = s') :
    Keeps R m := by
  intro s a s' hm
  rw [h s a s' hm]; exact pre.refl _

theorem ite {c : Prop} [Decidable c] {m m' : M K α} (h : Keeps R m) (h' : Keeps R m') :
    Keeps R (if c then m else m') := by
  split_ifs <;> assumption

theorem forEach [Field K] [LinearOrder K] (pre : Pre R) {f : α → M K Unit}
    (hf : ∀ a, Keeps R (f a)) (l : List α) : Keeps R (Grassfire.forEach f l) := by
  induction l with
  | nil => exact Keeps.pure pre ()
  | cons x xs ih => exact Keeps.bind pre (hf x) fun _ => ih

theorem mapEach [Field K] [LinearOrder K] (pre : Pre R) {f : α → M K β}
    (hf : ∀ a, Keeps R (f a)) (l : List α) : Keeps R (Grassfire.mapEach f l) := by
  induction l with
  | nil => exact Keeps.pure pre []
  | cons x xs ih =>
    exact Keeps.bind pre (hf x) fun _ => Keeps.bind pre ih fun _ => Keeps.pure pre _

end Keeps

end Grassfire
