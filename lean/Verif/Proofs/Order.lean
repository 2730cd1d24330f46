/-
The identities of the events have no influence on the event loop (lemmas for C108).
-/
import Verif.Proofs.Wp
import Verif.Spec.Order
import Verif.Events.Loop

set_option linter.unusedSectionVars false

namespace Grassfire

open Spec

variable {K : Type}

/-- the result and the state that a computation leaves, renamed -/
def renRes {α β : Type} (ρ : Equiv.Perm ℕ) (L : List TId) (f : α → β) : Except Fault (α × St K) → Except Fault (β × St K)
  | .ok r => .ok (f r.1, renamedState ρ L r.2)
  | .error e => .error e

/-- In the renamed state, `m'` does what `m` does in the state itself, and its result is the renamed one, if no identity
that is given out later is renamed. -/
def Ren {α β : Type} (ρ : Equiv.Perm ℕ) (L : List TId) (f : α → β) (m : M K α) (m' : M K β) : Prop :=
  ∀ s : St K, (∀ n, s.nE ≤ n → ρ n = n) → m' (renamedState ρ L s) = renRes ρ L f (m s) ∧ ∀ r, m s = .ok r → s.nE ≤ r.2.nE

/-- the same computation, the same result -/
abbrev Ren1 {α : Type} (ρ : Equiv.Perm ℕ) (L : List TId) (m m' : M K α) : Prop := Ren ρ L (fun x => x) m m'

section
variable {ρ : Equiv.Perm ℕ} {L : List TId}

/-- a computation that does not create events -/
theorem Ren.still {α β : Type} {f : α → β} {m : M K α} {m' : M K β}
    (h : ∀ s, m' (renamedState ρ L s) = renRes ρ L f (m s)) (hn : ∀ s r, m s = .ok r → r.2.nE = s.nE) : Ren ρ L f m m' :=
  fun s _ => ⟨h s, fun r e => (hn s r e).ge⟩

theorem Ren.pure {α : Type} (a : α) : Ren1 ρ L (pure a : M K α) (pure a) :=
  .still (fun _ => rfl) fun s r e => by cases e; rfl

theorem Ren.pureMap {α β : Type} (f : α → β) (a : α) (b : β) (h : b = f a) :
    Ren ρ L f (Pure.pure a : M K α) (Pure.pure b) := by
  subst h
  exact .still (fun _ => rfl) fun s r e => by cases e; rfl

theorem Ren.fail {α : Type} (e : Fault) : Ren1 ρ L (fun _ => .error e : M K α) (fun _ => .error e) :=
  .still (fun _ => rfl) fun s r e => by cases e

theorem Ren.raise {α : Type} (e : Err) : Ren1 ρ L (raise e : M K α) (raise e) := Ren.fail _

theorem Ren.bind {α β γ δ : Type} {f : α → γ} {g : β → δ} {m : M K α} {m' : M K γ} {k : α → M K β} {k' : γ → M K δ}
    (hm : Ren ρ L f m m') (hk : ∀ a, Ren ρ L g (k a) (k' (f a))) : Ren ρ L g (m >>= k) (m' >>= k') := by
  intro s hs
  obtain ⟨h1, h2⟩ := hm s hs
  rw [bind_run, bind_run, h1]
  cases h : m s with
  | error e => exact ⟨rfl, fun r e => by cases e⟩
  | ok r =>
    have hr := h2 r h
    obtain ⟨h3, h4⟩ := hk r.1 r.2 fun n hn => hs n (hr.trans hn)
    exact ⟨h3, fun q e => hr.trans (h4 q e)⟩

theorem Ren.bind1 {α β δ : Type} {g : β → δ} {m m' : M K α} {k : α → M K β} {k' : α → M K δ}
    (hm : Ren1 ρ L m m') (hk : ∀ a, Ren ρ L g (k a) (k' a)) : Ren ρ L g (m >>= k) (m' >>= k') := Ren.bind hm hk

theorem Ren.ite {α β : Type} {f : α → β} {c c' : Prop} [Decidable c] [Decidable c'] {m n : M K α} {m' n' : M K β}
    (h : c ↔ c') (hm : Ren ρ L f m m') (hn : Ren ρ L f n n') : Ren ρ L f (if c then m else n) (if c' then m' else n') := by
  by_cases q : c
  · rw [if_pos q, if_pos (h.1 q)]; exact hm
  · rw [if_neg q, if_neg (fun z => q (h.2 z))]; exact hn

variable [Field K] [LinearOrder K]

theorem Ren.forEach {α : Type} {f f' : α → M K Unit} (hf : ∀ a, Ren1 ρ L (f a) (f' a)) (l : List α) :
    Ren1 ρ L (Grassfire.forEach f l) (Grassfire.forEach f' l) := by
  induction l with
  | nil => exact Ren.pure _
  | cons x xs ih => exact Ren.bind1 (hf x) fun _ => ih

theorem Ren.mapEach1 {α β : Type} {f f' : α → M K β} (hf : ∀ a, Ren1 ρ L (f a) (f' a))
    (l : List α) : Ren1 ρ L (Grassfire.mapEach f l) (Grassfire.mapEach f' l) := by
  induction l with
  | nil => exact Ren.pure _
  | cons x xs ih => exact Ren.bind1 (hf x) fun _ => Ren.bind1 ih fun _ => Ren.pure _

end

variable [Field K] [LinearOrder K] {ρ : Equiv.Perm ℕ} {L : List TId}

/-! ### primitives -/

/-- a computation that only reads -/
theorem Ren.read {α β : Type} {f : α → β} {m : M K α} {m' : M K β}
    (h : ∀ s, (∃ a, m s = .ok (a, s) ∧ m' (renamedState ρ L s) = .ok (f a, renamedState ρ L s)) ∨
      ∃ e, m s = .error e ∧ m' (renamedState ρ L s) = .error e) : Ren ρ L f m m' := by
  intro s _
  rcases h s with ⟨a, h1, h2⟩ | ⟨e, h1, h2⟩
  · rw [h1, h2]; exact ⟨rfl, fun r q => by cases q; rfl⟩
  · rw [h1, h2]; exact ⟨rfl, fun r q => by cases q⟩

theorem rn_assertM {c c' : Prop} [Decidable c] [Decidable c'] (h : c ↔ c') : Ren1 ρ L (assertM c : M K _) (assertM c') := by
  refine Ren.read fun s => ?_
  unfold assertM
  by_cases q : c
  · rw [if_pos q, if_pos (h.1 q)]; exact .inl ⟨_, rfl, rfl⟩
  · rw [if_neg q, if_neg (fun z => q (h.2 z))]; exact .inr ⟨_, rfl, rfl⟩

theorem rn_need {α : Type} (o : Option α) : Ren1 ρ L (need o : M K _) (need o) := by
  cases o with
  | none => exact Ren.fail _
  | some a => exact Ren.pure a

theorem rn_needIdx {α : Type} (o : Option α) : Ren1 ρ L (needIdx o : M K _) (needIdx o) := by
  cases o with
  | none => exact Ren.fail _
  | some a => exact Ren.pure a

theorem rn_needNum (o : Option K) : Ren1 ρ L (needNum o : M K _) (needNum o) := by
  cases o with
  | none => exact Ren.fail _
  | some a => exact Ren.pure a

theorem rn_lift {α : Type} (x : Except Err α) : Ren1 ρ L (lift x : M K _) (lift x) := by
  cases x with
  | error e => exact Ren.fail _
  | ok a => exact Ren.pure a

theorem rn_assertSome {α : Type} (o : Option α) : Ren1 ρ L (assertSome o : M K _) (assertSome o) := by
  cases o with
  | none => exact Ren.fail _
  | some a => exact Ren.pure a

theorem rn_assertSomeEvent (o : Option (Event K)) : Ren ρ L (renamedEvent ρ) (assertSome o : M K _)
    (assertSome (o.map (renamedEvent ρ))) := by
  cases o with
  | none => exact Ren.read fun _ => .inr ⟨_, rfl, rfl⟩
  | some a => exact Ren.read fun _ => .inl ⟨_, rfl, rfl⟩

/-- reading something from the heap -/
theorem Ren.get {α β : Type} (f : α → β) (c : St K → Prop) [∀ s, Decidable (c s)] (g : St K → α) (g' : St K → β)
    (hc : ∀ s, c (renamedState ρ L s) ↔ c s) (hg : ∀ s, g' (renamedState ρ L s) = f (g s)) (e : Fault) :
    Ren ρ L f (fun s => if c s then .ok (g s, s) else .error e : M K α) (fun s => if c s then .ok (g' s, s) else .error e) := by
  refine Ren.read fun s => ?_
  by_cases h : c s
  · exact .inl ⟨_, if_pos h, (if_pos ((hc s).2 h)).trans (by rw [hg])⟩
  · exact .inr ⟨_, if_neg h, if_neg (fun z => h ((hc s).1 z))⟩

theorem rn_getV (v : VId) : Ren1 ρ L (getV v : M K _) (getV v) :=
  Ren.get (fun x => x) (fun s => v < s.nV) (fun s => s.vert v) (fun s => s.vert v) (fun _ => Iff.rfl) (fun _ => rfl) .dangling

theorem rn_getK (v : VId) : Ren1 ρ L (getK v : M K _) (getK v) := by
  refine Ren.read fun s => ?_
  by_cases h : v < s.nV
  · cases hk : s.vert v <;> simp [getK, renamedState, h, hk]
  · simp [getK, renamedState, h]

theorem rn_getT (v : TId) : Ren ρ L (renamedTri ρ) (getT v : M K _) (getT v) :=
  Ren.get (renamedTri ρ) (fun s => v < s.nT) (fun s => s.tri v) (fun s => s.tri v) (fun _ => Iff.rfl) (fun _ => rfl) .dangling

theorem rn_getN (v : NodeId) : Ren1 ρ L (getN v : M K _) (getN v) :=
  Ren.get (fun x => x) (fun s => v < s.nN) (fun s => s.node v) (fun s => s.node v) (fun _ => Iff.rfl) (fun _ => rfl) .dangling

theorem rn_getLine (v : LineId) : Ren1 ρ L (getLine v : M K _) (getLine v) := Ren.read fun _ => .inl ⟨_, rfl, rfl⟩

theorem rn_getWfLine (v : WfId) : Ren1 ρ L (getWfLine v : M K _) (getWfLine v) := Ren.read fun _ => .inl ⟨_, rfl, rfl⟩

theorem rn_countVertices : Ren1 ρ L (countVertices : M K _) countVertices := Ren.read fun _ => .inl ⟨_, rfl, rfl⟩

theorem rn_positionAt (v : VId) (time : K) : Ren1 ρ L (positionAt v time : M K _) (positionAt v time) := by
  refine Ren.read fun s => ?_
  by_cases h : v < s.nV
  · cases hp : (s.vert v).positionAt (fun n => (s.node n).pos) time <;> simp [positionAt, renamedState, h, hp]
  · simp [positionAt, renamedState, h]

theorem rn_singleSide (l : List (Fin 3)) : Ren1 ρ L (singleSide l : M K _) (singleSide l) := by
  unfold singleSide
  split
  · exact Ren.pure _
  · exact Ren.raise _

theorem rn_tryIntersection [HasSqrt K] (l r : Line2 K) (now : K) :
    Ren1 ρ L (tryIntersection l r now : M K _) (tryIntersection l r now) := by
  refine Ren.read fun s => ?_
  unfold tryIntersection
  cases getIntersectionAtT l r now with
  | ok p => exact .inl ⟨_, rfl, rfl⟩
  | error e => cases e <;> first | exact .inl ⟨_, rfl, rfl⟩ | exact .inr ⟨_, rfl, rfl⟩

theorem rn_triView (t : TId) : Ren1 ρ L (triView t : M K _) (triView t) := by
  refine Ren.read fun s => ?_
  unfold triView
  by_cases h : t < s.nT
  · rw [if_pos h, if_pos (show t < (renamedState ρ L s).nT from h)]
    dsimp only
    by_cases h2 : (s.tri t).vertices 0 < s.nV ∧ (s.tri t).vertices 1 < s.nV ∧ (s.tri t).vertices 2 < s.nV
    · rw [if_pos h2, if_pos (show ((renamedState ρ L s).tri t).vertices 0 < (renamedState ρ L s).nV ∧
        ((renamedState ρ L s).tri t).vertices 1 < (renamedState ρ L s).nV ∧
        ((renamedState ρ L s).tri t).vertices 2 < (renamedState ρ L s).nV from h2)]
      exact .inl ⟨_, rfl, rfl⟩
    · rw [if_neg h2, if_neg (show ¬ (((renamedState ρ L s).tri t).vertices 0 < (renamedState ρ L s).nV ∧
        ((renamedState ρ L s).tri t).vertices 1 < (renamedState ρ L s).nV ∧
        ((renamedState ρ L s).tri t).vertices 2 < (renamedState ρ L s).nV) from h2)]
      exact .inr ⟨_, rfl, rfl⟩
  · rw [if_neg h, if_neg (show ¬ t < (renamedState ρ L s).nT from h)]
    exact .inr ⟨_, rfl, rfl⟩

theorem rn_modifyK (v : VId) (f : KVertex K → KVertex K) : Ren1 ρ L (modifyK v f : M K _) (modifyK v f) := by
  refine Ren.still (fun s => ?_) fun s r e => ?_
  · by_cases h : v < s.nV
    · cases hk : s.vert v <;> simp [modifyK, renamedState, renRes, h, hk]
    · simp [modifyK, renamedState, renRes, h]
  · unfold modifyK at e
    split at e
    · split at e
      · cases e; rfl
      · cases e
    · cases e

theorem rn_modifyT (v : TId) {f f' : KTri K → KTri K} (hf : ∀ k, f' (renamedTri ρ k) = renamedTri ρ (f k)) :
    Ren1 ρ L (modifyT v f : M K _) (modifyT v f') := by
  refine Ren.still (fun s => ?_) fun s r e => ?_
  · by_cases h : v < s.nT
    · simp only [modifyT, renamedState, renRes, h, if_true, hf]
      congr 3
      funext u
      by_cases hu : u = v
      · subst hu; simp
      · simp [Function.update_of_ne hu]
    · simp [modifyT, renamedState, renRes, h]
  · unfold modifyT at e
    split at e
    · cases e; rfl
    · cases e

theorem rn_newNode (n : Node K) : Ren1 ρ L (newNode n : M K _) (newNode n) :=
  .still (fun _ => rfl) fun s r e => by cases e; rfl

theorem rn_newK (n : KVertex K) : Ren1 ρ L (newK n : M K _) (newK n) :=
  .still (fun _ => rfl) fun s r e => by cases e; rfl

theorem rn_newEvent (c : EvCore K) (t : TId) : Ren ρ L (renamedEvent ρ) (newEvent c t : M K _) (newEvent c t) := by
  intro s hs
  refine ⟨?_, fun r e => by cases e; exact Nat.le_succ _⟩
  have h := hs s.nE le_rfl
  exact congrArg (fun n => Except.ok ((⟨c, n, t⟩ : Event K), renamedState ρ L { s with nE := s.nE + 1 })) h.symm

theorem rn_appendNode (n : NodeId) : Ren1 ρ L (appendNode n : M K _) (appendNode n) :=
  .still (fun _ => rfl) fun s r e => by cases e; rfl

theorem rn_appendVertex (n : VId) : Ren1 ρ L (appendVertex n : M K _) (appendVertex n) :=
  .still (fun _ => rfl) fun s r e => by cases e; rfl

theorem compare_renamed (p : TId → ℕ) (e x : Event K) :
    compareEvents p (renamedEvent ρ e) (renamedEvent ρ x) = compareEvents p e x := rfl

theorem queueInsert_renamed (p : TId → ℕ) (e : Event K) (l : List (Event K)) :
    queueInsert p (renamedEvent ρ e) (l.map (renamedEvent ρ)) = (queueInsert p e l).map (renamedEvent ρ) := by
  induction l with
  | nil => rfl
  | cons x xs ih =>
    simp only [List.map_cons, queueInsert, compare_renamed, ih]
    split <;> rfl

theorem rn_queueAdd (e : Event K) : Ren1 ρ L (queueAdd e : M K _) (queueAdd (renamedEvent ρ e)) := by
  refine Ren.still (fun s => ?_) fun s r q => ?_
  · unfold queueAdd
    have h : ((renamedState ρ L s).queue.any fun x =>
        decide (compareEvents (renamedState ρ L s).pyid (renamedEvent ρ e) x = 0)) =
        s.queue.any fun x => decide (compareEvents s.pyid e x = 0) := by
      show (s.queue.map (renamedEvent ρ)).any _ = _
      rw [List.any_map]
      rfl
    rw [h]
    split
    · rfl
    · have := queueInsert_renamed (ρ := ρ) s.pyid e s.queue
      show Except.ok ((), { renamedState ρ L s with queue := queueInsert s.pyid (renamedEvent ρ e) (s.queue.map (renamedEvent ρ)) }) = _
      rw [this]
      rfl
  · unfold queueAdd at q
    split at q
    · cases q
    · cases q; rfl

theorem rn_queueDiscard (e : Event K) : Ren1 ρ L (queueDiscard e : M K _) (queueDiscard (renamedEvent ρ e)) := by
  refine Ren.still (fun s => ?_) fun s r q => by cases q; rfl
  have h : ((s.queue.map (renamedEvent ρ)).filter fun x => decide (compareEvents s.pyid (renamedEvent ρ e) x ≠ 0)) =
      (s.queue.filter fun x => decide (compareEvents s.pyid e x ≠ 0)).map (renamedEvent ρ) := by
    rw [List.filter_map]
    rfl
  exact congrArg (fun q => Except.ok ((), { renamedState ρ L s with queue := q })) h

theorem rn_queueDiscardOpt (e e' : Option (Event K)) (h : e' = e.map (renamedEvent ρ)) :
    Ren1 ρ L (queueDiscardOpt e : M K _) (queueDiscardOpt e') := by
  subst h
  cases e with
  | some e => exact rn_queueDiscard e
  | none =>
    refine Ren.read fun s => ?_
    have h : (renamedState ρ L s).queue.isEmpty = s.queue.isEmpty := by
      show (s.queue.map (renamedEvent ρ)).isEmpty = _
      cases s.queue <;> rfl
    show (∃ a, (if s.queue.isEmpty = true then _ else _) = _ ∧
      (if (renamedState ρ L s).queue.isEmpty = true then _ else _) = _) ∨
      ∃ f, (if s.queue.isEmpty = true then _ else _) = _ ∧
      (if (renamedState ρ L s).queue.isEmpty = true then _ else _) = _
    rw [h]
    by_cases q : s.queue.isEmpty = true
    · exact .inl ⟨(), if_pos q, if_pos q⟩
    · exact .inr ⟨_, if_neg q, if_neg q⟩

theorem rn_immediateRemove (e : Event K) :
    Ren1 ρ L (immediateRemove e : M K _) (immediateRemove (renamedEvent ρ e)) := by
  refine Ren.still (fun s => ?_) fun s r q => by cases q; rfl
  have h : ((s.immediate.map (renamedEvent ρ)).eraseP fun x => decide (x.eid = (renamedEvent ρ e).eid)) =
      (s.immediate.eraseP fun x => decide (x.eid = e.eid)).map (renamedEvent ρ) := by
    rw [List.eraseP_map]
    congr 2
    funext x
    show decide (ρ x.eid = ρ e.eid) = _
    rw [decide_eq_decide]
    exact ρ.injective.eq_iff
  exact congrArg (fun q => Except.ok ((), { renamedState ρ L s with immediate := q })) h

theorem rn_immediateAppend (e : Event K) : Ren1 ρ L (immediateAppend e : M K _) (immediateAppend (renamedEvent ρ e)) := by
  refine Ren.still (fun s => ?_) fun s r q => by cases q; rfl
  have h : s.immediate.map (renamedEvent ρ) ++ [renamedEvent ρ e] = (s.immediate ++ [e]).map (renamedEvent ρ) := by
    rw [List.map_append]
    rfl
  exact congrArg (fun q => Except.ok ((), { renamedState ρ L s with immediate := q })) h

theorem rn_takeEvent (now : K) : Ren ρ L (Option.map fun x => (renamedEvent ρ x.1, x.2)) (takeEvent now : M K _) (takeEvent now) := by
  refine Ren.still (fun s => ?_) fun s r q => ?_
  · obtain ⟨_, _, _, _, _, _, _, _, _, _, _, _, _, _, q, i⟩ := s
    cases i with
    | cons e l => rfl
    | nil => cases q <;> rfl
  · unfold takeEvent at q
    split at q
    · cases q; rfl
    · split at q <;> (cases q; rfl)

/-! ### the functions -/

/-- leaves of the proof search of `renames` -/
syntax "ren_leaf" : tactic
/-- computations that give something that is renamed -/
syntax "ren_geo" : tactic

macro_rules | `(tactic| ren_leaf) => `(tactic| with_reducible exact rn_need _)
macro_rules | `(tactic| ren_leaf) => `(tactic| with_reducible exact rn_needIdx _)
macro_rules | `(tactic| ren_leaf) => `(tactic| with_reducible exact rn_needNum _)
macro_rules | `(tactic| ren_leaf) => `(tactic| with_reducible exact rn_lift _)
macro_rules | `(tactic| ren_leaf) => `(tactic| with_reducible exact rn_assertSome _)
macro_rules | `(tactic| ren_leaf) => `(tactic| with_reducible exact rn_getV _)
macro_rules | `(tactic| ren_leaf) => `(tactic| with_reducible exact rn_getK _)
macro_rules | `(tactic| ren_leaf) => `(tactic| with_reducible exact rn_getN _)
macro_rules | `(tactic| ren_leaf) => `(tactic| with_reducible exact rn_getLine _)
macro_rules | `(tactic| ren_leaf) => `(tactic| with_reducible exact rn_getWfLine _)
macro_rules | `(tactic| ren_leaf) => `(tactic| with_reducible exact rn_positionAt _ _)
macro_rules | `(tactic| ren_leaf) => `(tactic| with_reducible exact rn_tryIntersection _ _ _)
macro_rules | `(tactic| ren_leaf) => `(tactic| with_reducible exact rn_triView _)
macro_rules | `(tactic| ren_leaf) => `(tactic| with_reducible exact rn_countVertices)
macro_rules | `(tactic| ren_leaf) => `(tactic| with_reducible exact rn_singleSide _)
macro_rules | `(tactic| ren_leaf) => `(tactic| with_reducible exact rn_appendNode _)
macro_rules | `(tactic| ren_leaf) => `(tactic| with_reducible exact rn_appendVertex _)
macro_rules | `(tactic| ren_leaf) => `(tactic| with_reducible exact rn_queueAdd _)
macro_rules | `(tactic| ren_leaf) => `(tactic| with_reducible exact rn_queueDiscard _)
macro_rules | `(tactic| ren_leaf) => `(tactic| with_reducible exact rn_immediateAppend _)
macro_rules | `(tactic| ren_leaf) => `(tactic| with_reducible exact rn_newNode _)
macro_rules | `(tactic| ren_leaf) => `(tactic| with_reducible exact rn_newK _)
macro_rules | `(tactic| ren_leaf) => `(tactic| with_reducible exact rn_modifyK _ _)
macro_rules | `(tactic| ren_leaf) => `(tactic| with_reducible refine rn_assertM ?_)
macro_rules | `(tactic| ren_leaf) => `(tactic| with_reducible refine rn_modifyT _ fun _ => ?_)
macro_rules | `(tactic| ren_leaf) => `(tactic| with_reducible exact Ren.pure _)
macro_rules | `(tactic| ren_leaf) => `(tactic| with_reducible exact Ren.raise _)
macro_rules | `(tactic| ren_leaf) => `(tactic| with_reducible refine rn_queueDiscardOpt _ _ ?_)
macro_rules | `(tactic| ren_leaf) => `(tactic| with_reducible exact rn_immediateRemove _)
macro_rules | `(tactic| ren_geo) => `(tactic| with_reducible refine Ren.bind (rn_getT _) fun _ => ?_)
macro_rules | `(tactic| ren_geo) => `(tactic| with_reducible refine Ren.bind (rn_newEvent _ _) fun _ => ?_)
macro_rules | `(tactic| ren_geo) => `(tactic| with_reducible refine Ren.bind (rn_takeEvent _) fun _ => ?_)
macro_rules | `(tactic| ren_geo) => `(tactic| with_reducible refine Ren.bind (rn_assertSomeEvent _) fun _ => ?_)

/-- proof search along the structure of a computation -/
macro "renames" : tactic => `(tactic|
  repeat' first
    | ren_leaf
    | assumption
    | ren_geo
    | with_reducible refine Ren.bind1 ?_ fun _ => ?_
    | with_reducible refine Ren.ite ?_ ?_ ?_
    | exact Iff.rfl
    | exact rfl
    | with_reducible refine Ren.forEach (fun _ => ?_) _
    | with_reducible refine Ren.mapEach1 (fun _ => ?_) _
    | simp only [Option.isSome_map, Option.isNone_map]
    | split
    | dsimp only)

theorem rn_setEvent (t : TId) (e : Event K) : Ren1 (K := K) ρ L (setEvent t e) (setEvent t (renamedEvent ρ e)) :=
  rn_modifyT _ fun _ => rfl
macro_rules | `(tactic| ren_leaf) => `(tactic| with_reducible refine rn_setEvent _ _)

theorem rn_setVertex (t : TId) (i : Fin 3) (v : VId) :
    Ren1 (K := K) ρ L (setVertex t i v) (setVertex t i v) := rn_modifyT _ fun _ => rfl
macro_rules | `(tactic| ren_leaf) => `(tactic| with_reducible exact rn_setVertex _ _ _)

theorem rn_setNeighbour (t : TId) (i : Fin 3) (n : Option TId) :
    Ren1 (K := K) ρ L (setNeighbour t i n) (setNeighbour t i n) := rn_modifyT _ fun _ => rfl
macro_rules | `(tactic| ren_leaf) => `(tactic| with_reducible exact rn_setNeighbour _ _ _)

theorem rn_stopTriangle (t : TId) (now : K) : Ren1 (K := K) ρ L (stopTriangle t now) (stopTriangle t now) :=
  rn_modifyT _ fun _ => rfl
macro_rules | `(tactic| ren_leaf) => `(tactic| with_reducible exact rn_stopTriangle _ _)

theorem rn_setTriangle (t : TId) (vs : Fin 3 → VId) (ns : Fin 3 → Option TId) :
    Ren1 (K := K) ρ L (setTriangle t vs ns) (setTriangle t vs ns) := rn_modifyT _ fun _ => rfl
macro_rules | `(tactic| ren_leaf) => `(tactic| with_reducible exact rn_setTriangle _ _ _)

theorem rn_stopAt (v : VId) (n : NodeId) (now : K) : Ren1 (K := K) ρ L (stopAt v n now) (stopAt v n now) :=
  rn_modifyK _ _
macro_rules | `(tactic| ren_leaf) => `(tactic| with_reducible exact rn_stopAt _ _ _)

theorem rn_setWf (v : VId) (l r : Option WfId) :
    Ren1 (K := K) ρ L (modifyK v fun k => { k with wfl := l, wfr := r }) (modifyK v fun k => { k with wfl := l, wfr := r }) :=
  rn_modifyK _ _
macro_rules | `(tactic| ren_leaf) => `(tactic| with_reducible exact rn_setWf _ _ _)

theorem rn_setRight (l r : Option VId) (now : K) : Ren1 (K := K) ρ L (setRight l r now) (setRight l r now) := by
  unfold setRight
  split
  · exact rn_modifyK _ _
  · exact Ren.pure _
macro_rules | `(tactic| ren_leaf) => `(tactic| with_reducible exact rn_setRight _ _ _)

theorem rn_setLeft (l r : Option VId) (now : K) : Ren1 (K := K) ρ L (setLeft l r now) (setLeft l r now) := by
  unfold setLeft
  split
  · exact rn_modifyK _ _
  · exact Ren.pure _
macro_rules | `(tactic| ren_leaf) => `(tactic| with_reducible exact rn_setLeft _ _ _)

theorem rn_updateCirc (l r : Option VId) (now : K) :
    Ren1 (K := K) ρ L (updateCirc l r now) (updateCirc l r now) := by
  unfold updateCirc
  renames
macro_rules | `(tactic| ren_leaf) => `(tactic| with_reducible exact rn_updateCirc _ _ _)

theorem rn_stopScan (now : K) (V : List VId) (acc : Option NodeId) :
    Ren1 (K := K) ρ L (stopScan now V acc) (stopScan now V acc) := by
  induction V generalizing acc with
  | nil => exact Ren.pure _
  | cons v vs ih =>
    unfold stopScan
    refine Ren.bind1 (rn_getK _) fun _ => Ren.bind1 (rn_needNum _) fun _ => ?_
    refine Ren.ite Iff.rfl (ih _) (Ren.ite Iff.rfl (ih _) (Ren.bind1 ?_ fun _ => ih _))
    exact rn_modifyK _ _
macro_rules | `(tactic| ren_leaf) => `(tactic| with_reducible exact rn_stopScan _ _ _)

theorem rn_setStopNode (v : VId) (n : NodeId) :
    Ren1 (K := K) ρ L (modifyK v fun kv => { kv with stopNode := some n }) (modifyK v fun kv => { kv with stopNode := some n }) :=
  rn_modifyK _ _

theorem rn_stopAtExisting (V : List VId) (now : K) (n : NodeId) :
    Ren1 (K := K) ρ L (stopAtExisting V now n) (stopAtExisting V now n) :=
  Ren.bind1 (Ren.forEach (fun v => rn_stopAt v n now) _)
    fun _ => Ren.pure _
macro_rules | `(tactic| ren_leaf) => `(tactic| with_reducible exact rn_stopAtExisting _ _ _)

theorem rn_nodePosition (V : List VId) (now : K) (pos : Option (Pt K)) :
    Ren1 (K := K) ρ L (nodePosition V now pos) (nodePosition V now pos) := by
  unfold nodePosition
  renames
macro_rules | `(tactic| ren_leaf) => `(tactic| with_reducible exact rn_nodePosition _ _ _)

theorem rn_stopAtNew (V : List VId) (step : ℤ) (now : K) (pos : Option (Pt K)) :
    Ren1 (K := K) ρ L (stopAtNew V step now pos) (stopAtNew V step now pos) :=
  Ren.bind1 (rn_nodePosition _ _ _) fun _ => Ren.bind1 (rn_newNode _) fun _ =>
    Ren.bind1 (Ren.forEach (fun _ => rn_setStopNode _ _) _)
    fun _ => Ren.pure _
macro_rules | `(tactic| ren_leaf) => `(tactic| with_reducible exact rn_stopAtNew _ _ _ _)

theorem rn_stopAtNode (V : List VId) (step : ℤ) (now : K) (pos : Option (Pt K)) (n : Option NodeId) :
    Ren1 (K := K) ρ L (stopAtNode V step now pos n) (stopAtNode V step now pos n) := by
  unfold stopAtNode
  renames
macro_rules | `(tactic| ren_leaf) => `(tactic| with_reducible exact rn_stopAtNode _ _ _ _ _)

theorem rn_assertStoppedAt (now : K) (v : VId) :
    Ren1 (K := K) ρ L (assertStoppedAt now v) (assertStoppedAt now v) := by
  unfold assertStoppedAt
  renames
macro_rules | `(tactic| ren_leaf) => `(tactic| with_reducible exact rn_assertStoppedAt _ _)

theorem rn_readVertex (v : VId) :
    Ren1 (K := K) ρ L (readVertex v) (readVertex v) := by
  unfold readVertex
  renames
macro_rules | `(tactic| ren_leaf) => `(tactic| with_reducible exact rn_readVertex _)

theorem rn_stopKvertices (V : List VId) (step : ℤ) (now : K) (pos : Option (Pt K)) :
    Ren1 (K := K) ρ L (stopKvertices V step now pos) (stopKvertices V step now pos) := by
  unfold stopKvertices
  renames
macro_rules | `(tactic| ren_leaf) => `(tactic| with_reducible exact rn_stopKvertices _ _ _ _)

theorem rn_recordNode (new : Bool) (n : NodeId) :
    Ren1 (K := K) ρ L (recordNode new n) (recordNode new n) := by
  unfold recordNode
  renames
macro_rules | `(tactic| ren_leaf) => `(tactic| with_reducible exact rn_recordNode _ _)

theorem rn_stopAndRecord (V : List VId) (step : ℤ) (now : K) (pos : Option (Pt K)) :
    Ren1 (K := K) ρ L (stopAndRecord V step now pos) (stopAndRecord V step now pos) := by
  unfold stopAndRecord
  renames
macro_rules | `(tactic| ren_leaf) => `(tactic| with_reducible exact rn_stopAndRecord _ _ _ _)

theorem rn_computeNewKvertex [HasSqrt K] [HasTrig K] (ul ur : Option LineId) (now : K)
    (node : NodeId) (info : ℕ) (internal : Bool) :
    Ren1 (K := K) ρ L (computeNewKvertex ul ur now node info internal) (computeNewKvertex ul ur now node info internal) := by
  unfold computeNewKvertex
  renames
macro_rules | `(tactic| ren_leaf) => `(tactic| with_reducible exact rn_computeNewKvertex _ _ _ _ _ _)

theorem rn_storeEvent (c : Option (EvCore K)) (t : TId) :
    Ren (K := K) ρ L (Option.map (renamedEvent ρ)) (storeEvent c t) (storeEvent c t) := by
  cases c with
  | none => exact Ren.pureMap _ _ _ rfl
  | some c =>
    exact Ren.bind (rn_newEvent _ _) fun _ => Ren.bind1 (rn_setEvent _ _) fun _ => Ren.pureMap _ _ _ rfl
theorem rn_computeCollapseTime [HasSqrt K] (t : TId) (now : K) (sieve : Sieve) :
    Ren (K := K) ρ L (Option.map (renamedEvent ρ)) (computeCollapseTime t now sieve) (computeCollapseTime t now sieve) :=
  Ren.bind1 (rn_triView _) fun _ => Ren.bind1 (rn_lift _) fun _ => rn_storeEvent _ _
macro_rules | `(tactic| ren_geo) => `(tactic| with_reducible refine Ren.bind (rn_computeCollapseTime _ _ _) fun _ => ?_)

theorem rn_discardEvent (e e' : Option (Event K)) (h : e' = e.map (renamedEvent ρ)) :
    Ren1 (K := K) ρ L (discardEvent e) (discardEvent e') := by
  subst h
  cases e with
  | none => exact Ren.pure _
  | some e =>
    show Ren1 ρ L (queueDiscard e >>= fun _ => immediateRemove e)
      (queueDiscard (renamedEvent ρ e) >>= fun _ => immediateRemove (renamedEvent ρ e))
    renames
macro_rules | `(tactic| ren_leaf) => `(tactic| with_reducible refine rn_discardEvent _ _ ?_)

theorem rn_addEvent (e e' : Option (Event K)) (h : e' = e.map (renamedEvent ρ)) :
    Ren1 (K := K) ρ L (addEvent e) (addEvent e') := by
  subst h
  cases e with
  | none => exact Ren.pure _
  | some e =>
    show Ren1 ρ L (queueAdd e) (queueAdd (renamedEvent ρ e))
    renames
macro_rules | `(tactic| ren_leaf) => `(tactic| with_reducible refine rn_addEvent _ _ ?_)

theorem rn_replaceInQueue [HasSqrt K] (t : TId) (now : K) :
    Ren1 (K := K) ρ L (replaceInQueue t now) (replaceInQueue t now) := by
  unfold replaceInQueue
  renames
macro_rules | `(tactic| ren_leaf) => `(tactic| with_reducible exact rn_replaceInQueue _ _)

theorem rn_renewEvent [HasSqrt K] (b : Bool) (t : TId) (now : K) :
    Ren1 (K := K) ρ L (renewEvent b t now) (renewEvent b t now) := by
  unfold renewEvent
  renames
macro_rules | `(tactic| ren_leaf) => `(tactic| with_reducible exact rn_renewEvent _ _ _)

theorem rn_replaceLoop [HasSqrt K] (v newv : VId) (now : K) (dir : Dir) (fuel : ℕ)
    (t : Option TId) (fan : List TId) :
    Ren1 (K := K) ρ L (replaceLoop v newv now dir fuel t fan) (replaceLoop v newv now dir fuel t fan) := by
  induction fuel generalizing t fan with
  | zero =>
    cases t with
    | none => exact Ren.pure _
    | some t => exact Ren.fail _
  | succ fuel ih =>
    cases t with
    | none => exact Ren.pure _
    | some t =>
      unfold replaceLoop
      refine Ren.bind (rn_getT _) fun _ => Ren.bind1 (rn_needIdx _) fun _ =>
        Ren.bind1 (rn_setVertex _ _ _) fun _ => Ren.bind1 (rn_getK _) fun _ =>
        Ren.bind1 (rn_renewEvent _ _ _) fun _ =>
        Ren.bind (rn_getT _) fun _ => ih _ _

theorem rn_replaceKvertex [HasSqrt K] (t : TId) (v newv : VId) (now : K) (dir : Dir) :
    Ren1 (K := K) ρ L (replaceKvertex t v newv now dir) (replaceKvertex t v newv now dir) := by
  exact fun s hs => rn_replaceLoop _ _ _ _ _ _ _ s hs
macro_rules | `(tactic| ren_leaf) => `(tactic| with_reducible exact rn_replaceKvertex _ _ _ _ _)

theorem rn_immediateRemoveOpt (e e' : Option (Event K)) (h : e' = e.map (renamedEvent ρ)) :
    Ren1 (K := K) ρ L (immediateRemoveOpt e) (immediateRemoveOpt e') := by
  subst h
  cases e with
  | none => exact Ren.pure _
  | some e =>
    show Ren1 ρ L (immediateRemove e) (immediateRemove (renamedEvent ρ e))
    renames
macro_rules | `(tactic| ren_leaf) => `(tactic| with_reducible refine rn_immediateRemoveOpt _ _ ?_)

theorem rn_immediateEvent [HasSqrt K] (t : TId) (now : K) :
    Ren (K := K) ρ L (renamedEvent ρ) (immediateEvent t now) (immediateEvent t now) :=
  Ren.bind1 (rn_triView _) fun _ => Ren.bind1 (rn_lift _) fun _ => Ren.bind (rn_getT _) fun _ => rn_newEvent _ _
macro_rules | `(tactic| ren_geo) => `(tactic| with_reducible refine Ren.bind (rn_immediateEvent _ _) fun _ => ?_)

theorem rn_scheduleImmediately [HasSqrt K] (t : TId) (now : K) :
    Ren1 (K := K) ρ L (scheduleImmediately t now) (scheduleImmediately t now) := by
  unfold scheduleImmediately
  renames
macro_rules | `(tactic| ren_leaf) => `(tactic| with_reducible exact rn_scheduleImmediately _ _)

theorem rn_flipSide (n : Option TId) (v : VId) : Ren1 (K := K) ρ L (flipSide n v) (flipSide n v) := by
  unfold flipSide
  renames
macro_rules | `(tactic| ren_leaf) => `(tactic| with_reducible exact rn_flipSide _ _)

theorem rn_flipLink (n : Option TId) (i : Option (Fin 3)) (t : TId) :
    Ren1 (K := K) ρ L (flipLink n i t) (flipLink n i t) := by
  unfold flipLink
  renames
macro_rules | `(tactic| ren_leaf) => `(tactic| with_reducible exact rn_flipLink _ _ _)

theorem rn_flip (t0 : TId) (s0 : Fin 3) (t1 : TId) (s1 : Fin 3) :
    Ren1 (K := K) ρ L (flip t0 s0 t1 s1) (flip t0 s0 t1 s1) := by
  unfold flip
  renames
macro_rules | `(tactic| ren_leaf) => `(tactic| with_reducible exact rn_flip _ _ _ _)

theorem rn_handleFlip [HasSqrt K] (evt : Event K) : Ren1 (K := K) ρ L (handleFlip evt) (handleFlip evt) := by
  unfold handleFlip
  renames
macro_rules | `(tactic| ren_leaf) => `(tactic| with_reducible exact rn_handleFlip _)

theorem rn_legDist [HasSqrt K] (t : TId) (leg : Fin 3) (now : K) :
    Ren1 (K := K) ρ L (legDist t leg now) (legDist t leg now) := by
  unfold legDist
  renames
macro_rules | `(tactic| ren_leaf) => `(tactic| with_reducible exact rn_legDist _ _ _)

theorem rn_vertexIndex (t : TId) (v : VId) : Ren1 (K := K) ρ L (vertexIndex t v) (vertexIndex t v) := by
  unfold vertexIndex
  renames
macro_rules | `(tactic| ren_leaf) => `(tactic| with_reducible exact rn_vertexIndex _ _)

theorem rn_relink (n t : TId) (x : Option TId) : Ren1 (K := K) ρ L (relink n t x) (relink n t x) := by
  unfold relink
  renames
macro_rules | `(tactic| ren_leaf) => `(tactic| with_reducible exact rn_relink _ _ _)

theorem rn_detachAndSchedule [HasSqrt K] (n : Option TId) (t : TId) (now : K) :
    Ren1 (K := K) ρ L (detachAndSchedule n t now) (detachAndSchedule n t now) := by
  unfold detachAndSchedule
  renames
macro_rules | `(tactic| ren_leaf) => `(tactic| with_reducible exact rn_detachAndSchedule _ _ _)

theorem rn_evenLegs [HasSqrt K] (t : TId) (e : Fin 3) (pivot : VId) (now : K) (step : ℤ) :
    Ren1 (K := K) ρ L (evenLegs t e pivot now step) (evenLegs t e pivot now step) := by
  unfold evenLegs
  renames
macro_rules | `(tactic| ren_leaf) => `(tactic| with_reducible exact rn_evenLegs _ _ _ _ _)

theorem rn_evenLegsAt [HasSqrt K] (t : TId) (pivot : VId) (now : K) (step : ℤ) :
    Ren1 (K := K) ρ L (evenLegsAt t pivot now step) (evenLegsAt t pivot now step) := by
  unfold evenLegsAt
  renames
macro_rules | `(tactic| ren_leaf) => `(tactic| with_reducible exact rn_evenLegsAt _ _ _ _)

theorem rn_evenLegsIf [HasSqrt K] (c : Bool) (t : TId) (pivot : VId) (now : K) (step : ℤ) :
    Ren1 (K := K) ρ L (evenLegsIf c t pivot now step) (evenLegsIf c t pivot now step) := by
  unfold evenLegsIf
  renames
macro_rules | `(tactic| ren_leaf) => `(tactic| with_reducible exact rn_evenLegsIf _ _ _ _ _)

theorem rn_assertVertexStopped (v : VId) :
    Ren1 (K := K) ρ L (assertVertexStopped v) (assertVertexStopped v) := by
  unfold assertVertexStopped
  renames
macro_rules | `(tactic| ren_leaf) => `(tactic| with_reducible exact rn_assertVertexStopped _)

theorem rn_velocityOf (v : VId) : Ren1 (K := K) ρ L (velocityOf v) (velocityOf v) := by
  unfold velocityOf
  renames
macro_rules | `(tactic| ren_leaf) => `(tactic| with_reducible exact rn_velocityOf _)

theorem rn_parallel3tri [HasSqrt K] (t : TId) (e : Fin 3) (pivot : VId) (now : K) (step : ℤ) :
    Ren1 (K := K) ρ L (parallel3tri t e pivot now step) (parallel3tri t e pivot now step) := by
  unfold parallel3tri
  renames
macro_rules | `(tactic| ren_leaf) => `(tactic| with_reducible exact rn_parallel3tri _ _ _ _ _)

theorem rn_parallel3Collapse [HasSqrt K] (pivot : VId) (now : K) (step : ℤ) (a : TId)
    (near : List (Fin 3)) (zero : Bool) :
    Ren1 (K := K) ρ L (parallel3.parallel3Collapse pivot now step a near zero) (parallel3.parallel3Collapse pivot now step a near zero) := by
  unfold parallel3.parallel3Collapse
  renames
macro_rules
  | `(tactic| ren_leaf) => `(tactic| with_reducible exact rn_parallel3Collapse _ _ _ _ _ _)

theorem rn_parallel3 [HasSqrt K] (a b : TId) (pivot : VId) (now : K) (step : ℤ) :
    Ren1 (K := K) ρ L (parallel3 a b pivot now step) (parallel3 a b pivot now step) := by
  unfold parallel3
  renames
macro_rules | `(tactic| ren_leaf) => `(tactic| with_reducible exact rn_parallel3 _ _ _ _ _)

theorem rn_stopPivot [HasSqrt K] [HasTrig K] (pivot : VId) (now : K) (n : NodeId) :
    Ren1 (K := K) ρ L (shorterLeg.stopPivot pivot now n) (shorterLeg.stopPivot pivot now n) := by
  unfold shorterLeg.stopPivot
  renames
macro_rules | `(tactic| ren_leaf) => `(tactic| with_reducible exact rn_stopPivot _ _ _)

theorem rn_replaceSide [HasSqrt K] (t : TId) (now : K) (n other : Option TId) (v kv : VId)
    (dir : Dir) : Ren1 (K := K) ρ L (shorterLeg.replaceSide t now n other v kv dir) (shorterLeg.replaceSide t now n other v kv dir) := by
  unfold shorterLeg.replaceSide
  renames
macro_rules | `(tactic| ren_leaf) => `(tactic| with_reducible exact rn_replaceSide _ _ _ _ _ _ _)

theorem rn_shorterLeg [HasSqrt K] [HasTrig K] (t : TId) (e : Fin 3) (pivot : VId) (now : K)
    (step : ℤ) : Ren1 (K := K) ρ L (shorterLeg t e pivot now step) (shorterLeg t e pivot now step) := by
  unfold shorterLeg
  renames
macro_rules | `(tactic| ren_leaf) => `(tactic| with_reducible exact rn_shorterLeg _ _ _ _ _)

theorem rn_evenTriangle [HasSqrt K] (pivot : VId) (now : K) (t : TId) :
    Ren1 (K := K) ρ L (evenTriangle pivot now t) (evenTriangle pivot now t) := by
  unfold evenTriangle
  renames
macro_rules | `(tactic| ren_leaf) => `(tactic| with_reducible exact rn_evenTriangle _ _ _)

theorem rn_hasInfFast (t : TId) : Ren1 (K := K) ρ L (hasInfFast t) (hasInfFast t) := by
  unfold hasInfFast
  renames
macro_rules | `(tactic| ren_leaf) => `(tactic| with_reducible exact rn_hasInfFast _)

theorem rn_flipPair [HasSqrt K] (t0 t1 : TId) (pivot : VId) (now : K) (step : ℤ) :
    Ren1 (K := K) ρ L (flipPair t0 t1 pivot now step) (flipPair t0 t1 pivot now step) := by
  unfold flipPair
  renames
macro_rules | `(tactic| ren_leaf) => `(tactic| with_reducible exact rn_flipPair _ _ _ _ _)

theorem rn_assertStopped (t : TId) : Ren1 (K := K) ρ L (assertStopped t) (assertStopped t) := by
  unfold assertStopped
  renames
macro_rules | `(tactic| ren_leaf) => `(tactic| with_reducible exact rn_assertStopped _)

theorem rn_parallelEven [HasSqrt K] (fan : List TId) (pivot : VId) (now : K) (step : ℤ) :
    Ren1 (K := K) ρ L (parallelEven fan pivot now step) (parallelEven fan pivot now step) := by
  unfold parallelEven
  renames
macro_rules | `(tactic| ren_leaf) => `(tactic| with_reducible exact rn_parallelEven _ _ _ _)

theorem rn_nextFan (kv : VId) (a b : List TId) : Ren1 (K := K) ρ L (nextFan kv a b) (nextFan kv a b) := by
  unfold nextFan
  renames
macro_rules | `(tactic| ren_leaf) => `(tactic| with_reducible exact rn_nextFan _ _ _)

theorem rn_parallelLegs [HasSqrt K] [HasTrig K] (fan : List TId) (a b : TId) (pivot : VId)
    (now : K) (dir : Dir) (step : ℤ) :
    Ren1 (K := K) ρ L (parallelLegs fan a b pivot now dir step) (parallelLegs fan a b pivot now dir step) := by
  unfold parallelLegs
  renames
macro_rules | `(tactic| ren_leaf) => `(tactic| with_reducible exact rn_parallelLegs _ _ _ _ _ _ _)

theorem rn_parallelStep [HasSqrt K] [HasTrig K] (fan : List TId) (pivot : VId)
    (now : K) (dir : Dir) (step : ℤ) :
    Ren1 (K := K) ρ L (parallelStep fan pivot now dir step) (parallelStep fan pivot now dir step) := by
  unfold parallelStep
  renames
macro_rules | `(tactic| ren_leaf) => `(tactic| with_reducible exact rn_parallelStep _ _ _ _ _)

theorem rn_parallelFan [HasSqrt K] [HasTrig K] (depth : ℕ) (fan : List TId) (pivot : VId)
    (now : K) (dir : Dir) (step : ℤ) :
    Ren1 (K := K) ρ L (parallelFan depth fan pivot now dir step) (parallelFan depth fan pivot now dir step) := by
  induction depth generalizing fan pivot dir with
  | zero => exact Ren.raise _
  | succ d ih =>
    unfold parallelFan
    refine Ren.bind1 (rn_parallelStep _ _ _ _ _) fun r => ?_
    cases r with
    | none => exact Ren.pure _
    | some r => exact ih _ _ _
macro_rules | `(tactic| ren_leaf) => `(tactic| with_reducible exact rn_parallelFan _ _ _ _ _ _)

theorem rn_evalPosition (v : Option VId) (now : K) :
    Ren1 (K := K) ρ L (evalPosition v now) (evalPosition v now) := by
  unfold evalPosition
  renames
macro_rules | `(tactic| ren_leaf) => `(tactic| with_reducible exact rn_evalPosition _ _)

theorem rn_checkLinks (v : VId) : Ren1 (K := K) ρ L (checkLinks v) (checkLinks v) := by
  unfold checkLinks
  renames
macro_rules | `(tactic| ren_leaf) => `(tactic| with_reducible exact rn_checkLinks _)

theorem rn_scheduleTiny [HasSqrt K] (fan : List TId) (kv : VId) (dir : Dir) (now : K) :
    Ren1 (K := K) ρ L (scheduleTiny fan kv dir now) (scheduleTiny fan kv dir now) := by
  unfold scheduleTiny
  renames
macro_rules | `(tactic| ren_leaf) => `(tactic| with_reducible exact rn_scheduleTiny _ _ _ _)

theorem rn_edgeSide [HasSqrt K] (n : Option TId) (t : TId) (o : Option TId) (v kv : VId) (now : K)
    (dir : Dir) : Ren1 (K := K) ρ L (edgeSide n t o v kv now dir) (edgeSide n t o v kv now dir) := by
  unfold edgeSide
  renames
macro_rules | `(tactic| ren_leaf) => `(tactic| with_reducible exact rn_edgeSide _ _ _ _ _ _ _)

theorem rn_edgeFan [HasSqrt K] [HasTrig K] (depth : ℕ) (kv : VId) (a b : List TId) (now : K)
    (step : ℤ) : Ren1 (K := K) ρ L (edgeFan depth kv a b now step) (edgeFan depth kv a b now step) := by
  unfold edgeFan
  renames
macro_rules | `(tactic| ren_leaf) => `(tactic| with_reducible exact rn_edgeFan _ _ _ _ _ _)

theorem rn_edgeVertex [HasSqrt K] [HasTrig K] (t : TId) (e : Fin 3) (now : K) (step : ℤ) :
    Ren1 (K := K) ρ L (edgeVertex t e now step) (edgeVertex t e now step) := by
  unfold edgeVertex
  renames
macro_rules | `(tactic| ren_leaf) => `(tactic| with_reducible exact rn_edgeVertex _ _ _ _)

theorem rn_handleEdge [HasSqrt K] [HasTrig K] (depth : ℕ) (evt : Event K) (step : ℤ) :
    Ren1 (K := K) ρ L (handleEdge depth evt step) (handleEdge depth evt step) := by
  unfold handleEdge
  renames
macro_rules | `(tactic| ren_leaf) => `(tactic| with_reducible exact rn_handleEdge _ _ _)

theorem rn_threeSidesNeighbour [HasSqrt K] (t : TId) (now : K) (i : Fin 3) :
    Ren1 (K := K) ρ L (threeSidesNeighbour t now i) (threeSidesNeighbour t now i) := by
  unfold threeSidesNeighbour
  renames
macro_rules | `(tactic| ren_leaf) => `(tactic| with_reducible exact rn_threeSidesNeighbour _ _ _)

theorem rn_handleEdge3 [HasSqrt K] (evt : Event K) (step : ℤ) :
    Ren1 (K := K) ρ L (handleEdge3 evt step) (handleEdge3 evt step) := by
  unfold handleEdge3
  renames
macro_rules | `(tactic| ren_leaf) => `(tactic| with_reducible exact rn_handleEdge3 _ _)

theorem rn_handleEdge1 [HasSqrt K] [HasTrig K] (evt : Event K) (step : ℤ) :
    Ren1 (K := K) ρ L (handleEdge1 evt step) (handleEdge1 evt step) := by
  unfold handleEdge1
  renames
macro_rules | `(tactic| ren_leaf) => `(tactic| with_reducible exact rn_handleEdge1 _ _)

theorem rn_splitChecks [HasSqrt K] (v v1 v2 : VId) (now : K) :
    Ren1 (K := K) ρ L (splitChecks v v1 v2 now) (splitChecks v v1 v2 now) := by
  unfold splitChecks
  renames
macro_rules | `(tactic| ren_leaf) => `(tactic| with_reducible exact rn_splitChecks _ _ _ _)

theorem rn_splitVertices [HasSqrt K] [HasTrig K] (v v1 v2 : VId) (now : K) (step : ℤ) :
    Ren1 (K := K) ρ L (splitVertices v v1 v2 now step) (splitVertices v v1 v2 now step) := by
  unfold splitVertices
  renames
macro_rules | `(tactic| ren_leaf) => `(tactic| with_reducible exact rn_splitVertices _ _ _ _ _)

theorem rn_splitSide [HasSqrt K] (t : TId) (i : Fin 3) (v newv : VId) (now : K) (dir : Dir) :
    Ren1 (K := K) ρ L (splitSide t i v newv now dir) (splitSide t i v newv now dir) := by
  unfold splitSide
  renames
macro_rules | `(tactic| ren_leaf) => `(tactic| with_reducible exact rn_splitSide _ _ _ _ _ _)

theorem rn_splitFan [HasSqrt K] [HasTrig K] (depth : ℕ) (v : VId) (fan : List TId) (now : K)
    (dir : Dir) (step : ℤ) : Ren1 (K := K) ρ L (splitFan depth v fan now dir step) (splitFan depth v fan now dir step) := by
  unfold splitFan
  renames
macro_rules | `(tactic| ren_leaf) => `(tactic| with_reducible exact rn_splitFan _ _ _ _ _ _)

theorem rn_handleSplit [HasSqrt K] [HasTrig K] (depth : ℕ) (evt : Event K) (step : ℤ) :
    Ren1 (K := K) ρ L (handleSplit depth evt step) (handleSplit depth evt step) := by
  unfold handleSplit
  renames
macro_rules | `(tactic| ren_leaf) => `(tactic| with_reducible exact rn_handleSplit _ _ _)

theorem rn_handleEvent [HasSqrt K] [HasTrig K] (depth : ℕ) (evt : Event K) (step : ℤ) :
    Ren1 (K := K) ρ L (handleEvent depth evt step) (handleEvent depth evt step) := by
  unfold handleEvent
  renames
macro_rules | `(tactic| ren_leaf) => `(tactic| with_reducible exact rn_handleEvent _ _ _)

theorem rn_loopStep [HasSqrt K] [HasTrig K] (depth : ℕ) (step : ℤ) (now : K) :
    Ren (K := K) ρ L (Option.map fun x => (renamedEvent ρ x.1, x.2)) (loopStep depth step now) (loopStep depth step now) := by
  refine Ren.bind (rn_takeEvent _) fun x => ?_
  cases x with
  | none => exact Ren.pureMap _ _ _ rfl
  | some x => exact Ren.bind1 (rn_handleEvent _ _ _) fun _ => Ren.pureMap _ _ _ rfl
theorem rn_loop [HasSqrt K] [HasTrig K] (depth fuel : ℕ) (step : ℤ) (now : K) :
    Ren1 (K := K) ρ L (loop depth fuel step now) (loop depth fuel step now) := by
  induction fuel generalizing step now with
  | zero =>
    refine Ren.read fun s => ?_
    have e : ((renamedState ρ L s).immediate.isEmpty && (renamedState ρ L s).queue.isEmpty) =
        (s.immediate.isEmpty && s.queue.isEmpty) := by
      show ((s.immediate.map (renamedEvent ρ)).isEmpty && (s.queue.map (renamedEvent ρ)).isEmpty) = _
      rw [List.isEmpty_map, List.isEmpty_map]
    unfold loop
    rw [e]
    by_cases h : (s.immediate.isEmpty && s.queue.isEmpty) = true
    · exact .inl ⟨_, if_pos h, if_pos h⟩
    · exact .inr ⟨_, if_neg h, if_neg h⟩
  | succ fuel ih =>
    unfold loop
    refine Ren.bind (rn_loopStep _ _ _) fun r => ?_
    cases r with
    | none => exact Ren.pure _
    | some r => exact ih _ _
theorem rn_checkBisectorDirection (t : TId) (i : Fin 3) (now : K) :
    Ren1 (K := K) ρ L (checkBisectorDirection t i now) (checkBisectorDirection t i now) := by
  unfold checkBisectorDirection
  renames
macro_rules | `(tactic| ren_leaf) => `(tactic| with_reducible exact rn_checkBisectorDirection _ _ _)

theorem rn_checkBisectors (ts : List TId) (now : K) :
    Ren1 (K := K) ρ L (checkBisectors ts now) (checkBisectors ts now) := by
  unfold checkBisectors
  renames
macro_rules | `(tactic| ren_leaf) => `(tactic| with_reducible exact rn_checkBisectors _ _)

theorem rn_checkOrientation (ts : List TId) (now : K) :
    Ren1 (K := K) ρ L (checkOrientation ts now) (checkOrientation ts now) := by
  unfold checkOrientation
  renames
macro_rules | `(tactic| ren_leaf) => `(tactic| with_reducible exact rn_checkOrientation _ _)

theorem rn_leftOver (t : TId) : Ren1 (K := K) ρ L (leftOver t) (leftOver t) := by
  unfold leftOver
  renames
macro_rules | `(tactic| ren_leaf) => `(tactic| with_reducible exact rn_leftOver _)

theorem rn_checkAllStopped (ts : List TId) : Ren1 (K := K) ρ L (checkAllStopped ts) (checkAllStopped ts) := by
  unfold checkAllStopped
  renames
macro_rules | `(tactic| ren_leaf) => `(tactic| with_reducible exact rn_checkAllStopped _)

theorem rn_initEvent [HasSqrt K] (t : TId) : Ren1 (K := K) ρ L (initEvent t) (initEvent t) := by
  unfold initEvent
  renames
macro_rules | `(tactic| ren_leaf) => `(tactic| with_reducible exact rn_initEvent _)

end Grassfire
