/-
Which exceptions a computation can raise (lemmas for C87): rules, and the functions of events/lib.py.
-/
import Verif.Proofs.CollapseTotal
import Verif.Proofs.WavefrontBlocks
import Verif.Proofs.FanLemmas
import Verif.Spec.Freshness

set_option linter.unusedSectionVars false

namespace Grassfire

open Spec

variable {K : Type} {α β : Type}

/-- the python exceptions that `m` raises in state `s` are such that `E` -/
def Safe (E : Err → Prop) (m : M K α) (s : St K) : Prop := ∀ e, m s = .error (.py e) → E e

variable {E : Err → Prop} {s : St K}

theorem safe_bind {m : M K α} {f : α → M K β} (h : Safe E m s) (g : ∀ a s', m s = .ok (a, s') → Safe E (f a) s') :
    Safe E (m >>= f) s := by
  intro e he
  rw [bind_run] at he
  cases hm : m s with
  | error x => rw [hm] at he; cases he; exact h e hm
  | ok x =>
    obtain ⟨a, s'⟩ := x
    rw [hm] at he
    exact g a s' hm e he

theorem safe_pure (a : α) : Safe E (pure a : M K α) s := by
  intro e he
  cases he

theorem safe_ok {m : M K α} {a : α} {s' : St K} (h : m s = .ok (a, s')) : Safe E m s := by
  intro e he
  rw [h] at he
  cases he

theorem safe_assertM {c : Prop} [Decidable c] (h : c) : Safe E (assertM c : M K Unit) s := by
  intro e he
  unfold assertM at he
  rw [if_pos h] at he
  cases he

theorem safe_need {o : Option α} (h : ∃ a, o = some a) : Safe E (need o : M K α) s := by
  obtain ⟨a, rfl⟩ := h
  intro e he
  cases he

theorem safe_needIdx {o : Option α} (h : ∃ a, o = some a) : Safe E (needIdx o : M K α) s := by
  obtain ⟨a, rfl⟩ := h
  intro e he
  cases he

theorem safe_lift {x : Except Err α} (h : ∀ e, x = .error e → E e) : Safe E (lift x : M K α) s := by
  intro e he
  unfold lift at he
  cases hx : x with
  | error e' => rw [hx] at he; cases he; exact h _ hx
  | ok a => rw [hx] at he; cases he

section
variable [Field K] [LinearOrder K]

theorem safe_getT (t : TId) : Safe E (getT t : M K _) s := by
  intro e he
  unfold getT at he
  split_ifs at he; cases he

theorem safe_getN (n : NodeId) : Safe E (getN n : M K _) s := by
  intro e he
  unfold getN at he
  split_ifs at he; cases he

theorem safe_getK {v : VId} (h : ∃ k, s.vert v = .kin k) : Safe E (getK v : M K _) s := by
  obtain ⟨k, h⟩ := h
  intro e he
  unfold getK at he
  split_ifs at he
  · rw [h] at he
    cases he
  · cases he

theorem safe_modifyK {v : VId} {f : KVertex K → KVertex K} (h : ∃ k, s.vert v = .kin k) :
    Safe E (modifyK v f : M K _) s := by
  obtain ⟨k, h⟩ := h
  intro e he
  unfold modifyK at he
  split_ifs at he
  · rw [h] at he
    cases he
  · cases he

theorem safe_modifyT (t : TId) (f : KTri K → KTri K) : Safe E (modifyT t f : M K _) s := by
  intro e he
  unfold modifyT at he
  split_ifs at he; cases he

theorem safe_getLine (l : LineId) : Safe E (getLine l : M K _) s := by
  intro e he
  cases he

theorem safe_getWfLine (l : WfId) : Safe E (getWfLine l : M K _) s := by
  intro e he
  cases he

theorem safe_countVertices : Safe E (countVertices : M K _) s := by
  intro e he
  cases he

theorem safe_appendVertex (v : VId) : Safe E (appendVertex v : M K _) s := by
  intro e he
  cases he

theorem safe_setVertex (t : TId) (i : Fin 3) (v : VId) : Safe E (setVertex t i v : M K _) s := safe_modifyT _ _

theorem safe_setNeighbour (t : TId) (i : Fin 3) (n : Option TId) : Safe E (setNeighbour t i n : M K _) s :=
  safe_modifyT _ _

theorem safe_stopTriangle (t : TId) (now : K) : Safe E (stopTriangle t now : M K _) s := safe_modifyT _ _

theorem safe_assertSome {o : Option α} (h : ∃ a, o = some a) : Safe E (assertSome o : M K α) s := by
  obtain ⟨a, rfl⟩ := h
  intro e he
  cases he

theorem safe_singleSide {l : List (Fin 3)} {i : Fin 3} (h : l = [i]) : Safe E (singleSide l : M K _) s := by
  subst h
  intro e he
  cases he

theorem safe_queueAdd (e : Event K) : Safe E (queueAdd e : M K _) s := by
  intro x he
  unfold queueAdd at he
  split_ifs at he
  cases he

theorem safe_addEvent (e : Option (Event K)) : Safe E (addEvent e : M K _) s := by
  cases e with
  | none => exact safe_pure _
  | some e => exact safe_queueAdd e

theorem safe_discardEvent (e : Option (Event K)) : Safe E (discardEvent e : M K _) s := by
  intro x he
  cases e <;> cases he

theorem safe_storeEvent (c : Option (EvCore K)) (t : TId) : Safe E (storeEvent c t : M K _) s := by
  cases c with
  | none => exact safe_pure _
  | some c =>
    refine safe_bind (fun e he => by cases he) fun e s1 _ => safe_bind (safe_modifyT _ _) fun _ _ _ => safe_pure _

theorem safe_triView (t : TId) : Safe E (triView t : M K _) s := by
  intro e he
  unfold triView at he
  dsimp only at he
  split_ifs at he <;> cases he

theorem safe_positionAt {v : VId} {time : K} (h : ∀ k, s.vert v = .kin k → k.infFast = false) :
    Safe E (positionAt v time : M K _) s := by
  intro e he
  unfold positionAt at he
  split_ifs at he
  case neg => cases he
  unfold Vertex.positionAt at he
  cases hv : s.vert v with
  | inf o => rw [hv] at he; cases he
  | kin k =>
    rw [hv] at he
    dsimp only at he
    rw [if_pos (h k hv)] at he
    cases he

theorem safe_evalPosition {v : Option VId} {now : K} (h : ∀ x, v = some x → ∀ k, s.vert x = .kin k → k.infFast = false) :
    Safe E (evalPosition v now : M K _) s := by
  cases v with
  | none => exact safe_pure _
  | some x => exact safe_bind (safe_positionAt (h x rfl)) fun _ _ _ => safe_pure _

variable [IsStrictOrderedRing K] [HasSqrt K]

theorem safe_computeCollapseTime {t : TId} {now : K} {sv : Sieve} (hF : Followable (viewT s t))
    (hA : Ambiguous (viewT s t) now → E .valueError) : Safe E (computeCollapseTime t now sv) s := by
  refine safe_bind (safe_triView t) fun T s1 h1 => ?_
  obtain ⟨-, rfl, rfl⟩ := triView_run_ok.1 h1
  refine safe_bind (safe_lift fun e he => ?_) fun c s2 h2 => safe_storeEvent _ _
  obtain ⟨rfl, h⟩ := computeCollapse_error hF he
  exact hA h

theorem viewT_core {s' : St K} (h : SameCore s s') (t : TId) : viewT s' t = viewT s t := by
  have := h.apply fun x : St K => viewT x t
  exact this

theorem safe_replaceInQueue {t : TId} {now : K} (hF : Followable (viewT s t))
    (hA : Ambiguous (viewT s t) now → E .valueError) : Safe E (replaceInQueue t now) s := by
  refine safe_bind (safe_getT t) fun T s1 h1 => ?_
  obtain ⟨-, -, rfl⟩ := getT_run_ok.1 h1
  refine safe_bind (safe_discardEvent _) fun _ s2 h2 => ?_
  have hc := viewT_core (c_discardEvent _ _ _ _ h2) t
  refine safe_bind (safe_computeCollapseTime (by rw [hc]; exact hF) (by rw [hc]; exact hA)) fun _ _ _ => safe_addEvent _

theorem safe_renewEvent {b : Bool} {t : TId} {now : K} (hF : Followable (viewT s t))
    (hA : Ambiguous (viewT s t) now → E .valueError) : Safe E (renewEvent b t now) s := by
  refine safe_bind (safe_getT t) fun T s1 h1 => ?_
  obtain ⟨-, -, rfl⟩ := getT_run_ok.1 h1
  split_ifs
  · exact safe_discardEvent _
  · exact safe_replaceInQueue hF hA

/-- what collapse.py sees of triangle `t` when `w` is put in the place of `v` -/
def viewSub (s : St K) (v w : VId) (t : TId) : TView K :=
  ⟨fun i => viewOf s (substitute v w (s.tri t).vertices i), fun i => ((s.tri t).neighbours i).isNone,
    (s.tri t).stopsAt.isSome⟩

theorem safe_replaceLoop {v newv : VId} {now : K} {dir : Dir} : ∀ (fuel : ℕ) (ot : Option TId) (fan l : List TId)
    (s : St K), FanWalk dir v s.tri ot l → l.Nodup →
      (∀ x ∈ l, ∀ i j, (s.tri x).vertices i = v → (s.tri x).vertices j = v → i = j) → (∃ k, s.vert newv = .kin k) →
      (∀ x ∈ l, Followable (viewSub s v newv x)) → (∀ x ∈ l, Ambiguous (viewSub s v newv x) now → E .valueError) →
      Safe E (replaceLoop v newv now dir fuel ot fan) s := by
  intro fuel
  induction fuel with
  | zero =>
    intro ot fan l s _ _ _ _ _ _ e he
    cases ot <;> cases he
  | succ fuel ih =>
    intro ot fan l s hw hnd ho hk hF hA
    cases hw with
    | stop => exact safe_pure _
    | @step t i l hi hw =>
      have hu := List.mem_cons_self (a := t) (l := l)
      unfold replaceLoop
      refine safe_bind (safe_getT t) fun T s1 h1 => ?_
      obtain ⟨-, rfl, rfl⟩ := getT_run_ok.1 h1
      have hidx : index3 (s.tri t).vertices v = some i := by
        cases h : index3 (s.tri t).vertices v with
        | none => exact absurd hi (index3_none h i)
        | some j => rw [ho t hu j i (index3_some h) hi]
      refine safe_bind (safe_needIdx ⟨i, hidx⟩) fun j s1 h1 => ?_
      obtain ⟨hj, rfl⟩ := needIdx_run_ok.1 h1
      rw [hidx] at hj
      injection hj with hj
      subst hj
      refine safe_bind (safe_setVertex _ _ _) fun _ s2 h2 => ?_
      obtain ⟨ht, hs2⟩ := modifyT_run_ok.1 h2
      refine safe_bind (safe_getK (by rw [hs2]; exact hk)) fun nk s3 h3 => ?_
      obtain ⟨-, -, rfl⟩ := getK_run_ok.1 h3
      have hv2 : viewT s2 t = viewSub s v newv t := by
        rw [hs2]
        unfold viewT viewSub
        dsimp only
        rw [Function.update_self]
        dsimp only
        congr 1
        funext k
        unfold substitute
        by_cases hk : k = i
        · subst hk
          rw [Function.update_self, if_pos hi]
          rfl
        · rw [Function.update_of_ne hk, if_neg fun q => hk (ho t hu k i q hi)]
          rfl
      refine safe_bind (safe_renewEvent (by rw [hv2]; exact hF t hu) (by rw [hv2]; exact hA t hu)) fun _ s3 h3 => ?_
      have hc := c_renewEvent _ _ _ _ _ _ h3
      refine safe_bind (safe_getT t) fun T s4 h4 => ?_
      obtain ⟨-, rfl, rfl⟩ := getT_run_ok.1 h4
      obtain ⟨hnt, hnd⟩ := List.nodup_cons.1 hnd
      have hne : ∀ x ∈ l, x ≠ t := fun x hx q => hnt (q ▸ hx)
      have h2x : ∀ x ∈ l, s2.tri x = s.tri x := fun x hx => by
        rw [hs2]
        exact Function.update_of_ne (hne x hx) _ _
      have hv : ∀ x ∈ l, (s3.tri x).vertices = (s.tri x).vertices := fun x hx => by rw [hc.vertices, h2x x hx]
      have hn : ∀ x ∈ l, (s3.tri x).neighbours = (s.tri x).neighbours := fun x hx => by rw [hc.neighbours, h2x x hx]
      have hsub : ∀ x ∈ l, viewSub s3 v newv x = viewSub s v newv x := fun x hx => by
        have q1 : viewSub s3 v newv x = viewSub s2 v newv x := hc.apply fun y : St K => viewSub y v newv x
        rw [q1]
        unfold viewSub
        rw [h2x x hx, hs2]
        rfl
      have hnt' : (s3.tri t).neighbours = (s.tri t).neighbours := by rw [hc.neighbours, hs2]; simp
      rw [hnt']
      refine ih _ _ l s3 (FanWalk.congr hw fun x hx => ⟨hv x hx, hn x hx⟩) hnd (fun x hx => by
        rw [hv x hx]; exact ho x (List.mem_cons_of_mem _ hx)) ?_ (fun x hx => by
          rw [hsub x hx]; exact hF x (List.mem_cons_of_mem _ hx)) (fun x hx => by
          rw [hsub x hx]; exact hA x (List.mem_cons_of_mem _ hx))
      rw [hc.vert, hs2]
      exact hk

theorem safe_replaceKvertex {t : TId} {v newv : VId} {now : K} {dir : Dir} {l : List TId}
    (hw : FanWalk dir v s.tri (some t) l) (hnd : l.Nodup)
    (ho : ∀ x ∈ l, ∀ i j, (s.tri x).vertices i = v → (s.tri x).vertices j = v → i = j) (hk : ∃ k, s.vert newv = .kin k)
    (hF : ∀ x ∈ l, Followable (viewSub s v newv x)) (hA : ∀ x ∈ l, Ambiguous (viewSub s v newv x) now → E .valueError) :
    Safe E (replaceKvertex t v newv now dir) s :=
  safe_replaceLoop _ _ _ l s hw hnd ho hk hF hA

end

end Grassfire
