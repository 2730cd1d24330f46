/-
Lemmas on `replace_kvertex` and `get_fan`.
-/
import Verif.Proofs.Growth
import Verif.Proofs.FlipLemmas
import Verif.Spec.Fan

set_option linter.unusedSectionVars false

namespace Grassfire

open Spec

variable {K : Type} [Field K] [LinearOrder K] {α β : Type}

/-! ### everything but the events -/

/-- the state without events -/
def St.core (s : St K) : St K :=
  { s with tri := (fun t => { s.tri t with event := none }), queue := [], immediate := [], nE := 0 }

/-- only events and queues are changed -/
def SameCore (s s' : St K) : Prop := s'.core = s.core

theorem sameCorePre : Pre (SameCore (K := K)) where
  refl _ := rfl
  trans _ _ _ h g := Eq.trans g h

theorem SameCore.apply {β : Type} {s s' : St K} (h : SameCore s s') (f : St K → β) :
    f s'.core = f s.core := congrArg f h

theorem SameCore.vertices {s s' : St K} (h : SameCore s s') (t : TId) :
    (s'.tri t).vertices = (s.tri t).vertices := h.apply (fun x : St K => (x.tri t).vertices)

theorem SameCore.neighbours {s s' : St K} (h : SameCore s s') (t : TId) :
    (s'.tri t).neighbours = (s.tri t).neighbours := h.apply (fun x : St K => (x.tri t).neighbours)

theorem SameCore.nT {s s' : St K} (h : SameCore s s') : s'.nT = s.nT :=
  h.apply (fun x : St K => x.nT)

theorem SameCore.vert {s s' : St K} (h : SameCore s s') : s'.vert = s.vert :=
  h.apply (fun x : St K => x.vert)

theorem SameCore.nV {s s' : St K} (h : SameCore s s') : s'.nV = s.nV :=
  h.apply (fun x : St K => x.nV)

theorem core_queues (s : St K) (q i : List (Event K)) (n : ℕ) :
    SameCore s { s with queue := q, immediate := i, nE := n } := rfl

theorem c_setEvent (t : TId) (e : Event K) : Keeps (SameCore (K := K)) (setEvent t e) := by
  intro s a s' h
  obtain ⟨_, rfl⟩ := modifyT_run_ok.1 h
  unfold SameCore St.core
  congr 1
  funext u
  by_cases hu : u = t
  · subst hu; simp
  · simp [hu]

theorem c_newEvent (c : EvCore K) (t : TId) : Keeps (SameCore (K := K)) (newEvent c t) := by
  intro s a s' h
  obtain ⟨_, rfl⟩ := newEvent_run_ok.1 h
  rfl

theorem c_queueAdd (e : Event K) : Keeps (SameCore (K := K)) (queueAdd e) := by
  intro s a s' h
  unfold queueAdd at h
  split_ifs at h
  cases h
  rfl

theorem c_queueDiscard (e : Event K) : Keeps (SameCore (K := K)) (queueDiscard e) := by
  intro s a s' h
  cases h
  rfl

theorem c_queueDiscardOpt (e : Option (Event K)) : Keeps (SameCore (K := K)) (queueDiscardOpt e) := by
  intro s a s' h
  unfold queueDiscardOpt at h
  split at h
  · exact c_queueDiscard _ s a s' h
  · split_ifs at h
    cases h
    rfl

theorem c_immediateRemove (e : Event K) : Keeps (SameCore (K := K)) (immediateRemove e) := by
  intro s a s' h
  cases h
  rfl

theorem c_immediateAppend (e : Event K) : Keeps (SameCore (K := K)) (immediateAppend e) := by
  intro s a s' h
  cases h
  rfl

theorem c_storeEvent (c : Option (EvCore K)) (t : TId) : Keeps (SameCore (K := K)) (storeEvent c t) := by
  unfold storeEvent
  split
  · exact Keeps.pure sameCorePre _
  · exact Keeps.bind sameCorePre (c_newEvent _ _) fun _ =>
      Keeps.bind sameCorePre (c_setEvent _ _) fun _ => Keeps.pure sameCorePre _

theorem c_triView (t : TId) : Keeps (SameCore (K := K)) (triView t) :=
  Keeps.of_same sameCorePre fun _ _ _ h => (triView_run_ok.1 h).2.2

theorem c_getT (t : TId) : Keeps (SameCore (K := K)) (getT t) :=
  Keeps.of_same sameCorePre fun _ _ _ h => (getT_run_ok.1 h).2.2

theorem c_lift (x : Except Err α) : Keeps (SameCore (K := K)) (lift x) :=
  Keeps.of_same sameCorePre fun _ _ _ h => (lift_run_ok.1 h).2

theorem c_computeCollapseTime [HasSqrt K] (t : TId) (now : K) (sieve : Sieve) :
    Keeps (SameCore (K := K)) (computeCollapseTime t now sieve) :=
  Keeps.bind sameCorePre (c_triView _) fun _ =>
    Keeps.bind sameCorePre (c_lift _) fun _ => c_storeEvent _ _

theorem c_discardEvent (e : Option (Event K)) : Keeps (SameCore (K := K)) (discardEvent e) := by
  unfold discardEvent
  split
  · exact Keeps.bind sameCorePre (c_queueDiscard _) fun _ => c_immediateRemove _
  · exact Keeps.pure sameCorePre _

theorem c_addEvent (e : Option (Event K)) : Keeps (SameCore (K := K)) (addEvent e) := by
  unfold addEvent
  split
  · exact c_queueAdd _
  · exact Keeps.pure sameCorePre _

theorem c_replaceInQueue [HasSqrt K] (t : TId) (now : K) :
    Keeps (SameCore (K := K)) (replaceInQueue t now) :=
  Keeps.bind sameCorePre (c_getT _) fun _ => Keeps.bind sameCorePre (c_discardEvent _) fun _ =>
    Keeps.bind sameCorePre (c_computeCollapseTime _ _ _) fun _ => c_addEvent _

theorem c_renewEvent [HasSqrt K] (b : Bool) (t : TId) (now : K) :
    Keeps (SameCore (K := K)) (renewEvent b t now) :=
  Keeps.bind sameCorePre (c_getT _) fun _ => Keeps.ite (c_discardEvent _) (c_replaceInQueue _ _)

theorem c_immediateRemoveOpt (e : Option (Event K)) :
    Keeps (SameCore (K := K)) (immediateRemoveOpt e) := by
  unfold immediateRemoveOpt
  split
  · exact c_immediateRemove _
  · exact Keeps.pure sameCorePre _

theorem c_immediateEvent [HasSqrt K] (t : TId) (now : K) :
    Keeps (SameCore (K := K)) (immediateEvent t now) :=
  Keeps.bind sameCorePre (c_triView _) fun _ => Keeps.bind sameCorePre (c_lift _) fun _ =>
    Keeps.bind sameCorePre (c_getT _) fun _ => c_newEvent _ _

theorem c_scheduleImmediately [HasSqrt K] (t : TId) (now : K) :
    Keeps (SameCore (K := K)) (scheduleImmediately t now) :=
  Keeps.bind sameCorePre (c_getT _) fun _ => Keeps.bind sameCorePre (c_queueDiscardOpt _) fun _ =>
    Keeps.bind sameCorePre (c_immediateRemoveOpt _) fun _ =>
    Keeps.bind sameCorePre (c_immediateEvent _ _) fun _ =>
    Keeps.bind sameCorePre (c_setEvent _ _) fun _ =>
    Keeps.bind sameCorePre (Keeps.of_same sameCorePre fun _ _ _ h => (assertM_run_ok.1 h).2) fun _ =>
    c_immediateAppend _

/-! ### faults -/

/-- `m` never ends with the fault `nonTermination` -/
def Ends (m : M K α) : Prop := ∀ s, m s ≠ .error .nonTermination

theorem Ends.bind {m : M K α} {f : α → M K β} (hm : Ends m) (hf : ∀ a, Ends (f a)) : Ends (m >>= f) := by
  intro s h
  rw [bind_run] at h
  cases e : m s with
  | error x => rw [e] at h; cases h; exact hm s e
  | ok p => rw [e] at h; exact hf p.1 p.2 h

theorem Ends.pure (a : α) : Ends (Pure.pure a : M K α) := by
  intro s h; cases h

theorem Ends.ite {c : Prop} [Decidable c] {m m' : M K α} (h : Ends m) (h' : Ends m') :
    Ends (if c then m else m') := by
  split_ifs <;> assumption

theorem e_getT (t : TId) : Ends (K := K) (getT t) := by
  intro s h; unfold getT at h; split_ifs at h; cases h

theorem e_getK (v : VId) : Ends (K := K) (getK v) := by
  intro s h; unfold getK at h
  split_ifs at h
  · split at h <;> cases h
  · cases h

theorem e_modifyT (t : TId) (f : KTri K → KTri K) : Ends (modifyT t f) := by
  intro s h; unfold modifyT at h; split_ifs at h; cases h

theorem e_triView (t : TId) : Ends (K := K) (triView t) := by
  intro s h; unfold triView at h
  split_ifs at h
  · dsimp only at h
    split_ifs at h
    cases h
  · cases h

theorem e_lift (x : Except Err α) : Ends (K := K) (lift x) := by
  intro s h; unfold lift at h
  split at h <;> cases h

theorem e_needIdx (x : Option α) : Ends (K := K) (needIdx x) := by
  intro s h; unfold needIdx at h
  split at h <;> cases h

theorem e_assertM (c : Prop) [Decidable c] : Ends (K := K) (assertM c) := by
  intro s h; unfold assertM at h
  split_ifs at h
  cases h

theorem e_queueAdd (e : Event K) : Ends (queueAdd e) := by
  intro s h; unfold queueAdd at h
  split_ifs at h
  cases h

theorem e_storeEvent (c : Option (EvCore K)) (t : TId) : Ends (storeEvent c t) := by
  unfold storeEvent
  split
  · exact Ends.pure _
  · exact Ends.bind (fun s h => by cases h) fun _ => Ends.bind (e_modifyT _ _) fun _ => Ends.pure _

theorem e_discardEvent (e : Option (Event K)) : Ends (discardEvent e) := by
  unfold discardEvent
  split
  · exact Ends.bind (fun s h => by cases h) fun _ => fun s h => by cases h
  · exact Ends.pure _

theorem e_addEvent (e : Option (Event K)) : Ends (addEvent e) := by
  unfold addEvent
  split
  · exact e_queueAdd _
  · exact Ends.pure _

theorem e_replaceInQueue [HasSqrt K] (t : TId) (now : K) : Ends (replaceInQueue t now) :=
  Ends.bind (e_getT _) fun _ => Ends.bind (e_discardEvent _) fun _ =>
    Ends.bind (Ends.bind (e_triView _) fun _ => Ends.bind (e_lift _) fun _ => e_storeEvent _ _) fun _ =>
    e_addEvent _

theorem e_renewEvent [HasSqrt K] (b : Bool) (t : TId) (now : K) : Ends (renewEvent b t now) :=
  Ends.bind (e_getT _) fun _ => Ends.ite (e_discardEvent _) (e_replaceInQueue _ _)

/-! ### termination of `replace_kvertex` -/

/-- number of places of the vertex -/
def places (v : VId) (s : St K) : ℕ := ∑ t ∈ Finset.range s.nT, count3 (s.tri t).vertices v

theorem count3_le {α : Type} [DecidableEq α] (f : Fin 3 → α) (x : α) : count3 f x ≤ 3 := by
  unfold count3; split_ifs <;> omega

theorem count3_update {α : Type} [DecidableEq α] (f : Fin 3 → α) {x y : α} (i : Fin 3) (hi : f i = x)
    (hne : y ≠ x) : count3 (Function.update f i y) x < count3 f x := by
  have key : ∀ j, (if Function.update f i y j = x then 1 else 0 : ℕ) ≤ if f j = x then 1 else 0 := by
    intro j
    by_cases hj : j = i
    · subst hj; simp [hne]
    · simp [hj]
  have k0 := key 0
  have k1 := key 1
  have k2 := key 2
  have ki : (if Function.update f i y i = x then 1 else 0 : ℕ) < if f i = x then 1 else 0 := by
    simp [hne, hi]
  unfold count3
  match i, ki with
  | 0, ki => omega
  | 1, ki => omega
  | 2, ki => omega

theorem places_setVertex {v newv : VId} (hne : newv ≠ v) {t : TId} {i : Fin 3} {s s' : St K}
    (hv : (s.tri t).vertices i = v) (h : setVertex t i newv s = .ok ((), s')) :
    places v s' < places v s := by
  obtain ⟨ht, rfl⟩ := modifyT_run_ok.1 h
  unfold places
  refine Finset.sum_lt_sum (fun u _ => ?_) ⟨t, Finset.mem_range.2 ht, ?_⟩
  · by_cases hu : u = t
    · subst hu
      simp only [Function.update_self]
      exact (count3_update _ i hv hne).le
    · simp [hu]
  · simp only [Function.update_self]
    exact count3_update _ i hv hne

theorem places_core {v : VId} {s s' : St K} (h : SameCore s s') : places v s' = places v s := by
  unfold places
  rw [h.nT]
  exact Finset.sum_congr rfl fun t _ => by rw [h.vertices]

theorem places_le (v : VId) (s : St K) : places v s ≤ 3 * s.nT := by
  unfold places
  have := Finset.sum_le_card_nsmul (Finset.range s.nT) (fun t => count3 (s.tri t).vertices v) 3
    (fun t _ => count3_le _ _)
  simp only [Finset.card_range, smul_eq_mul] at this
  omega

theorem replaceLoop_ends [HasSqrt K] {v newv : VId} (hne : newv ≠ v) (now : K) (dir : Dir) (fuel : ℕ) :
    ∀ (ot : Option TId) (fan : List TId) (s : St K), places v s < fuel →
      replaceLoop v newv now dir fuel ot fan s ≠ .error .nonTermination := by
  induction fuel with
  | zero => intro ot fan s h; omega
  | succ fuel ih =>
    intro ot fan s h he
    cases ot with
    | none => cases he
    | some t =>
      unfold replaceLoop at he
      rw [bind_run] at he
      cases e1 : getT t s with
      | error x => rw [e1] at he; cases he; exact e_getT t s e1
      | ok p =>
        obtain ⟨T, s1⟩ := p
        obtain ⟨ht, rfl, rfl⟩ := getT_run_ok.1 e1
        rw [e1] at he
        dsimp only at he
        rw [bind_run] at he
        cases e2 : needIdx (K := K) (index3 (s.tri t).vertices v) s with
        | error x => rw [e2] at he; cases he; exact e_needIdx _ s e2
        | ok p =>
          obtain ⟨i, s1⟩ := p
          obtain ⟨hi, rfl⟩ := needIdx_run_ok.1 e2
          rw [e2] at he
          dsimp only at he
          rw [bind_run] at he
          cases e3 : setVertex t i newv s with
          | error x => rw [e3] at he; cases he; exact e_modifyT _ _ s e3
          | ok p =>
            obtain ⟨_, s1⟩ := p
            have hlt := places_setVertex hne (index3_some hi) e3
            rw [e3] at he
            dsimp only at he
            rw [bind_run] at he
            cases e4 : getK newv s1 with
            | error x => rw [e4] at he; cases he; exact e_getK _ s1 e4
            | ok p =>
              obtain ⟨nk, s2⟩ := p
              obtain ⟨_, _, rfl⟩ := getK_run_ok.1 e4
              rw [e4] at he
              dsimp only at he
              rw [bind_run] at he
              cases e5 : renewEvent nk.infFast t now s1 with
              | error x => rw [e5] at he; cases he; exact e_renewEvent _ _ _ s1 e5
              | ok p =>
                obtain ⟨_, s2⟩ := p
                have hc := places_core (v := v) (c_renewEvent _ _ _ _ _ _ e5)
                rw [e5] at he
                dsimp only at he
                rw [bind_run] at he
                cases e6 : getT t s2 with
                | error x => rw [e6] at he; cases he; exact e_getT _ s2 e6
                | ok p =>
                  obtain ⟨T, s3⟩ := p
                  obtain ⟨_, rfl, rfl⟩ := getT_run_ok.1 e6
                  rw [e6] at he
                  exact ih _ _ s2 (by omega) he

/-! ### what `replace_kvertex` does -/

theorem FanWalk.mem {dir : Dir} {v : VId} {tri : TId → KTri K} {ot : Option TId} {l : List TId}
    (h : FanWalk dir v tri ot l) : ∀ t ∈ l, ∃ i, (tri t).vertices i = v := by
  induction h with
  | stop => simp
  | @step t i l hi _ ih =>
    intro u hu
    rcases List.mem_cons.1 hu with rfl | hu
    · exact ⟨i, hi⟩
    · exact ih u hu

theorem FanWalk.congr {dir : Dir} {v : VId} {tri tri' : TId → KTri K} {ot : Option TId} {l : List TId}
    (h : FanWalk dir v tri ot l) : (∀ t ∈ l, (tri' t).vertices = (tri t).vertices ∧
      (tri' t).neighbours = (tri t).neighbours) → FanWalk dir v tri' ot l := by
  induction h with
  | stop => intro _; exact .stop
  | @step t i l hi _ ih =>
    intro hc
    have ht := hc t List.mem_cons_self
    refine .step (i := i) (by rw [ht.1]; exact hi) ?_
    rw [ht.2]
    exact ih fun u hu => hc u (List.mem_cons_of_mem _ hu)

/-- all of a triangle but its corners and its event -/
def KTri.rest (T : KTri K) : KTri K := { T with vertices := fun _ => 0, event := none }

/-- the state without triangles and events -/
def St.noTri (s : St K) : St K :=
  { s with tri := (fun _ => ⟨fun _ => 0, fun _ => none, none, 0, none, false⟩), queue := [], immediate := [], nE := 0 }

theorem replaceLoop_ok [HasSqrt K] {v newv : VId} (hne : newv ≠ v) (now : K) (dir : Dir) (fuel : ℕ) :
    ∀ (ot : Option TId) (fan fan' : List TId) (s s' : St K), Once v s →
      replaceLoop v newv now dir fuel ot fan s = .ok (fan', s') →
      ∃ l, fan' = fan ++ l ∧ FanWalk dir v s.tri ot l ∧ l.Nodup ∧
        (∀ t, (s'.tri t).vertices =
          if t ∈ l then substitute v newv (s.tri t).vertices else (s.tri t).vertices) ∧
        (∀ t, (s'.tri t).rest = (s.tri t).rest) ∧
        s'.noTri = s.noTri := by
  induction fuel with
  | zero =>
    intro ot fan fan' s s' _ he
    cases ot with
    | none => cases he; exact ⟨[], by simp, .stop, List.nodup_nil, by simp, fun _ => rfl, rfl⟩
    | some t => cases he
  | succ fuel ih =>
    intro ot fan fan' s s' honce he
    cases ot with
    | none => cases he; exact ⟨[], by simp, .stop, List.nodup_nil, by simp, fun _ => rfl, rfl⟩
    | some t =>
      unfold replaceLoop at he
      obtain ⟨T, s1, h1, he⟩ := bind_run_ok.1 he
      obtain ⟨ht, rfl, rfl⟩ := getT_run_ok.1 h1
      obtain ⟨i, s1, h1, he⟩ := bind_run_ok.1 he
      obtain ⟨hi, rfl⟩ := needIdx_run_ok.1 h1
      have hi := index3_some hi
      obtain ⟨_, s1, h1, he⟩ := bind_run_ok.1 he
      obtain ⟨_, hs1⟩ := modifyT_run_ok.1 h1
      obtain ⟨nk, s2, h2, he⟩ := bind_run_ok.1 he
      obtain ⟨_, _, rfl⟩ := getK_run_ok.1 h2
      obtain ⟨_, s2, h2, he⟩ := bind_run_ok.1 he
      have hc := c_renewEvent _ _ _ _ _ _ h2
      obtain ⟨T, s3, h3, he⟩ := bind_run_ok.1 he
      obtain ⟨_, rfl, rfl⟩ := getT_run_ok.1 h3
      have hvt : (s2.tri t).vertices = Function.update (s.tri t).vertices i newv := by
        rw [hc.vertices, hs1]; simp
      have hnt : (s2.tri t).neighbours = (s.tri t).neighbours := by
        rw [hc.neighbours, hs1]; simp
      have hvu : ∀ u, u ≠ t → (s2.tri u).vertices = (s.tri u).vertices := by
        intro u hu; rw [hc.vertices, hs1]; simp [hu]
      have hnu : ∀ u, u ≠ t → (s2.tri u).neighbours = (s.tri u).neighbours := by
        intro u hu; rw [hc.neighbours, hs1]; simp [hu]
      have hgone : ∀ j, (s2.tri t).vertices j ≠ v := by
        intro j
        rw [hvt]
        by_cases hj : j = i
        · subst hj; simpa using hne
        · simp only [Function.update_of_ne hj]
          exact fun e => hj (honce t ht j i e hi)
      have honce2 : Once v s2 := by
        intro u hlt j k hj hk
        rw [hc.nT, hs1] at hlt
        by_cases hu : u = t
        · subst hu; exact absurd hj (hgone j)
        · rw [hvu u hu] at hj hk
          exact honce u hlt j k hj hk
      obtain ⟨l, hl, hw, hnd, hv, hrest, hno⟩ := ih _ _ _ _ _ honce2 he
      have htl : t ∉ l := fun hm => by
        obtain ⟨j, hj⟩ := FanWalk.mem hw t hm
        exact hgone j hj
      refine ⟨t :: l, by rw [hl]; simp, ?_, List.nodup_cons.2 ⟨htl, hnd⟩, ?_, ?_, ?_⟩
      · refine .step hi ?_
        rw [hnt] at hw
        refine FanWalk.congr hw fun u hu => ?_
        have : u ≠ t := by rintro rfl; exact htl hu
        exact ⟨(hvu u this).symm, (hnu u this).symm⟩
      · intro u
        rw [hv u]
        by_cases hu : u = t
        · subst hu
          rw [if_neg htl, if_pos List.mem_cons_self, hvt]
          funext j
          unfold substitute
          by_cases hj : j = i
          · subst hj; simp [hi]
          · have : (s.tri u).vertices j ≠ v := fun e => hj (honce u ht j i e hi)
            simp [hj, this]
        · rw [hvu u hu]
          by_cases hul : u ∈ l
          · rw [if_pos hul, if_pos (List.mem_cons_of_mem _ hul)]
          · rw [if_neg hul, if_neg]
            intro hm
            rcases List.mem_cons.1 hm with e | e
            · exact hu e
            · exact hul e
      · intro u
        rw [hrest u]
        have e1 : (s2.tri u).rest = (s1.tri u).rest :=
          hc.apply (fun x : St K => (x.tri u).rest)
        rw [e1, hs1]
        by_cases hu : u = t
        · subst hu; simp [KTri.rest]
        · simp [hu]
      · rw [hno]
        have e1 : s2.noTri = s1.noTri := hc.apply (fun x : St K => x.noTri)
        rw [e1, hs1]
        rfl

end Grassfire
