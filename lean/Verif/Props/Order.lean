/-
C108: the order in which the skeleton lists its triangles has no influence.
-/
import Verif.Proofs.Order
import Verif.Props.CalcSkel
import Verif.Props.Queue
import Verif.CalcSkel

set_option linter.unusedSectionVars false

namespace Grassfire

open Spec

variable {K : Type} [Field K] [LinearOrder K]

/-! ### two events of the start, in the other order -/

theorem queueInsert_comm (p : TId → ℕ) (a b : Event K) (q : List (Event K)) (h : compareEvents p a b = -1) :
    queueInsert p a (queueInsert p b q) = queueInsert p b (queueInsert p a q) := by
  have hb : ¬ compareEvents p b a < 0 := by rw [C31_antisymm, h]; decide
  have ha : compareEvents p a b < 0 := by rw [h]; decide
  induction q with
  | nil =>
    simp only [queueInsert, if_pos ha, if_neg hb]
  | cons x xs ih =>
    by_cases h1 : compareEvents p b x < 0
    · have e1 : compareEvents p b x = -1 := by
        rcases (C31_compare_iff p b x).2.2 with g | g | g <;> omega
      have h2 : compareEvents p a x < 0 := by rw [C31_trans p a b x h e1]; decide
      simp only [queueInsert, if_pos h1, if_pos h2, if_pos ha, if_neg hb]
    · by_cases h2 : compareEvents p a x < 0
      · simp only [queueInsert, if_neg h1, if_pos h2, if_neg hb]
      · simp only [queueInsert, if_neg h1, if_neg h2, ih]

/-- the event that a triangle has at the start -/
def startCore [HasSqrt K] (t : TId) : M K (Option (EvCore K)) :=
  triView t >>= fun v => lift (computeCollapse v 0 .gt)

/-- the state after the event of a triangle has been created and queued -/
def withEvent (s : St K) (t : TId) (c : EvCore K) : St K :=
  { s with
    nE := s.nE + 1
    tri := Function.update s.tri t { s.tri t with event := some ⟨c, s.nE, t⟩ }
    queue := queueInsert s.pyid ⟨c, s.nE, t⟩ s.queue }

/-- nothing in the queue compares equal to the event of the triangle -/
def Room (s : St K) (t : TId) (c : EvCore K) : Prop :=
  ∀ x ∈ s.queue, compareEvents s.pyid ⟨c, s.nE, t⟩ x ≠ 0

/-- two states in which all triangles see the same -/
def SameSight (s r : St K) : Prop :=
  r.nT = s.nT ∧ r.nV = s.nV ∧ r.vert = s.vert ∧ r.node = s.node ∧ r.line = s.line ∧
    ∀ t, (r.tri t).vertices = (s.tri t).vertices ∧ (r.tri t).neighbours = (s.tri t).neighbours ∧
      (r.tri t).stopsAt = (s.tri t).stopsAt

theorem sameSight_with (s : St K) (t : TId) (c : EvCore K) : SameSight s (withEvent s t c) := by
  refine ⟨rfl, rfl, rfl, rfl, rfl, fun u => ?_⟩
  unfold withEvent
  by_cases h : u = t
  · subst h; simp
  · simp [Function.update_of_ne h]

theorem triView_same {s r : St K} (h : SameSight s r) (t : TId) :
    (∀ v, triView t s = .ok (v, s) → triView t r = .ok (v, r)) := by
  intro v e
  obtain ⟨h1, h2, h3, h4, h5, h6⟩ := h
  obtain ⟨g1, g2, g3⟩ := h6 t
  have hv : ∀ i, viewOf r i = viewOf s i := fun i => by unfold viewOf; rw [h3, h4, h5]
  unfold triView at e ⊢
  dsimp only at e ⊢
  rw [h1, h2, g1, g2, g3]
  simp only [hv]
  split at e
  · split at e
    · rename_i q1 q2
      rw [if_pos q1, if_pos q2]
      cases e; rfl
    · cases e
  · cases e

theorem startCore_ok [HasSqrt K] {t : TId} {s r : St K} {c : Option (EvCore K)} (h : startCore t s = .ok (c, r)) :
    r = s ∧ t < s.nT ∧ ∃ v, triView t s = .ok (v, s) ∧ computeCollapse v 0 .gt = .ok c := by
  unfold startCore at h
  obtain ⟨v, s1, h1, h2⟩ := bind_run_ok.1 h
  have hs : s1 = s ∧ t < s.nT := by
    unfold triView at h1
    split at h1
    · rename_i q
      dsimp only at h1
      split at h1
      · cases h1; exact ⟨rfl, q⟩
      · cases h1
    · cases h1
  obtain ⟨rfl, ht⟩ := hs
  cases e : computeCollapse v 0 Sieve.gt with
  | error x => rw [e] at h2; cases h2
  | ok c' => rw [e] at h2; cases h2; exact ⟨rfl, ht, v, h1, e⟩

theorem startCore_same [HasSqrt K] {s r : St K} (h : SameSight s r) {t : TId} {c : Option (EvCore K)}
    (e : startCore t s = .ok (c, s)) : startCore t r = .ok (c, r) := by
  obtain ⟨-, -, v, hv, hc⟩ := startCore_ok e
  unfold startCore
  refine bind_run_ok.2 ⟨v, r, triView_same h t v hv, ?_⟩
  rw [hc]
  rfl

theorem initEvent_none [HasSqrt K] {t : TId} {s : St K} (h : startCore t s = .ok (none, s)) :
    initEvent t s = .ok ((), s) := by
  obtain ⟨-, ht, v, hv, hc⟩ := startCore_ok h
  unfold initEvent computeCollapseTime
  refine bind_run_ok.2 ⟨none, s, bind_run_ok.2 ⟨v, s, hv, bind_run_ok.2 ⟨none, s, ?_, rfl⟩⟩, rfl⟩
  rw [hc]; rfl

theorem initEvent_some [HasSqrt K] {t : TId} {s : St K} {c : EvCore K} (h : startCore t s = .ok (some c, s))
    (hr : Room s t c) : initEvent t s = .ok ((), withEvent s t c) := by
  obtain ⟨-, ht, v, hv, hc⟩ := startCore_ok h
  unfold initEvent computeCollapseTime
  refine bind_run_ok.2 ⟨some ⟨c, s.nE, t⟩, { s with
    nE := s.nE + 1
    tri := Function.update s.tri t { s.tri t with event := some ⟨c, s.nE, t⟩ } }, bind_run_ok.2 ⟨v, s, hv,
      bind_run_ok.2 ⟨some c, s, by rw [hc]; rfl, ?_⟩⟩, ?_⟩
  · refine bind_run_ok.2 ⟨_, _, rfl, bind_run_ok.2 ⟨(), _, ?_, rfl⟩⟩
    unfold setEvent modifyT
    rw [if_pos (show t < ({ s with nE := s.nE + 1 } : St K).nT from ht)]
  · show queueAdd _ _ = _
    unfold queueAdd
    rw [if_neg]
    · rfl
    · intro hq
      obtain ⟨x, hx, hz⟩ := List.any_eq_true.1 hq
      exact hr x hx (of_decide_eq_true hz)

theorem initEvent_ok [HasSqrt K] {t : TId} {s r : St K} (h : initEvent t s = .ok ((), r)) :
    (startCore t s = .ok (none, s) ∧ r = s) ∨
      ∃ c, startCore t s = .ok (some c, s) ∧ Room s t c ∧ r = withEvent s t c := by
  unfold initEvent computeCollapseTime at h
  obtain ⟨o, s1, h1, h2⟩ := bind_run_ok.1 h
  obtain ⟨v, s2, hv, h3⟩ := bind_run_ok.1 h1
  obtain ⟨c, s3, hc, h4⟩ := bind_run_ok.1 h3
  have hcore : startCore t s = .ok (c, s3) := bind_run_ok.2 ⟨v, s2, hv, hc⟩
  obtain ⟨rfl, ht, -⟩ := startCore_ok hcore
  cases c with
  | none =>
    cases h4
    cases h2
    exact .inl ⟨hcore, rfl⟩
  | some c =>
    refine .inr ⟨c, hcore, ?_⟩
    obtain ⟨e, s4, h5, h6⟩ := bind_run_ok.1 h4
    cases h5
    obtain ⟨_, s5, h7, h8⟩ := bind_run_ok.1 h6
    cases h8
    unfold setEvent modifyT at h7
    rw [if_pos (show t < ({ s3 with nE := s3.nE + 1 } : St K).nT from ht)] at h7
    cases h7
    have h2 : queueAdd _ _ = _ := h2
    unfold queueAdd at h2
    split at h2
    · cases h2
    · rename_i hq
      cases h2
      refine ⟨fun x hx hz => hq ?_, rfl⟩
      exact List.any_eq_true.2 ⟨x, hx, decide_eq_true hz⟩

/-- all identities of events have been given out -/
def Known (s : St K) : Prop :=
  (∀ t e, (s.tri t).event = some e → e.eid < s.nE) ∧ (∀ e ∈ s.queue, e.eid < s.nE) ∧ ∀ e ∈ s.immediate, e.eid < s.nE

theorem Known.with {s : St K} (h : Known s) (t : TId) (c : EvCore K) : Known (withEvent s t c) := by
  obtain ⟨h1, h2, h3⟩ := h
  refine ⟨fun u e q => ?_, fun e he => ?_, fun e he => (h3 e he).trans (Nat.lt_succ_self _)⟩
  · unfold withEvent at q
    by_cases hu : u = t
    · subst hu
      simp only [Function.update_self, Option.some.injEq] at q
      subst q
      exact Nat.lt_succ_self _
    · simp only [Function.update_of_ne hu] at q
      exact (h1 u e q).trans (Nat.lt_succ_self _)
  · rcases (mem_queueInsert _ _ _ _).1 he with rfl | he
    · exact Nat.lt_succ_self _
    · exact (h2 e he).trans (Nat.lt_succ_self _)

theorem renamedEvent_fix (ρ : Equiv.Perm ℕ) (e : Event K) (h : ρ e.eid = e.eid) : renamedEvent ρ e = e := by
  obtain ⟨c, i, t⟩ := e
  show (⟨c, ρ i, t⟩ : Event K) = _
  exact congrArg (fun i => (⟨c, i, t⟩ : Event K)) h

theorem list_fix (ρ : Equiv.Perm ℕ) (l : List (Event K)) (h : ∀ e ∈ l, ρ e.eid = e.eid) : l.map (renamedEvent ρ) = l :=
  (List.map_congr_left fun e he => renamedEvent_fix ρ e (h e he)).trans (List.map_id l)

theorem tri_fix (ρ : Equiv.Perm ℕ) (t : KTri K) (h : ∀ e, t.event = some e → ρ e.eid = e.eid) : renamedTri ρ t = t := by
  obtain ⟨v, n, e, i, s, b⟩ := t
  cases e with
  | none => rfl
  | some e => exact congrArg (fun e => (⟨v, n, some e, i, s, b⟩ : KTri K)) (renamedEvent_fix ρ e (h e rfl))

/-- The events of two triangles in the other order: only their identities change. -/
theorem withEvent_swap {s : St K} (h : Known s) {x y : TId} (hxy : x ≠ y) (c d : EvCore K)
    (hq : compareEvents s.pyid ⟨c, s.nE, x⟩ ⟨d, s.nE, y⟩ ≠ 0) :
    withEvent (withEvent s y d) x c =
      renamedState (Equiv.swap s.nE (s.nE + 1)) s.skTriangles (withEvent (withEvent s x c) y d) := by
  obtain ⟨k1, k2, k3⟩ := h
  have fix : ∀ n, n < s.nE → Equiv.swap s.nE (s.nE + 1) n = n := fun n hn =>
    Equiv.swap_apply_of_ne_of_ne hn.ne (by omega)
  have ex : renamedEvent (Equiv.swap s.nE (s.nE + 1)) (⟨c, s.nE, x⟩ : Event K) = ⟨c, s.nE + 1, x⟩ :=
    congrArg (fun i => (⟨c, i, x⟩ : Event K)) (Equiv.swap_apply_left _ _)
  have ey : renamedEvent (Equiv.swap s.nE (s.nE + 1)) (⟨d, s.nE + 1, y⟩ : Event K) = ⟨d, s.nE, y⟩ :=
    congrArg (fun i => (⟨d, i, y⟩ : Event K)) (Equiv.swap_apply_right _ _)
  have htri : (withEvent (withEvent s y d) x c).tri = fun t =>
      renamedTri (Equiv.swap s.nE (s.nE + 1)) ((withEvent (withEvent s x c) y d).tri t) := by
    funext t
    unfold withEvent
    by_cases h1 : t = x
    · subst h1
      simp only [Function.update_self, Function.update_of_ne hxy]
      show _ = (⟨_, _, some (renamedEvent _ _), _, _, _⟩ : KTri K)
      rw [ex]
    · by_cases h2 : t = y
      · subst h2
        simp only [Function.update_self, Function.update_of_ne h1]
        show _ = (⟨_, _, some (renamedEvent _ _), _, _, _⟩ : KTri K)
        rw [ey]
      · simp only [Function.update_of_ne h1, Function.update_of_ne h2]
        exact (tri_fix _ _ fun e he => fix _ (k1 t e he)).symm
  have hqueue : (withEvent (withEvent s y d) x c).queue =
      (withEvent (withEvent s x c) y d).queue.map (renamedEvent (Equiv.swap s.nE (s.nE + 1))) := by
    show queueInsert s.pyid ⟨c, s.nE + 1, x⟩ (queueInsert s.pyid ⟨d, s.nE, y⟩ s.queue) =
      (queueInsert s.pyid ⟨d, s.nE + 1, y⟩ (queueInsert s.pyid ⟨c, s.nE, x⟩ s.queue)).map _
    rw [← queueInsert_renamed, ← queueInsert_renamed, ex, ey, list_fix _ _ fun e he => fix _ (k2 e he)]
    rcases (C31_compare_iff s.pyid (⟨c, s.nE, x⟩ : Event K) ⟨d, s.nE, y⟩).2.2 with g | g | g
    · exact queueInsert_comm s.pyid ⟨c, s.nE + 1, x⟩ ⟨d, s.nE, y⟩ s.queue g
    · exact absurd g hq
    · refine (queueInsert_comm s.pyid ⟨d, s.nE, y⟩ ⟨c, s.nE + 1, x⟩ s.queue ?_).symm
      rw [C31_antisymm]
      exact congrArg Neg.neg g
  have himm : (withEvent (withEvent s y d) x c).immediate =
      (withEvent (withEvent s x c) y d).immediate.map (renamedEvent (Equiv.swap s.nE (s.nE + 1))) :=
    (list_fix _ _ fun e he => fix _ (k3 e he)).symm
  unfold renamedState
  rw [← htri, ← hqueue, ← himm]
  rfl

/-! ### all events of the start -/

theorem renamed_comp (ρ σ : Equiv.Perm ℕ) (L L' : List TId) (s : St K) :
    renamedState σ L' (renamedState ρ L s) = renamedState (ρ.trans σ) L' s := by
  unfold renamedState
  have h : ∀ e : Event K, renamedEvent σ (renamedEvent ρ e) = renamedEvent (ρ.trans σ) e := fun _ => rfl
  have ht : ∀ t : KTri K, renamedTri σ (renamedTri ρ t) = renamedTri (ρ.trans σ) t := by
    rintro ⟨v, n, e, i, s, b⟩
    cases e <;> rfl
  simp only [List.map_map, ht]
  rfl

theorem renamed_same (L : List TId) (s : St K) : renamedState (Equiv.refl ℕ) L s = { s with skTriangles := L } := by
  have h : ∀ l : List (Event K), l.map (renamedEvent (Equiv.refl ℕ)) = l := fun l => list_fix _ _ fun _ _ => rfl
  have ht : (fun t => renamedTri (Equiv.refl ℕ) (s.tri t)) = s.tri := funext fun t => tri_fix _ _ fun _ _ => rfl
  unfold renamedState
  rw [h, h, ht]

theorem initEvent_known [HasSqrt K] {t : TId} {s r : St K} (h : initEvent t s = .ok ((), r)) (k : Known s) :
    Known r ∧ r.skTriangles = s.skTriangles ∧ s.nE ≤ r.nE := by
  rcases initEvent_ok h with ⟨-, rfl⟩ | ⟨c, -, -, rfl⟩
  · exact ⟨k, rfl, le_rfl⟩
  · exact ⟨k.with t c, rfl, Nat.le_succ _⟩

theorem forEach_init_known [HasSqrt K] {l : List TId} {s r : St K} (h : forEach initEvent l s = .ok ((), r)) (k : Known s) :
    Known r ∧ r.skTriangles = s.skTriangles ∧ s.nE ≤ r.nE := by
  induction l generalizing s with
  | nil => cases h; exact ⟨k, rfl, le_rfl⟩
  | cons x xs ih =>
    obtain ⟨_, s1, h1, h2⟩ := bind_run_ok.1 h
    obtain ⟨k1, e1, l1⟩ := initEvent_known h1 k
    obtain ⟨k2, e2, l2⟩ := ih h2 k1
    exact ⟨k2, e2.trans e1, l1.trans l2⟩

theorem initEvent_swap [HasSqrt K] {x y : TId} {s r1 r : St K} (k : Known s) (h1 : initEvent x s = .ok ((), r1))
    (h2 : initEvent y r1 = .ok ((), r)) :
    ∃ (ρ : Equiv.Perm ℕ) (q1 : St K), (∀ n, r.nE ≤ n → ρ n = n) ∧ initEvent y s = .ok ((), q1) ∧
      initEvent x q1 = .ok ((), renamedState ρ s.skTriangles r) := by
  have triv : ∀ q, renamedState (Equiv.refl ℕ) q.skTriangles q = (q : St K) := fun q => renamed_same _ q
  by_cases hxy : x = y
  · subst hxy
    obtain ⟨k1, e1, -⟩ := initEvent_known h1 k
    obtain ⟨-, e2, -⟩ := initEvent_known h2 k1
    refine ⟨Equiv.refl ℕ, r1, fun _ _ => rfl, h1, ?_⟩
    rw [← e1, ← e2, triv]
    exact h2
  rcases initEvent_ok h1 with ⟨c1, rfl⟩ | ⟨c, c1, m1, rfl⟩
  · refine ⟨Equiv.refl ℕ, r, fun _ _ => rfl, h2, ?_⟩
    obtain ⟨-, e2, -⟩ := initEvent_known h2 k
    rw [← e2, triv]
    rcases initEvent_ok h2 with ⟨-, rfl⟩ | ⟨d, -, -, rfl⟩
    · exact h1
    · exact initEvent_none (startCore_same (sameSight_with _ _ _) c1)
  · have back : SameSight (withEvent s x c) s := by
      obtain ⟨a1, a2, a3, a4, a5, a6⟩ := sameSight_with s x c
      exact ⟨a1.symm, a2.symm, a3.symm, a4.symm, a5.symm, fun t => ⟨(a6 t).1.symm, (a6 t).2.1.symm, (a6 t).2.2.symm⟩⟩
    rcases initEvent_ok h2 with ⟨c2, rfl⟩ | ⟨d, c2, m2, rfl⟩
    · refine ⟨Equiv.refl ℕ, s, fun _ _ => rfl, initEvent_none (startCore_same back c2), ?_⟩
      rw [show s.skTriangles = (withEvent s x c).skTriangles from rfl, triv]
      exact initEvent_some c1 m1
    · have hd : startCore y s = .ok (some d, s) := startCore_same back c2
      have hq : compareEvents s.pyid ⟨c, s.nE, x⟩ ⟨d, s.nE, y⟩ ≠ 0 := by
        intro z
        refine m2 ⟨c, s.nE, x⟩ ((mem_queueInsert _ _ _ _).2 (.inl rfl)) ?_
        rw [C31_antisymm]
        exact neg_eq_zero.2 z
      refine ⟨Equiv.swap s.nE (s.nE + 1), withEvent s y d, fun n hn => ?_, initEvent_some hd fun e he => ?_, ?_⟩
      · have hn : s.nE + 1 + 1 ≤ n := hn
        exact Equiv.swap_apply_of_ne_of_ne (by omega) (by omega)
      · exact m2 e ((mem_queueInsert _ _ _ _).2 (.inr he))
      · rw [← withEvent_swap k hxy c d hq]
        refine initEvent_some (startCore_same (sameSight_with _ _ _) c1) fun e he => ?_
        rcases (mem_queueInsert _ _ _ _).1 he with rfl | he
        · exact hq
        · exact m1 e he

theorem forEach_init_perm [HasSqrt K] {l l' : List TId} (p : l.Perm l') {s r : St K} (k : Known s)
    (h : forEach initEvent l s = .ok ((), r)) :
    ∃ ρ : Equiv.Perm ℕ, (∀ n, r.nE ≤ n → ρ n = n) ∧
      forEach initEvent l' s = .ok ((), renamedState ρ s.skTriangles r) := by
  induction p generalizing s r with
  | nil =>
    cases h
    exact ⟨Equiv.refl ℕ, fun _ _ => rfl, congrArg (fun q => Except.ok ((), q)) (renamed_same _ s).symm⟩
  | cons x _ ih =>
    obtain ⟨_, s1, h1, h2⟩ := bind_run_ok.1 h
    obtain ⟨k1, e1, -⟩ := initEvent_known h1 k
    obtain ⟨ρ, hρ, h3⟩ := ih k1 h2
    rw [e1] at h3
    exact ⟨ρ, hρ, bind_run_ok.2 ⟨_, s1, h1, h3⟩⟩
  | swap x y l =>
    obtain ⟨_, s1, h1, h2⟩ := bind_run_ok.1 h
    obtain ⟨_, s2, h2, h3⟩ := bind_run_ok.1 h2
    obtain ⟨ρ, q1, hρ, g1, g2⟩ := initEvent_swap k h1 h2
    have hs := Ren.forEach (ρ := ρ) (L := s.skTriangles) (fun t => rn_initEvent t) l s2 hρ
    rw [h3] at hs
    exact ⟨ρ, fun n hn => hρ n ((hs.2 _ rfl).trans hn), bind_run_ok.2 ⟨_, q1, g1, bind_run_ok.2 ⟨_, _, g2, hs.1⟩⟩⟩
  | trans _ _ ih1 ih2 =>
    obtain ⟨ρ, hρ, h1⟩ := ih1 k h
    obtain ⟨σ, hσ, h2⟩ := ih2 k h1
    rw [renamed_comp] at h2
    exact ⟨ρ.trans σ, fun n hn => (congrArg σ (hρ n hn)).trans (hσ n hn), h2⟩

/-! ### the checks of the event loop -/

/-- a computation that leaves the state as it is -/
def Looks {α : Type} (m : M K α) : Prop := ∀ s a r, m s = .ok (a, r) → r = s

theorem Looks.pure {α : Type} (a : α) : Looks (pure a : M K α) := fun s b r e => by cases e; rfl

theorem Looks.bind {α β : Type} {m : M K α} {f : α → M K β} (hm : Looks m) (hf : ∀ a, Looks (f a)) : Looks (m >>= f) := by
  intro s b r e
  obtain ⟨a, s1, h1, h2⟩ := bind_run_ok.1 e
  obtain rfl := hm s a s1 h1
  exact hf a _ b r h2

theorem Looks.ite {α : Type} {c : Prop} [Decidable c] {m n : M K α} (hm : Looks m) (hn : Looks n) :
    Looks (if c then m else n) := by
  split
  · exact hm
  · exact hn

theorem Looks.forEach {α : Type} {f : α → M K Unit} (hf : ∀ a, Looks (f a)) (l : List α) :
    Looks (Grassfire.forEach f l) := by
  induction l with
  | nil => exact Looks.pure _
  | cons x xs ih => exact Looks.bind (hf x) fun _ => ih

theorem looks_getT (t : TId) : Looks (getT t : M K _) := fun s b r e => by
  unfold getT at e; split at e <;> cases e; rfl

theorem looks_getV (t : VId) : Looks (getV t : M K _) := fun s b r e => by
  unfold getV at e; split at e <;> cases e; rfl

theorem looks_assertM (c : Prop) [Decidable c] : Looks (assertM c : M K _) := fun s b r e => by
  unfold assertM at e; split at e <;> cases e; rfl

theorem looks_positionAt (v : VId) (x : K) : Looks (positionAt v x : M K _) := fun s b r e => by
  unfold positionAt at e
  split at e
  · split at e <;> cases e; rfl
  · cases e

theorem looks_velocityOf (v : VId) : Looks (velocityOf v : M K _) := (looks_getV v).bind fun _ => .pure _

theorem looks_bisector (t : TId) (i : Fin 3) (now : K) : Looks (checkBisectorDirection t i now) :=
  (looks_getT _).bind fun _ => (looks_positionAt _ _).bind fun _ => (looks_velocityOf _).bind fun _ =>
    (looks_positionAt _ _).bind fun _ => looks_assertM _

theorem looks_leftOver (t : TId) : Looks (leftOver t : M K _) :=
  (looks_getT _).bind fun _ => (looks_getV _).bind fun _ => (looks_getV _).bind fun _ => (looks_getV _).bind fun _ => .pure _

/-- a check of all elements of a list -/
theorem forEach_looks {α : Type} {f : α → M K Unit} (hf : ∀ a, Looks (f a)) (l : List α) (s r : St K) :
    forEach f l s = .ok ((), r) ↔ r = s ∧ ∀ a ∈ l, f a s = .ok ((), s) := by
  induction l with
  | nil =>
    constructor
    · intro h; cases h; exact ⟨rfl, fun a ha => by cases ha⟩
    · rintro ⟨rfl, -⟩; rfl
  | cons x xs ih =>
    constructor
    · intro h
      obtain ⟨u, s1, h1, h2⟩ := bind_run_ok.1 h
      obtain rfl := hf x s u s1 h1
      obtain ⟨rfl, h3⟩ := ih.1 h2
      refine ⟨rfl, fun a ha => ?_⟩
      rcases List.mem_cons.1 ha with rfl | ha
      · exact h1
      · exact h3 a ha
    · rintro ⟨rfl, h⟩
      exact bind_run_ok.2 ⟨(), r, h x List.mem_cons_self, ih.2 ⟨rfl, fun a ha => h a (List.mem_cons_of_mem _ ha)⟩⟩

theorem forEach_perm {α : Type} {f : α → M K Unit} (hf : ∀ a, Looks (f a)) {l l' : List α} (p : l.Perm l') {s r : St K}
    (h : forEach f l s = .ok ((), r)) : forEach f l' s = .ok ((), r) := by
  obtain ⟨rfl, h⟩ := (forEach_looks hf l s r).1 h
  exact (forEach_looks hf l' r r).2 ⟨rfl, fun a ha => h a (p.mem_iff.2 ha)⟩

theorem mapEach_looks {α β : Type} {f : α → M K β} (hf : ∀ a, Looks (f a)) {l l' : List α} (p : l.Perm l') {s r : St K}
    {b : List β} (h : mapEach f l s = .ok (b, r)) : r = s ∧ ∃ b', mapEach f l' s = .ok (b', r) ∧ b.Perm b' := by
  induction p generalizing s r b with
  | nil => cases h; exact ⟨rfl, [], rfl, .refl _⟩
  | cons x _ ih =>
    obtain ⟨y, s1, h1, h2⟩ := bind_run_ok.1 h
    obtain rfl := hf x s y s1 h1
    obtain ⟨ys, s2, h3, h4⟩ := bind_run_ok.1 h2
    cases h4
    obtain ⟨e, b', h5, q⟩ := ih h3
    exact ⟨e, y :: b', bind_run_ok.2 ⟨y, _, h1, bind_run_ok.2 ⟨b', _, h5, rfl⟩⟩, q.cons y⟩
  | swap x y l =>
    obtain ⟨a, s1, h1, h2⟩ := bind_run_ok.1 h
    obtain rfl := hf _ s a s1 h1
    obtain ⟨as, s2, h3, h4⟩ := bind_run_ok.1 h2
    cases h4
    obtain ⟨c, s3, h5, h6⟩ := bind_run_ok.1 h3
    obtain rfl := hf _ s1 c s3 h5
    obtain ⟨cs, s4, h7, h8⟩ := bind_run_ok.1 h6
    cases h8
    have e : ∀ (l : List α) (s r : St K) (b : List β), mapEach f l s = .ok (b, r) → r = s := by
      intro l
      induction l with
      | nil => intro s r b h; cases h; rfl
      | cons z zs ih =>
        intro s r b h
        obtain ⟨a, s1, h1, h2⟩ := bind_run_ok.1 h
        obtain rfl := hf _ s a s1 h1
        obtain ⟨as, s2, h3, h4⟩ := bind_run_ok.1 h2
        cases h4
        exact ih _ _ _ h3
    refine ⟨e _ _ _ _ h7, c :: a :: cs, bind_run_ok.2 ⟨c, _, h5, bind_run_ok.2 ⟨a :: cs, _, bind_run_ok.2 ⟨a, _, h1,
      bind_run_ok.2 ⟨cs, _, h7, rfl⟩⟩, rfl⟩⟩, .swap _ _ _⟩
  | trans _ _ ih1 ih2 =>
    obtain ⟨e1, b1, h1, q1⟩ := ih1 h
    obtain ⟨e2, b2, h2, q2⟩ := ih2 h1
    exact ⟨e1, b2, h2, q1.trans q2⟩

theorem checkAllStopped_perm {l l' : List TId} (p : l.Perm l') {s r : St K} (h : checkAllStopped l s = .ok ((), r)) :
    checkAllStopped l' s = .ok ((), r) := by
  obtain ⟨b, s1, h1, h2⟩ := bind_run_ok.1 h
  obtain ⟨rfl, b', h3, q⟩ := mapEach_looks looks_leftOver p h1
  refine bind_run_ok.2 ⟨b', s1, h3, ?_⟩
  have e : b.any id = b'.any id := by
    rw [Bool.eq_iff_iff, List.any_eq_true, List.any_eq_true]
    simp only [q.mem_iff]
  rw [e] at h2
  exact h2

theorem checkBisectors_perm {l l' : List TId} (p : l.Perm l') {now : K} {s r : St K}
    (h : checkBisectors l now s = .ok ((), r)) : checkBisectors l' now s = .ok ((), r) :=
  forEach_perm (fun _ => (looks_getT _).bind fun _ => .ite (.forEach (fun _ => .ite (looks_bisector _ _ _) (.pure _)) _)
    (.pure _)) p h

theorem checkOrientation_perm {l l' : List TId} (p : l.Perm l') {now : K} {s r : St K}
    (h : checkOrientation l now s = .ok ((), r)) : checkOrientation l' now s = .ok ((), r) :=
  forEach_perm (fun _ => (looks_getT _).bind fun _ => .ite ((looks_positionAt _ _).bind fun _ =>
    (looks_positionAt _ _).bind fun _ => (looks_positionAt _ _).bind fun _ => (looks_getV _).bind fun _ =>
    (looks_getV _).bind fun _ => (looks_getV _).bind fun _ => .ite (looks_assertM _) (looks_assertM _)) (.pure _)) p h

/-! ### the run -/

theorem looks_checkAllStopped {l : List TId} {s r : St K} (h : checkAllStopped l s = .ok ((), r)) : r = s := by
  obtain ⟨b, s1, h1, h2⟩ := bind_run_ok.1 h
  obtain ⟨rfl, -⟩ := mapEach_looks looks_leftOver (.refl l) h1
  split at h2 <;> cases h2
  rfl

theorem loop_triangles [HasSqrt K] [HasTrig K] {depth fuel : ℕ} {step : ℤ} {now end' : K} {s r : St K}
    (h : loop depth fuel step now s = .ok (end', r)) : r.skTriangles = s.skTriangles ∧ s.nE ≤ r.nE := by
  have hs := rn_loop (ρ := Equiv.refl ℕ) (L := s.skTriangles) depth fuel step now s fun _ _ => rfl
  rw [renamed_same, h] at hs
  refine ⟨?_, hs.2 _ rfl⟩
  have e : (end', r) = (end', renamedState (Equiv.refl ℕ) s.skTriangles r) := Except.ok.inj hs.1
  have e := congrArg (fun x => x.2.skTriangles) e
  exact e

theorem eventLoop_renamed [HasSqrt K] [HasTrig K] {depth : ℕ} {s r : St K} {now : K} {ρ : Equiv.Perm ℕ} {L : List TId}
    (hρ : ∀ n, s.nE ≤ n → ρ n = n) (p : s.skTriangles.Perm L) (h : eventLoop depth s = .ok (now, r)) :
    eventLoop depth (renamedState ρ L s) = .ok (now, renamedState ρ L r) := by
  unfold eventLoop at h ⊢
  obtain ⟨_, s1, h1, h⟩ := bind_run_ok.1 h
  cases h1
  obtain ⟨ts, s2, h2, h⟩ := bind_run_ok.1 h
  cases h2
  obtain ⟨_, s3, h3, h⟩ := bind_run_ok.1 h
  obtain ⟨_, s4, h4, h⟩ := bind_run_ok.1 h
  obtain ⟨now', s5, h5, h⟩ := bind_run_ok.1 h
  obtain ⟨ts', s6, h6, h⟩ := bind_run_ok.1 h
  cases h6
  obtain ⟨_, s7, h7, h⟩ := bind_run_ok.1 h
  cases h
  have hb := checkBisectors_perm p h3
  have ho := checkOrientation_perm p h4
  have b := rn_checkBisectors (ρ := ρ) (L := L) L 0 { s with immediate := [] } hρ
  rw [hb] at b
  have r3 : ∀ n, s3.nE ≤ n → ρ n = n := fun n hn => hρ n ((b.2 _ rfl).trans hn)
  have o := rn_checkOrientation (ρ := ρ) (L := L) L 0 s3 r3
  rw [ho] at o
  have r4 : ∀ n, s4.nE ≤ n → ρ n = n := fun n hn => r3 n ((o.2 _ rfl).trans hn)
  have l := rn_loop (ρ := ρ) (L := L) depth 50000 0 0 s4 r4
  rw [h5] at l
  have r5 : ∀ n, s5.nE ≤ n → ρ n = n := fun n hn => r4 n ((l.2 _ rfl).trans hn)
  have e3 : s3 = { s with immediate := [] } := ((forEach_looks (fun _ => (looks_getT _).bind fun _ =>
    .ite (.forEach (fun _ => .ite (looks_bisector _ _ _) (.pure _)) _) (.pure _)) _ _ _).1 h3).1
  have e4 : s4 = s3 := ((forEach_looks (fun _ => (looks_getT _).bind fun _ => .ite ((looks_positionAt _ _).bind fun _ =>
    (looks_positionAt _ _).bind fun _ => (looks_positionAt _ _).bind fun _ => (looks_getV _).bind fun _ =>
    (looks_getV _).bind fun _ => (looks_getV _).bind fun _ => .ite (looks_assertM _) (looks_assertM _)) (.pure _)) _ _ _).1 h4).1
  have p' : s5.skTriangles.Perm L := by
    rw [(loop_triangles h5).1, e4, e3]
    exact p
  have hc := checkAllStopped_perm p' h7
  have c := rn_checkAllStopped (ρ := ρ) (L := L) L s5 r5
  rw [hc] at c
  exact bind_run_ok.2 ⟨(), renamedState ρ L { s with immediate := [] }, rfl, bind_run_ok.2 ⟨L, _, rfl,
    bind_run_ok.2 ⟨(), _, b.1, bind_run_ok.2 ⟨(), _, o.1, bind_run_ok.2 ⟨now, _, l.1, bind_run_ok.2 ⟨L, _, rfl,
      bind_run_ok.2 ⟨(), _, c.1, rfl⟩⟩⟩⟩⟩⟩⟩

/-- **C108.**  A run that succeeds succeeds with every other order of the triangles: it ends at the same time, with the
same state except that the events carry other identities. -/
theorem C108_run [HasSqrt K] [HasTrig K] {depth : ℕ} {s r : St K} {now : K} (fresh : ∀ t, (s.tri t).event = none)
    (idle : s.immediate = []) {L : List TId} (p : s.skTriangles.Perm L) (h : runEvents depth s = .ok (now, r)) :
    ∃ ρ : Equiv.Perm ℕ, runEvents depth { s with skTriangles := L } = .ok (now, renamedState ρ L r) := by
  unfold runEvents at h ⊢
  split at h
  · cases h
  · rename_i u s1 h1
    unfold initEventList at h1
    obtain ⟨_, s0, h0, h1⟩ := bind_run_ok.1 h1
    cases h0
    obtain ⟨ts, s0, h0, h1⟩ := bind_run_ok.1 h1
    cases h0
    have k : Known { s with queue := [] } := by
      refine ⟨fun t e q => ?_, fun e he => ?_, fun e he => ?_⟩
      · exact absurd (q.symm.trans (fresh t)) (by simp)
      · cases he
      · have he : e ∈ s.immediate := he
        rw [idle] at he
        cases he
    obtain ⟨ρ, hρ, h2⟩ := forEach_init_perm p k h1
    obtain ⟨-, esk, -⟩ := forEach_init_known h1 k
    have h3 := (Ren.forEach (ρ := Equiv.refl ℕ) (L := L) (fun t => rn_initEvent t) L { s with queue := [] } fun _ _ => rfl).1
    rw [h2, renamed_same] at h3
    have h4 : initEventList { s with skTriangles := L } = .ok ((), renamedState ρ L s1) := by
      unfold initEventList
      refine bind_run_ok.2 ⟨(), _, rfl, bind_run_ok.2 ⟨L, _, rfl, h3.trans ?_⟩⟩
      show Except.ok ((), renamedState (Equiv.refl ℕ) L (renamedState ρ s.skTriangles s1)) = _
      rw [renamed_comp]
      rfl
    rw [h4]
    refine ⟨ρ, eventLoop_renamed hρ ?_ h⟩
    rw [esk]
    exact p

theorem segments_renamed (ρ : Equiv.Perm ℕ) (L : List TId) (s : St K) : segments (renamedState ρ L s) = segments s := by
  have h : ∀ l acc, segmentsLoop (renamedState ρ L s) l acc = segmentsLoop s l acc := by
    intro l
    induction l with
    | nil => exact fun _ => rfl
    | cons v vs ih =>
      intro acc
      have e : segmentOf (renamedState ρ L s) v = segmentOf s v := rfl
      unfold segmentsLoop
      rw [e]
      cases segmentOf s v with
      | error x => rfl
      | ok o =>
        cases o with
        | none => exact ih _
        | some g => exact ih _
  exact h _ _

/-- C108: so the skeleton - its nodes, vertices and segments - is the same. -/
theorem C108_skeleton [HasSqrt K] [HasTrig K] {depth : ℕ} {s r : St K} {now : K} (fresh : ∀ t, (s.tri t).event = none)
    (idle : s.immediate = []) {L : List TId} (p : s.skTriangles.Perm L) (h : runEvents depth s = .ok (now, r)) :
    ∃ q, runEvents depth { s with skTriangles := L } = .ok (now, q) ∧ q.vert = r.vert ∧ q.node = r.node ∧
      q.skNodes = r.skNodes ∧ q.skVertices = r.skVertices ∧ segments q = segments r := by
  obtain ⟨ρ, e⟩ := C108_run fresh idle p h
  exact ⟨_, e, rfl, rfl, rfl, rfl, segments_renamed ρ L r⟩

/-! ### `calc_skel` -/

theorem initSkeleton_fresh [HasSqrt K] {dt : Dt K} {pyid : TId → ℕ} {s : St K} (h : initSkeleton dt pyid = .ok s) :
    (∀ t, (s.tri t).event = none) ∧ s.immediate = [] := by
  unfold initSkeleton at h
  obtain ⟨ts, h1, h⟩ := bindE_ok h
  obtain ⟨vs, h2, h⟩ := bindE_ok h
  obtain ⟨_, h3, h⟩ := bindE_ok h
  unfold finishSkeleton at h
  obtain ⟨_, h4, h⟩ := bindE_ok h
  obtain ⟨_, h5, h⟩ := bindE_ok h
  obtain ⟨_, h6, h⟩ := bindE_ok h
  obtain ⟨_, h7, h⟩ := bindE_ok h
  obtain ⟨links, h8, h⟩ := bindE_ok h
  obtain ⟨_, h9, h⟩ := bindE_ok h
  obtain ⟨keys, h10, h⟩ := bindE_ok h
  dsimp only at h
  split_ifs at h with hc
  cases h
  refine ⟨fun t => ?_, rfl⟩
  unfold initState
  dsimp only
  split <;> rfl

theorem prepare_fresh {s : St K} (internal : Bool) (tr : Option (Transform K))
    (h : (∀ t, (s.tri t).event = none) ∧ s.immediate = []) :
    (∀ t, ((prepare internal tr s).tri t).event = none) ∧ (prepare internal tr s).immediate = [] := by
  cases internal <;> cases tr <;> exact h

/-- **C108, `calc_skel`.**  When `calc_skel` succeeds, then from the state it starts the events with, every order of the
triangles gives the same skeleton at the same time: the sort of initialize.py:692 has no influence. -/
theorem C108_calc [HasSqrt K] [HasTrig K] {depth : ℕ} {pyid : TId → ℕ}
    {triangulate : List (Pt K) → Except Err (Dt K)} {points : List (Pt K)} {shrink internal : Bool} {now : K} {r : St K}
    (h : calcSkel depth pyid triangulate points shrink internal = .ok (now, r)) :
    ∃ x dt s, shrinkPoints shrink points = .ok x ∧ triangulate x.1 = .ok dt ∧ initSkeleton dt pyid = .ok s ∧
      ∀ L, (prepare internal x.2 s).skTriangles.Perm L →
        ∃ q, runEvents depth { prepare internal x.2 s with skTriangles := L } = .ok (now, q) ∧ q.vert = r.vert ∧
          q.node = r.node ∧ q.skNodes = r.skNodes ∧ q.skVertices = r.skVertices ∧ segments q = segments r := by
  unfold calcSkel at h
  obtain ⟨x, h1, h⟩ := bindE_ok h
  obtain ⟨dt, h2, h⟩ := bindE_ok h
  obtain ⟨s, h3, h⟩ := bindE_ok h
  obtain ⟨_, h4, h⟩ := bindE_ok h
  have f := prepare_fresh internal x.2 (initSkeleton_fresh h3)
  exact ⟨x, dt, s, liftE_ok h1, liftE_ok h2, h3, fun L p => C108_skeleton f.1 f.2 p h⟩

/-! ### the hypotheses are met -/

/-- the rectangle of 4 by 2, just before the events, with the triangles in any order: one of two triangles first -/
def Sample.startOf : Option (St ℚ) :=
  match shrinkPoints true [((0 : ℚ), 0), (4, 0), (4, 2), (0, 2)] with
  | .error _ => none
  | .ok x =>
    match Sample.triangulate x.1 with
    | .error _ => none
    | .ok dt =>
      match initSkeleton dt id with
      | .error _ => none
      | .ok s => some (prepare true x.2 s)

/-- what the theorem says of the rectangle: the start is fresh, its run succeeds, and so it does with the triangles in the
reverse order -/
example : (match Sample.startOf with
    | some s => decide (s.skTriangles.length = 2) && decide (s.immediate = []) &&
        s.skTriangles.all (fun t => (s.tri t).event.isNone) && (match runEvents 1 s with | .ok _ => true | .error _ => false) &&
        (match runEvents 1 { s with skTriangles := s.skTriangles.reverse } with | .ok _ => true | .error _ => false)
    | none => false) = true := by decide +kernel

end Grassfire
