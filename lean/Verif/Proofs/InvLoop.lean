/-
The invariant of the event loop: initialisation, executions, the complete loop.
-/
import Verif.Proofs.InvEvents
import Verif.Proofs.LoopLemmas

set_option linter.unusedSectionVars false

namespace Grassfire

open Spec

variable {K : Type} [Field K] [LinearOrder K] {α β : Type} {N : Prop}

/-! ### `init_event_list` -/

/-- the state delivered by `init_skeleton` meets the invariant once the queue is created -/
theorem Spec.Initial.inv {s : St K} (h : Initial s) : Inv (Numbered s) 0 { s with queue := [] } := by
  have np : pending { s with queue := [] } = [] := by
    unfold pending; dsimp only; rw [h.immediate]; rfl
  have hlen : Numbered s → ∀ i, i < s.skVertices.length →
      (s.skVertices.map (infoOf s))[i]? = some (some (i + 1)) := by
    intro n i hi
    rw [show s.skVertices.map (infoOf s) = _ from n, List.getElem?_map, List.getElem?_range hi]
    rfl
  refine { refs := { h.refs with }, lives := ?_, hist := h.hist, own := ?_, eids := ?_, current := ?_,
           once := ?_, ordered := List.Pairwise.nil, ids := h.ids, queued := ?_, immediate := ?_,
           numbered := ?_, distinct := ?_ }
  · intro v kv hv hk
    obtain ⟨h1, h2, h3, h4⟩ := h.lives v kv hv hk
    refine ⟨⟨0, h1, le_rfl⟩, h2, by rw [h3, h4]; exact Iff.rfl, ?_, ?_⟩
    · intro a b _ hb; rw [h3] at hb; cases hb
    · intro n hn; rw [h4] at hn; cases hn
  · intro t ht e he; rw [h.events t ht] at he; cases he
  · intro t u ht _ e f he; rw [h.events t ht] at he; cases he
  · intro e he; rw [np] at he; cases he
  · rw [np]; exact List.nodup_nil
  · intro e he; cases he
  · intro e he; dsimp only at he; rw [h.immediate] at he; cases he
  · intro v hv
    dsimp only at hv
    obtain ⟨kv, hk⟩ := h.kinetic v hv
    refine ⟨kv, hk, fun n => ?_⟩
    obtain ⟨i, hi, hiv⟩ := List.getElem_of_mem hv
    have := hlen n i hi
    rw [List.getElem?_map, List.getElem?_eq_getElem hi, hiv, Option.map_some] at this
    have := Option.some.inj this
    unfold infoOf at this
    rw [hk] at this
    have := Option.some.inj this
    dsimp only
    omega
  · intro n
    have : DistinctInfos s := by
      unfold DistinctInfos
      rw [show s.skVertices.map (infoOf s) = _ from n]
      refine List.Nodup.map ?_ List.nodup_range
      intro a b hab
      have := Option.some.inj hab
      omega
    exact this

section
variable [IsStrictOrderedRing K] [HasSqrt K]

theorem i_triView_run {t : TId} {s s' : St K} {x} (h : (triView t : M K _) s = .ok (x, s')) : s' = s := by
  unfold triView at h
  by_cases h1 : t < s.nT
  · rw [if_pos h1] at h
    dsimp only at h
    split_ifs at h
    cases h; rfl
  · rw [if_neg h1] at h; cases h

/-- the event of one triangle is computed and queued; other triangles do not change -/
theorem initEvent_other {t : TId} {s s' : St K} (h : initEvent t s = .ok ((), s')) :
    s'.nT = s.nT ∧ ∀ u, u ≠ t → s'.tri u = s.tri u := by
  unfold initEvent computeCollapseTime at h
  obtain ⟨e, s1, h1, h2⟩ := bind_run_ok.1 h
  obtain ⟨view, s2, h3, h4⟩ := bind_run_ok.1 h1
  obtain rfl := i_triView_run h3
  obtain ⟨c, s3, h5, h6⟩ := bind_run_ok.1 h4
  obtain ⟨-, rfl⟩ := lift_run_ok.1 h5
  have h12 : s1.nT = s2.nT ∧ ∀ u, u ≠ t → s1.tri u = s2.tri u := by
    cases c with
    | none => cases h6; exact ⟨rfl, fun _ _ => rfl⟩
    | some c =>
      unfold storeEvent at h6
      obtain ⟨e', s4, h7, h8⟩ := bind_run_ok.1 h6
      obtain ⟨rfl, rfl⟩ := newEvent_run_ok.1 h7
      obtain ⟨_, s5, h9, h10⟩ := bind_run_ok.1 h8
      obtain ⟨-, rfl⟩ := pure_run_ok.1 h10
      unfold setEvent at h9
      obtain ⟨-, rfl⟩ := modifyT_run_ok.1 h9
      exact ⟨rfl, fun u hu => by dsimp only; rw [Function.update_of_ne hu]⟩
  have h23 : s'.nT = s1.nT ∧ s'.tri = s1.tri := by
    cases e with
    | none => cases h2; exact ⟨rfl, rfl⟩
    | some e =>
      unfold addEvent queueAdd at h2
      dsimp only at h2
      split_ifs at h2
      cases h2; exact ⟨rfl, rfl⟩
  exact ⟨h23.1.trans h12.1, fun u hu => by rw [h23.2]; exact h12.2 u hu⟩

theorem i_initEvents (ts : List TId) (hnd : ts.Nodup) : ∀ {s : St K}, Inv N 0 s →
    (∀ t ∈ ts, t < s.nT ∧ (s.tri t).event = none) →
    wp (forEach initEvent ts) (fun _ s' => Inv N 0 s') s := by
  induction ts with
  | nil => intro s h _; exact h
  | cons t ts ih =>
    intro s h ht
    have h0 := ht t (List.mem_cons_self ..)
    have hi : wp (initEvent t) (fun _ s' => Inv N 0 s') s := by
      refine wp_inv (i_computeAndAdd h h0.1 (h.noPending_of_none h0.2) .gt) ?_
      exact g_initEvent t
    refine wp_bind.2 (wp_mono hi fun _ s' hm h' => ?_)
    obtain ⟨hn, hu⟩ := initEvent_other hm
    refine ih (List.nodup_cons.1 hnd).2 h' fun u hmu => ?_
    have hne : u ≠ t := fun e => (List.nodup_cons.1 hnd).1 (e ▸ hmu)
    rw [hn, hu u hne]
    exact ht u (List.mem_cons_of_mem _ hmu)

theorem i_initEventList {s : St K} (h : Initial s) :
    wp initEventList (fun _ s' => Inv (Numbered s) 0 s') s := by
  unfold initEventList
  refine wp_bind.2 (show wp clearQueue _ s from ?_)
  unfold wp clearQueue
  dsimp only
  refine wp_bind.2 ?_
  unfold wp skelTriangles
  dsimp only
  exact i_initEvents _ h.triangles h.inv fun t ht => ⟨h.refs.skTriangles t ht, h.events t (h.refs.skTriangles t ht)⟩

/-! ### executions -/

variable [HasTrig K]

/-- the invariant holds after every iteration, and time does not run backwards -/
theorem run_inv {depth : ℕ} {s0 s : St K} {now0 now : K} {n : ℕ} {tr : List (Event K × K)}
    (hr : Run depth s0 now0 n now s tr) (h : Inv N now0 s0) :
    Inv N now s ∧ now0 ≤ now ∧ (∀ x ∈ tr, x.1.time = x.2 ∧ now0 ≤ x.2 ∧ x.2 ≤ now) ∧
    (tr.map (·.2)).Pairwise (· ≤ ·) ∧ (tr.getLast?.map (·.2)).getD now0 = now := by
  induction hr with
  | start => exact ⟨h, le_rfl, by simp, by simp, by simp⟩
  | @step n now now' s s' tr e _ hs ih =>
    obtain ⟨i1, i2, i3, i4, -⟩ := ih
    have := wp_ok (i_loopStep depth (n + 1 : ℕ) i1) hs
    obtain ⟨j1, j2, j3⟩ := this
    refine ⟨j1, i2.trans j3, ?_, ?_, by simp⟩
    · intro x hx
      rcases List.mem_append.1 hx with hx | hx
      · exact ⟨(i3 x hx).1, (i3 x hx).2.1, (i3 x hx).2.2.trans j3⟩
      · rw [List.mem_singleton.1 hx]; exact ⟨j2, i2.trans j3, le_rfl⟩
    · rw [List.map_append, List.map_singleton, List.pairwise_append]
      refine ⟨i4, List.pairwise_singleton _ _, ?_⟩
      intro a ha b hb
      obtain ⟨x, hx, rfl⟩ := List.mem_map.1 ha
      rw [List.mem_singleton.1 hb]
      exact (i3 x hx).2.2.trans j3

theorem i_loop (depth fuel : ℕ) : ∀ (step : ℤ) {now : K} {s : St K}, Inv N now s →
    wp (loop depth fuel step now) (fun now' s' => Inv N now' s') s := by
  induction fuel with
  | zero =>
    intro step now s h
    unfold wp loop
    split_ifs
    · exact h
    · trivial
  | succ n ih =>
    intro step now s h
    unfold loop
    refine wp_bind.2 (wp_mono (i_loopStep depth (step + 1) h) ?_)
    rintro x s1 - h1
    cases x with
    | none => rw [h1]; exact h
    | some y => exact ih _ h1.1

/-! ### the checks -/

theorem i_checkBisectorDirection {s : St K} {now time : K} (h : Inv N now s) {t : TId} (ht : t < s.nT)
    (side : Fin 3) : wp (checkBisectorDirection t side time) (fun _ s' => s' = s) s := by
  unfold checkBisectorDirection
  refine wp_bind.2 (wp_getT ht ?_)
  dsimp only
  refine wp_bind.2 (wp_positionAt (h.refs.vertices t ht _) fun _ => ?_)
  refine wp_bind.2 (wp_mono (i_velocityOf (h.refs.vertices t ht _)) ?_)
  rintro _ _ - rfl
  refine wp_bind.2 (wp_positionAt (h.refs.vertices t ht _) fun _ => ?_)
  exact wp_assertM fun _ => rfl

theorem i_checkBisectors {s : St K} {now time : K} (h : Inv N now s) {ts : List TId}
    (ht : ∀ t ∈ ts, t < s.nT) : wp (checkBisectors ts time) (fun _ s' => s' = s) s := by
  unfold checkBisectors
  refine wp_forEach ?_ rfl
  rintro t hm _ rfl
  refine wp_bind.2 (wp_getT (ht t hm) ?_)
  split_ifs
  · refine wp_forEach ?_ rfl
    rintro side - _ rfl
    split_ifs
    · exact i_checkBisectorDirection h (ht t hm) side
    · rfl
  · rfl

theorem i_checkOrientation {s : St K} {now time : K} (h : Inv N now s) {ts : List TId}
    (ht : ∀ t ∈ ts, t < s.nT) : wp (checkOrientation ts time) (fun _ s' => s' = s) s := by
  unfold checkOrientation
  refine wp_forEach ?_ rfl
  rintro t hm _ rfl
  refine wp_bind.2 (wp_getT (ht t hm) ?_)
  have hv := h.refs.vertices t (ht t hm)
  split_ifs
  · refine wp_bind.2 (wp_positionAt (hv _) fun _ => ?_)
    refine wp_bind.2 (wp_positionAt (hv _) fun _ => ?_)
    refine wp_bind.2 (wp_positionAt (hv _) fun _ => ?_)
    refine wp_bind.2 (wp_getV (hv _) ?_)
    refine wp_bind.2 (wp_getV (hv _) ?_)
    refine wp_bind.2 (wp_getV (hv _) ?_)
    dsimp only
    split_ifs
    · exact wp_assertM fun _ => rfl
    · exact wp_assertM fun _ => rfl
  · rfl

theorem i_checkAllStopped {s : St K} {now : K} (h : Inv N now s) {ts : List TId}
    (ht : ∀ t ∈ ts, t < s.nT) : wp (checkAllStopped ts) (fun _ s' => s' = s) s := by
  unfold checkAllStopped
  refine wp_bind.2 (wp_mono (wp_mapEach (P := fun s' => s' = s) ?_ rfl) ?_)
  · rintro t hm _ rfl
    unfold leftOver
    refine wp_bind.2 (wp_getT (ht t hm) ?_)
    have hv := h.refs.vertices t (ht t hm)
    refine wp_bind.2 (wp_getV (hv _) ?_)
    refine wp_bind.2 (wp_getV (hv _) ?_)
    refine wp_bind.2 (wp_getV (hv _) ?_)
    rfl
  · rintro l _ - rfl
    split_ifs
    · exact wp_raise
    · rfl

/-- the complete loop -/
theorem i_eventLoop (depth : ℕ) {s : St K} (h : Inv N 0 s) :
    wp (eventLoop depth) (fun now s' => Inv N now s') s := by
  have h0 : Inv N 0 { s with immediate := [] } := h.sub (List.Sublist.refl _) (List.nil_sublist _)
  unfold eventLoop
  refine wp_bind.2 (show wp clearImmediate _ s from ?_)
  unfold wp clearImmediate
  dsimp only
  refine wp_bind.2 ?_
  unfold wp skelTriangles
  dsimp only
  refine wp_bind.2 (wp_mono (i_checkBisectors h0 h0.refs.skTriangles) ?_)
  rintro _ _ - rfl
  refine wp_bind.2 (wp_mono (i_checkOrientation h0 h0.refs.skTriangles) ?_)
  rintro _ _ - rfl
  refine wp_bind.2 (wp_mono (i_loop depth 50000 0 h0) ?_)
  rintro now s1 - h1
  refine wp_bind.2 ?_
  unfold wp
  dsimp only
  refine wp_bind.2 (wp_mono (i_checkAllStopped h1 h1.refs.skTriangles) ?_)
  rintro _ _ - rfl
  exact h1

end

end Grassfire
