/-
The invariant of the event loop: events and queues.
-/
import Verif.Proofs.InvBasics

set_option linter.unusedSectionVars false

namespace Grassfire

open Spec

variable {K : Type} [Field K] [LinearOrder K] {α β : Type} {N : Prop}

section
variable {L : VId → KVertex K → Prop} {now : K} {s : St K}

/-- after the event of a triangle has been removed from both queues, none of its events is left -/
theorem InvL.discarded (h : InvL N L now s) {t : TId} {e : Event K}
    (he : (s.tri t).event = some e) :
    NoPending t { s with
      queue := s.queue.filter fun x => decide (compareEvents s.pyid e x ≠ 0)
      immediate := s.immediate.eraseP fun x => decide (x.eid = e.eid) } := by
  intro f hf hft
  have only : ∀ f ∈ pending s, f.tri = t → f = e := fun f hf hft => by
    have := (h.current f hf).2
    rw [hft, he] at this
    exact (Option.some.inj this).symm
  rcases List.mem_append.1 hf with hf | hf
  · have hf' : f ∈ s.immediate := List.mem_of_mem_eraseP hf
    obtain rfl := only f (List.mem_append_left _ hf') hft
    -- the first one with this identity is the event itself, and it occurs once
    have nd : (s.immediate.map (·.tri)).Nodup := by
      have := h.once; unfold pending at this; rw [List.map_append, List.nodup_append] at this
      exact this.1
    obtain ⟨x, l₁, l₂, h1, h2, h3, h4⟩ := List.exists_of_eraseP (p := fun x : Event K => decide (x.eid = f.eid)) hf' (by simp)
    dsimp only at hf
    rw [h4] at hf
    have hx : x ∈ s.immediate := by rw [h3]; simp
    have hxe : x.eid = f.eid := by simpa using h2
    have c1 := h.current x (List.mem_append_left _ hx)
    have c2 := h.current f (List.mem_append_left _ hf')
    have hxt := h.eids _ _ c1.1 c2.1 _ _ c1.2 c2.2 hxe
    rw [h3, List.map_append, List.map_cons, List.nodup_append] at nd
    rcases List.mem_append.1 hf with hf | hf
    · exact nd.2.2 _ (List.mem_map_of_mem hf) _ (List.mem_cons_self ..) hxt.symm
    · exact (List.nodup_cons.1 nd.2.1).1 (hxt ▸ List.mem_map_of_mem hf)
  · have hf' := List.mem_filter.1 hf
    obtain rfl := only f (List.mem_append_right _ hf'.1) hft
    have := of_decide_eq_true hf'.2
    exact this (C31_refl _ _)

theorem InvL.noPending_of_none (h : InvL N L now s) {t : TId}
    (he : (s.tri t).event = none) : NoPending t s := by
  intro f hf hft
  have := (h.current f hf).2
  rw [hft, he] at this
  cases this

theorem i_discardEvent (h : InvL N L now s) (t : TId) :
    wp (discardEvent (s.tri t).event)
      (fun _ s' => InvL N L now s' ∧ NoPending t s' ∧ ∃ q i, s' = { s with queue := q, immediate := i }) s := by
  cases he : (s.tri t).event with
  | none => exact ⟨h, h.noPending_of_none he, s.queue, s.immediate, rfl⟩
  | some e =>
    exact ⟨h.sub List.filter_sublist List.eraseP_sublist, h.discarded he, _, _, rfl⟩

/-- the event of a triangle without other pending events is added -/
theorem InvL.add (h : InvL N L now s) {t : TId} (ht : t < s.nT) (hp : NoPending t s) {e : Event K}
    (he : (s.tri t).event = some e) (hn : now ≤ e.time) :
    wp (queueAdd e) (fun _ s' => InvL N L now s') s := by
  have htri := (h.own t ht e he).1
  have new : ∀ x ∈ s.queue, compareEvents s.pyid e x ≠ 0 := by
    intro x hx hc
    have hx' : x ∈ pending s := List.mem_append_right _ hx
    have hxt := hp x hx'
    rw [C31_zero_iff s.pyid e x (fun hid => h.ids _ _ (htri ▸ ht) (h.current x hx').1 hid)] at hc
    exact hxt (hc.2.2.symm.trans htri)
  have ord := C31_add_ordered s.pyid e s.queue h.ordered new
  unfold wp queueAdd
  rw [if_neg]
  · dsimp only
    have hperm : (pending { s with queue := queueInsert s.pyid e s.queue }).Perm (e :: pending s) := by
      unfold pending
      dsimp only
      exact (List.Perm.append_left _ ord.2).trans List.perm_middle
    refine { h with
      refs := { h.refs with }, current := ?_, once := ?_, ordered := ord.1, queued := ?_ }
    · intro f hf
      rcases List.mem_cons.1 (hperm.subset hf) with rfl | hf
      · exact ⟨by dsimp only; rw [htri]; exact ht, by dsimp only; rw [htri]; exact he⟩
      · exact h.current f hf
    · rw [(hperm.map _).nodup_iff, List.map_cons, List.nodup_cons]
      refine ⟨?_, h.once⟩
      intro hm
      obtain ⟨f, hf, hft⟩ := List.mem_map.1 hm
      exact hp f hf (hft.trans htri)
    · intro f hf
      rcases (mem_queueInsert _ _ _ _).1 hf with rfl | hf
      · exact hn
      · exact h.queued f hf
  · rw [List.any_eq_true]
    rintro ⟨x, hx, hc⟩
    exact new x hx (of_decide_eq_true hc)

theorem InvL.append (h : InvL N L now s) {t : TId} (ht : t < s.nT) (hp : NoPending t s) {e : Event K}
    (he : (s.tri t).event = some e) (hn : e.time = now) :
    wp (immediateAppend e) (fun _ s' => InvL N L now s') s := by
  have htri := (h.own t ht e he).1
  have hperm : (pending { s with immediate := s.immediate ++ [e] }).Perm (e :: pending s) := by
    unfold pending
    dsimp only
    rw [List.append_assoc]
    exact List.perm_middle
  unfold wp immediateAppend
  dsimp only
  refine { h with
    refs := { h.refs with }, current := ?_, once := ?_, immediate := ?_ }
  · intro f hf
    rcases List.mem_cons.1 (hperm.subset hf) with rfl | hf
    · exact ⟨by dsimp only; rw [htri]; exact ht, by dsimp only; rw [htri]; exact he⟩
    · exact h.current f hf
  · rw [(hperm.map _).nodup_iff, List.map_cons, List.nodup_cons]
    refine ⟨?_, h.once⟩
    intro hm
    obtain ⟨f, hf, hft⟩ := List.mem_map.1 hm
    exact hp f hf (hft.trans htri)
  · intro f hf
    rcases List.mem_append.1 hf with hf | hf
    · exact h.immediate f hf
    · rw [List.mem_singleton.1 hf]; exact hn

theorem i_triView (h : InvL N L now s) {t : TId} (ht : t < s.nT) :
    wp (triView t) (fun _ s' => s' = s) s := by
  unfold wp triView
  rw [if_pos ht]
  dsimp only
  rw [if_pos ⟨h.refs.vertices t ht 0, h.refs.vertices t ht 1, h.refs.vertices t ht 2⟩]

/-- a computed event is stored and added -/
theorem i_storeAndAdd (h : InvL N L now s) {t : TId} (ht : t < s.nT) (hp : NoPending t s)
    (c : Option (EvCore K)) (hc : ∀ e, c = some e → now ≤ e.time) :
    wp (storeEvent c t >>= addEvent) (fun _ s' => InvL N L now s') s := by
  cases c with
  | none => exact h
  | some c =>
    refine wp_bind.2 ?_
    have h' := h.store hp (e := { c with eid := s.nE, tri := t }) rfl rfl
    unfold storeEvent
    dsimp only
    refine wp_bind.2 (show wp (newEvent c t) _ s from ?_)
    unfold wp newEvent
    dsimp only
    refine wp_bind.2 ?_
    unfold setEvent
    refine wp_modifyT ht ?_
    refine h'.add ht hp ?_ (hc c rfl)
    dsimp only
    rw [Function.update_self]

section
variable [IsStrictOrderedRing K] [HasSqrt K]

theorem i_computeAndAdd (h : InvL N L now s) {t : TId} (ht : t < s.nT) (hp : NoPending t s)
    (sv : Sieve) :
    wp (computeCollapseTime t now sv >>= addEvent) (fun _ s' => InvL N L now s') s := by
  unfold computeCollapseTime
  rw [bind_assoc]
  refine wp_bind.2 (wp_mono (i_triView h ht) fun view s' _ hs => ?_)
  subst hs
  rw [bind_assoc]
  refine wp_bind.2 (wp_lift fun c hc => ?_)
  refine i_storeAndAdd h ht hp c fun e he => ?_
  subst he
  exact (computeCollapse_evOk view now sv e hc).2.time

theorem i_replaceInQueue (h : InvL N L now s) {t : TId} (ht : t < s.nT) :
    wp (replaceInQueue t now) (fun _ s' => InvL N L now s') s := by
  unfold replaceInQueue
  refine wp_bind.2 (wp_getT ht ?_)
  refine wp_bind.2 (wp_mono (i_discardEvent h t) ?_)
  rintro _ s' - ⟨h', hp, q, i, rfl⟩
  exact i_computeAndAdd h' ht hp .gte

theorem i_renewEvent (h : InvL N L now s) (b : Bool) {t : TId} (ht : t < s.nT) :
    wp (renewEvent b t now) (fun _ s' => InvL N L now s') s := by
  unfold renewEvent
  refine wp_bind.2 (wp_getT ht ?_)
  split_ifs
  · exact wp_mono (i_discardEvent h t) fun _ _ _ h => h.1
  · exact i_replaceInQueue h ht

theorem i_scheduleImmediately (h : InvL N L now s) {t : TId} (ht : t < s.nT) :
    wp (scheduleImmediately t now) (fun _ s' => InvL N L now s') s := by
  unfold scheduleImmediately
  refine wp_bind.2 (wp_getT ht ?_)
  -- both queues are searched
  have hd : wp (do queueDiscardOpt (s.tri t).event; immediateRemoveOpt (s.tri t).event)
      (fun _ s' => InvL N L now s' ∧ NoPending t s' ∧ s'.nT = s.nT) s := by
    cases he : (s.tri t).event with
    | none =>
      refine wp_bind.2 ?_
      unfold wp queueDiscardOpt
      by_cases hq : s.queue.isEmpty
      · dsimp only; rw [if_pos hq]; exact ⟨h, h.noPending_of_none he, rfl⟩
      · dsimp only; rw [if_neg hq]; trivial
    | some e =>
      exact ⟨h.sub List.filter_sublist List.eraseP_sublist, h.discarded he, rfl⟩
  rw [← bind_assoc]
  refine wp_bind.2 (wp_mono hd ?_)
  rintro _ s1 - ⟨h1, hp, hn⟩
  have ht1 : t < s1.nT := hn ▸ ht
  unfold immediateEvent
  rw [bind_assoc]
  refine wp_bind.2 (wp_mono (i_triView h1 ht1) fun view s' _ hs => ?_)
  subst hs
  rw [bind_assoc]
  refine wp_bind.2 (wp_lift fun c hc => ?_)
  rw [bind_assoc]
  refine wp_bind.2 (wp_getT ht1 ?_)
  have htime : c.time = now := by
    unfold newEdgeCollapse at hc
    simp only [bind_ok_iff] at hc
    obtain ⟨d, _, hc⟩ := hc
    cases hc; rfl
  generalize (if count3 (s'.tri t).neighbours none = 3 then [0, 1, 2] else c.side) = side
  have h2 := h1.store hp (e := { time := c.time, side := side, tp := c.tp, triTp := c.triTp, eid := s'.nE, tri := t }) rfl rfl
  refine wp_bind.2 (show wp (newEvent _ t) _ s' from ?_)
  unfold wp newEvent
  dsimp only
  refine wp_bind.2 ?_
  unfold setEvent
  refine wp_modifyT ht1 ?_
  refine wp_bind.2 (wp_assertM fun _ => ?_)
  refine h2.append ht1 hp ?_ htime
  dsimp only
  rw [Function.update_self]

end

end

end Grassfire
