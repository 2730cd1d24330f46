/-
Freshness of the events: queues and the elementary steps (lemmas for C66).
-/
import Verif.Proofs.InvLoop
import Verif.Spec.Freshness

set_option linter.unusedSectionVars false

namespace Grassfire

open Spec

variable {K : Type} [Field K] [LinearOrder K] {α β : Type} {N : Prop}

section
variable {L : VId → KVertex K → Prop} {now : K} {s s' : St K} {D D' : TId → Prop} {W : Prop}

/-! ### what a certificate depends on -/

/-- the data of `t` that a certificate is about are the same in `s'` as in `s` -/
structure SameFor (t : TId) (s s' : St K) : Prop where
  event : (s'.tri t).event = (s.tri t).event
  view : viewT s' t = viewT s t
  queue : ∀ e : Event K, e.tri = t → (e ∈ s'.queue ↔ e ∈ s.queue)
  immediate : ∀ e : Event K, e.tri = t → (e ∈ s'.immediate ↔ e ∈ s.immediate)

/-- the vertices are the same for collapse.py -/
def SameVerts (s s' : St K) : Prop := ∀ v, v < s.nV → viewOf s' v = viewOf s v

theorem viewOf_grows (g : Grows s s') {v : VId} (hv : v < s.nV)
    (hn : ∀ kv, s.vert v = .kin kv → ∀ n, kv.startNode = some n → n < s.nN) : viewOf s' v = viewOf s v := by
  have h := g.vert v hv
  unfold viewOf
  cases h1 : s.vert v with
  | inf o =>
    cases h2 : s'.vert v with
    | inf o' => rw [h1, h2] at h; exact congrArg (fun o => (⟨false, o, (0, 0), false, none, none, none⟩ : VView K)) h.symm
    | kin k' => rw [h1, h2] at h; exact h.elim
  | kin k =>
    cases h2 : s'.vert v with
    | inf o' => rw [h1, h2] at h; exact h.elim
    | kin k' =>
      rw [h1, h2] at h
      have h : SameBirth k k' := h
      dsimp only
      rw [h.origin, h.velocity, h.infFast, h.startNode, h.ul, h.ur, g.line]
      congr 1
      cases hk : k.startNode with
      | none => rfl
      | some n => rw [Option.map_some, Option.map_some, g.node n (hn k h1 n hk)]

theorem InvL.startNode_lt (h : Inv N now s) {v : VId} (hv : v < s.nV) :
    ∀ kv, s.vert v = .kin kv → ∀ n, kv.startNode = some n → n < s.nN := by
  intro kv hk n hn
  obtain ⟨m, hm, hm'⟩ := (h.lives v kv hv hk).startNode
  rw [hn] at hm'
  cases hm'
  exact h.refs.skNodes _ hm

theorem InvL.sameVerts (h : Inv N now s) (g : Grows s s') : SameVerts s s' :=
  fun _ hv => viewOf_grows g hv (InvL.startNode_lt h hv)

theorem viewT_same {t : TId} (hV : SameVerts s s') (hv : ∀ i, (s.tri t).vertices i < s.nV)
    (h1 : (s'.tri t).vertices = (s.tri t).vertices)
    (h2 : ∀ i, ((s'.tri t).neighbours i).isNone = ((s.tri t).neighbours i).isNone)
    (h3 : (s'.tri t).stopsAt.isSome = (s.tri t).stopsAt.isSome) : viewT s' t = viewT s t := by
  unfold viewT
  rw [h1, h3]
  congr 1
  · funext i; exact hV _ (hv i)
  · funext i; exact h2 i

section
variable [HasSqrt K]

theorem Spec.Computed.mono {now now' : K} {T : TView K} {e : EvCore K} (h : Computed now T e) (hn : now ≤ now') :
    Computed now' T e := by
  obtain ⟨t0, h0, sv, h⟩ := h
  exact ⟨t0, h0.trans hn, sv, h⟩

theorem Spec.Idle.mono {now now' : K} {T : TView K} (h : Idle now T) (hn : now ≤ now') : Idle now' T := by
  rcases h with h | ⟨t0, h0, h⟩
  · exact .inl h
  · exact .inr ⟨t0, h0.trans hn, h⟩

theorem Spec.Certified.same {t : TId} (h : Certified W now s t) (x : SameFor t s s') : Certified W now s' t := by
  unfold Certified at h ⊢
  rw [x.view, x.event]
  rcases h with ⟨e, he, ht, h⟩ | ⟨e, he, ht, h⟩ | ⟨h1, h2, h3⟩
  · exact .inl ⟨e, (x.queue e ht).2 he, ht, h⟩
  · exact .inr (.inl ⟨e, (x.immediate e ht).2 he, ht, h⟩)
  · exact .inr (.inr ⟨fun e he ht => h1 e ((x.queue e ht).1 he) ht,
      fun e he ht => h2 e ((x.immediate e ht).1 he) ht, h3⟩)

theorem Spec.Certified.mono {now now' : K} {t : TId} (h : Certified W now s t) (hn : now ≤ now') :
    Certified W now' s t := by
  rcases h with ⟨e, he, ht, h⟩ | h | ⟨h1, h2, h3⟩
  · exact .inl ⟨e, he, ht, h.mono hn⟩
  · exact .inr (.inl h)
  · exact .inr (.inr ⟨h1, h2, h3.imp (·.mono hn) fun ⟨hw, he, nb, hnb, h⟩ => ⟨hw, he, nb, hnb, h.mono hn⟩⟩)

theorem Spec.Fresh.mono (h : Fresh W D now s) (hD : ∀ t, D t → D' t) : Fresh W D' now s :=
  fun t ht hs hd => h t ht hs fun x => hd (hD t x)

/-- all triangles outside of `D'` have kept their data, were outside of `D`, or have got a certificate -/
theorem Spec.Fresh.step (h : Fresh W D now s) (hn : s'.nT = s.nT)
    (hs : ∀ t, (s'.tri t).stopsAt = none → (s.tri t).stopsAt = none)
    (hx : ∀ t < s.nT, (s'.tri t).stopsAt = none → ¬ D' t → Certified W now s' t ∨ ¬ D t ∧ SameFor t s s') :
    Fresh W D' now s' := by
  intro t ht hl hd
  rw [hn] at ht
  rcases hx t ht hl hd with c | ⟨c, x⟩
  · exact c
  · exact (h t ht (hs t hl) c).same x

/-- a triangle without pending events that expects nothing -/
theorem NoPending.certified {t : TId} (h : NoPending t s) (hi : Idle now (viewT s t)) : Certified W now s t :=
  .inr (.inr ⟨fun e he => h e (List.mem_append_right _ he), fun e he => h e (List.mem_append_left _ he), .inl hi⟩)

theorem idle_of_none {T : TView K} {sv : Sieve} (hsv : sv = .gt → now = 0) (h : computeCollapse T now sv = .ok none) :
    Idle now T :=
  .inr ⟨now, le_rfl, sv, hsv, h⟩

end

/-! ### discarding -/

/-- the events of `t` are gone, those of other triangles are not -/
structure Cleared (t : TId) (s s' : St K) : Prop where
  eq : ∃ q i, s' = { s with queue := q, immediate := i }
  none : NoPending t s'
  queue : ∀ e : Event K, e.tri ≠ t → (e ∈ s'.queue ↔ e ∈ s.queue)
  immediate : ∀ e : Event K, e.tri ≠ t → (e ∈ s'.immediate ↔ e ∈ s.immediate)

theorem Cleared.sameFor {t u : TId} (c : Cleared t s s') (hu : u ≠ t) : SameFor u s s' := by
  refine ⟨?_, ?_, fun e he => c.queue e (he ▸ hu), fun e he => c.immediate e (he ▸ hu)⟩ <;>
    (obtain ⟨q, i, rfl⟩ := c.eq; rfl)

theorem InvL.cleared (h : InvL N L now s) {t : TId} (ht : t < s.nT) {e : Event K} (he : (s.tri t).event = some e) :
    Cleared t s { s with
      queue := s.queue.filter fun x => decide (compareEvents s.pyid e x ≠ 0)
      immediate := s.immediate.eraseP fun x => decide (x.eid = e.eid) } := by
  refine ⟨⟨_, _, rfl⟩, h.discarded he, fun f hf => ?_, fun f hf => ?_⟩
  · dsimp only
    rw [List.mem_filter]
    refine ⟨And.left, fun hm => ⟨hm, decide_eq_true fun hc => hf ?_⟩⟩
    have hfp : f ∈ pending s := List.mem_append_right _ hm
    have htri := (h.own t ht e he).1
    rw [C31_zero_iff s.pyid e f (fun hid => h.ids _ _ (htri ▸ ht) (h.current f hfp).1 hid)] at hc
    exact hc.2.2.symm.trans htri
  · dsimp only
    refine ⟨List.mem_of_mem_eraseP, fun hm => ?_⟩
    have hfp : f ∈ pending s := List.mem_append_left _ hm
    refine (List.mem_eraseP_of_neg ?_).2 hm
    intro hc
    have hid : f.eid = e.eid := of_decide_eq_true hc
    have c := h.current f hfp
    exact hf (h.eids _ _ c.1 ht _ _ c.2 he hid)

theorem InvL.cleared_none (h : InvL N L now s) {t : TId} (he : (s.tri t).event = none) : Cleared t s s :=
  ⟨⟨_, _, rfl⟩, h.noPending_of_none he, fun _ _ => Iff.rfl, fun _ _ => Iff.rfl⟩

theorem discardEvent_run (h : InvL N L now s) {t : TId} (ht : t < s.nT) {a : Unit}
    (hm : discardEvent (s.tri t).event s = .ok (a, s')) : Cleared t s s' := by
  cases he : (s.tri t).event with
  | none => rw [he] at hm; cases hm; exact h.cleared_none he
  | some e => rw [he] at hm; cases hm; exact h.cleared ht he

/-! ### computing -/

/-- the triangle has got the event `e`, nothing else has changed but the queues -/
structure Stored (t : TId) (e : Event K) (s s' : St K) : Prop where
  eq : ∃ q i n, s' = { s with
    queue := q, immediate := i, nE := n, tri := Function.update s.tri t { s.tri t with event := some e } }
  tri : e.tri = t
  queue : ∀ f : Event K, f.tri ≠ t → (f ∈ s'.queue ↔ f ∈ s.queue)
  immediate : ∀ f : Event K, f.tri ≠ t → (f ∈ s'.immediate ↔ f ∈ s.immediate)

theorem viewT_event (t u : TId) (e : Option (Event K)) (q i : List (Event K)) (n : ℕ) :
    viewT { s with
      queue := q, immediate := i, nE := n, tri := Function.update s.tri t { s.tri t with event := e } } u =
      viewT s u := by
  unfold viewT
  dsimp only
  by_cases hu : u = t
  · subst hu; rw [Function.update_self]; rfl
  · rw [Function.update_of_ne hu]; rfl

theorem Stored.view {t : TId} {e : Event K} (c : Stored t e s s') (u : TId) : viewT s' u = viewT s u := by
  obtain ⟨q, i, n, rfl⟩ := c.eq
  exact viewT_event ..

theorem Stored.sameFor {t u : TId} {e : Event K} (c : Stored t e s s') (hu : u ≠ t) : SameFor u s s' :=
  ⟨by obtain ⟨q, i, n, rfl⟩ := c.eq; dsimp only; rw [Function.update_of_ne hu], c.view u, fun f hf => c.queue f (hf ▸ hu), fun f hf => c.immediate f (hf ▸ hu)⟩

theorem SameFor.trans {t : TId} {s s' s'' : St K} (a : SameFor t s s') (b : SameFor t s' s'') : SameFor t s s'' :=
  ⟨b.event.trans a.event, b.view.trans a.view, fun e he => (b.queue e he).trans (a.queue e he),
    fun e he => (b.immediate e he).trans (a.immediate e he)⟩

section
variable [IsStrictOrderedRing K] [HasSqrt K]

theorem computeAndAdd_run {t : TId} {sv : Sieve} {a : Unit}
    (hm : (computeCollapseTime t now sv >>= addEvent) s = .ok (a, s')) :
    (computeCollapse (viewT s t) now sv = .ok none ∧ s' = s) ∨
    ∃ e, computeCollapse (viewT s t) now sv = .ok (some e.toEvCore) ∧ Stored t e s s' ∧ e ∈ s'.queue := by
  obtain ⟨o, s1, h1, h2⟩ := bind_run_ok.1 hm
  unfold computeCollapseTime at h1
  obtain ⟨view, s2, h3, h4⟩ := bind_run_ok.1 h1
  obtain ⟨-, rfl, rfl⟩ := triView_run_ok.1 h3
  obtain ⟨c, s3, h5, h6⟩ := bind_run_ok.1 h4
  obtain ⟨hc, rfl⟩ := lift_run_ok.1 h5
  cases c with
  | none => cases h6; cases h2; exact .inl ⟨hc, rfl⟩
  | some c =>
    unfold storeEvent at h6
    obtain ⟨e', s4, h7, h8⟩ := bind_run_ok.1 h6
    obtain ⟨rfl, rfl⟩ := newEvent_run_ok.1 h7
    obtain ⟨_, s5, h9, h10⟩ := bind_run_ok.1 h8
    obtain ⟨rfl, rfl⟩ := pure_run_ok.1 h10
    unfold setEvent at h9
    obtain ⟨-, rfl⟩ := modifyT_run_ok.1 h9
    unfold addEvent queueAdd at h2
    dsimp only at h2
    split_ifs at h2
    cases h2
    refine .inr ⟨{ c with eid := s.nE, tri := t }, hc, ⟨⟨_, _, _, rfl⟩, rfl, fun f hf => ?_, fun _ _ => Iff.rfl⟩, ?_⟩
    · dsimp only
      rw [mem_queueInsert]
      exact ⟨fun x => x.resolve_left fun q => hf (by rw [q]), .inr⟩
    · dsimp only
      rw [mem_queueInsert]
      exact .inl rfl

theorem Spec.Fresh.stored {t : TId} {e : Event K} (hf : Fresh W (fun u => D u ∨ u = t) now s) (st : Stored t e s s')
    (he : e ∈ s'.queue ∧ Computed now (viewT s t) e.toEvCore ∨ e ∈ s'.immediate ∧ Immediate (viewT s t) e.toEvCore) :
    Fresh W D now s' := by
  have hn : s'.nT = s.nT ∧ ∀ u, (s'.tri u).stopsAt = (s.tri u).stopsAt := by
    obtain ⟨q, i, n, rfl⟩ := st.eq
    refine ⟨rfl, fun u => ?_⟩
    dsimp only
    by_cases hu : u = t
    · subst hu; rw [Function.update_self]
    · rw [Function.update_of_ne hu]
  refine hf.step hn.1 (fun u x => by rw [← hn.2 u]; exact x) fun u _ _ hd => ?_
  by_cases hu : u = t
  · subst hu
    left
    unfold Certified
    rw [st.view]
    rcases he with he | he
    · exact .inl ⟨e, he.1, st.tri, he.2⟩
    · exact .inr (.inl ⟨e, he.1, st.tri, he.2⟩)
  · exact .inr ⟨fun x => x.elim hd hu, st.sameFor hu⟩

/-- the event of `t` is computed anew and added, when no event of `t` is pending -/
theorem fr_computeAndAdd {t : TId} {sv : Sieve} {a : Unit} (hsv : sv = .gt → now = 0) (hp : NoPending t s)
    (hf : Fresh W (fun u => D u ∨ u = t) now s)
    (hm : (computeCollapseTime t now sv >>= addEvent) s = .ok (a, s')) : Fresh W D now s' := by
  rcases computeAndAdd_run hm with ⟨hc, rfl⟩ | ⟨e, hc, st, he⟩
  · refine hf.step rfl (fun _ x => x) fun u _ _ hd => ?_
    by_cases hu : u = t
    · subst hu; exact .inl (hp.certified (idle_of_none hsv hc))
    · exact .inr ⟨fun x => x.elim hd hu, ⟨rfl, rfl, fun _ _ => Iff.rfl, fun _ _ => Iff.rfl⟩⟩
  · exact hf.stored st (.inl ⟨he, now, le_rfl, sv, hsv, hc⟩)

theorem Cleared.fresh {t : TId} (c : Cleared t s s') (hf : Fresh W (fun u => D u ∨ u = t) now s) :
    Fresh W (fun u => D u ∨ u = t) now s' := by
  have hn : s'.nT = s.nT ∧ s'.tri = s.tri := by
    obtain ⟨q, i, rfl⟩ := c.eq; exact ⟨rfl, rfl⟩
  refine hf.step hn.1 (fun u x => by rw [← hn.2]; exact x) fun u _ _ hd => ?_
  exact .inr ⟨hd, c.sameFor fun x => hd (.inr x)⟩

theorem fr_replaceInQueue (h : InvL N L now s) {t : TId} (ht : t < s.nT) {a : Unit}
    (hf : Fresh W (fun u => D u ∨ u = t) now s) (hm : replaceInQueue t now s = .ok (a, s')) : Fresh W D now s' := by
  unfold replaceInQueue at hm
  obtain ⟨T, s1, h1, hm⟩ := bind_run_ok.1 hm
  obtain ⟨-, rfl, rfl⟩ := getT_run_ok.1 h1
  obtain ⟨_, s2, h2, hm⟩ := bind_run_ok.1 hm
  have c := discardEvent_run h ht h2
  exact fr_computeAndAdd (fun q => by cases q) c.none (c.fresh hf) hm

theorem fr_renewEvent (h : InvL N L now s) (b : Bool) {t : TId} (ht : t < s.nT) {a : Unit}
    (hb : b = true → ∃ i, ((viewT s t).v i).infFast = true)
    (hf : Fresh W (fun u => D u ∨ u = t) now s) (hm : renewEvent b t now s = .ok (a, s')) : Fresh W D now s' := by
  unfold renewEvent at hm
  obtain ⟨T, s1, h1, hm⟩ := bind_run_ok.1 hm
  obtain ⟨-, rfl, rfl⟩ := getT_run_ok.1 h1
  by_cases hc : b = true ∧ (s.tri t).event.isSome
  · rw [if_pos hc] at hm
    have c := discardEvent_run h ht hm
    have f := c.fresh hf
    refine f.step rfl (fun _ x => x) fun u _ _ hd => ?_
    by_cases hu : u = t
    · subst hu
      refine .inl (c.none.certified (.inl ?_))
      obtain ⟨q, i, rfl⟩ := c.eq
      exact hb hc.1
    · exact .inr ⟨fun x => x.elim hd hu, ⟨rfl, rfl, fun _ _ => Iff.rfl, fun _ _ => Iff.rfl⟩⟩
  · rw [if_neg hc] at hm
    exact fr_replaceInQueue h ht hf hm

theorem count3_three (f : Fin 3 → Option TId) : count3 f none = 3 ↔ ∀ i, (f i).isNone = true := by
  unfold count3
  constructor
  · intro h i
    have h0 : f 0 = none := by by_contra c; rw [if_neg c] at h; split_ifs at h <;> omega
    have h1 : f 1 = none := by by_contra c; rw [if_neg c] at h; split_ifs at h <;> omega
    have h2 : f 2 = none := by by_contra c; rw [if_neg c] at h; split_ifs at h <;> omega
    match i with
    | 0 => rw [h0]; rfl
    | 1 => rw [h1]; rfl
    | 2 => rw [h2]; rfl
  · intro h
    rw [if_pos (Option.isNone_iff_eq_none.1 (h 0)), if_pos (Option.isNone_iff_eq_none.1 (h 1)),
      if_pos (Option.isNone_iff_eq_none.1 (h 2))]

theorem fr_scheduleImmediately (h : InvL N L now s) {t : TId} (ht : t < s.nT) {a : Unit}
    (hf : Fresh W (fun u => D u ∨ u = t) now s) (hm : scheduleImmediately t now s = .ok (a, s')) : Fresh W D now s' := by
  unfold scheduleImmediately at hm
  obtain ⟨T, s1, h1, hm⟩ := bind_run_ok.1 hm
  obtain ⟨-, rfl, rfl⟩ := getT_run_ok.1 h1
  obtain ⟨_, s1, h1, hm⟩ := bind_run_ok.1 hm
  obtain ⟨_, s2, h2, hm⟩ := bind_run_ok.1 hm
  have c : Cleared t s s2 := by
    cases he : (s.tri t).event with
    | none =>
      rw [he] at h1 h2
      cases h2
      unfold queueDiscardOpt at h1
      dsimp only at h1
      split_ifs at h1
      cases h1
      exact h.cleared_none he
    | some e => rw [he] at h1 h2; cases h1; cases h2; exact h.cleared ht he
  have f := c.fresh hf
  obtain ⟨e, s3, h3, hm⟩ := bind_run_ok.1 hm
  unfold immediateEvent at h3
  obtain ⟨view, s4, h4, h3⟩ := bind_run_ok.1 h3
  obtain ⟨-, rfl, rfl⟩ := triView_run_ok.1 h4
  obtain ⟨k, s4, h4, h3⟩ := bind_run_ok.1 h3
  obtain ⟨hk, rfl⟩ := lift_run_ok.1 h4
  obtain ⟨T, s4, h4, h3⟩ := bind_run_ok.1 h3
  obtain ⟨-, rfl, rfl⟩ := getT_run_ok.1 h4
  obtain ⟨rfl, rfl⟩ := newEvent_run_ok.1 h3
  obtain ⟨_, s4, h4, hm⟩ := bind_run_ok.1 hm
  unfold setEvent at h4
  obtain ⟨-, rfl⟩ := modifyT_run_ok.1 h4
  obtain ⟨_, s4, h4, hm⟩ := bind_run_ok.1 hm
  obtain ⟨-, rfl⟩ := assertM_run_ok.1 h4
  cases hm
  have hk : newEdgeCollapse (viewT s2 t) now = .ok k := hk
  have htime : k.time = now := by
    unfold newEdgeCollapse at hk
    simp only [bind_ok_iff] at hk
    obtain ⟨d, _, hk⟩ := hk
    cases hk; rfl
  refine f.stored (e := { time := k.time, side := _, tp := k.tp, triTp := k.triTp, eid := s2.nE, tri := t })
    ⟨⟨_, _, _, rfl⟩, rfl, fun _ _ => Iff.rfl, fun g hg => ?_⟩
    (.inr ⟨List.mem_append_right _ (List.mem_singleton_self _), k, by dsimp only; rw [htime]; exact hk, ?_⟩)
  · dsimp only
    rw [List.mem_append, List.mem_singleton]
    exact ⟨fun x => x.resolve_right fun q => hg (by rw [q]), .inl⟩
  · have : (∀ i, (viewT s2 t).noNeighbour i = true) ↔ count3 (s2.tri t).neighbours none = 3 :=
      (count3_three _).symm
    simp only [this]

end

end

end Grassfire
