/-
The invariant of the event loop: stopping, creating and linking vertices.
-/
import Verif.Proofs.InvQueue

set_option linter.unusedSectionVars false

namespace Grassfire

open Spec

variable {K : Type} [Field K] [LinearOrder K] {α β : Type} {N : Prop}

/-- What holds of the life span of `v` while the vertices `V` are being stopped; the nodes
that can occur are `nodes`. -/
structure WeakLife (now : K) (nodes : List NodeId) (V : List VId) (v : VId) (kv : KVertex K) :
    Prop where
  starts : ∃ t, kv.startsAt = some t ∧ t ≤ now
  startNode : ∃ n ∈ nodes, kv.startNode = some n
  both : v ∉ V → (kv.stopsAt.isSome ↔ kv.stopNode.isSome)
  order : ∀ a b, kv.startsAt = some a → kv.stopsAt = some b → a ≤ b ∧ b ≤ now
  stopNode : ∀ n, kv.stopNode = some n → n ∈ nodes

theorem Spec.LifeOk.weak {now : K} {nodes : List NodeId} {kv : KVertex K} (h : LifeOk now nodes kv)
    (V : List VId) (v : VId) : WeakLife now nodes V v kv :=
  ⟨h.starts, h.startNode, fun _ => h.both, h.order, h.stopNode⟩

theorem Spec.LifeOk.mono {now now' : K} {nodes nodes' : List NodeId} {kv : KVertex K}
    (h : LifeOk now nodes kv) (ht : now ≤ now') (hn : ∀ n ∈ nodes, n ∈ nodes') :
    LifeOk now' nodes' kv :=
  ⟨h.starts.imp fun _ x => ⟨x.1, x.2.trans ht⟩, h.startNode.imp fun _ x => ⟨hn _ x.1, x.2⟩, h.both,
   fun a b ha hb => ⟨(h.order a b ha hb).1, (h.order a b ha hb).2.trans ht⟩,
   fun n x => hn n (h.stopNode n x)⟩

theorem WeakLife.mono {now : K} {nodes nodes' : List NodeId} {V : List VId} {v : VId}
    {kv : KVertex K} (h : WeakLife now nodes V v kv) (hn : ∀ n ∈ nodes, n ∈ nodes') :
    WeakLife now nodes' V v kv :=
  ⟨h.starts, h.startNode.imp fun _ x => ⟨hn _ x.1, x.2⟩, h.both, h.order,
   fun n x => hn n (h.stopNode n x)⟩

theorem WeakLife.ok {now : K} {nodes : List NodeId} {V : List VId} {v : VId}
    {kv : KVertex K} (h : WeakLife now nodes V v kv)
    (hs : v ∈ V → kv.stopNode.isSome ∧ kv.stopsAt = some now) : LifeOk now nodes kv :=
  ⟨h.starts, h.startNode, by
    by_cases hv : v ∈ V
    · obtain ⟨h1, h2⟩ := hs hv; rw [h2]; exact ⟨fun _ => h1, fun _ => rfl⟩
    · exact h.both hv, h.order, h.stopNode⟩

/-- the vertex stops now at a known node -/
theorem WeakLife.stopped {now : K} {nodes : List NodeId} {V : List VId} {v : VId}
    {kv : KVertex K} (h : WeakLife now nodes V v kv) {n : NodeId} (hn : n ∈ nodes) :
    WeakLife now nodes V v { kv with stopNode := some n, stopsAt := some now } :=
  ⟨h.starts, h.startNode, fun _ => ⟨fun _ => rfl, fun _ => rfl⟩, fun a b ha hb => by
    obtain ⟨t, h1, h2⟩ := h.starts
    dsimp only at ha hb
    rw [h1] at ha; cases ha; cases hb
    exact ⟨h2, le_rfl⟩, fun m hm => by cases hm; exact hn⟩

theorem Spec.LifeOk.stopped {now : K} {nodes : List NodeId} {kv : KVertex K} (h : LifeOk now nodes kv)
    {n : NodeId} (hn : n ∈ nodes) :
    LifeOk now nodes { kv with stopNode := some n, stopsAt := some now } :=
  ((h.weak [] 0).stopped hn).ok fun h => absurd h List.not_mem_nil

section
variable {L L' : VId → KVertex K → Prop} {now : K} {s : St K}

/-- an assignment to attributes of a vertex other than its number and its neighbours -/
theorem InvL.vert' (h : InvL N L now s) {v : VId} {kv kv' : KVertex K} (hv : v < s.nV)
    (hk : s.vert v = .kin kv) (info : kv'.info = kv.info) (hl : kv'.left = kv.left)
    (hr : kv'.right = kv.right) (hL : L v kv') :
    InvL N L now { s with vert := Function.update s.vert v (.kin kv') } :=
  h.vert hk info (by rw [hl]; exact h.refs.left v kv hv hk) (by rw [hr]; exact h.refs.right v kv hv hk)
    (by rw [hl, hr]; exact h.hist v kv hv hk)
    (fun _ _ _ _ h _ => h) (fun _ => hL)

theorem i_stopScan {nodes : List NodeId} {V : List VId} :
    ∀ (vs : List VId) (acc : Option NodeId) {s : St K},
      InvL N (WeakLife now nodes V) now s → (∀ v ∈ vs, v < s.nV ∧ v ∈ V) → s.skNodes = nodes →
      (∀ n, acc = some n → n ∈ nodes) →
      wp (stopScan now vs acc) (fun a s' => InvL N (WeakLife now nodes V) now s' ∧
        s'.skNodes = nodes ∧ s'.nV = s.nV ∧ s'.nN = s.nN ∧ ∀ n, a = some n → n ∈ nodes) s
  | [], acc, s, h, _, hn, ha => ⟨h, hn, rfl, rfl, ha⟩
  | v :: vs, acc, s, h, hvs, hn, ha => by
    have hv := hvs v (List.mem_cons_self ..)
    have hvs' : ∀ w ∈ vs, w < s.nV ∧ w ∈ V := fun w hw => hvs w (List.mem_cons_of_mem _ hw)
    unfold stopScan
    refine wp_bind.2 (wp_getK hv.1 fun kv hk => ?_)
    refine wp_bind.2 (wp_needNum fun st hst => ?_)
    have life := h.lives v kv hv.1 hk
    dsimp only
    split_ifs
    · exact i_stopScan vs _ h hvs' hn life.stopNode
    · refine i_stopScan vs _ h hvs' hn fun n hn' => ?_
      obtain ⟨m, hm, e⟩ := life.startNode
      rw [hn'] at e; cases e; exact hm
    · refine wp_bind.2 (wp_modifyK hv.1 fun kv' hk' => ?_)
      rw [hk] at hk'; cases hk'
      refine i_stopScan vs _ (h.vert' hv.1 hk rfl rfl rfl ?_) hvs' hn ha
      refine ⟨life.starts, life.startNode, fun hV => absurd hv.2 hV, fun a b h1 h2 => ?_, life.stopNode⟩
      obtain ⟨t, h3, h4⟩ := life.starts
      dsimp only at h1 h2
      rw [h3] at h1; cases h1; cases h2
      exact ⟨h4, le_rfl⟩

theorem i_nodePosition (V : List VId) (pos : Option (Pt K)) (hV : ∀ v ∈ V, v < s.nV) :
    wp (nodePosition V now pos) (fun _ s' => s' = s) s := by
  unfold nodePosition
  cases pos with
  | some p => exact rfl
  | none =>
    refine wp_bind.2 (wp_mono (wp_mapEach (P := fun s' => s' = s) ?_ rfl) ?_)
    · rintro v hv s' rfl
      exact wp_positionAt (hV v hv) fun _ => rfl
    · rintro l s' - rfl
      exact wp_lift fun _ _ => rfl

theorem i_stopAtNode {nodes : List NodeId} {V : List VId} (step : ℤ) (pos : Option (Pt K))
    (n : Option NodeId) (h : InvL N (WeakLife now nodes V) now s) (hV : ∀ v ∈ V, v < s.nV)
    (hs : s.skNodes = nodes) (hn : ∀ m, n = some m → m ∈ nodes) :
    wp (stopAtNode V step now pos n) (fun r s' => InvL N (WeakLife now (nodes ++ [r.1]) V) now s' ∧
      s'.skNodes = nodes ∧ s'.nV = s.nV ∧ r.1 < s'.nN ∧ (r.2 = false → r.1 ∈ nodes)) s := by
  unfold stopAtNode
  cases n with
  | some m =>
    have hm := hn m rfl
    unfold stopAtExisting
    refine wp_bind.2 (wp_mono (wp_forEach (P := fun s' => InvL N (WeakLife now nodes V) now s' ∧
      s'.skNodes = nodes ∧ s'.nV = s.nV ∧ s'.nN = s.nN) ?_ ⟨h, hs, rfl, rfl⟩) ?_)
    · rintro v hv s' ⟨h', h1, h2, h3⟩
      have hv' : v < s'.nV := h2 ▸ hV v hv
      refine wp_modifyK hv' fun kv hk => ?_
      exact ⟨h'.vert' hv' hk rfl rfl rfl ((h'.lives v kv hv' hk).stopped hm), h1, h2, h3⟩
    · rintro _ s' - ⟨h', h1, h2, h3⟩
      have hlt : m < s.nN := by rw [← hs] at hm; exact h.refs.skNodes m hm
      exact ⟨h'.mono fun v kv _ _ l => l.mono fun _ => List.mem_append_left _, h1, h2,
        h3.symm ▸ hlt, fun _ => hm⟩
  | none =>
    unfold stopAtNew
    refine wp_bind.2 (wp_mono (i_nodePosition V pos hV) ?_)
    rintro p s' - rfl
    refine wp_bind.2 (show wp (newNode _) _ s' from ?_)
    unfold wp newNode
    dsimp only
    refine wp_bind.2 (wp_mono (wp_forEach (P := fun s'' =>
      InvL N (WeakLife now (nodes ++ [s'.nN]) V) now s'' ∧
      s''.skNodes = nodes ∧ s''.nV = s'.nV ∧ s''.nN = s'.nN + 1) ?_ ?_) ?_)
    · rintro v hv s'' ⟨h', h1, h2, h3⟩
      have hv' : v < s''.nV := h2 ▸ hV v hv
      refine wp_modifyK hv' fun kv hk => ?_
      have l := h'.lives v kv hv' hk
      refine ⟨h'.vert' hv' hk rfl rfl rfl ⟨l.starts, l.startNode, fun hx => absurd hv hx, l.order, ?_⟩,
        h1, h2, h3⟩
      intro m hm
      cases hm
      exact List.mem_append_right _ (List.mem_singleton.2 rfl)
    · exact ⟨(h.newNode _).mono fun v kv _ _ l => l.mono fun _ => List.mem_append_left _, hs, rfl, rfl⟩
    · rintro _ s'' - ⟨h', h1, h2, h3⟩
      exact ⟨h', h1, h2, by dsimp only; rw [h3]; exact Nat.lt_succ_self _, fun h => by cases h⟩

theorem i_assertStopped (V : List VId) (hV : ∀ v ∈ V, v < s.nV) :
    wp (forEach (assertStoppedAt now) V) (fun _ s' => s' = s ∧ ∀ v ∈ V, ∀ kv, s.vert v = .kin kv →
      kv.stopNode.isSome ∧ kv.stopsAt = some now) s := by
  induction V with
  | nil => exact ⟨rfl, fun v hv => absurd hv List.not_mem_nil⟩
  | cons v vs ih =>
    unfold forEach
    refine wp_bind.2 ?_
    unfold assertStoppedAt
    refine wp_bind.2 (wp_getK (hV v (List.mem_cons_self ..)) fun kv hk => ?_)
    refine wp_bind.2 (wp_assertM fun h1 => ?_)
    refine wp_assertM fun h2 => ?_
    refine wp_mono (ih fun w hw => hV w (List.mem_cons_of_mem _ hw)) ?_
    rintro _ s' - ⟨rfl, h⟩
    refine ⟨rfl, fun w hw kw hkw => ?_⟩
    rcases List.mem_cons.1 hw with rfl | hw
    · rw [hk] at hkw; cases hkw; exact ⟨h1, h2⟩
    · exact h w hw kw hkw

/-- `stop_kvertices` and recording of the node keep the invariant; the node is recorded. -/
theorem i_stopAndRecord (V : List VId) (step : ℤ) (pos : Option (Pt K)) (h : Inv N now s)
    (hV : ∀ v ∈ V, v < s.nV) :
    wp (stopAndRecord V step now pos) (fun n s' => Inv N now s' ∧ n ∈ s'.skNodes) s := by
  unfold stopAndRecord stopKvertices
  simp only [bind_assoc]
  refine wp_bind.2 (wp_mono (wp_forEach (P := fun s' => s' = s) ?_ rfl) ?_)
  · rintro v hv s' rfl
    unfold readVertex
    exact wp_bind.2 (wp_getK (hV v hv) fun _ _ => rfl)
  rintro _ s' - rfl
  have hw : InvL N (WeakLife now s'.skNodes V) now s' := h.mono fun v kv _ _ l => l.weak V v
  refine wp_bind.2 (wp_mono (i_stopScan V none hw (fun v hv => ⟨hV v hv, hv⟩) rfl
    (fun _ h => by cases h)) ?_)
  rintro acc s1 - ⟨h1, e1, v1, -, ha⟩
  refine wp_bind.2 (wp_mono (i_stopAtNode step pos acc h1 (fun v hv => v1 ▸ hV v hv) e1 ha) ?_)
  rintro ⟨n, new⟩ s2 - ⟨h2, e2, v2, hn, ho⟩
  dsimp only at h2 hn ho
  refine wp_bind.2 (wp_mono (i_assertStopped V (fun v hv => by rw [v2, v1]; exact hV v hv)) ?_)
  rintro _ s3 - ⟨rfl, hst⟩
  refine wp_bind.2 (wp_pure.2 ?_)
  dsimp only
  cases new with
  | true =>
    refine ⟨?_, List.mem_append_right _ (List.mem_singleton.2 rfl)⟩
    have := h2.appendNode hn
    refine this.mono fun v kv hv hk l => ?_
    dsimp only at hk ⊢
    rw [e2]
    exact l.ok fun hv => hst v hv kv hk
  | false =>
    have hm := ho rfl
    refine ⟨?_, e2.symm ▸ hm⟩
    refine h2.mono fun v kv hv hk l => ?_
    rw [e2]
    refine (l.mono fun m hm' => ?_).ok fun hv => hst v hv kv hk
    rcases List.mem_append.1 hm' with h | h
    · exact h
    · rw [List.mem_singleton.1 h]; exact hm

theorem i_stopAt (h : Inv N now s) {v : VId} {n : NodeId} (hv : v < s.nV) (hn : n ∈ s.skNodes) :
    wp (stopAt v n now) (fun _ s' => Inv N now s') s := by
  unfold stopAt
  exact wp_modifyK hv fun kv hk => h.vert' hv hk rfl rfl rfl ((h.lives v kv hv hk).stopped hn)

theorem i_setWf (h : Inv N now s) {v : VId} (l r : Option WfId) (hv : v < s.nV) :
    wp (modifyK v fun k => { k with wfl := l, wfr := r }) (fun _ s' => Inv N now s') s :=
  wp_modifyK hv fun kv hk => h.vert' hv hk rfl rfl rfl
    (let x := h.lives v kv hv hk; ⟨x.starts, x.startNode, x.both, x.order, x.stopNode⟩)

theorem hist_set_refs {h : Hist K (Option VId)} {r : Option VId} {t : K} {N : ℕ}
    (hh : ∀ x ∈ h, ∀ u, x.ref = some u → u < N) (hr : ∀ u, r = some u → u < N) :
    ∀ x ∈ h.set r t, ∀ u, x.ref = some u → u < N := by
  intro x hx u hu
  unfold Hist.set at hx
  cases hl : h.getLast? with
  | none =>
    rw [hl] at hx
    rw [List.mem_singleton.1 hx] at hu
    exact hr u hu
  | some last =>
    rw [hl] at hx
    rcases List.mem_append.1 hx with hx | hx
    · exact hh x (List.mem_of_mem_dropLast hx) u hu
    · rcases List.mem_cons.1 hx with rfl | hx
      · exact hh last (List.mem_of_getLast? hl) u hu
      · rw [List.mem_singleton.1 hx] at hu
        exact hr u hu

theorem i_updateCirc (h : Inv N now s) (l r : Option VId) (hl : ∀ v, l = some v → v < s.nV)
    (hr : ∀ v, r = some v → v < s.nV) :
    wp (updateCirc l r now) (fun _ s' => Inv N now s') s := by
  unfold updateCirc
  refine wp_step (P := fun _ s' => Inv N now s') ?_ (g_setRight l r now) ?_
  · unfold setRight
    cases l with
    | none => exact h
    | some v =>
      have hv := hl v rfl
      refine wp_modifyK hv fun kv hk => ?_
      refine h.vert hk rfl (h.refs.left v kv hv hk) (hist_set_refs (h.refs.right v kv hv hk) hr)
        ⟨(h.hist v kv hv hk).1, (h.hist v kv hv hk).2.set r⟩
        (fun _ _ _ _ h _ => h) fun _ => ?_
      have x := h.lives v kv hv hk
      exact ⟨x.starts, x.startNode, x.both, x.order, x.stopNode⟩
  · intro _ s' h g
    unfold setLeft
    cases r with
    | none => exact h
    | some v =>
      have hv := (hr v rfl).trans_le g.nV
      refine wp_modifyK hv fun kv hk => ?_
      refine h.vert hk rfl (hist_set_refs (h.refs.left v kv hv hk) fun u hu => (hl u hu).trans_le g.nV)
        (h.refs.right v kv hv hk) ⟨(h.hist v kv hv hk).1.set l, (h.hist v kv hv hk).2⟩ (fun _ _ _ _ h _ => h) fun _ => ?_
      have x := h.lives v kv hv hk
      exact ⟨x.starts, x.startNode, x.both, x.order, x.stopNode⟩

/-- A new vertex keeps the invariant; it is not yet among the vertices of the skeleton. -/
theorem i_computeNewKvertex [HasSqrt K] [HasTrig K] (h : Inv N now s) (ul ur : Option LineId)
    {node : NodeId} (info : ℕ) (internal : Bool) (hn : node ∈ s.skNodes) :
    wp (computeNewKvertex ul ur now node info internal)
      (fun v s' => Inv N now s' ∧ v = s.nV ∧ v < s'.nV ∧ (∃ kv, s'.vert v = .kin kv ∧ kv.info = info) ∧
        s'.skVertices = s.skVertices) s := by
  unfold computeNewKvertex
  refine wp_bind.2 (wp_getN (h.refs.skNodes _ hn) ?_)
  refine wp_bind.2 (wp_need fun ulId _ => ?_)
  refine wp_bind.2 (wp_need fun urId _ => ?_)
  refine wp_bind.2 (wp_getLine ?_)
  refine wp_bind.2 (wp_getLine ?_)
  refine wp_bind.2 (wp_lift fun m _ => ?_)
  dsimp only
  unfold wp newK
  dsimp only
  refine ⟨?_, rfl, Nat.lt_succ_self _, ⟨_, Function.update_self .., rfl⟩, rfl⟩
  refine h.newK rfl rfl ⟨⟨now, rfl, le_rfl⟩, ⟨node, hn, rfl⟩, ⟨(fun h => by cases h), (fun h => by cases h)⟩,
    (fun a b _ hb => by cases hb), (fun n hn => by cases hn)⟩

end

end Grassfire
