/-
The invariant of the event loop: edge and split events, the loop.
-/
import Verif.Proofs.InvParallel
import Verif.Proofs.LoopLemmas
import Verif.Proofs.SameTris

set_option linter.unusedSectionVars false

namespace Grassfire

open Spec

variable {K : Type} [Field K] [LinearOrder K] {α β : Type} {N : Prop}
variable {now : K} {s : St K}

theorem i_evalPosition (v : Option VId) (hv : ∀ x, v = some x → x < s.nV) :
    wp (evalPosition v now) (fun _ s' => s' = s) s := by
  unfold evalPosition
  cases v with
  | none => exact rfl
  | some v => exact wp_bind.2 (wp_positionAt (hv v rfl) fun _ => rfl)

theorem i_checkLinks (h : Inv N now s) {v : VId} (hv : v < s.nV) :
    wp (checkLinks v) (fun _ s' => s' = s) s := by
  unfold checkLinks
  refine wp_bind.2 (wp_getK hv fun kv hk => ?_)
  refine wp_bind.2 (wp_need fun l hl => ?_)
  refine wp_bind.2 (wp_getK (h.leftRef hv hk hl) fun kl _ => ?_)
  refine wp_bind.2 (wp_assertM fun _ => ?_)
  refine wp_bind.2 (wp_need fun r hr => ?_)
  refine wp_bind.2 (wp_getK (h.rightRef hv hk hr) fun kr _ => ?_)
  exact wp_assertM fun _ => rfl

theorem mem_two {a b : VId} {N : ℕ} (ha : a < N) (hb : b < N) : ∀ v ∈ [a, b], v < N := by
  intro v hm
  rcases List.mem_cons.1 hm with rfl | hm
  · exact ha
  · rw [List.mem_singleton.1 hm]; exact hb

section
variable [IsStrictOrderedRing K] [HasSqrt K]

theorem i_scheduleTiny (h : Inv N now s) {fan : List TId} (kv : VId) (dir : Dir)
    (hf : ∀ t ∈ fan, t < s.nT) :
    wp (scheduleTiny fan kv dir now) (fun _ s' => Inv N now s') s := by
  unfold scheduleTiny
  cases hl : fan.getLast? with
  | none => exact h
  | some t =>
    have ht := hf t (List.mem_of_getLast? hl)
    dsimp only
    refine wp_bind.2 (wp_mono (i_vertexIndex kv ht) ?_)
    rintro i s' - ⟨rfl, -⟩
    refine wp_bind.2 (wp_getT ht ?_)
    refine wp_bind.2 (wp_positionAt (h.refs.vertices t ht _) fun p => ?_)
    refine wp_bind.2 (wp_positionAt (h.refs.vertices t ht _) fun q => ?_)
    refine wp_bind.2 (wp_lift fun d _ => ?_)
    split_ifs
    · exact wp_inv (i_scheduleImmediately h ht) (g_scheduleImmediately _ _)
    · exact h

theorem i_edgeSide (h : Inv N now s) {n : Option TId} (t : TId) {other : Option TId} {v kv : VId}
    (dir : Dir) (hn : ∀ x, n = some x → x < s.nT) (ho : ∀ x, other = some x → x < s.nT)
    (hk : kv < s.nV) (hne : kv ≠ v) :
    wp (edgeSide n t other v kv now dir) (fun l s' => Inv N now s' ∧ ∀ x ∈ l, x < s'.nT) s := by
  unfold edgeSide
  cases n with
  | none => exact ⟨h, fun _ h => absurd h List.not_mem_nil⟩
  | some n =>
    refine wp_stepI (i_relink h t (hn n rfl) ho) (g_relink _ _ _) fun _ s1 i1 g1 => ?_
    refine wp_step (i_replaceKvertex i1 dir (g1.tlt (hn n rfl)) (g1.vlt hk) hne)
      (g_replaceKvertex _ _ _ _ _) fun fan s2 i2 g2 => ?_
    refine wp_step (i_scheduleTiny (i2.1.toInv g2) kv dir i2.2) (g_scheduleTiny _ _ _ _)
      fun _ s3 i3 g3 => ?_
    exact ⟨i3, fun x hx => g3.tlt (i2.2 x hx)⟩

theorem i_edgeFan [HasTrig K] (h : Inv N now s) (depth : ℕ) {kv : VId} {a b : List TId} (step : ℤ)
    (hv : kv < s.nV) (ha : ∀ t ∈ a, t < s.nT) (hb : ∀ t ∈ b, t < s.nT) :
    wp (edgeFan depth kv a b now step) (fun _ s' => Inv N now s') s := by
  unfold edgeFan
  refine wp_bind.2 (wp_mono (i_nextFan hv ha hb) ?_)
  rintro x s' - ⟨rfl, hx⟩
  cases x with
  | none => exact h
  | some y => exact i_parallelFan depth h _ _ (hx y rfl).1 (hx y rfl).2

theorem i_edgeVertex [HasTrig K] (h : Inv N now s) {t : TId} (e : Fin 3) (step : ℤ) (ht : t < s.nT) :
    wp (edgeVertex t e now step) (fun v s' => Inv N now s' ∧ s.nV ≤ v ∧ v < s'.nV) s := by
  unfold edgeVertex
  refine wp_bind.2 (wp_getT ht ?_)
  dsimp only
  have hv := h.refs.vertices t ht
  refine wp_bind.2 (wp_getK (hv _) fun k1 _ => ?_)
  refine wp_bind.2 (wp_getK (hv _) fun k2 _ => ?_)
  refine wp_bind.2 (wp_assertM fun _ => ?_)
  refine wp_bind.2 (wp_assertM fun _ => ?_)
  refine wp_bind.2 (wp_assertM fun _ => ?_)
  refine wp_bind.2 (wp_need fun a _ => ?_)
  refine wp_bind.2 (wp_need fun c _ => ?_)
  refine wp_bind.2 (wp_getWfLine ?_)
  refine wp_bind.2 (wp_getWfLine ?_)
  refine wp_bind.2 (wp_lift fun _ _ => ?_)
  refine wp_bind.2 (wp_tryIntersection fun pos => ?_)
  refine wp_step (i_stopAndRecord _ step pos h (mem_two (hv _) (hv _))) (g_stopAndRecord _ _ _ _)
    fun node s1 i1 g1 => ?_
  refine wp_bind.2 (wp_countVertices ?_)
  refine wp_step (i_computeNewKvertex i1.1 _ _ _ _ i1.2) (g_computeNewKvertex _ _ _ _ _ _)
    fun kv s2 i2 g2 => ?_
  obtain ⟨i2, kv2, hkv2, hinfo, sk2⟩ := i2
  refine wp_step (i_setWf' i2 _ _ hkv2 hinfo) (g_setWf _ _ _) fun _ s3 i3 g3 => ?_
  obtain ⟨i3, hinfo, sk3⟩ := i3
  have g13 := growsPre.trans _ _ _ (growsPre.trans _ _ _ g1 g2) g3
  refine wp_bind.2 (wp_getK (g13.vlt (hv _)) fun k1 hk1 => ?_)
  have hl3 : ∀ x, k1.leftRef = some x → x < s3.nV := fun x hx => i3.leftRef (g13.vlt (hv _)) hk1 hx
  refine wp_bind.2 (wp_mono (i_evalPosition _ hl3) ?_)
  rintro _ s' - rfl
  refine wp_bind.2 (wp_getK (g13.vlt (hv _)) fun k2 hk2 => ?_)
  refine wp_bind.2 (wp_mono (i_evalPosition _ fun x hx => i3.rightRef (g13.vlt (hv _)) hk2 hx) ?_)
  rintro _ s' - rfl
  refine wp_step (i_appendVertex i3 (g3.vlt hkv2) hinfo (by rw [sk3, sk2])) (g_appendVertex _)
    fun _ s4 i4 g4 => ?_
  have hkv4 := g4.vlt (g3.vlt hkv2)
  refine wp_step (i_updateCirc i4 k1.leftRef (some kv)
    (fun x hx => g4.vlt (hl3 x hx)) (fun _ x => by cases x; exact hkv4))
    (g_updateCirc _ _ _) fun _ s5 i5 g5 => ?_
  have hv25 := g5.vlt (g4.vlt (g13.vlt (hv (cw e))))
  refine wp_bind.2 (wp_getK hv25 fun k2 hk2 => ?_)
  refine wp_step (i_updateCirc i5 (some kv) k2.rightRef
    (fun _ x => by cases x; exact g5.vlt hkv4) (fun _ x => i5.rightRef hv25 hk2 x))
    (g_updateCirc _ _ _) fun _ s6 i6 g6 => ?_
  have hkv6 := g6.vlt (g5.vlt hkv4)
  refine wp_bind.2 (wp_mono (i_checkLinks i6 hkv6) ?_)
  rintro _ s7 - rfl
  exact ⟨i6, by rw [kv2]; exact g1.nV, hkv6⟩

theorem i_handleEdge [HasTrig K] (depth : ℕ) {e : Event K} (step : ℤ) (h : Inv N e.time s)
    (ht : e.tri < s.nT) : wp (handleEdge depth e step) (fun _ s' => Inv N e.time s') s := by
  unfold handleEdge
  refine wp_bind.2 (wp_singleSide fun i _ => ?_)
  refine wp_step (P := fun kv s1 => (Inv N e.time s1 ∧ s.nV ≤ kv ∧ kv < s1.nV) ∧ s1.tri = s.tri)
    (wp_mono (i_edgeVertex h i step ht) fun _ _ hm h => ⟨h, st_edgeVertex _ _ _ _ _ _ _ hm⟩)
    (g_edgeVertex _ _ _ _) fun kv s1 i1 g1 => ?_
  obtain ⟨⟨i1, hfresh, hkv⟩, htri⟩ := i1
  refine wp_bind.2 (wp_getT (g1.tlt ht) ?_)
  have hT := i1.refs.neighbours _ (g1.tlt ht)
  -- the vertices of the triangle are older than the new one
  have hne : ∀ i, kv ≠ (s1.tri e.tri).vertices i := fun i x => by
    have := h.refs.vertices _ ht i
    rw [← htri, ← x] at this
    exact absurd this hfresh.not_gt
  refine wp_step (i_edgeSide i1 e.tri .cw (hT _) (hT _) hkv (hne _)) (g_edgeSide _ _ _ _ _ _ _)
    fun fa s2 i2 g2 => ?_
  refine wp_step (i_edgeSide i2.1 e.tri .ccw (fun x hx => g2.tlt (hT _ x hx))
    (fun x hx => g2.tlt (hT _ x hx)) (g2.vlt hkv) (hne _)) (g_edgeSide _ _ _ _ _ _ _)
    fun fb s3 i3 g3 => ?_
  refine wp_stepI (i_detachAndSchedule i3.1 _ e.tri (fun x hx => g3.tlt (g2.tlt (hT _ x hx))))
    (g_detachAndSchedule _ _ _) fun _ s4 i4 g4 => ?_
  refine wp_stepI (i_stopTriangle i4 (g4.tlt (g3.tlt (g2.tlt (g1.tlt ht)))) _) (g_stopTriangle _ _)
    fun _ s5 i5 g5 => ?_
  exact i_edgeFan i5 depth step (g5.vlt (g4.vlt (g3.vlt (g2.vlt hkv))))
    (fun x hx => g5.tlt (g4.tlt (g3.tlt (i2.2 x hx)))) (fun x hx => g5.tlt (g4.tlt (i3.2 x hx)))

theorem i_threeSidesNeighbour (h : Inv N now s) {t : TId} (i : Fin 3) (ht : t < s.nT) :
    wp (threeSidesNeighbour t now i) (fun _ s' => Inv N now s') s := by
  unfold threeSidesNeighbour
  refine wp_bind.2 (wp_getT ht ?_)
  split
  · exact h
  · rename_i n hn
    have hn := h.refs.neighbours t ht i n hn
    refine wp_bind.2 (wp_getT hn ?_)
    split_ifs
    · refine wp_stepI (i_relink h t hn fun _ e => by cases e) (g_relink _ _ _) fun _ s1 i1 g1 => ?_
      exact wp_inv (i_scheduleImmediately i1 (g1.tlt hn)) (g_scheduleImmediately _ _)
    · exact h

theorem i_handleEdge3 {e : Event K} (step : ℤ) (h : Inv N e.time s) (ht : e.tri < s.nT) :
    wp (handleEdge3 e step) (fun _ s' => Inv N e.time s') s := by
  unfold handleEdge3
  refine wp_bind.2 (wp_assertM fun _ => ?_)
  refine wp_bind.2 (wp_getT ht ?_)
  have hv := h.refs.vertices _ ht
  refine wp_step (i_stopAndRecord _ step none h ?_) (g_stopAndRecord _ _ _ _) fun node s1 i1 g1 => ?_
  · intro v hm
    rcases List.mem_cons.1 hm with rfl | hm
    · exact hv _
    · exact mem_two (hv _) (hv _) v hm
  refine wp_bind.2 (wp_mono (wp_forEach (P := fun s' => Inv N e.time s' ∧ s'.nT = s1.nT) ?_
    ⟨i1.1, rfl⟩) ?_)
  · rintro i - s' ⟨h', hn⟩
    exact wp_mono (i_threeSidesNeighbour h' i (hn ▸ g1.tlt ht)) fun _ s'' hm h'' =>
      ⟨h'', (g_threeSidesNeighbour _ _ _ _ _ _ hm).nT.trans hn⟩
  · rintro _ s2 - ⟨i2, hn⟩
    exact wp_inv (i_stopTriangle i2 (hn ▸ g1.tlt ht) _) (g_stopTriangle _ _)

theorem i_handleEdge1 [HasTrig K] {e : Event K} (step : ℤ) (h : Inv N e.time s) (ht : e.tri < s.nT) :
    wp (handleEdge1 e step) (fun _ s' => Inv N e.time s') s := by
  unfold handleEdge1
  refine wp_bind.2 (wp_singleSide fun i _ => ?_)
  refine wp_bind.2 (wp_getT ht ?_)
  have hv := h.refs.vertices _ ht
  dsimp only
  refine wp_step (i_stopAndRecord _ step none h (mem_two (hv _) (hv _))) (g_stopAndRecord _ _ _ _)
    fun node s1 i1 g1 => ?_
  refine wp_bind.2 (wp_getK (g1.vlt (hv _)) fun k1 _ => ?_)
  refine wp_bind.2 (wp_getK (g1.vlt (hv _)) fun k2 _ => ?_)
  refine wp_bind.2 (wp_countVertices ?_)
  refine wp_step (i_computeNewKvertex i1.1 _ _ _ _ i1.2) (g_computeNewKvertex _ _ _ _ _ _)
    fun kv s2 i2 g2 => ?_
  obtain ⟨i2, kv2, hkv2, hinfo, sk2⟩ := i2
  refine wp_step (i_appendVertex i2 hkv2 hinfo (by rw [sk2])) (g_appendVertex _)
    fun _ s3 i3 g3 => ?_
  refine wp_step (i_stopAndRecord _ step none i3 (mem_two (g3.vlt (g2.vlt (g1.vlt (hv _)))) (g3.vlt hkv2)))
    (g_stopAndRecord _ _ _ _) fun node s4 i4 g4 => ?_
  exact wp_inv (i_stopTriangle i4.1 (g4.tlt (g3.tlt (g2.tlt (g1.tlt ht)))) _) (g_stopTriangle _ _)

theorem i_splitChecks {v v1 v2 : VId} (hv : v < s.nV) (hv1 : v1 < s.nV)
    (hv2 : v2 < s.nV) : wp (splitChecks v v1 v2 now) (fun _ s' => s' = s) s := by
  unfold splitChecks
  refine wp_bind.2 (wp_getK hv1 fun _ _ => ?_)
  refine wp_bind.2 (wp_getK hv2 fun _ _ => ?_)
  refine wp_bind.2 (wp_assertM fun _ => ?_)
  refine wp_bind.2 (wp_getK hv fun _ _ => ?_)
  refine wp_bind.2 (wp_need fun _ _ => ?_)
  refine wp_bind.2 (wp_need fun _ _ => ?_)
  refine wp_bind.2 (wp_getWfLine ?_)
  refine wp_bind.2 (wp_getWfLine ?_)
  refine wp_bind.2 (wp_lift fun _ _ => ?_)
  refine wp_bind.2 (wp_need fun _ _ => ?_)
  refine wp_bind.2 (wp_getWfLine ?_)
  refine wp_bind.2 (wp_lift fun _ _ => ?_)
  refine wp_bind.2 (wp_tryIntersection fun _ => ?_)
  refine wp_bind.2 (wp_tryIntersection fun _ => ?_)
  exact wp_bind.2 (wp_tryIntersection fun _ => rfl)

theorem i_splitVertices [HasTrig K] (h : Inv N now s) {v v1 v2 : VId} (step : ℤ) (hv : v < s.nV)
    (hv1 : v1 < s.nV) (hv2 : v2 < s.nV) :
    wp (splitVertices v v1 v2 now step) (fun r s' => Inv N now s' ∧ (s.nV ≤ r.1 ∧ r.1 < s'.nV) ∧
      s.nV ≤ r.2 ∧ r.2 < s'.nV) s := by
  unfold splitVertices
  refine wp_step (i_stopAndRecord _ step none h fun w hw => by rw [List.mem_singleton.1 hw]; exact hv)
    (g_stopAndRecord _ _ _ _) fun node s1 i1 g1 => ?_
  refine wp_bind.2 (wp_getK (g1.vlt hv) fun k hk => ?_)
  refine wp_bind.2 (wp_getK (g1.vlt hv1) fun k1 _ => ?_)
  refine wp_bind.2 (wp_getK (g1.vlt hv2) fun k2 _ => ?_)
  refine wp_bind.2 (wp_assertM fun _ => ?_)
  refine wp_bind.2 (wp_countVertices ?_)
  refine wp_step (i_computeNewKvertex i1.1 _ _ _ _ i1.2) (g_computeNewKvertex _ _ _ _ _ _)
    fun vb s2 i2 g2 => ?_
  obtain ⟨i2, vb2, hvb2, hinfo, sk2⟩ := i2
  refine wp_step (i_setWf' i2 _ _ hvb2 hinfo) (g_setWf _ _ _) fun _ s3 i3 g3 => ?_
  obtain ⟨i3, hinfo, sk3⟩ := i3
  refine wp_step (i_appendVertex i3 (g3.vlt hvb2) hinfo (by rw [sk3, sk2])) (g_appendVertex _)
    fun _ s4 i4 g4 => ?_
  have g24 := growsPre.trans _ _ _ (growsPre.trans _ _ _ g2 g3) g4
  refine wp_bind.2 (wp_countVertices ?_)
  refine wp_step (i_computeNewKvertex i4 _ _ _ _ (g24.mem i1.2)) (g_computeNewKvertex _ _ _ _ _ _)
    fun va s5 i5 g5 => ?_
  obtain ⟨i5, va5, hva5, hinfo, sk5⟩ := i5
  refine wp_step (i_setWf' i5 _ _ hva5 hinfo) (g_setWf _ _ _) fun _ s6 i6 g6 => ?_
  obtain ⟨i6, hinfo, sk6⟩ := i6
  refine wp_step (i_appendVertex i6 (g6.vlt hva5) hinfo (by rw [sk6, sk5])) (g_appendVertex _)
    fun _ s7 i7 g7 => ?_
  have g57 := growsPre.trans _ _ _ (growsPre.trans _ _ _ g5 g6) g7
  have hvb7 := g57.vlt (g4.vlt (g3.vlt hvb2))
  have hva7 := g7.vlt (g6.vlt hva5)
  have g07 := growsPre.trans _ _ _ g1 (growsPre.trans _ _ _ g24 g57)
  refine wp_step (i_updateCirc i7 k.leftRef (some vb)
    (fun x hx => g57.vlt (g24.vlt (i1.1.leftRef (g1.vlt hv) hk hx))) (fun _ x => by cases x; exact hvb7))
    (g_updateCirc _ _ _) fun _ s8 i8 g8 => ?_
  refine wp_step (i_updateCirc i8 (some vb) (some v2)
    (fun _ x => by cases x; exact g8.vlt hvb7) (fun _ x => by cases x; exact g8.vlt (g07.vlt hv2)))
    (g_updateCirc _ _ _) fun _ s9 i9 g9 => ?_
  refine wp_bind.2 (wp_mono (i_checkLinks i9 (g9.vlt (g8.vlt hvb7))) ?_)
  rintro _ s' - rfl
  have g09 := growsPre.trans _ _ _ g07 (growsPre.trans _ _ _ g8 g9)
  refine wp_step (i_updateCirc i9 (some v1) (some va)
    (fun _ x => by cases x; exact g09.vlt hv1) (fun _ x => by cases x; exact g9.vlt (g8.vlt hva7)))
    (g_updateCirc _ _ _) fun _ s10 i10 g10 => ?_
  refine wp_bind.2 (wp_getK (g10.vlt (g09.vlt hv)) fun k hk => ?_)
  refine wp_step (i_updateCirc i10 (some va) k.rightRef
    (fun _ x => by cases x; exact g10.vlt (g9.vlt (g8.vlt hva7)))
    (fun _ x => i10.rightRef (g10.vlt (g09.vlt hv)) hk x))
    (g_updateCirc _ _ _) fun _ s11 i11 g11 => ?_
  have hva11 := g11.vlt (g10.vlt (g9.vlt (g8.vlt hva7)))
  refine wp_bind.2 (wp_mono (i_checkLinks i11 hva11) ?_)
  rintro _ s' - rfl
  exact ⟨i11, ⟨by rw [vb2]; exact g1.nV, g11.vlt (g10.vlt (g9.vlt (g8.vlt hvb7)))⟩,
    by rw [va5]; exact g1.nV.trans g24.nV, hva11⟩

theorem i_splitSide (h : Inv N now s) {t : TId} (i : Fin 3) {v newv : VId} (dir : Dir) (ht : t < s.nT)
    (hv : newv < s.nV) (hne : newv ≠ v) :
    wp (splitSide t i v newv now dir) (fun l s' => Inv N now s' ∧ ∀ x ∈ l, x < s'.nT) s := by
  unfold splitSide
  refine wp_bind.2 (wp_getT ht ?_)
  refine wp_bind.2 (wp_assertSome fun n hn => ?_)
  have hn := h.refs.neighbours t ht i n hn
  refine wp_stepI (i_relink h t hn fun _ e => by cases e) (g_relink _ _ _) fun _ s1 i1 g1 => ?_
  refine wp_mono (i_replaceKvertex i1 dir (g1.tlt hn) (g1.vlt hv) hne) ?_
  exact fun _ _ hm i => ⟨i.1.toInv (g_replaceKvertex _ _ _ _ _ _ _ _ hm), i.2⟩

theorem i_splitFan [HasTrig K] (h : Inv N now s) (depth : ℕ) {v : VId} {fan : List TId} (dir : Dir)
    (step : ℤ) (hv : v < s.nV) (hf : ∀ t ∈ fan, t < s.nT) :
    wp (splitFan depth v fan now dir step) (fun _ s' => Inv N now s') s := by
  unfold splitFan
  refine wp_bind.2 (wp_getK hv fun k _ => ?_)
  split_ifs
  · exact i_parallelFan depth h dir step hf hv
  · exact h

theorem i_handleSplit [HasTrig K] (depth : ℕ) {e : Event K} (step : ℤ) (h : Inv N e.time s)
    (ht : e.tri < s.nT) : wp (handleSplit depth e step) (fun _ s' => Inv N e.time s') s := by
  unfold handleSplit
  refine wp_bind.2 (wp_singleSide fun i _ => ?_)
  dsimp only
  refine wp_bind.2 (wp_getT ht ?_)
  refine wp_bind.2 (wp_assertM fun _ => ?_)
  have hv := h.refs.vertices _ ht
  refine wp_bind.2 (wp_mono (i_splitChecks (hv _) (hv _) (hv _)) ?_)
  rintro _ s' - rfl
  refine wp_step (i_splitVertices h step (hv _) (hv _) (hv _)) (g_splitVertices _ _ _ _ _)
    fun r s1 i1 g1 => ?_
  obtain ⟨i1, ⟨b1, b2⟩, a1, a2⟩ := i1
  have hne1 : r.1 ≠ (s'.tri e.tri).vertices i := fun x => absurd (hv i) (x ▸ b1).not_gt
  have hne2 : r.2 ≠ (s'.tri e.tri).vertices i := fun x => absurd (hv i) (x ▸ a1).not_gt
  refine wp_step (i_splitSide i1 _ .ccw (g1.tlt ht) b2 hne1) (g_splitSide _ _ _ _ _ _)
    fun fb s2 i2 g2 => ?_
  refine wp_step (i_splitSide i2.1 _ .cw (g2.tlt (g1.tlt ht)) (g2.vlt a2) hne2) (g_splitSide _ _ _ _ _ _)
    fun fa s3 i3 g3 => ?_
  refine wp_stepI (i_stopTriangle i3.1 (g3.tlt (g2.tlt (g1.tlt ht))) _) (g_stopTriangle _ _)
    fun _ s4 i4 g4 => ?_
  refine wp_step (i_splitFan i4 depth .cw step (g4.vlt (g3.vlt (g2.vlt a2)))
    fun x hx => g4.tlt (i3.2 x hx)) (g_splitFan _ _ _ _ _ _) fun _ s5 i5 g5 => ?_
  exact i_splitFan i5 depth .ccw step (g5.vlt (g4.vlt (g3.vlt (g2.vlt b2))))
    fun x hx => g5.tlt (g4.tlt (g3.tlt (i2.2 x hx)))

theorem i_handleEvent [HasTrig K] (depth : ℕ) {e : Event K} (step : ℤ) (h : Inv N e.time s)
    (ht : e.tri < s.nT) : wp (handleEvent depth e step) (fun _ s' => Inv N e.time s') s := by
  unfold handleEvent
  refine wp_bind.2 (wp_getT ht ?_)
  by_cases c : (s.tri e.tri).stopsAt.isSome
  · rw [if_pos c]; exact h
  · rw [if_neg c]
    split
    · split_ifs
      · exact i_handleEdge3 step h ht
      · exact i_handleEdge1 step h ht
      · exact wp_raise
      · exact i_handleEdge depth step h ht
    · exact wp_inv (i_handleFlip h ht) (g_handleFlip _)
    · exact i_handleSplit depth step h ht

/-- taking an event, and the time it is handled -/
theorem i_takeEvent [HasTrig K] (h : Inv N now s) : wp (takeEvent now) (fun x s' =>
    match x with
    | none => s' = s
    | some (e, now') => Inv N now' s' ∧ e.time = now' ∧ now ≤ now' ∧ e.tri < s'.nT) s := by
  unfold wp
  rcases takeEvent_run now s with ⟨e, r, hi, he⟩ | ⟨e, r, hi, hq, he⟩ | ⟨_, _, he⟩ <;> rw [he] <;> dsimp only
  · have hm : e ∈ s.immediate := by rw [hi]; exact List.mem_cons_self ..
    have := h.sub (List.Sublist.refl s.queue) (i := r) (by rw [hi]; exact List.sublist_cons_self ..)
    exact ⟨this, h.immediate e hm, le_rfl, (h.current e (List.mem_append_left _ hm)).1⟩
  · have hm : e ∈ s.queue := by rw [hq]; exact List.mem_cons_self ..
    have hle := h.queued e hm
    refine ⟨?_, rfl, hle, (h.current e (List.mem_append_right _ hm)).1⟩
    have h1 := h.sub (q := r) (by rw [hq]; exact List.sublist_cons_self ..) (List.Sublist.refl s.immediate)
    have h2 := h1.mono (L' := fun _ => LifeOk e.time s.skNodes) fun _ _ _ _ l => l.mono hle fun _ => id
    refine { h2 with hist := ?_, queued := ?_, immediate := ?_ }
    · exact fun v kv hv hk => ⟨(h.hist v kv hv hk).1.mono hle, (h.hist v kv hv hk).2.mono hle⟩
    · intro f hf
      have ho := h.ordered
      rw [hq] at ho
      have := (List.pairwise_cons.1 ho).1 f hf
      rcases (C31_compare_iff _ _ _).1.1 this with h | h
      · exact h.le
      · exact h.1.le
    · intro f hf
      dsimp only at hf
      rw [hi] at hf; cases hf

theorem i_loopStep [HasTrig K] (depth : ℕ) (step : ℤ) (h : Inv N now s) :
    wp (loopStep depth step now) (fun x s' =>
      match x with
      | none => s' = s
      | some (e, now') => Inv N now' s' ∧ e.time = now' ∧ now ≤ now') s := by
  unfold loopStep
  refine wp_bind.2 (wp_mono (i_takeEvent h) ?_)
  rintro x s1 - h1
  cases x with
  | none => exact h1
  | some y =>
    obtain ⟨e, now'⟩ := y
    obtain ⟨h1, rfl, h3, h4⟩ := h1
    refine wp_bind.2 (wp_mono (i_handleEvent depth step h1 h4) ?_)
    rintro _ s2 - h2
    exact ⟨h2, rfl, h3⟩

end

end Grassfire
