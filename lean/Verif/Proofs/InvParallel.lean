/-
The invariant of the event loop: infinitely fast vertices (events/parallel.py).
-/
import Verif.Proofs.InvFan

set_option linter.unusedSectionVars false

namespace Grassfire

open Spec

variable {K : Type} [Field K] [LinearOrder K] {α β : Type} {N : Prop}
variable {now : K} {s : St K}

theorem Spec.Grows.tlt {s s' : St K} (g : Grows s s') {t : TId} (h : t < s.nT) : t < s'.nT := g.nT ▸ h

theorem Spec.Grows.vlt {s s' : St K} (g : Grows s s') {v : VId} (h : v < s.nV) : v < s'.nV :=
  h.trans_le g.nV

theorem Spec.Grows.mem {s s' : St K} (g : Grows s s') {n : NodeId} (h : n ∈ s.skNodes) : n ∈ s'.skNodes :=
  g.skNodes.subset h

/-- nodes that have been added do no harm -/
theorem InvL.toInv {s s' : St K} (h : InvL N (fun _ => LifeOk now s.skNodes) now s') (g : Grows s s') :
    Inv N now s' := h.mono fun _ _ _ _ l => l.mono le_rfl fun _ => g.mem

theorem wp_inv {m : M K α} (h : wp m (fun _ s' => InvL N (fun _ => LifeOk now s.skNodes) now s') s)
    (g : Keeps Grows m) : wp m (fun _ s' => Inv N now s') s :=
  wp_mono h fun _ _ hm i => i.toInv (g _ _ _ hm)

theorem wp_stepI {m : M K α} {f : α → M K β} {Q : β → St K → Prop}
    (h : wp m (fun _ s' => InvL N (fun _ => LifeOk now s.skNodes) now s') s) (g : Keeps Grows m)
    (k : ∀ a s', Inv N now s' → Grows s s' → wp (f a) Q s') : wp (m >>= f) Q s :=
  wp_step h g fun a s' i g => k a s' (i.toInv g) g

theorem i_velocityOf {v : VId} (hv : v < s.nV) : wp (velocityOf v) (fun _ s' => s' = s) s := by
  unfold velocityOf
  exact wp_bind.2 (wp_getV hv rfl)

theorem i_assertVertexStopped {v : VId} (hv : v < s.nV) :
    wp (assertVertexStopped v) (fun _ s' => s' = s) s := by
  unfold assertVertexStopped
  exact wp_bind.2 (wp_getK hv fun _ _ => wp_assertM fun _ => rfl)

theorem i_assertTriStopped {t : TId} (ht : t < s.nT) :
    wp (assertStopped t) (fun _ s' => s' = s) s := by
  unfold assertStopped
  exact wp_bind.2 (wp_getT ht (wp_assertM fun _ => rfl))

theorem i_hasInfFast {L : VId → KVertex K → Prop} (h : InvL N L now s) {t : TId} (ht : t < s.nT) :
    wp (hasInfFast t) (fun _ s' => s' = s) s := by
  unfold hasInfFast
  refine wp_bind.2 (wp_getT ht ?_)
  refine wp_bind.2 (wp_getK (h.refs.vertices t ht 0) fun _ _ => ?_)
  refine wp_bind.2 (wp_getK (h.refs.vertices t ht 1) fun _ _ => ?_)
  exact wp_bind.2 (wp_getK (h.refs.vertices t ht 2) fun _ _ => rfl)

section
variable [IsStrictOrderedRing K] [HasSqrt K]

theorem i_evenLegs (h : Inv N now s) {t : TId} (e : Fin 3) {pivot : VId} (step : ℤ) (ht : t < s.nT)
    (hp : pivot < s.nV) : wp (evenLegs t e pivot now step) (fun _ s' => Inv N now s') s := by
  unfold evenLegs
  refine wp_bind.2 (wp_getT ht ?_)
  refine wp_bind.2 (wp_assertM fun _ => ?_)
  refine wp_bind.2 (wp_assertM fun _ => ?_)
  have hv := h.refs.vertices t ht
  refine wp_step (i_stopAndRecord _ step none h ?_) (g_stopAndRecord _ _ _ _) fun node s1 i1 g1 => ?_
  · intro v hm
    rcases List.mem_cons.1 hm with rfl | hm
    · exact hv _
    · rw [List.mem_singleton.1 hm]; exact hv _
  refine wp_step (i_stopAt i1.1 (g1.vlt hp) i1.2) (g_stopAt _ _ _) fun _ s2 i2 g2 => ?_
  refine wp_stepI (i_stopTriangle i2 (g2.tlt (g1.tlt ht)) now) (g_stopTriangle _ _) fun _ s3 i3 g3 => ?_
  have ht3 := g3.tlt (g2.tlt (g1.tlt ht))
  refine wp_bind.2 (wp_getT ht3 ?_)
  exact wp_inv (i_detachAndSchedule i3 _ t (i3.refs.neighbours t ht3 e)) (g_detachAndSchedule _ _ _)

theorem i_evenLegsAt (h : Inv N now s) {t : TId} {pivot : VId} (step : ℤ) (ht : t < s.nT)
    (hp : pivot < s.nV) : wp (evenLegsAt t pivot now step) (fun _ s' => Inv N now s') s := by
  unfold evenLegsAt
  refine wp_bind.2 (wp_mono (i_vertexIndex pivot ht) ?_)
  rintro i s' - ⟨rfl, -⟩
  exact i_evenLegs h i step ht hp

theorem i_evenLegsIf (h : Inv N now s) (c : Bool) {t : TId} {pivot : VId} (step : ℤ) (ht : t < s.nT)
    (hp : pivot < s.nV) : wp (evenLegsIf c t pivot now step) (fun _ s' => Inv N now s') s := by
  unfold evenLegsIf
  split_ifs
  · exact i_evenLegsAt h step ht hp
  · exact h

theorem i_parallel3tri (h : Inv N now s) {t : TId} (e : Fin 3) {pivot : VId} (step : ℤ) (ht : t < s.nT)
    (hp : pivot < s.nV) : wp (parallel3tri t e pivot now step) (fun _ s' => Inv N now s') s := by
  unfold parallel3tri
  refine wp_bind.2 (wp_getT ht ?_)
  refine wp_bind.2 (wp_assertM fun _ => ?_)
  refine wp_bind.2 (wp_assertM fun _ => ?_)
  refine wp_bind.2 (wp_mono (i_legDist h _ ht now) ?_)
  rintro _ s' - rfl
  refine wp_bind.2 (wp_mono (i_legDist h _ ht now) ?_)
  rintro _ s' - rfl
  dsimp only
  refine wp_bind.2 (wp_assertM fun _ => ?_)
  refine wp_bind.2 (wp_assertM fun _ => ?_)
  have hv := h.refs.vertices t ht
  refine wp_bind.2 (wp_mono (i_velocityOf (hv _)) ?_)
  rintro velo1 s' - rfl
  refine wp_bind.2 (wp_mono (i_velocityOf (hv _)) ?_)
  rintro velo2 s' - rfl
  have hite : ∀ (c : Prop) [Decidable c] (a b : Fin 3),
      (if c then (s'.tri t).vertices a else (s'.tri t).vertices b) < s'.nV := by
    intro c _ a b; split_ifs
    · exact hv _
    · exact hv _
  refine wp_step (i_stopAndRecord _ step none h ?_) (g_stopAndRecord _ _ _ _) fun node s1 i1 g1 => ?_
  · intro v hm
    rw [List.mem_singleton.1 hm]; exact hite _ _ _
  refine wp_step (i_stopAt i1.1 (g1.vlt (hite _ _ _)) i1.2) (g_stopAt _ _ _) fun _ s2 i2 g2 => ?_
  refine wp_step (i_stopAt i2 (g2.vlt (g1.vlt hp)) (g2.mem i1.2)) (g_stopAt _ _ _) fun _ s3 i3 g3 => ?_
  have ht3 := g3.tlt (g2.tlt (g1.tlt ht))
  refine wp_stepI (i_stopTriangle i3 ht3 now) (g_stopTriangle _ _) fun _ s4 i4 g4 => ?_
  refine wp_bind.2 (wp_getT (g4.tlt ht3) ?_)
  refine wp_mono (wp_forEach (P := fun s' => s' = s4) ?_ rfl) ?_
  · rintro v hm s' rfl
    refine i_assertVertexStopped ?_
    have hv := i4.refs.vertices t (g4.tlt ht3)
    rcases List.mem_cons.1 hm with rfl | hm
    · exact hv _
    rcases List.mem_cons.1 hm with rfl | hm
    · exact hv _
    rw [List.mem_singleton.1 hm]; exact hv _
  · rintro _ s' - rfl
    exact i4

theorem i_parallel3 (h : Inv N now s) {t u : TId} {pivot : VId} (step : ℤ) (ht : t < s.nT)
    (hp : pivot < s.nV) : wp (parallel3 t u pivot now step) (fun _ s' => Inv N now s') s := by
  unfold parallel3
  refine wp_bind.2 (wp_assertM fun _ => ?_)
  refine wp_bind.2 (wp_mono (i_legDist h _ ht now) ?_)
  rintro d0 s' - rfl
  refine wp_bind.2 (wp_mono (i_legDist h _ ht now) ?_)
  rintro d1 s' - rfl
  refine wp_bind.2 (wp_mono (i_legDist h _ ht now) ?_)
  rintro d2 s' - rfl
  dsimp only
  unfold parallel3.parallel3Collapse
  split
  · refine wp_bind.2 (wp_getT ht ?_)
    exact i_evenLegsAt h step ht (h.refs.vertices t ht _)
  · refine wp_bind.2 (wp_mono (i_vertexIndex pivot ht) ?_)
    rintro i s' - ⟨rfl, -⟩
    exact i_parallel3tri h i step ht hp

theorem i_evenTriangle (h : Inv N now s) {pivot : VId} {t : TId} (ht : t < s.nT) :
    wp (evenTriangle pivot now t) (fun _ s' => s' = s) s := by
  unfold evenTriangle
  refine wp_bind.2 (wp_mono (i_vertexIndex pivot ht) ?_)
  rintro i s' - ⟨rfl, -⟩
  refine wp_bind.2 (wp_mono (i_legDist h _ ht now) ?_)
  rintro l s' - rfl
  refine wp_bind.2 (wp_mono (i_legDist h _ ht now) ?_)
  rintro r s' - rfl
  exact rfl

theorem i_flipPair (h : Inv N now s) {t0 t1 : TId} {pivot : VId} (step : ℤ) (h0 : t0 < s.nT)
    (h1 : t1 < s.nT) (hp : pivot < s.nV) :
    wp (flipPair t0 t1 pivot now step) (fun _ s' => Inv N now s') s := by
  unfold flipPair
  refine wp_bind.2 (wp_getT h0 ?_)
  refine wp_bind.2 (wp_needIdx fun a _ => ?_)
  refine wp_bind.2 (wp_getT h1 ?_)
  refine wp_bind.2 (wp_needIdx fun b _ => ?_)
  refine wp_stepI (i_flip h a b h0 h1) (g_flip _ _ _ _) fun _ s1 i1 g1 => ?_
  refine wp_bind.2 (wp_mono (i_hasInfFast i1 (g1.tlt h0)) ?_)
  rintro b0 s' - rfl
  refine wp_bind.2 (wp_mono (i_hasInfFast i1 (g1.tlt h1)) ?_)
  rintro b1 s' - rfl
  refine wp_step (i_evenLegsIf i1 b0 step (g1.tlt h0) (g1.vlt hp)) (g_evenLegsIf _ _ _ _ _)
    fun _ s2 i2 g2 => ?_
  exact i_evenLegsIf i2 b1 step (g2.tlt (g1.tlt h1)) (g2.vlt (g1.vlt hp))

theorem i_parallelEven (h : Inv N now s) {fan : List TId} {pivot : VId} (step : ℤ)
    (hf : ∀ t ∈ fan, t < s.nT) (hp : pivot < s.nV) :
    wp (parallelEven fan pivot now step) (fun _ s' => Inv N now s') s := by
  unfold parallelEven
  split
  · rename_i t
    have ht := hf t (List.mem_cons_self ..)
    refine wp_step (i_evenLegsAt h step ht hp) (g_evenLegsAt _ _ _ _) fun _ s1 i1 g1 => ?_
    refine wp_mono (i_assertTriStopped (g1.tlt ht)) ?_
    rintro _ s' - rfl
    exact i1
  · rename_i t0 t1
    have h0 := hf t0 (List.mem_cons_self ..)
    have h1 := hf t1 (List.mem_cons_of_mem _ (List.mem_cons_self ..))
    refine wp_bind.2 (wp_mono (i_evenTriangle h h0) ?_)
    rintro e0 s' - rfl
    refine wp_bind.2 (wp_mono (i_evenTriangle h h1) ?_)
    rintro e1 s' - rfl
    split_ifs
    · refine wp_step (i_evenLegsAt h step h0 hp) (g_evenLegsAt _ _ _ _) fun _ s1 i1 g1 => ?_
      refine wp_step (i_evenLegsAt i1 step (g1.tlt h1) (g1.vlt hp)) (g_evenLegsAt _ _ _ _)
        fun _ s2 i2 g2 => ?_
      refine wp_bind.2 (wp_mono (i_assertTriStopped (g2.tlt (g1.tlt h0))) ?_)
      rintro _ s' - rfl
      refine wp_mono (i_assertTriStopped (g2.tlt (g1.tlt h1))) ?_
      rintro _ s' - rfl
      exact i2
    · exact i_flipPair h step h0 h1 hp
  · exact wp_raise

/-- the arguments of the next call of `handle_parallel_fan` are valid -/
def NextOk (x : Option (List TId × VId × Dir)) (s : St K) : Prop :=
  ∀ y, x = some y → (∀ t ∈ y.1, t < s.nT) ∧ y.2.1 < s.nV

theorem combineFans_mem {a b : List TId} {y : List TId × Dir} (h : combineFans a b = some y) :
    ∀ t ∈ y.1, t ∈ a ∨ t ∈ b := by
  unfold combineFans at h
  intro t ht
  split_ifs at h <;> cases h
  · rcases List.mem_append.1 ht with ht | ht
    · exact .inl (List.mem_reverse.1 ht)
    · exact .inr ht
  · exact .inl ht
  · exact .inr ht

theorem i_nextFan {kv : VId} {a b : List TId} (hv : kv < s.nV) (ha : ∀ t ∈ a, t < s.nT)
    (hb : ∀ t ∈ b, t < s.nT) : wp (nextFan kv a b) (fun x s' => s' = s ∧ NextOk x s) s := by
  unfold nextFan
  refine wp_bind.2 (wp_getK hv fun k _ => ?_)
  split_ifs
  · refine ⟨rfl, fun y hy => ?_⟩
    cases hc : combineFans a b with
    | none => rw [hc] at hy; cases hy
    | some z =>
      rw [hc] at hy; cases hy
      exact ⟨fun t ht => (combineFans_mem hc t ht).elim (ha t) (hb t), hv⟩
  · exact ⟨rfl, fun _ h => by cases h⟩

theorem i_stopPivot [HasTrig K] (h : Inv N now s) {pivot : VId} {n : NodeId} (hp : pivot < s.nV)
    (hn : n ∈ s.skNodes) : wp (shorterLeg.stopPivot pivot now n) (fun _ s' => Inv N now s') s := by
  unfold shorterLeg.stopPivot
  refine wp_bind.2 (wp_getK hp fun k _ => ?_)
  split_ifs
  · refine wp_bind.2 (wp_assertM fun _ => ?_)
    exact i_stopAt h hp hn
  · exact h

theorem i_replaceSide [HasTrig K] (h : Inv N now s) (t : TId) {n other : Option TId} {v kv : VId}
    (dir : Dir) (hn : ∀ x, n = some x → x < s.nT) (ho : ∀ x, other = some x → x < s.nT)
    (hk : kv < s.nV) (hne : kv ≠ v) :
    wp (shorterLeg.replaceSide t now n other v kv dir)
      (fun l s' => Inv N now s' ∧ ∀ x ∈ l, x < s'.nT) s := by
  unfold shorterLeg.replaceSide
  cases n with
  | none => exact ⟨h, fun _ h => absurd h List.not_mem_nil⟩
  | some n =>
    refine wp_stepI (i_relink h t (hn n rfl) ho) (g_relink _ _ _) fun _ s1 i1 g1 => ?_
    refine wp_mono (i_replaceKvertex i1 dir (g1.tlt (hn n rfl)) (g1.vlt hk) hne) ?_
    exact fun _ _ hm i => ⟨i.1.toInv (g_replaceKvertex _ _ _ _ _ _ _ _ hm), i.2⟩

/-- allocation, linking to the wavefronts and recording of a new vertex; the statements
between allocation and recording do not change the vertices of the skeleton -/
theorem i_appendVertex {v : VId} {info : ℕ} (h : Inv N now s) (hv : v < s.nV)
    (hk : ∃ kv, s.vert v = .kin kv ∧ kv.info = info) (hi : info = s.skVertices.length + 1) :
    wp (appendVertex v) (fun _ s' => Inv N now s') s := by
  obtain ⟨kv, h1, h2⟩ := hk
  exact h.appendVertex hv h1 (h2.trans hi)

/-- `modifyK` does not change the vertices of the skeleton or the number of the vertex -/
theorem i_setWf' (h : Inv N now s) {v : VId} {info : ℕ} (l r : Option WfId) (hv : v < s.nV)
    (hk : ∃ kv, s.vert v = .kin kv ∧ kv.info = info) :
    wp (modifyK v fun k => { k with wfl := l, wfr := r }) (fun _ s' => Inv N now s' ∧
      (∃ kv, s'.vert v = .kin kv ∧ kv.info = info) ∧ s'.skVertices = s.skVertices) s := by
  refine wp_mono (wp_modifyK (Q := fun _ s' => Inv N now s' ∧ (∃ kv, s'.vert v = .kin kv ∧ kv.info = info) ∧
    s'.skVertices = s.skVertices) hv fun kv hk' => ?_) fun _ _ _ h => h
  have x := h.lives v kv hv hk'
  refine ⟨h.vert' hv hk' rfl rfl rfl ⟨x.starts, x.startNode, x.both, x.order, x.stopNode⟩,
    ⟨_, Function.update_self .., ?_⟩, rfl⟩
  obtain ⟨kw, h1, h2⟩ := hk
  rw [hk'] at h1; cases h1; exact h2

theorem i_shorterLeg [HasTrig K] (h : Inv N now s) {t : TId} (e : Fin 3) {pivot : VId} (step : ℤ)
    (ht : t < s.nT) (hp : pivot < s.nV) :
    wp (shorterLeg t e pivot now step) (fun r s' => Inv N now s' ∧ r.1 < s'.nV ∧
      (∀ t ∈ r.2.1, t < s'.nT) ∧ ∀ t ∈ r.2.2, t < s'.nT) s := by
  unfold shorterLeg
  refine wp_bind.2 (wp_getK hp fun pk _ => ?_)
  refine wp_bind.2 (wp_assertM fun _ => ?_)
  refine wp_bind.2 (wp_getT ht ?_)
  dsimp only
  have hv := h.refs.vertices t ht
  refine wp_bind.2 (wp_assertM fun _ => ?_)
  refine wp_bind.2 (wp_getK (hv _) fun k1 _ => ?_)
  refine wp_bind.2 (wp_getK (hv _) fun k2 _ => ?_)
  refine wp_step (i_stopAndRecord _ step none h ?_) (g_stopAndRecord _ _ _ _) fun node s1 i1 g1 => ?_
  · intro v hm
    rcases List.mem_append.1 hm with hm | hm <;> split_ifs at hm
    · cases hm
    · rw [List.mem_singleton.1 hm]; exact hv _
    · cases hm
    · rw [List.mem_singleton.1 hm]; exact hv _
  refine wp_step (i_stopPivot i1.1 (g1.vlt hp) i1.2) (g_stopPivot _ _ _) fun _ s2 i2 g2 => ?_
  have g2 := growsPre.trans _ _ _ g1 g2
  have hn2 : node ∈ s2.skNodes := by
    rename_i g2'
    exact g2'.mem i1.2
  refine wp_stepI (i_stopTriangle i2 (g2.tlt ht) now) (g_stopTriangle _ _) fun _ s3 i3 g3 => ?_
  have hn3 := g3.mem hn2
  have g3 := growsPre.trans _ _ _ g2 g3
  refine wp_bind.2 (wp_assertM fun _ => ?_)
  refine wp_bind.2 (wp_getK (g3.vlt (hv _)) fun k1 hk1 => ?_)
  refine wp_bind.2 (wp_getK (g3.vlt (hv _)) fun k2 hk2 => ?_)
  refine wp_bind.2 (wp_countVertices ?_)
  refine wp_step (i_computeNewKvertex i3 _ _ _ _ hn3) (g_computeNewKvertex _ _ _ _ _ _)
    fun kv s4 i4 g4 => ?_
  obtain ⟨i4, kv4, hkv4, hinfo, sk4⟩ := i4
  refine wp_bind.2 (wp_need fun l hl => ?_)
  have hl4 := g4.vlt (i3.leftRef (g3.vlt (hv _)) hk1 hl)
  refine wp_bind.2 (wp_getK hl4 fun kl _ => ?_)
  refine wp_bind.2 (wp_need fun r hr => ?_)
  have hr4 := g4.vlt (i3.rightRef (g3.vlt (hv _)) hk2 hr)
  refine wp_bind.2 (wp_getK hr4 fun kr _ => ?_)
  have g4 := growsPre.trans _ _ _ g3 g4
  refine wp_step (i_setWf' i4 _ _ hkv4 hinfo) (g_setWf _ _ _) fun _ s5 i5 g5 => ?_
  obtain ⟨i5, hinfo, sk5⟩ := i5
  refine wp_bind.2 (wp_getT (g5.tlt (g4.tlt ht)) ?_)
  refine wp_step (i_appendVertex i5 (g5.vlt hkv4) hinfo (by rw [sk5, sk4])) (g_appendVertex _)
    fun _ s6 i6 g6 => ?_
  have hkv6 := g6.vlt (g5.vlt hkv4)
  refine wp_step (i_updateCirc i6 (some l) (some kv)
    (fun _ x => by cases x; exact g6.vlt (g5.vlt hl4)) (fun _ x => by cases x; exact hkv6))
    (g_updateCirc _ _ _) fun _ s7 i7 g7 => ?_
  have g7' := growsPre.trans _ _ _ (growsPre.trans _ _ _ (growsPre.trans _ _ _ g4 g5) g6) g7
  have hv27 := g7'.vlt (hv (cw e))
  refine wp_bind.2 (wp_getK hv27 fun k2 hk2 => ?_)
  refine wp_step (i_updateCirc i7 (some kv) k2.rightRef
    (fun _ x => by cases x; exact g7.vlt hkv6) (fun _ x => i7.rightRef hv27 hk2 x))
    (g_updateCirc _ _ _) fun _ s8 i8 g8 => ?_
  have hT := i5.refs.neighbours t (g5.tlt (g4.tlt ht))
  have g58 := growsPre.trans _ _ _ (growsPre.trans _ _ _ g6 g7) g8
  have hkv8 := g8.vlt (g7.vlt hkv6)
  have hne : ∀ i, kv ≠ (s.tri t).vertices i := fun i x => by
    have h1 := hv i
    rw [← x, kv4] at h1
    exact absurd h1 g3.nV.not_gt
  refine wp_step (i_replaceSide i8 t .cw (fun x hx => g58.tlt (hT _ x hx))
    (fun x hx => g58.tlt (hT _ x hx)) hkv8 (hne _)) (g_replaceSide _ _ _ _ _ _ _) fun fa s9 i9 g9 => ?_
  have g59 := growsPre.trans _ _ _ g58 g9
  refine wp_step (i_replaceSide i9.1 t .ccw (fun x hx => g59.tlt (hT _ x hx))
    (fun x hx => g59.tlt (hT _ x hx)) (g9.vlt hkv8) (hne _)) (g_replaceSide _ _ _ _ _ _ _)
    fun fb s10 i10 g10 => ?_
  have g510 := growsPre.trans _ _ _ g59 g10
  refine wp_stepI (i_detachAndSchedule i10.1 _ t (fun x hx => g510.tlt (hT _ x hx)))
    (g_detachAndSchedule _ _ _) fun _ s11 i11 g11 => ?_
  exact ⟨i11, g11.vlt (g10.vlt (g9.vlt hkv8)), fun x hx => g11.tlt (g10.tlt (i9.2 x hx)),
    fun x hx => g11.tlt (i10.2 x hx)⟩

theorem i_parallelLegs [HasTrig K] (h : Inv N now s) {fan : List TId} {a b : TId} {pivot : VId}
    (dir : Dir) (step : ℤ) (hf : ∀ t ∈ fan, t < s.nT) (ha : a < s.nT) (hb : b < s.nT)
    (hp : pivot < s.nV) :
    wp (parallelLegs fan a b pivot now dir step) (fun x s' => Inv N now s' ∧ NextOk x s') s := by
  unfold parallelLegs
  refine wp_bind.2 (wp_assertM fun _ => ?_)
  dsimp only
  have hab : ∀ (c : Prop) [Decidable c], (if c then a else b) < s.nT := by
    intro c _; split_ifs <;> assumption
  have hba : ∀ (c : Prop) [Decidable c], (if c then b else a) < s.nT := by
    intro c _; split_ifs <;> assumption
  refine wp_bind.2 (wp_mono (i_vertexIndex pivot (hab _)) ?_)
  rintro li s' - ⟨rfl, -⟩
  refine wp_bind.2 (wp_mono (i_legDist h _ (hab _) now) ?_)
  rintro dl s' - rfl
  refine wp_bind.2 (wp_mono (i_vertexIndex pivot (hba _)) ?_)
  rintro ri s' - ⟨rfl, -⟩
  refine wp_bind.2 (wp_mono (i_legDist h _ (hba _) now) ?_)
  rintro dr s' - rfl
  split_ifs
  · refine wp_bind.2 (wp_mono (i_parallelEven h step hf hp) fun _ s1 _ i1 => ?_)
    exact ⟨i1, fun _ h => by cases h⟩
  all_goals
    refine wp_bind.2 (wp_mono (i_shorterLeg h _ step (by assumption) hp) ?_)
    rintro r s1 - ⟨i1, h1, h2, h3⟩
    refine wp_mono (i_nextFan h1 h2 h3) ?_
    rintro x s2 - ⟨rfl, hx⟩
    exact ⟨i1, hx⟩

theorem i_parallelStep [HasTrig K] (h : Inv N now s) {fan : List TId} {pivot : VId}
    (dir : Dir) (step : ℤ) (hf : ∀ t ∈ fan, t < s.nT) (hp : pivot < s.nV) :
    wp (parallelStep fan pivot now dir step) (fun x s' => Inv N now s' ∧ NextOk x s') s := by
  unfold parallelStep
  cases fan with
  | nil => exact wp_raise
  | cons first rest =>
    dsimp only
    have h1 := hf first (List.mem_cons_self ..)
    refine wp_bind.2 (wp_getK hp fun pk _ => ?_)
    refine wp_bind.2 (wp_assertM fun _ => ?_)
    refine wp_bind.2 (wp_getT h1 ?_)
    split_ifs
    · refine wp_bind.2 (wp_mono (i_parallel3 h step h1 hp) fun _ s1 _ i1 => ?_)
      exact ⟨i1, fun _ h => by cases h⟩
    · exact i_parallelLegs h dir step hf h1 (hf _ (List.getLast_mem _)) hp

theorem i_parallelFan [HasTrig K] (depth : ℕ) : ∀ {s : St K}, Inv N now s → ∀ {fan : List TId}
    {pivot : VId} (dir : Dir) (step : ℤ), (∀ t ∈ fan, t < s.nT) → pivot < s.nV →
    wp (parallelFan depth fan pivot now dir step) (fun _ s' => Inv N now s') s := by
  induction depth with
  | zero => intros; exact wp_raise
  | succ depth ih =>
    intro s h fan pivot dir step hf hp
    unfold parallelFan
    refine wp_bind.2 (wp_mono (i_parallelStep h dir step hf hp) ?_)
    rintro x s1 - ⟨i1, hx⟩
    cases x with
    | none => exact i1
    | some y => exact ih i1 _ _ (hx y rfl).1 (hx y rfl).2

end

end Grassfire
