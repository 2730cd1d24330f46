/-
Freshness of the events: the handlers and the loop (lemmas for C66).
-/
import Verif.Proofs.FreshFan
import Verif.Props.Mesh

set_option linter.unusedSectionVars false

namespace Grassfire

open Spec

variable {K : Type} [Field K] [LinearOrder K] {α β : Type} {N : Prop}

section
variable {now : K} {s s' : St K} {D D' : TId → Prop} {W : Prop} [IsStrictOrderedRing K] [HasSqrt K]

theorem fr_scheduleTiny (h : Inv N now s) {fan : List TId} {kv : VId} {dir : Dir} {a : Unit}
    (ht : ∀ t ∈ fan, t < s.nT) (hf : Fresh W D now s)
    (hm : scheduleTiny fan kv dir now s = .ok (a, s')) : Fresh W D now s' := by
  unfold scheduleTiny at hm
  cases hl : fan.getLast? with
  | none => rw [hl] at hm; cases hm; exact hf
  | some t =>
    rw [hl] at hm
    dsimp only at hm
    have ht := ht t (List.mem_of_getLast? hl)
    obtain ⟨i, s1, h1, hm⟩ := bind_run_ok.1 hm
    obtain ⟨hs, -⟩ := wp_ok (i_vertexIndex kv ht) h1
    subst s1
    obtain ⟨T, s2, h2, hm⟩ := bind_run_ok.1 hm
    obtain ⟨-, rfl, rfl⟩ := getT_run_ok.1 h2
    obtain ⟨p, s2, h2, hm⟩ := bind_run_ok.1 hm
    obtain ⟨-, -, rfl⟩ := positionAt_run_ok.1 h2
    obtain ⟨q, s2, h2, hm⟩ := bind_run_ok.1 hm
    obtain ⟨-, -, rfl⟩ := positionAt_run_ok.1 h2
    obtain ⟨d, s2, h2, hm⟩ := bind_run_ok.1 hm
    obtain ⟨-, rfl⟩ := lift_run_ok.1 h2
    split_ifs at hm
    · exact fr_scheduleImmediately h ht (hf.mono fun _ => .inl) hm
    · cases hm; exact hf

theorem fr_edgeSide (h : Inv N now s) {n : Option TId} {t : TId} {other : Option TId} {v kv : VId}
    {dir : Dir} {l : List TId} (hn : ∀ x, n = some x → x < s.nT) (ho : ∀ x, other = some x → x < s.nT)
    (hk : kv < s.nV) (hne : kv ≠ v) (hf : Fresh W D now s)
    (hm : edgeSide n t other v kv now dir s = .ok (l, s')) : Fresh W D now s' := by
  unfold edgeSide at hm
  cases n with
  | none => cases hm; exact hf
  | some n =>
    dsimp only at hm
    obtain ⟨_, s1, h1, hm⟩ := bind_run_ok.1 hm
    have g1 := g_relink _ _ _ _ _ _ h1
    have i1 : Inv N now s1 := inv_run (i_relink h t (hn n rfl) ho) (g_relink _ _ _) h1
    have f1 := fr_relink hf h1
    obtain ⟨fan, s2, h2, hm⟩ := bind_run_ok.1 hm
    have g2 := g_replaceKvertex _ _ _ _ _ _ _ _ h2
    have hi := wp_ok (i_replaceKvertex i1 dir (g1.tlt (hn n rfl)) (g1.vlt hk) hne) h2
    have i2 : Inv N now s2 := hi.1.toInv g2
    have f2 : Fresh W D now s2 := fr_replaceKvertex i1 (g1.tlt (hn n rfl)) (g1.vlt hk) f1 h2
    obtain ⟨_, s3, h3, hm⟩ := bind_run_ok.1 hm
    cases hm
    exact fr_scheduleTiny i2 hi.2 f2 h3

theorem fr_threeSidesNeighbour (h : Inv N now s) {t : TId} {i : Fin 3} {a : Unit} (ht : t < s.nT)
    (hf : Fresh W D now s) (hm : threeSidesNeighbour t now i s = .ok (a, s')) : Fresh W D now s' := by
  unfold threeSidesNeighbour at hm
  obtain ⟨T, s1, h1, hm⟩ := bind_run_ok.1 hm
  obtain ⟨-, rfl, rfl⟩ := getT_run_ok.1 h1
  cases hn : (s.tri t).neighbours i with
  | none => rw [hn] at hm; cases hm; exact hf
  | some n =>
    rw [hn] at hm
    dsimp only at hm
    have hn := h.refs.neighbours t ht i n hn
    obtain ⟨T, s1, h1, hm⟩ := bind_run_ok.1 hm
    obtain ⟨-, rfl, rfl⟩ := getT_run_ok.1 h1
    split_ifs at hm
    · obtain ⟨_, s1, h1, hm⟩ := bind_run_ok.1 hm
      have g1 := g_relink _ _ _ _ _ _ h1
      have i1 : Inv N now s1 := inv_run (i_relink h t hn fun _ e => by cases e) (g_relink _ _ _) h1
      exact fr_scheduleImmediately i1 (g1.tlt hn) (fr_relink hf h1) hm
    · cases hm; exact hf

theorem fr_splitSide (h : Inv N now s) {t : TId} {i : Fin 3} {v newv : VId} {dir : Dir} {l : List TId} (ht : t < s.nT)
    (hv : newv < s.nV) (hf : Fresh W D now s)
    (hm : splitSide t i v newv now dir s = .ok (l, s')) : Fresh W D now s' := by
  unfold splitSide at hm
  obtain ⟨T, s1, h1, hm⟩ := bind_run_ok.1 hm
  obtain ⟨-, rfl, rfl⟩ := getT_run_ok.1 h1
  obtain ⟨n, s1, h1, hm⟩ := bind_run_ok.1 hm
  obtain ⟨hn, rfl⟩ := assertSome_run_ok.1 h1
  have hn := h.refs.neighbours t ht i n hn
  obtain ⟨_, s1, h1, hm⟩ := bind_run_ok.1 hm
  have g1 := g_relink _ _ _ _ _ _ h1
  have i1 : Inv N now s1 := inv_run (i_relink h t hn fun _ e => by cases e) (g_relink _ _ _) h1
  exact fr_replaceKvertex i1 (g1.tlt hn) (g1.vlt hv) (fr_relink hf h1) hm

/-! ### the handlers -/

variable [SqrtUnit K] [HasTrig K]

/-- edge event; the new vertex is not infinitely fast -/
theorem fr_handleEdge {depth : ℕ} {e : Event K} {step : ℤ} {a : Unit} (h : Inv N e.time s) (ht : e.tri < s.nT)
    (hf : Fresh W (fun u => D u ∨ u = e.tri) e.time s) (hm : handleEdge depth e step s = .ok (a, s'))
    (hi : ∀ k, s'.vert s.nV = .kin k → k.infFast = false)
    (hW : W ∨ ∀ i, e.side = [i] → (s.tri e.tri).neighbours i = none) : Fresh W D e.time s' := by
  have gall := g_handleEdge _ _ _ _ _ _ hm
  unfold handleEdge at hm
  obtain ⟨i, s1, h1, hm⟩ := bind_run_ok.1 hm
  obtain ⟨hside, rfl⟩ := singleSide_run_ok h1
  dsimp only at hm
  obtain ⟨kv, s1, h1, hm⟩ := bind_run_ok.1 hm
  have g1 := g_edgeVertex _ _ _ _ _ _ _ h1
  have al1 := al_edgeVertex _ _ _ _ _ _ _ h1
  obtain ⟨i1, hfresh, hkv⟩ := wp_ok (i_edgeVertex h i step ht) h1
  have hkv' : kv = s.nV := by
    obtain ⟨⟨k1, k2, a, c, pos, node, s2, kn, R, -, -, -, -, -, -, -, hstop, -, hkv, -, hs1, -, -⟩⟩ := edgeVertex_steps h1
    exact hkv.trans (stopAndRecord_mesh hstop).2.2
  have f1 := fr_aloof h hf g1 al1
  obtain ⟨T, s2, h2, hm⟩ := bind_run_ok.1 hm
  obtain ⟨-, rfl, hs⟩ := getT_run_ok.1 h2
  rw [← hs] at hm
  clear hs h2
  have hT := i1.refs.neighbours _ (g1.tlt ht)
  have hne : ∀ i, kv ≠ (s1.tri e.tri).vertices i := fun i x => by
    have := h.refs.vertices _ ht i
    rw [← al1.1, ← x] at this
    exact absurd this hfresh.not_gt
  obtain ⟨fa, s2, h2, hm⟩ := bind_run_ok.1 hm
  have g2 := g_edgeSide _ _ _ _ _ _ _ _ _ _ h2
  obtain ⟨i2, hfa⟩ := wp_ok (i_edgeSide i1 e.tri .cw (hT _) (hT _) hkv (hne _)) h2
  have f2 := fr_edgeSide i1 (hT _) (hT _) hkv (hne _) f1 h2
  obtain ⟨fb, s3, h3, hm⟩ := bind_run_ok.1 hm
  have g3 := g_edgeSide _ _ _ _ _ _ _ _ _ _ h3
  obtain ⟨i3, hfb⟩ := wp_ok (i_edgeSide i2 e.tri .ccw (fun x hx => g2.tlt (hT _ x hx))
    (fun x hx => g2.tlt (hT _ x hx)) (g2.vlt hkv) (hne _)) h3
  have f3 := fr_edgeSide i2 (fun x hx => g2.tlt (hT _ x hx)) (fun x hx => g2.tlt (hT _ x hx)) (g2.vlt hkv) (hne _) f2 h3
  obtain ⟨_, s4, h4, hm⟩ := bind_run_ok.1 hm
  have f4 := fr_detachAndSchedule i3 (fun x hx => g3.tlt (g2.tlt (hT _ x hx)))
    (hW.imp_right fun q => by rw [al1.1]; exact q _ hside) f3 h4
  obtain ⟨_, s5, h5, hm⟩ := bind_run_ok.1 hm
  have f5 := fr_stopTriangle f4 h5
  -- no fan has to be handled
  have g5 := g_edgeFan _ _ _ _ _ _ _ _ _ hm
  unfold edgeFan nextFan at hm
  obtain ⟨x, s6, h6, hm⟩ := bind_run_ok.1 hm
  obtain ⟨k, s7, h7, h6⟩ := bind_run_ok.1 h6
  obtain ⟨hlt, hk, rfl⟩ := getK_run_ok.1 h7
  have hinf : k.infFast = false := by
    have := g5.vert kv hlt
    rw [hk] at this
    cases hk' : s'.vert kv with
    | inf o => rw [hk'] at this; exact this.elim
    | kin k' =>
      rw [hk'] at this
      have this : SameBirth k k' := this
      rw [← this.infFast]
      exact hi k' (by rw [← hkv']; exact hk')
  rw [hinf] at h6
  cases h6
  cases hm
  exact f5

theorem fr_handleEdge3 {e : Event K} {step : ℤ} {a : Unit} (h : Inv N e.time s) (ht : e.tri < s.nT)
    (hf : Fresh W (fun u => D u ∨ u = e.tri) e.time s) (hm : handleEdge3 e step s = .ok (a, s')) :
    Fresh W D e.time s' := by
  unfold handleEdge3 at hm
  obtain ⟨_, s1, h1, hm⟩ := bind_run_ok.1 hm
  obtain ⟨-, rfl⟩ := assertM_run_ok.1 h1
  obtain ⟨T, s1, h1, hm⟩ := bind_run_ok.1 hm
  obtain ⟨-, rfl, rfl⟩ := getT_run_ok.1 h1
  have hv := h.refs.vertices _ ht
  obtain ⟨node, s1, h1, hm⟩ := bind_run_ok.1 hm
  have g1 := g_stopAndRecord _ _ _ _ _ _ _ h1
  have i1 := wp_ok (i_stopAndRecord _ step none h (by
    intro v hm
    rcases List.mem_cons.1 hm with rfl | hm
    · exact hv _
    · exact mem_two (hv _) (hv _) v hm)) h1
  have f1 := fr_aloof h hf g1 (al_stopAndRecord _ _ _ _ _ _ _ h1)
  obtain ⟨_, s2, h2, hm⟩ := bind_run_ok.1 hm
  have hw : wp (forEach (threeSidesNeighbour e.tri e.time) [0, 1, 2])
      (fun _ s' => Inv N e.time s' ∧ s'.nT = s1.nT ∧ Fresh W (fun u => D u ∨ u = e.tri) e.time s') s1 := by
    refine wp_forEach ?_ ⟨i1.1, rfl, f1⟩
    rintro i - s' ⟨h', hn, f'⟩
    exact wp_mono (i_threeSidesNeighbour h' i (hn ▸ g1.tlt ht)) fun _ s'' hm h'' =>
      ⟨h'', (g_threeSidesNeighbour _ _ _ _ _ _ hm).nT.trans hn, fr_threeSidesNeighbour h' (hn ▸ g1.tlt ht) f' hm⟩
  obtain ⟨-, -, f2⟩ := wp_ok hw h2
  exact fr_stopTriangle f2 hm

theorem fr_handleEdge1 {e : Event K} {step : ℤ} {a : Unit} (h : Inv N e.time s) (ht : e.tri < s.nT)
    (hf : Fresh W (fun u => D u ∨ u = e.tri) e.time s) (hm : handleEdge1 e step s = .ok (a, s')) :
    Fresh W D e.time s' := by
  unfold handleEdge1 at hm
  obtain ⟨i, s1, h1, hm⟩ := bind_run_ok.1 hm
  obtain ⟨-, rfl⟩ := singleSide_run_ok h1
  obtain ⟨T, s1, h1, hm⟩ := bind_run_ok.1 hm
  obtain ⟨-, rfl, rfl⟩ := getT_run_ok.1 h1
  have hv := h.refs.vertices _ ht
  obtain ⟨node, s1, h1, hm⟩ := bind_run_ok.1 hm
  have g1 := g_stopAndRecord _ _ _ _ _ _ _ h1
  have a1 := al_stopAndRecord _ _ _ _ _ _ _ h1
  obtain ⟨k1, s2, h2, hm⟩ := bind_run_ok.1 hm
  obtain ⟨-, -, rfl⟩ := getK_run_ok.1 h2
  obtain ⟨k2, s2, h2, hm⟩ := bind_run_ok.1 hm
  obtain ⟨-, -, rfl⟩ := getK_run_ok.1 h2
  obtain ⟨ct, s2, h2, hm⟩ := bind_run_ok.1 hm
  obtain ⟨-, rfl⟩ := countVertices_run_ok.1 h2
  obtain ⟨kv, s2, h2, hm⟩ := bind_run_ok.1 hm
  have g2 := g_computeNewKvertex _ _ _ _ _ _ _ _ _ h2
  have a2 := al_computeNewKvertex _ _ _ _ _ _ _ _ _ h2
  obtain ⟨_, s3, h3, hm⟩ := bind_run_ok.1 hm
  have g3 := g_appendVertex _ _ _ _ h3
  have a3 := al_appendVertex _ _ _ _ h3
  obtain ⟨_, s4, h4, hm⟩ := bind_run_ok.1 hm
  have g4 := g_stopAndRecord _ _ _ _ _ _ _ h4
  have a4 := al_stopAndRecord _ _ _ _ _ _ _ h4
  have g := growsPre.trans _ _ _ (growsPre.trans _ _ _ (growsPre.trans _ _ _ g1 g2) g3) g4
  have a := aloofPre.trans _ _ _ (aloofPre.trans _ _ _ (aloofPre.trans _ _ _ a1 a2) a3) a4
  exact fr_stopTriangle (fr_aloof h hf g a) hm

/-- split event; the new vertices are not infinitely fast -/
theorem fr_handleSplit {depth : ℕ} {e : Event K} {step : ℤ} {a : Unit} (h : Inv N e.time s) (ht : e.tri < s.nT)
    (hf : Fresh W (fun u => D u ∨ u = e.tri) e.time s) (hm : handleSplit depth e step s = .ok (a, s'))
    (hib : ∀ k, s'.vert s.nV = .kin k → k.infFast = false)
    (hia : ∀ k, s'.vert (s.nV + 1) = .kin k → k.infFast = false) : Fresh W D e.time s' := by
  unfold handleSplit at hm
  obtain ⟨i, s1, h1, hm⟩ := bind_run_ok.1 hm
  obtain ⟨-, rfl⟩ := singleSide_run_ok h1
  dsimp only at hm
  obtain ⟨T, s1, h1, hm⟩ := bind_run_ok.1 hm
  obtain ⟨-, rfl, rfl⟩ := getT_run_ok.1 h1
  obtain ⟨_, s1, h1, hm⟩ := bind_run_ok.1 hm
  obtain ⟨-, rfl⟩ := assertM_run_ok.1 h1
  have hv := h.refs.vertices _ ht
  obtain ⟨_, s1, h1, hm⟩ := bind_run_ok.1 hm
  obtain rfl := splitChecks_same h1
  obtain ⟨r, s1, h1, hm⟩ := bind_run_ok.1 hm
  have g1 := g_splitVertices _ _ _ _ _ _ _ _ h1
  have f1 := fr_aloof h hf g1 (al_splitVertices _ _ _ _ _ _ _ _ h1)
  obtain ⟨i1, ⟨b1, b2⟩, a1, a2⟩ := wp_ok (i_splitVertices h step (hv _) (hv _) (hv _)) h1
  have hr : r = (s.nV, s.nV + 1) := by
    obtain ⟨⟨k', k1', k2', node, s3, s4, kb, ka, R, hstop, hlt, hk', hlt1, hk1', hlt2, hk2', hu, hnb, hs4, hna, hvv, hR,
      hs1, -, -⟩⟩ := splitVertices_steps h1
    rw [← (stopAndRecord_mesh hstop).2.2]
    exact hvv
  have hne1 : r.1 ≠ (s.tri e.tri).vertices i := fun x => absurd (hv i) (x ▸ b1).not_gt
  have hne2 : r.2 ≠ (s.tri e.tri).vertices i := fun x => absurd (hv i) (x ▸ a1).not_gt
  obtain ⟨fb, s2, h2, hm⟩ := bind_run_ok.1 hm
  have g2 := g_splitSide _ _ _ _ _ _ _ _ _ h2
  obtain ⟨i2, -⟩ := wp_ok (i_splitSide i1 _ .ccw (g1.tlt ht) b2 hne1) h2
  have f2 := fr_splitSide i1 (g1.tlt ht) b2 f1 h2
  obtain ⟨fa, s3, h3, hm⟩ := bind_run_ok.1 hm
  have g3 := g_splitSide _ _ _ _ _ _ _ _ _ h3
  have f3 := fr_splitSide i2 (g2.tlt (g1.tlt ht)) (g2.vlt a2) f2 h3
  obtain ⟨_, s4, h4, hm⟩ := bind_run_ok.1 hm
  have f4 := fr_stopTriangle f3 h4
  obtain ⟨_, s5, h5, hm⟩ := bind_run_ok.1 hm
  have g5 := g_splitFan _ _ _ _ _ _ _ _ _ h5
  have g6 := g_splitFan _ _ _ _ _ _ _ _ _ hm
  -- no fan has to be handled
  have slow : ∀ {u u' : St K} {v : VId} {k : KVertex K}, Grows u u' → v < u.nV → u.vert v = .kin k →
      (∀ k, u'.vert v = .kin k → k.infFast = false) → k.infFast = false := by
    intro u u' v k g hlt hk hx
    have := g.vert v hlt
    rw [hk] at this
    cases hk' : u'.vert v with
    | inf o => rw [hk'] at this; exact this.elim
    | kin k' =>
      rw [hk'] at this
      have this : SameBirth k k' := this
      rw [← this.infFast]
      exact hx k' hk'
  have e5 : s5 = s4 := by
    unfold splitFan at h5
    obtain ⟨k, s7, h7, h5⟩ := bind_run_ok.1 h5
    obtain ⟨hlt, hk, rfl⟩ := getK_run_ok.1 h7
    rw [slow (growsPre.trans _ _ _ g5 g6) hlt hk (by rw [hr]; exact hia)] at h5
    cases h5; rfl
  have e6 : s' = s5 := by
    clear h5 e5
    unfold splitFan at hm
    obtain ⟨k, s7, h7, hm⟩ := bind_run_ok.1 hm
    obtain ⟨hlt, hk, rfl⟩ := getK_run_ok.1 h7
    rw [slow g6 hlt hk (by rw [hr]; exact hib)] at hm
    cases hm; rfl
  rw [e6, e5]
  exact f4

omit [HasTrig K] in
/-- flip event in a consistent triangulation -/
theorem fr_handleFlip {evt : Event K} {a : Unit} {e : Fin 3} (h : Inv N evt.time s) (hM : Mesh s) (hl : Live s evt.tri)
    (he : evt.side = [e]) (hp : ProperSide s evt.tri e)
    (hf : Fresh W (fun u => D u ∨ u = evt.tri) evt.time s) (hm : handleFlip evt s = .ok (a, s')) :
    Fresh W D evt.time s' := by
  unfold handleFlip at hm
  obtain ⟨e', s1, h1, hm⟩ := bind_run_ok.1 hm
  obtain ⟨he', rfl⟩ := singleSide_run_ok h1
  obtain rfl : e' = e := by rw [he] at he'; simpa using he'.symm
  obtain ⟨T, s1, h1, hm⟩ := bind_run_ok.1 hm
  obtain ⟨-, rfl, rfl⟩ := getT_run_ok.1 h1
  obtain ⟨n, s1, h1, hm⟩ := bind_run_ok.1 hm
  obtain ⟨hn, rfl⟩ := assertSome_run_ok.1 h1
  obtain ⟨N', s1, h1, hm⟩ := bind_run_ok.1 hm
  obtain ⟨-, rfl, rfl⟩ := getT_run_ok.1 h1
  obtain ⟨k, s1, h1, hm⟩ := bind_run_ok.1 hm
  obtain ⟨hk, rfl⟩ := needIdx_run_ok.1 h1
  obtain ⟨_, s1, h1, hm⟩ := bind_run_ok.1 hm
  have h1' := h1
  unfold flip at h1'
  obtain ⟨_, s2, h2, h1'⟩ := bind_run_ok.1 h1'
  obtain ⟨-, rfl, rfl⟩ := getT_run_ok.1 h2
  obtain ⟨_, s2, h2, h1'⟩ := bind_run_ok.1 h1'
  obtain ⟨-, rfl, rfl⟩ := getT_run_ok.1 h2
  obtain ⟨_, s2, h2, h1'⟩ := bind_run_ok.1 h1'
  obtain ⟨a1, rfl⟩ := assertM_run_ok.1 h2
  obtain ⟨_, s2, h2, h1'⟩ := bind_run_ok.1 h1'
  obtain ⟨a2, rfl⟩ := assertM_run_ok.1 h2
  clear h1'
  have hS : SharedEdge (Live s) s evt.tri e' n k ((s.tri evt.tri).vertices e') ((s.tri evt.tri).vertices (e' + 1))
      ((s.tri n).vertices k) ((s.tri evt.tri).vertices (e' + 2)) :=
    ⟨hM.consistent, hl, hn, index3_some hk, rfl, rfl, rfl, rfl, a2.symm, a1.symm, (hp n hn k).symm⟩
  obtain ⟨x1, x2, x3, x4⟩ := C26_frame hS h1
  have hn' := h.refs.neighbours _ hl.1 _ n hn
  have g1 := g_flip _ _ _ _ _ _ _ h1
  have i1 : Inv N evt.time s1 := inv_run (i_flip h e' k hl.1 hn') (g_flip _ _ _ _) h1
  have st1 : ∀ x, (s1.tri x).stopsAt = (s.tri x).stopsAt := by
    intro x
    obtain ⟨vs, ns, q⟩ := x3 x
    rw [q]
  have q1 : s1.queue = s.queue := by rw [← x4]
  have m1 : s1.immediate = s.immediate := by rw [← x4]
  have f1 : Fresh W (fun u => (D u ∨ u = n) ∨ u = evt.tri) evt.time s1 := by
    refine hf.step g1.nT (fun u x => by rw [← st1]; exact x) fun u hu hl' hd => .inr ⟨?_, ?_, ?_, ?_, ?_⟩
    · exact fun x => x.elim (fun x => hd (.inl (.inl x))) fun x => hd (.inr x)
    · obtain ⟨vs, ns, q⟩ := x3 u
      rw [q]
    · have hlu : Live s u := ⟨hu, by rw [← st1]; exact hl'⟩
      have c := x1 u hlu (fun x => hd (.inr x)) (fun x => hd (.inl (.inr x)))
      refine viewT_same (InvL.sameVerts h g1) (h.refs.vertices u hu) c.1 (fun i => ?_) (by rw [st1])
      by_cases c0 : (s.tri u).neighbours i = some evt.tri ∨ (s.tri u).neighbours i = some n
      · rcases (c.2 i).2 c0 with y | y <;> rcases c0 with z | z <;> rw [y, z] <;> rfl
      · rw [(c.2 i).1 (fun z => c0 (.inl z)) (fun z => c0 (.inr z))]
    · intro f _; rw [q1]
    · intro f _; rw [m1]
  obtain ⟨_, s2, h2, hm⟩ := bind_run_ok.1 hm
  have g2 := g_replaceInQueue _ _ _ _ _ h2
  have i2 : Inv N evt.time s2 := inv_run (i_replaceInQueue i1 (g1.tlt hl.1)) (g_replaceInQueue _ _) h2
  have f2 := fr_replaceInQueue i1 (g1.tlt hl.1) f1 h2
  exact fr_replaceInQueue i2 (g2.tlt (g1.tlt hn')) f2 hm

theorem handleEdge_nV {depth : ℕ} {e : Event K} {step : ℤ} {a : Unit} (h : Inv N e.time s) (ht : e.tri < s.nT)
    (hm : handleEdge depth e step s = .ok (a, s')) : s.nV < s'.nV := by
  unfold handleEdge at hm
  obtain ⟨i, s1, h1, hm⟩ := bind_run_ok.1 hm
  obtain ⟨hside, rfl⟩ := singleSide_run_ok h1
  dsimp only at hm
  obtain ⟨kv, s1, h1, hm⟩ := bind_run_ok.1 hm
  obtain ⟨i1, hfresh, hkv⟩ := wp_ok (i_edgeVertex h i step ht) h1
  have g : Grows s1 s' := by
    obtain ⟨_, s2, h2, hm⟩ := bind_run_ok.1 hm
    obtain ⟨-, -, rfl⟩ := getT_run_ok.1 h2
    obtain ⟨_, s2, h2, hm⟩ := bind_run_ok.1 hm
    refine growsPre.trans _ _ _ (g_edgeSide _ _ _ _ _ _ _ _ _ _ h2) ?_
    obtain ⟨_, s3, h3, hm⟩ := bind_run_ok.1 hm
    refine growsPre.trans _ _ _ (g_edgeSide _ _ _ _ _ _ _ _ _ _ h3) ?_
    obtain ⟨_, s4, h4, hm⟩ := bind_run_ok.1 hm
    refine growsPre.trans _ _ _ (g_detachAndSchedule _ _ _ _ _ _ h4) ?_
    obtain ⟨_, s5, h5, hm⟩ := bind_run_ok.1 hm
    exact growsPre.trans _ _ _ (g_stopTriangle _ _ _ _ _ h5) (g_edgeFan _ _ _ _ _ _ _ _ _ hm)
  exact (lt_of_le_of_lt hfresh hkv).trans_le g.nV

theorem handleSplit_nV {depth : ℕ} {e : Event K} {step : ℤ} {a : Unit} (h : Inv N e.time s) (ht : e.tri < s.nT)
    (hm : handleSplit depth e step s = .ok (a, s')) : s.nV + 1 < s'.nV := by
  unfold handleSplit at hm
  obtain ⟨i, s1, h1, hm⟩ := bind_run_ok.1 hm
  obtain ⟨-, rfl⟩ := singleSide_run_ok h1
  dsimp only at hm
  obtain ⟨T, s1, h1, hm⟩ := bind_run_ok.1 hm
  obtain ⟨-, rfl, rfl⟩ := getT_run_ok.1 h1
  obtain ⟨_, s1, h1, hm⟩ := bind_run_ok.1 hm
  obtain ⟨-, rfl⟩ := assertM_run_ok.1 h1
  have hv := h.refs.vertices _ ht
  obtain ⟨_, s1, h1, hm⟩ := bind_run_ok.1 hm
  obtain rfl := splitChecks_same h1
  obtain ⟨r, s1, h1, hm⟩ := bind_run_ok.1 hm
  obtain ⟨i1, ⟨b1, b2⟩, a1, a2⟩ := wp_ok (i_splitVertices h step (hv _) (hv _) (hv _)) h1
  have hr : r = (s.nV, s.nV + 1) := by
    obtain ⟨⟨k', k1', k2', node, s3, s4, kb, ka, R, hstop, hlt, hk', hlt1, hk1', hlt2, hk2', hu, hnb, hs4, hna, hvv, hR,
      hs1, -, -⟩⟩ := splitVertices_steps h1
    rw [← (stopAndRecord_mesh hstop).2.2]
    exact hvv
  have g : Grows s1 s' := by
    obtain ⟨_, s2, h2, hm⟩ := bind_run_ok.1 hm
    refine growsPre.trans _ _ _ (g_splitSide _ _ _ _ _ _ _ _ _ h2) ?_
    obtain ⟨_, s3, h3, hm⟩ := bind_run_ok.1 hm
    refine growsPre.trans _ _ _ (g_splitSide _ _ _ _ _ _ _ _ _ h3) ?_
    obtain ⟨_, s4, h4, hm⟩ := bind_run_ok.1 hm
    refine growsPre.trans _ _ _ (g_stopTriangle _ _ _ _ _ h4) ?_
    obtain ⟨_, s5, h5, hm⟩ := bind_run_ok.1 hm
    exact growsPre.trans _ _ _ (g_splitFan _ _ _ _ _ _ _ _ _ h5) (g_splitFan _ _ _ _ _ _ _ _ _ hm)
  rw [hr] at a2
  exact a2.trans_le g.nV

/-- one event -/
theorem fr_handleEvent {depth : ℕ} {e : Event K} {step : ℤ} {a : Unit} (h : Inv N e.time s) (ht : e.tri < s.nT)
    (hM : Mesh s) (hf : Fresh W (fun u => D u ∨ u = e.tri) e.time s)
    (hm : handleEvent depth e step s = .ok (a, s')) (ho : Ordinary s s' e)
    (hW : W ∨ (e.tp = .edge → (s.tri e.tri).stopsAt = none → ∀ i, e.side = [i] → (∃ j, (s.tri e.tri).neighbours j ≠ none) →
      (s.tri e.tri).neighbours i = none)) : Mesh s' ∧ Fresh W D e.time s' := by
  unfold handleEvent at hm
  obtain ⟨T, s1, h1, hm⟩ := bind_run_ok.1 hm
  obtain ⟨-, rfl, rfl⟩ := getT_run_ok.1 h1
  by_cases hst : (s.tri e.tri).stopsAt.isSome = true
  · rw [if_pos hst] at hm
    obtain rfl := (pure_run_ok.1 hm).2
    exact ⟨hM, fresh_absorb hf fun _ x _ => by rw [x] at hst; cases hst⟩
  · rw [if_neg hst] at hm
    have hl : Live s e.tri := ⟨ht, by cases q : (s.tri e.tri).stopsAt <;> simp_all⟩
    cases htp : e.tp with
    | edge =>
      rw [htp] at hm
      dsimp only at hm
      by_cases h3 : e.side.length = 3
      · rw [if_pos h3] at hm
        exact ⟨C38_three_sides e step s s' hM hl (ho.three htp h3 hl.2) hm, fr_handleEdge3 h ht hf hm⟩
      rw [if_neg h3] at hm
      by_cases h1 : e.side.length = 1 ∧ (s.tri e.tri).type = 3
      · rw [if_pos h1] at hm
        have hn := (count3_three _).1 h1.2
        exact ⟨C38_one_side e step s s' hM (fun i => Option.isNone_iff_eq_none.1 (hn i)) hm, fr_handleEdge1 h ht hf hm⟩
      rw [if_neg h1] at hm
      by_cases h2 : e.side.length = 2
      · rw [if_pos h2] at hm; cases hm
      rw [if_neg h2] at hm
      have hslow : ∀ k, s'.vert s.nV = .kin k → k.infFast = false :=
        fun k => ho.slow _ k le_rfl (handleEdge_nV h ht hm)
      have hm' := hm
      unfold handleEdge at hm'
      obtain ⟨i, s1, q1, -⟩ := bind_run_ok.1 hm'
      obtain ⟨hi, -⟩ := singleSide_run_ok q1
      have hne : ∃ j, (s.tri e.tri).neighbours j ≠ none := by
        by_contra q
        push Not at q
        exact h1 ⟨by rw [hi]; rfl, (count3_three _).2 fun i => by rw [q i]; rfl⟩
      exact ⟨C38_edge_partial depth e step s s' i hM hl hi (ho.edge htp i hi hne) hm hslow,
        fr_handleEdge h ht hf hm hslow (hW.imp_right fun q j hj => q htp hl.2 j hj hne)⟩
    | flip =>
      rw [htp] at hm
      dsimp only at hm
      have hm' := hm
      unfold handleFlip at hm'
      obtain ⟨i, s1, q1, -⟩ := bind_run_ok.1 hm'
      obtain ⟨hi, -⟩ := singleSide_run_ok q1
      exact ⟨C38_flip_partial e s s' i hM hl hi (ho.flip htp i hi hl.2) hm, fr_handleFlip h hM hl hi (ho.flip htp i hi hl.2) hf hm⟩
    | split =>
      rw [htp] at hm
      dsimp only at hm
      have hn := handleSplit_nV h ht hm
      have hb : ∀ k, s'.vert s.nV = .kin k → k.infFast = false :=
        fun k => ho.slow _ k le_rfl (lt_of_le_of_lt (Nat.le_succ _) hn)
      have ha : ∀ k, s'.vert (s.nV + 1) = .kin k → k.infFast = false :=
        fun k => ho.slow _ k (Nat.le_succ _) hn
      exact ⟨C38_split depth e step s s' hM hl hm hb ha, fr_handleSplit h ht hf hm hb ha⟩

/-- the next event is taken -/
theorem fr_takeEvent {now' : K} {e : Event K} (h : Inv N now s) (hf : Fresh W D now s)
    (hm : takeEvent now s = .ok (some (e, now'), s')) : Fresh W (fun u => D u ∨ u = e.tri) now' s' := by
  have hi := wp_ok (i_takeEvent h) hm
  dsimp only at hi
  have hn := hi.2.2.1
  have same : ∀ {q i : List (Event K)}, (∀ f : Event K, f.tri ≠ e.tri → (f ∈ q ↔ f ∈ s.queue)) →
      (∀ f : Event K, f.tri ≠ e.tri → (f ∈ i ↔ f ∈ s.immediate)) →
      Fresh W (fun u => D u ∨ u = e.tri) now' { s with queue := q, immediate := i } := by
    intro q i hq hi
    have f' : Fresh W (fun u => D u ∨ u = e.tri) now { s with queue := q, immediate := i } := by
      refine hf.step rfl (fun _ x => x) fun u _ _ hd => .inr ⟨fun x => hd (.inl x), rfl, rfl, fun f hf' => ?_, fun f hf' => ?_⟩
      · exact hq f fun x => hd (.inr (hf'.symm.trans x))
      · exact hi f fun x => hd (.inr (hf'.symm.trans x))
    exact fun t ht hl hd => (f' t ht hl hd).mono hn
  rcases takeEvent_run now s with ⟨x, r, hq, hx⟩ | ⟨x, r, -, hq, hx⟩ | ⟨-, -, hx⟩
  · rw [hx] at hm
    cases hm
    refine same (q := s.queue) (fun _ _ => Iff.rfl) fun f hf' => ?_
    rw [hq, List.mem_cons]
    exact ⟨.inr, fun y => y.resolve_left fun y => hf' (by rw [y])⟩
  · rw [hx] at hm
    cases hm
    refine same (i := s.immediate) (fun f hf' => ?_) fun _ _ => Iff.rfl
    rw [hq, List.mem_cons]
    exact ⟨.inr, fun y => y.resolve_left fun y => hf' (by rw [y])⟩
  · rw [hx] at hm
    cases hm

theorem fr_loopStep {depth : ℕ} {step : ℤ} {now' : K} {e : Event K} (h : Inv N now s) (hM : Mesh s) (hf : Fresh W D now s)
    (hm : loopStep depth step now s = .ok (some (e, now'), s')) (ho : Ordinary s s' e)
    (hW : W ∨ (e.tp = .edge → (s.tri e.tri).stopsAt = none → ∀ i, e.side = [i] → (∃ j, (s.tri e.tri).neighbours j ≠ none) →
      (s.tri e.tri).neighbours i = none)) : Mesh s' ∧ Fresh W D now' s' := by
  obtain ⟨s1, h1, h2⟩ := loopStep_some hm
  have f1 := fr_takeEvent h hf h1
  obtain ⟨i1, ht, -, hlt⟩ := wp_ok (i_takeEvent h) h1
  have hs1 : ∃ q i, s1 = { s with queue := q, immediate := i } := by
    rcases takeEvent_run now s with ⟨x, r, -, hx⟩ | ⟨x, r, -, -, hx⟩ | ⟨-, -, hx⟩ <;> rw [hx] at h1 <;> cases h1
    · exact ⟨_, _, rfl⟩
    · exact ⟨_, _, rfl⟩
  obtain ⟨q, i, rfl⟩ := hs1
  have hM1 : Mesh { s with queue := q, immediate := i } := ⟨hM.consistent, hM.distinct, hM.vertices⟩
  subst ht
  exact fr_handleEvent i1 hlt hM1 f1 h2 ⟨ho.slow, ho.edge, ho.flip, ho.three⟩ hW

/-- the initial events -/
theorem fr_initEvents (ts : List TId) (hnd : ts.Nodup) : ∀ {s s' : St K} {a : Unit}, Inv N 0 s →
    (∀ t ∈ ts, t < s.nT ∧ (s.tri t).event = none) → Fresh W (fun u => D u ∨ u ∈ ts) 0 s →
    forEach initEvent ts s = .ok (a, s') → Fresh W D 0 s' := by
  induction ts with
  | nil =>
    intro s s' a h _ hf hm
    obtain rfl := (pure_run_ok.1 hm).2
    exact hf.mono fun u x => x.elim id fun q => by cases q
  | cons t ts ih =>
    intro s s' a h ht hf hm
    have h0 := ht t (List.mem_cons_self ..)
    obtain ⟨_, s1, h1, hm⟩ := bind_run_ok.1 hm
    have i1 : Inv N 0 s1 := inv_run (i_computeAndAdd h h0.1 (h.noPending_of_none h0.2) .gt) (g_initEvent t) h1
    have f1 : Fresh W (fun u => D u ∨ u ∈ ts) 0 s1 := by
      refine fr_computeAndAdd (fun _ => rfl) (h.noPending_of_none h0.2) (hf.mono fun u x => ?_) h1
      rcases x with x | x
      · exact .inl (.inl x)
      · exact (List.mem_cons.1 x).elim .inr fun x => .inl (.inr x)
    obtain ⟨hn, hu⟩ := initEvent_other h1
    refine ih (List.nodup_cons.1 hnd).2 i1 (fun u hmu => ?_) f1 hm
    have hne : u ≠ t := fun e => (List.nodup_cons.1 hnd).1 (e ▸ hmu)
    rw [hn, hu u hne]
    exact ht u (List.mem_cons_of_mem _ hmu)

end

end Grassfire
