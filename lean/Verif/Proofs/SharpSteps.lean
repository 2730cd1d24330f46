/-
What the handlers do in executions that are not blurred by tolerances (lemmas for C84).
-/
import Verif.Proofs.SharpImmediate
import Verif.Proofs.LinkRun
import Verif.Spec.Sharp

set_option linter.unusedSectionVars false

namespace Grassfire

open Spec

variable {K : Type} [Field K] [LinearOrder K]

/-! ### vertices that were stopped together -/

/-- the vertices have been stopped at time `now`, at the same place -/
def Joined (now : K) (s : St K) (a b : VId) : Prop :=
  ∃ ka kb, a < s.nV ∧ b < s.nV ∧ s.vert a = .kin ka ∧ s.vert b = .kin kb ∧ ka.stopsAt = some now ∧
    kb.stopsAt = some now ∧ pointAt ka now = pointAt kb now

theorem Halts.kept {now : K} {s s' : St K} {V : VId → Prop} (H : Halts now s s' V) (g : Grows s s') {a : VId}
    {k : KVertex K} (ha : a < s.nV) (hk : s.vert a = .kin k) : ∃ k', s'.vert a = .kin k' ∧
      (V a ∨ k.stopsAt = some now → k'.stopsAt = some now) ∧ ∀ u, pointAt k' u = pointAt k u := by
  obtain ⟨k', h1, h2, h3⟩ := H.old a k ha hk
  have hb := g.vert a ha
  rw [hk, h1] at hb
  have hb : SameBirth k k' := hb
  refine ⟨k', h1, fun q => ?_, fun u => by unfold pointAt; rw [hb.origin, hb.velocity]⟩
  by_cases hV : V a
  · exact h2 hV
  · rw [h3 hV]
    exact q.resolve_left hV

theorem Joined.kept {now : K} {s s' : St K} {V : VId → Prop} {a b : VId} (h : Joined now s a b) (H : Halts now s s' V)
    (g : Grows s s') : Joined now s' a b := by
  obtain ⟨ka, kb, h1, h2, h3, h4, h5, h6, h7⟩ := h
  obtain ⟨ka', a1, a2, a3⟩ := H.kept g h1 h3
  obtain ⟨kb', b1, b2, b3⟩ := H.kept g h2 h4
  exact ⟨ka', kb', g.vlt h1, g.vlt h2, a1, b1, a2 (.inr h5), b2 (.inr h6), by rw [a3, b3]; exact h7⟩

theorem Joined.made {now : K} {s s' : St K} {V : VId → Prop} {a b : VId} {p : Pt K} (H : Halts now s s' V) (g : Grows s s')
    (ha : a < s.nV) (hb : b < s.nV) (va : V a) (vb : V b) (ra : Reaches s now a p) (rb : Reaches s now b p) :
    Joined now s' a b := by
  obtain ⟨ka, h1, -, h2, -⟩ := ra
  obtain ⟨kb, h3, -, h4, -⟩ := rb
  obtain ⟨ka', a1, a2, a3⟩ := H.kept g ha h1
  obtain ⟨kb', b1, b2, b3⟩ := H.kept g hb h3
  exact ⟨ka', kb', g.vlt ha, g.vlt hb, a1, b1, a2 (.inl va), b2 (.inl vb), by rw [a3, b3, ← h2, h4]⟩

theorem Joined.same {now : K} {s s' : St K} {a b : VId} (h : Joined now s a b) (h1 : s'.vert = s.vert)
    (h2 : s'.nV = s.nV) : Joined now s' a b := by
  unfold Joined
  rw [h1, h2]
  exact h

/-! ### flips do not make events to be handled at once -/

def SameImmediate (s s' : St K) : Prop := s'.immediate = s.immediate

theorem imPre : Pre (SameImmediate (K := K)) where
  refl _ := rfl
  trans _ _ _ h g := Eq.trans g h

theorem im_aloof {α : Type} {m : M K α} (h : Keeps (Aloof (K := K)) m) : Keeps (SameImmediate (K := K)) m :=
  fun s a s' hm => (h s a s' hm).2.2

theorem im_modifyT (t : TId) (f : KTri K → KTri K) : Keeps (SameImmediate (K := K)) (modifyT t f) := by
  intro s a s' h
  obtain ⟨-, rfl⟩ := modifyT_run_ok.1 h
  rfl

theorem im_flipLink (n : Option TId) (i : Option (Fin 3)) (t : TId) : Keeps (SameImmediate (K := K)) (flipLink n i t) := by
  unfold flipLink
  split
  · exact im_modifyT _ _
  · exact Keeps.pure imPre _

theorem im_flip (t0 : TId) (i0 : Fin 3) (t1 : TId) (i1 : Fin 3) : Keeps (SameImmediate (K := K)) (flip t0 i0 t1 i1) := by
  unfold flip
  refine Keeps.bind imPre (im_aloof (by aloof)) fun _ => Keeps.bind imPre (im_aloof (by aloof)) fun _ =>
    Keeps.bind imPre (im_aloof (by aloof)) fun _ => Keeps.bind imPre (im_aloof (by aloof)) fun _ =>
    Keeps.bind imPre (im_aloof (by aloof)) fun _ => Keeps.bind imPre (im_aloof (by aloof)) fun _ =>
    Keeps.bind imPre (im_aloof (by aloof)) fun _ => Keeps.bind imPre (im_aloof (by aloof)) fun _ =>
    Keeps.bind imPre (im_aloof (by aloof)) fun _ => Keeps.bind imPre (im_aloof (by aloof)) fun _ =>
    Keeps.bind imPre (im_flipLink _ _ _) fun _ => Keeps.bind imPre (im_flipLink _ _ _) fun _ =>
    Keeps.bind imPre (im_flipLink _ _ _) fun _ => Keeps.bind imPre (im_flipLink _ _ _) fun _ =>
    Keeps.bind imPre (im_modifyT _ _) fun _ => im_modifyT _ _

variable [HasSqrt K]

/-! ### the events that are made to be handled at once -/

theorem Watch.tight {now : K} {s s' : St K} (h : Watch now s s')
    (hs : ∀ e ∈ s.immediate, e.tri < s.nT ∧ Tight now s e.tri) : ∀ e ∈ s'.immediate, Tight now s' e.tri := by
  intro e he
  have : e.tri < s.nT ∧ Tight now s e.tri := (h.immediate e he).elim (hs e) id
  exact (h.near this.1).2 this.2

theorem slow_back {s s' : St K} (g : Grows s s') (h : ∀ v k, v < s'.nV → s'.vert v = .kin k → k.infFast = false) :
    ∀ v k, v < s.nV → s.vert v = .kin k → k.infFast = false := by
  intro v k hv hk
  have hb := g.vert v hv
  rw [hk] at hb
  cases q : s'.vert v with
  | inf o => rw [q] at hb; exact hb.elim
  | kin k' =>
    rw [q] at hb
    have hb : SameBirth k k' := hb
    rw [← hb.infFast]
    exact h v k' (g.vlt hv) q

variable [IsStrictOrderedRing K] [SqrtUnit K] [HasTrig K]

theorem reaches_spot {s : St K} {now : K} {v : VId} {p : Pt K} (h : Reaches s now v p) : spot s v now = p :=
  spot_place h.place

theorem watch_handleEdge {depth : ℕ} {evt : Event K} {step : ℤ} {s s' : St K} {u : Unit} {i : Fin 3} {p : Pt K}
    (h : handleEdge depth evt step s = .ok (u, s')) (hi : evt.side = [i]) (hv : ∀ x, x < s.nT → ∀ j, (s.tri x).vertices j < s.nV)
    (ht : evt.tri < s.nT) (hslow : ∀ v k, v < s'.nV → s'.vert v = .kin k → k.infFast = false)
    (hr : ∀ j, j ≠ i → Reaches s evt.time ((s.tri evt.tri).vertices j) p) (hnew : Reaches s' evt.time s.nV p)
    (hn : ∀ x, (s.tri evt.tri).neighbours i = some x → x < s.nT ∧ Tight evt.time s x) : Watch evt.time s s' := by
  unfold handleEdge at h
  obtain ⟨e, s1, h1, h⟩ := bind_run_ok.1 h
  obtain ⟨he, rfl⟩ := singleSide_run_ok h1
  obtain rfl : e = i := by rw [hi] at he; simpa using he.symm
  dsimp only at h
  obtain ⟨kv, s2, h2, h⟩ := bind_run_ok.1 h
  have hkv : kv = s.nV ∧ kv < s2.nV := by
    obtain ⟨_, _, _, _, _, _, s3, _, _, -, -, -, -, -, -, -, hst, -, hkv, -, hs1, -, -⟩ := (edgeVertex_steps h2).steps
    obtain ⟨-, e2, -, -⟩ := stopAndRecord_exact hst
    have : s3.nV = s.nV := by rw [e2]
    refine ⟨hkv.trans this, ?_⟩
    rw [hs1, hkv]
    exact Nat.lt_succ_self _
  obtain ⟨rfl, hlt⟩ := hkv
  have g2 := g_edgeVertex _ _ _ _ _ _ _ h2
  have a2 := al_edgeVertex _ _ _ _ _ _ _ h2
  have w2 := (Watch.refl (now := evt.time) hv).aloof g2 a2
  obtain ⟨T, s3, h3, h⟩ := bind_run_ok.1 h
  obtain ⟨-, rfl, rfl⟩ := getT_run_ok.1 h3
  rw [a2.1] at h
  obtain ⟨fa, s4, h4, h⟩ := bind_run_ok.1 h
  have g4 := g_edgeSide _ _ _ _ _ _ _ _ _ _ h4
  obtain ⟨fb, s5, h5, h⟩ := bind_run_ok.1 h
  have g5 := g_edgeSide _ _ _ _ _ _ _ _ _ _ h5
  obtain ⟨_, s6, h6, h⟩ := bind_run_ok.1 h
  have g6 := g_detachAndSchedule _ _ _ _ _ _ h6
  obtain ⟨_, s7, h7, h⟩ := bind_run_ok.1 h
  have g7 := g_stopTriangle _ _ _ _ _ h7
  have g8 := g_edgeFan _ _ _ _ _ _ _ _ _ h
  have b5 := growsPre.trans _ _ _ (growsPre.trans _ _ _ g6 g7) g8
  have b4 := growsPre.trans _ _ _ g5 b5
  have b2 := growsPre.trans _ _ _ g4 b4
  have n1 : e + 1 ≠ e := (by decide : ∀ z : Fin 3, z + 1 ≠ z) e
  have n2 : e + 2 ≠ e := (by decide : ∀ z : Fin 3, z + 2 ≠ z) e
  have old : ∀ j, j ≠ e → ∀ {sm : St K}, Grows s sm → Grows sm s' → s.nV < sm.nV →
      spot sm s.nV evt.time = spot sm ((s.tri evt.tri).vertices j) evt.time := by
    intro j hj sm gm gm' hlt
    rw [← spot_grows gm' hlt, reaches_spot hnew, spot_grows gm (hv _ ht j), reaches_spot (hr j hj)]
  have w4 := w2.edgeSide hlt (old _ n2 g2 b2 hlt) (slow_back b2 hslow) h4
  have w5 := w4.edgeSide (g4.vlt hlt) (old _ n1 (growsPre.trans _ _ _ g2 g4) b4 (g4.vlt hlt)) (slow_back b4 hslow) h5
  have w6 := w5.detachAndSchedule hn h6
  have w7 := w6.fewer (fw_stopTriangle _ _ _ _ _ h7)
  have : s7 = s' := by
    unfold edgeFan at h
    obtain ⟨nx, s8, h8, h⟩ := bind_run_ok.1 h
    unfold nextFan at h8
    obtain ⟨k, s9, h9, h8⟩ := bind_run_ok.1 h8
    obtain ⟨hl, hk, rfl⟩ := getK_run_ok.1 h9
    rw [slow_back g8 hslow _ k hl hk] at h8
    obtain ⟨rfl, rfl⟩ := pure_run_ok.1 h8
    exact (pure_run_ok.1 h).2
  exact this ▸ w7

theorem watch_handleSplit {depth : ℕ} {evt : Event K} {step : ℤ} {s s' : St K} {u : Unit} {i : Fin 3} {p : Pt K}
    (h : handleSplit depth evt step s = .ok (u, s')) (hi : evt.side = [i]) (hv : ∀ x, x < s.nT → ∀ j, (s.tri x).vertices j < s.nV)
    (ht : evt.tri < s.nT) (hslow : ∀ v k, v < s'.nV → s'.vert v = .kin k → k.infFast = false)
    (hr : Reaches s evt.time ((s.tri evt.tri).vertices i) p) (hb : Reaches s' evt.time s.nV p)
    (ha : Reaches s' evt.time (s.nV + 1) p) : Watch evt.time s s' := by
  unfold handleSplit at h
  obtain ⟨e, s1, h1, h⟩ := bind_run_ok.1 h
  obtain ⟨he, rfl⟩ := singleSide_run_ok h1
  obtain rfl : e = i := by rw [hi] at he; simpa using he.symm
  dsimp only at h
  obtain ⟨T, s3, h3, h⟩ := bind_run_ok.1 h
  obtain ⟨-, rfl, rfl⟩ := getT_run_ok.1 h3
  obtain ⟨_, s3, h3, h⟩ := bind_run_ok.1 h
  obtain ⟨-, rfl⟩ := assertM_run_ok.1 h3
  obtain ⟨_, s3, h3, h⟩ := bind_run_ok.1 h
  obtain rfl := splitChecks_same h3
  obtain ⟨r, s2, h2, h⟩ := bind_run_ok.1 h
  have hrr : r = (s.nV, s.nV + 1) ∧ s2.nV = s.nV + 1 + 1 := by
    obtain ⟨_, _, _, _, s3, _, _, _, _, hst, -, -, -, -, -, -, -, -, -, -, hr, -, hs1, -⟩ := (splitVertices_steps h2).steps
    obtain ⟨-, e2, -, -⟩ := stopAndRecord_exact hst
    have : s3.nV = s.nV := by rw [e2]
    rw [this] at hr
    exact ⟨hr, by rw [hs1]; dsimp only; rw [this]⟩
  obtain ⟨rfl, hn⟩ := hrr
  have l1 : s.nV < s2.nV := by rw [hn]; exact Nat.lt_succ_of_lt (Nat.lt_succ_self _)
  have l2 : s.nV + 1 < s2.nV := by rw [hn]; exact Nat.lt_succ_self _
  have g2 := g_splitVertices _ _ _ _ _ _ _ _ h2
  have a2 := al_splitVertices _ _ _ _ _ _ _ _ h2
  have w2 := (Watch.refl (now := evt.time) hv).aloof g2 a2
  obtain ⟨fb, s4, h4, h⟩ := bind_run_ok.1 h
  have g4 := g_splitSide _ _ _ _ _ _ _ _ _ h4
  obtain ⟨fa, s5, h5, h⟩ := bind_run_ok.1 h
  have g5 := g_splitSide _ _ _ _ _ _ _ _ _ h5
  obtain ⟨_, s6, h6, h⟩ := bind_run_ok.1 h
  have g6 := g_stopTriangle _ _ _ _ _ h6
  obtain ⟨_, s7, h7, h⟩ := bind_run_ok.1 h
  have g7 := g_splitFan _ _ _ _ _ _ _ _ _ h7
  have g8 := g_splitFan _ _ _ _ _ _ _ _ _ h
  have b6 := growsPre.trans _ _ _ g7 g8
  have b5 := growsPre.trans _ _ _ g6 b6
  have b4 := growsPre.trans _ _ _ g5 b5
  have b2 := growsPre.trans _ _ _ g4 b4
  have side : ∀ {sm sn : St K} {d : Fin 3} {dir : Dir} {l : List TId} {w : VId}, Watch evt.time s sm → Grows s sm → Grows sm s' →
      w < sm.nV → Reaches s' evt.time w p →
      splitSide evt.tri d ((s.tri evt.tri).vertices e) w evt.time dir sm = .ok (l, sn) → Watch evt.time s sn := by
    intro sm sn d dir l w wm gm gm' hlt hw hm
    have hp : spot sm w evt.time = spot sm ((s.tri evt.tri).vertices e) evt.time := by
      rw [← spot_grows gm' hlt, reaches_spot hw, spot_grows gm (hv _ ht e), reaches_spot hr]
    unfold splitSide at hm
    obtain ⟨T, s3, h3, hm⟩ := bind_run_ok.1 hm
    obtain ⟨-, rfl, rfl⟩ := getT_run_ok.1 h3
    obtain ⟨n, s3, h3, hm⟩ := bind_run_ok.1 hm
    obtain ⟨-, rfl⟩ := assertSome_run_ok.1 h3
    obtain ⟨_, s3, h3, hm⟩ := bind_run_ok.1 hm
    have f3 := fw_relink _ _ _ _ _ _ h3
    have e1 : s3.nV = sm.nV := by rw [f3.mesh]
    have e2 : s3.vert = sm.vert := by rw [f3.mesh]
    exact (wm.fewer f3).replaceLoop (e1 ▸ hlt) (by rw [spot_vert (s' := s3) (s := sm) (by rw [e2]), spot_vert (s' := s3) (s := sm) (by rw [e2])]; exact hp) hm
  have w4 := side w2 g2 b2 l1 hb h4
  have w5 := side w4 (growsPre.trans _ _ _ g2 g4) b4 (g4.vlt l2) ha h5
  have w6 := w5.fewer (fw_stopTriangle _ _ _ _ _ h6)
  have fan : ∀ {sm sn : St K} {dir : Dir} {l : List TId} {w : VId} {a : Unit}, Grows sn s' →
      splitFan depth w l evt.time dir step sm = .ok (a, sn) → sm = sn := by
    intro sm sn dir l w a gn hm
    have gm := growsPre.trans _ _ _ (g_splitFan _ _ _ _ _ _ _ _ _ hm) gn
    unfold splitFan at hm
    obtain ⟨k, s9, h9, hm⟩ := bind_run_ok.1 hm
    obtain ⟨hl, hk, rfl⟩ := getK_run_ok.1 h9
    rw [slow_back gm hslow _ k hl hk] at hm
    exact (pure_run_ok.1 hm).2
  obtain rfl := fan g8 h7
  obtain rfl := fan (growsPre.refl _) h
  exact w6

/-- neighbours are only taken away -/
theorem threeSidesNeighbour_neighbours {t : TId} {now : K} {i : Fin 3} {s s' : St K} {a : Unit}
    (h : threeSidesNeighbour t now i s = .ok (a, s')) (y : TId) (j : Fin 3) (x : TId)
    (hx : (s'.tri y).neighbours j = some x) : (s.tri y).neighbours j = some x := by
  unfold threeSidesNeighbour at h
  obtain ⟨T, s1, h1, h⟩ := bind_run_ok.1 h
  obtain ⟨-, rfl, rfl⟩ := getT_run_ok.1 h1
  cases q : (s.tri t).neighbours i with
  | none => rw [q] at h; cases h; exact hx
  | some n =>
    rw [q] at h
    dsimp only at h
    obtain ⟨N, s1, h1, h⟩ := bind_run_ok.1 h
    obtain ⟨-, rfl, rfl⟩ := getT_run_ok.1 h1
    split_ifs at h
    · obtain ⟨_, s1, h1, h⟩ := bind_run_ok.1 h
      have c := c_scheduleImmediately _ _ _ _ _ h
      rw [c.neighbours] at hx
      unfold relink at h1
      obtain ⟨N, s2, h2, h1⟩ := bind_run_ok.1 h1
      obtain ⟨-, rfl, rfl⟩ := getT_run_ok.1 h2
      obtain ⟨k, s2, h2, h1⟩ := bind_run_ok.1 h1
      obtain ⟨-, rfl⟩ := needIdx_run_ok.1 h2
      unfold setNeighbour at h1
      obtain ⟨-, rfl⟩ := modifyT_run_ok.1 h1
      dsimp only at hx
      by_cases q1 : y = n
      · subst q1
        rw [Function.update_self] at hx
        dsimp only at hx
        by_cases q2 : j = k
        · subst q2; rw [Function.update_self] at hx; cases hx
        · rw [Function.update_of_ne q2] at hx; exact hx
      · rw [Function.update_of_ne q1] at hx; exact hx
    · cases h; exact hx

theorem watch_handleEdge3 {evt : Event K} {step : ℤ} {s s' : St K} {u : Unit}
    (h : handleEdge3 evt step s = .ok (u, s')) (hv : ∀ x, x < s.nT → ∀ j, (s.tri x).vertices j < s.nV)
    (hn : ∀ i x, (s.tri evt.tri).neighbours i = some x → x < s.nT ∧ Tight evt.time s x) : Watch evt.time s s' := by
  unfold handleEdge3 at h
  obtain ⟨_, s1, h1, h⟩ := bind_run_ok.1 h
  obtain ⟨-, rfl⟩ := assertM_run_ok.1 h1
  obtain ⟨T, s1, h1, h⟩ := bind_run_ok.1 h
  obtain ⟨-, rfl, rfl⟩ := getT_run_ok.1 h1
  obtain ⟨_, s1, h1, h⟩ := bind_run_ok.1 h
  have a1 := al_stopAndRecord _ _ _ _ _ _ _ h1
  have w1 := (Watch.refl (now := evt.time) hv).aloof (g_stopAndRecord _ _ _ _ _ _ _ h1) a1
  obtain ⟨_, s2, h2, h⟩ := bind_run_ok.1 h
  have all : ∀ (l : List (Fin 3)) {s1 s2 : St K} {a : Unit}, Watch evt.time s s1 →
      (∀ i x, (s1.tri evt.tri).neighbours i = some x → (s.tri evt.tri).neighbours i = some x) →
      forEach (threeSidesNeighbour evt.tri evt.time) l s1 = .ok (a, s2) → Watch evt.time s s2 := by
    intro l
    induction l with
    | nil => intro s1 s2 a w q hm; cases hm; exact w
    | cons i l ih =>
      intro s1 s2 a w q hm
      unfold forEach at hm
      obtain ⟨_, s3, h3, hm⟩ := bind_run_ok.1 hm
      exact ih (w.threeSidesNeighbour (fun x hx => hn i x (q i x hx)) h3)
        (fun j x hx => q j x (threeSidesNeighbour_neighbours h3 _ j x hx)) hm
  exact (all _ w1 (fun i x hx => by rw [a1.1] at hx; exact hx) h2).fewer (fw_stopTriangle _ _ _ _ _ h)

theorem watch_handleEdge1 {evt : Event K} {step : ℤ} {s s' : St K} {u : Unit}
    (h : handleEdge1 evt step s = .ok (u, s')) (hv : ∀ x, x < s.nT → ∀ j, (s.tri x).vertices j < s.nV) :
    Watch evt.time s s' := by
  unfold handleEdge1 at h
  obtain ⟨e, s1, h1, h⟩ := bind_run_ok.1 h
  obtain ⟨-, rfl⟩ := singleSide_run_ok h1
  obtain ⟨T, s1, h1, h⟩ := bind_run_ok.1 h
  obtain ⟨-, rfl, rfl⟩ := getT_run_ok.1 h1
  obtain ⟨_, s1, h1, h⟩ := bind_run_ok.1 h
  have w := (Watch.refl (now := evt.time) hv).aloof (g_stopAndRecord _ _ _ _ _ _ _ h1) (al_stopAndRecord _ _ _ _ _ _ _ h1)
  obtain ⟨_, s2, h2, h⟩ := bind_run_ok.1 h
  obtain ⟨-, -, rfl⟩ := getK_run_ok.1 h2
  obtain ⟨_, s2, h2, h⟩ := bind_run_ok.1 h
  obtain ⟨-, -, rfl⟩ := getK_run_ok.1 h2
  obtain ⟨ct, s2, h2, h⟩ := bind_run_ok.1 h
  obtain ⟨-, rfl⟩ := countVertices_run_ok.1 h2
  obtain ⟨_, s2, h2, h⟩ := bind_run_ok.1 h
  have w := w.aloof (g_computeNewKvertex _ _ _ _ _ _ _ _ _ h2) (al_computeNewKvertex _ _ _ _ _ _ _ _ _ h2)
  obtain ⟨_, s3, h3, h⟩ := bind_run_ok.1 h
  have w := w.aloof (g_appendVertex _ _ _ _ h3) (al_appendVertex _ _ _ _ h3)
  obtain ⟨_, s4, h4, h⟩ := bind_run_ok.1 h
  have w := w.aloof (g_stopAndRecord _ _ _ _ _ _ _ h4) (al_stopAndRecord _ _ _ _ _ _ _ h4)
  exact w.fewer (fw_stopTriangle _ _ _ _ _ h)

end Grassfire
