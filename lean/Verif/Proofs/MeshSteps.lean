/-
What the events do to the mesh of triangles (for C38 and C69).
-/
import Verif.Proofs.MeshHandlers
import Verif.Proofs.SameTris
import Verif.Props.Flip
import Verif.Props.Handlers

set_option linter.unusedSectionVars false

namespace Grassfire

open Spec

variable {K : Type} [Field K] [LinearOrder K]

theorem mesh_symmetric (s : St K) (h : Mesh s) (t u : TId) (ht : Live s t) :
    (∀ i, (s.tri t).neighbours i = some u → Live s u) ∧
    (Live s u → (Finset.univ.filter fun i => (s.tri t).neighbours i = some u).card =
      (Finset.univ.filter fun i => (s.tri u).neighbours i = some t).card) := by
  have hC := h.consistent
  have le : ∀ t u, Live s t → (Finset.univ.filter fun i => (s.tri t).neighbours i = some u).card ≤
      (Finset.univ.filter fun i => (s.tri u).neighbours i = some t).card := by
    intro t u ht
    have hj : ∀ i, ∃ j, (s.tri t).neighbours i = some u → (s.tri u).neighbours j = some t ∧
        (s.tri u).vertices (j + 1) = (s.tri t).vertices (i + 2) := by
      intro i
      by_cases hi : (s.tri t).neighbours i = some u
      · obtain ⟨-, j, k1, k2, k3⟩ := facing hC ht hi
        exact ⟨j, fun _ => ⟨k1, k2⟩⟩
      · exact ⟨0, fun q => absurd q hi⟩
    choose f hf using hj
    refine Finset.card_le_card_of_injOn f (fun i hi => ?_) fun i hi j hj hij => ?_
    · simp only [Finset.coe_filter, Finset.mem_univ, true_and, Set.mem_ofPred_eq] at hi ⊢
      exact (hf i hi).1
    · simp only [Finset.coe_filter, Finset.mem_univ, true_and, Set.mem_ofPred_eq] at hi hj
      have a := (hf i hi).2
      have b := (hf j hj).2
      rw [hij] at a
      simpa using (hC t ht).2.1 (a.symm.trans b)
  exact ⟨fun i hi => (facing hC ht hi).1, fun hu => le_antisymm (le t u ht) (le u t hu)⟩

section
variable [IsStrictOrderedRing K] [HasSqrt K] [SqrtUnit K] [HasTrig K]

theorem handleEdge_mesh (depth : ℕ) (evt : Event K) (step : ℤ) (s s' : St K) (e : Fin 3) (hM : Mesh s)
    (hl : Live s evt.tri) (he : evt.side = [e]) (hc : Collapsible s evt.tri e)
    (h : handleEdge depth evt step s = .ok ((), s')) (hf : ∀ k, s'.vert s.nV = .kin k → k.infFast = false) : Mesh s' ∧ EdgeMesh s s' evt.tri e s.nV := by
  unfold handleEdge at h
  obtain ⟨e', s1, h1, h⟩ := bind_run_ok.1 h
  obtain ⟨he', rfl⟩ := singleSide_run_ok h1
  obtain rfl : e' = e := by rw [he] at he'; simpa using he'.symm
  dsimp only at h
  obtain ⟨kv, s1, h1, h⟩ := bind_run_ok.1 h
  obtain ⟨⟨k1, k2, a, c, pos, node, s2, kn, R, -, -, -, -, -, -, -, hstop, -, hkv, -, hs1, -, -⟩⟩ := edgeVertex_steps h1
  obtain ⟨m1, m2, m3⟩ := stopAndRecord_mesh hstop
  obtain rfl : kv = s.nV := hkv.trans m3
  have t1 : s1.tri = s.tri := by rw [hs1]; exact m1
  have n1 : s1.nT = s.nT := by rw [hs1]; exact m2
  have v1 : s1.nV = s.nV + 1 := by rw [hs1]; dsimp only; rw [m3]
  have hM1 : Mesh s1 := mesh_same hM n1 (v1 ▸ Nat.le_succ _) t1
  have hl1 : Live s1 evt.tri := by unfold Live; rw [n1, t1]; exact hl
  have hc1 : Collapsible s1 evt.tri e' := by
    have hL : Live s1 = Live s := by funext x; unfold Live; rw [n1, t1]
    have hA : Adjacent s1 = Adjacent s := by funext x y; unfold Adjacent; rw [hL, t1]
    unfold Collapsible Connected; rw [hL, hA, t1]; exact hc
  obtain ⟨T, s3, h3, h⟩ := bind_run_ok.1 h
  obtain ⟨-, rfl, rfl⟩ := getT_run_ok.1 h3
  have hfr : ∀ x < s1.nT, ∀ i, (s1.tri x).vertices i ≠ s.nV := by
    intro x hx i
    rw [t1]
    exact Nat.ne_of_lt (hM.vertices x (n1 ▸ hx) i)
  obtain ⟨fanA, sA, hA, h⟩ := bind_run_ok.1 h
  obtain ⟨fanB, sB, hB, h⟩ := bind_run_ok.1 h
  obtain ⟨_, sC, hD, h⟩ := bind_run_ok.1 h
  obtain ⟨_, sD, hS, h⟩ := bind_run_ok.1 h
  have dA := edgeSide_done (mesh_once hM1 _) (hfr _ hl1.1 _).symm hA
  have dB := edgeSide_done (once_none dA hM1 (hfr _ hl1.1 _)) (hfr _ hl1.1 _).symm hB
  have dD := detachAndSchedule_done hD
  obtain ⟨x1, x2, x3, x4⟩ := stopTriangle_fields hS
  have g := g_edgeFan _ _ _ _ _ _ _ _ _ h
  have vD : sD.nV = s1.nV := by
    have a := mo_edgeSide _ _ _ _ _ _ _ _ _ _ hA
    have b := mo_edgeSide _ _ _ _ _ _ _ _ _ _ hB
    have c := mo_detachAndSchedule _ _ _ _ _ _ hD
    rw [x2, c, b, a]
  have hMD := edge_event_mesh hM1 hl1 hc1 hfr (v1 ▸ Nat.lt_succ_self _) dA dB dD (Nat.le_of_eq vD.symm) x1 x4
  unfold edgeFan at h
  obtain ⟨nx, s8, h8, h⟩ := bind_run_ok.1 h
  unfold nextFan at h8
  obtain ⟨k, s9, h9, h8⟩ := bind_run_ok.1 h8
  obtain ⟨hlt, hk, rfl⟩ := getK_run_ok.1 h9
  have hi : k.infFast = false := by
    have := g.vert s.nV hlt
    rw [hk] at this
    cases hz : s'.vert s.nV with
    | inf o => rw [hz] at this; exact this.elim
    | kin kz =>
      rw [hz] at this
      rw [← this.infFast]
      exact hf _ hz
  rw [hi] at h8
  obtain ⟨rfl, rfl⟩ := pure_run_ok.1 h8
  rw [← (pure_run_ok.1 h).2]
  exact ⟨hMD.1, hMD.2.same t1 n1⟩

theorem handleSplit_mesh (depth : ℕ) (evt : Event K) (step : ℤ) (s s' : St K) (hM : Mesh s)
    (hl : Live s evt.tri) (h : handleSplit depth evt step s = .ok ((), s'))
    (hfb : ∀ k, s'.vert s.nV = .kin k → k.infFast = false)
    (hfa : ∀ k, s'.vert (s.nV + 1) = .kin k → k.infFast = false) : Mesh s' ∧ ∃ e, evt.side = [e] ∧ SplitMesh s s' evt.tri e (s.nV + 1) s.nV := by
  unfold handleSplit at h
  obtain ⟨e, s1, h1, h⟩ := bind_run_ok.1 h
  obtain ⟨he, rfl⟩ := singleSide_run_ok h1
  dsimp only at h
  obtain ⟨T, s3, h3, h⟩ := bind_run_ok.1 h
  obtain ⟨-, rfl, rfl⟩ := getT_run_ok.1 h3
  obtain ⟨_, s3, h3, h⟩ := bind_run_ok.1 h
  obtain ⟨hn, rfl⟩ := assertM_run_ok.1 h3
  obtain ⟨_, s3, h3, h⟩ := bind_run_ok.1 h
  obtain rfl := splitChecks_same h3
  obtain ⟨r, s1, h2, h⟩ := bind_run_ok.1 h
  obtain ⟨⟨k', k1', k2', node, s3, s4, kb, ka, R, hstop, hlt, hk', hlt1, hk1', hlt2, hk2', hu, hnb, hs4, hna, hvv, hR,
    hs1, -, -⟩⟩ := splitVertices_steps h2
  obtain ⟨m1, m2, m3⟩ := stopAndRecord_mesh hstop
  subst hvv
  rw [m3] at hs1 h
  have t1 : s1.tri = s.tri := by rw [hs1]; exact m1
  have n1 : s1.nT = s.nT := by rw [hs1]; exact m2
  have v1 : s1.nV = s.nV + 2 := congrArg St.nV hs1
  have hM1 : Mesh s1 := mesh_same hM n1 (v1 ▸ Nat.le_add_right _ _) t1
  have hl1 : Live s1 evt.tri := by unfold Live; rw [n1, t1]; exact hl
  have hfr : ∀ w, s.nV ≤ w → ∀ x < s1.nT, ∀ i, (s1.tri x).vertices i ≠ w := by
    intro w hw x hx i
    rw [t1]
    exact Nat.ne_of_lt (Nat.lt_of_lt_of_le (hM.vertices x (n1 ▸ hx) i) hw)
  obtain ⟨fb, sA, hA, h⟩ := bind_run_ok.1 h
  obtain ⟨fa, sB, hB, h⟩ := bind_run_ok.1 h
  obtain ⟨_, sD, hS, h⟩ := bind_run_ok.1 h
  rw [← t1] at hn hA hB
  obtain ⟨a, ha, dA⟩ := splitSide_done (mesh_once hM1 _) (hfr _ (Nat.le_refl _) _ hl1.1 _).symm hA
  obtain ⟨b, hb, dB⟩ := splitSide_done (once_none dA hM1 (hfr _ (Nat.le_refl _) _ hl1.1 _))
    (hfr (s.nV + 1) (Nat.le_succ _) _ hl1.1 _).symm hB
  have hb' : (s1.tri evt.tri).neighbours (e + 2) = some b := by
    obtain ⟨i, hi, -, -, -, hN⟩ := dA.cons a rfl
    rw [hN] at hb
    by_cases hx : evt.tri = a
    · exact absurd (ha.trans (congrArg some hx.symm)) (hM1.consistent.not_self hl1 _)
    · rw [if_neg hx] at hb
      exact hb
  obtain ⟨x1, x2, x3, x4⟩ := stopTriangle_fields hS
  have vD : sD.nV = s1.nV := by
    have a := mo_splitSide _ _ _ _ _ _ _ _ _ hA
    have b := mo_splitSide _ _ _ _ _ _ _ _ _ hB
    rw [x2, b, a]
  have hMD := split_event_mesh hM1 hl1 hn ha hb' (hfr _ (Nat.le_refl _)) (hfr _ (Nat.le_succ _))
    (by rw [v1]; exact Nat.lt_add_of_pos_right (by decide)) (by rw [v1]; exact Nat.lt_succ_self _) dA dB
    (Nat.le_of_eq vD.symm) x1 x4
  obtain ⟨_, s7, h7, h⟩ := bind_run_ok.1 h
  have g7 := g_splitFan _ _ _ _ _ _ _ _ _ h7
  have g8 := g_splitFan _ _ _ _ _ _ _ _ _ h
  have g := growsPre.trans _ _ _ g7 g8
  have hi : ∀ w, w < sD.nV → (∀ k, s'.vert w = .kin k → k.infFast = false) → ∀ k, sD.vert w = .kin k →
      k.infFast = false := by
    intro w hlt hf k hk
    have := g.vert w hlt
    rw [hk] at this
    cases hz : s'.vert w with
    | inf o => rw [hz] at this; exact this.elim
    | kin kz =>
      rw [hz] at this
      rw [← this.infFast]
      exact hf _ hz
  unfold splitFan at h7 h
  obtain ⟨ka, s9, h9, h7⟩ := bind_run_ok.1 h7
  obtain ⟨hla, hka, rfl⟩ := getK_run_ok.1 h9
  rw [hi _ hla hfa _ hka] at h7
  obtain ⟨-, rfl⟩ := pure_run_ok.1 h7
  obtain ⟨kb, s10, h10, h⟩ := bind_run_ok.1 h
  obtain ⟨hlb, hkb, rfl⟩ := getK_run_ok.1 h10
  rw [hi _ hlb hfb _ hkb] at h
  rw [← (pure_run_ok.1 h).2]
  exact ⟨hMD.1, e, he, hMD.2.same t1 n1⟩

theorem handleEdge3_mesh (evt : Event K) (step : ℤ) (s s' : St K) (hM : Mesh s) (hl : Live s evt.tri)
    (hev : ∀ i n, (s.tri evt.tri).neighbours i = some n → (s.tri n).event.isSome)
    (h : handleEdge3 evt step s = .ok ((), s')) : Mesh s' ∧ Removed s s' evt.tri := by
  unfold handleEdge3 at h
  obtain ⟨_, s1, h1, h⟩ := bind_run_ok.1 h
  obtain ⟨-, rfl⟩ := assertM_run_ok.1 h1
  obtain ⟨T, s1, h1, h⟩ := bind_run_ok.1 h
  obtain ⟨-, rfl, rfl⟩ := getT_run_ok.1 h1
  obtain ⟨_, s1, h1, h⟩ := bind_run_ok.1 h
  obtain ⟨m1, m2, m3⟩ := stopAndRecord_mesh h1
  have hM1 : Mesh s1 := mesh_same hM m2 (Nat.le_of_eq m3.symm) m1
  have hl1 : Live s1 evt.tri := by unfold Live; rw [m1, m2]; exact hl
  rw [← m1] at hev
  obtain ⟨_, s2, h2, h⟩ := bind_run_ok.1 h
  have hp : ThreeSides evt.tri s1 [0, 1, 2] s1 := by
    refine ⟨rfl, fun _ => rfl, fun _ => rfl, fun _ q => q, rfl, fun _ _ => .inl rfl, fun x hx hxt => ?_⟩
    rw [(mesh_symmetric s1 hM1 x evt.tri hx).2 hl1, Finset.card_filter, Fin.sum_univ_three]
    simp only [List.filter_cons, List.filter_nil, decide_eq_true_eq]
    split_ifs <;> rfl
  obtain ⟨x1, x2, x3, x4⟩ := stopTriangle_fields h
  have hr := threeSides_mesh hM1 (threeSides_loop hM1 hl1 hev _ hp h2) ?_ x1 x4
  · exact ⟨hr.1, hr.2.same m1 m2⟩
  have := Keeps.forEach growsPre (fun i => g_threeSidesNeighbour evt.tri evt.time i) _ _ _ _ h2
  rw [x2]
  exact this.nV

theorem handleEdge1_mesh (evt : Event K) (step : ℤ) (s s' : St K) (hM : Mesh s)
    (hn : ∀ i, (s.tri evt.tri).neighbours i = none) (h : handleEdge1 evt step s = .ok ((), s')) : Mesh s' ∧ Removed s s' evt.tri := by
  have g := g_handleEdge1 _ _ _ _ _ h
  unfold handleEdge1 at h
  obtain ⟨e, s1, h1, h⟩ := bind_run_ok.1 h
  obtain ⟨-, rfl⟩ := singleSide_run_ok h1
  obtain ⟨T, s1, h1, h⟩ := bind_run_ok.1 h
  obtain ⟨-, rfl, rfl⟩ := getT_run_ok.1 h1
  obtain ⟨_, s1, h1, h⟩ := bind_run_ok.1 h
  have e1 := st_stopAndRecord _ _ _ _ _ _ _ h1
  obtain ⟨_, s2, h2, h⟩ := bind_run_ok.1 h
  obtain ⟨-, -, rfl⟩ := getK_run_ok.1 h2
  obtain ⟨_, s2, h2, h⟩ := bind_run_ok.1 h
  obtain ⟨-, -, rfl⟩ := getK_run_ok.1 h2
  obtain ⟨_, s2, h2, h⟩ := bind_run_ok.1 h
  obtain ⟨-, rfl⟩ := countVertices_run_ok.1 h2
  obtain ⟨_, s2, h2, h⟩ := bind_run_ok.1 h
  have e2 := st_computeNewKvertex _ _ _ _ _ _ _ _ _ h2
  obtain ⟨_, s3, h3, h⟩ := bind_run_ok.1 h
  have e3 := st_appendVertex _ _ _ _ h3
  obtain ⟨_, s4, h4, h⟩ := bind_run_ok.1 h
  have e4 := st_stopAndRecord _ _ _ _ _ _ _ h4
  obtain ⟨x1, x2, x3, x4⟩ := stopTriangle_fields h
  have e5 : s4.tri = s.tri := Eq.trans e4 (Eq.trans e3 (Eq.trans e2 e1))
  have hD : Detached ((s.tri evt.tri).neighbours 0) evt.tri s { s with nT := s'.nT } :=
    ⟨g.nT, fun _ => rfl, fun _ => rfl, fun _ _ => rfl, fun n q => by rw [hn 0] at q; cases q⟩
  exact detach_mesh (e := 0) hM (hn _) (hn _) hD g.nV rfl fun x => by rw [← e5]; exact x4 x

theorem handleFlip_mesh (evt : Event K) (s s' : St K) (e : Fin 3) (hM : Mesh s) (hl : Live s evt.tri)
    (he : evt.side = [e]) (hf : ProperSide s evt.tri e) (h : handleFlip evt s = .ok ((), s')) : Mesh s' ∧ ∃ n k s1, SharedEdge (Live s) s evt.tri e n k ((s.tri evt.tri).vertices e)
      ((s.tri evt.tri).vertices (e + 1)) ((s.tri n).vertices k) ((s.tri evt.tri).vertices (e + 2)) ∧
      flip evt.tri e n k s = .ok ((), s1) ∧ SameCore s1 s' := by
  unfold handleFlip at h
  obtain ⟨e', s1, h1, h⟩ := bind_run_ok.1 h
  obtain ⟨he', rfl⟩ := singleSide_run_ok h1
  obtain rfl : e' = e := by rw [he] at he'; simpa using he'.symm
  obtain ⟨T, s1, h1, h⟩ := bind_run_ok.1 h
  obtain ⟨-, rfl, rfl⟩ := getT_run_ok.1 h1
  obtain ⟨n, s1, h1, h⟩ := bind_run_ok.1 h
  obtain ⟨hn, rfl⟩ := assertSome_run_ok.1 h1
  obtain ⟨N, s1, h1, h⟩ := bind_run_ok.1 h
  obtain ⟨-, rfl, rfl⟩ := getT_run_ok.1 h1
  obtain ⟨k, s1, h1, h⟩ := bind_run_ok.1 h
  obtain ⟨hk, rfl⟩ := needIdx_run_ok.1 h1
  obtain ⟨_, s1, h1, h⟩ := bind_run_ok.1 h
  have h1' := h1
  unfold flip at h1'
  obtain ⟨_, s2, h2, h1'⟩ := bind_run_ok.1 h1'
  obtain ⟨-, rfl, rfl⟩ := getT_run_ok.1 h2
  obtain ⟨_, s2, h2, h1'⟩ := bind_run_ok.1 h1'
  obtain ⟨-, rfl, rfl⟩ := getT_run_ok.1 h2
  obtain ⟨_, s2, h2, h1'⟩ := bind_run_ok.1 h1'
  obtain ⟨a1, rfl⟩ := assertM_run_ok.1 h2
  obtain ⟨_, s2, h2, h1'⟩ := bind_run_ok.1 h1'
  obtain ⟨a2, rfl⟩ := assertM_run_ok.1 h2
  clear h1'
  have hS : SharedEdge (Live s) s evt.tri e' n k ((s.tri evt.tri).vertices e') ((s.tri evt.tri).vertices (e' + 1))
      ((s.tri n).vertices k) ((s.tri evt.tri).vertices (e' + 2)) :=
    ⟨hM.consistent, hl, hn, index3_some hk, rfl, rfl, rfl, rfl, a2.symm, a1.symm, (hf n hn k).symm⟩
  have hC := C26_consistent hS h1
  obtain ⟨f1, f2, f3, f4⟩ := C26_frame hS h1
  have nT1 : s1.nT = s.nT := by rw [← f4]
  have nV1 : s1.nV = s.nV := by rw [← f4]
  have st1 : ∀ x, (s1.tri x).stopsAt = (s.tri x).stopsAt := by
    intro x
    obtain ⟨vs, ns, q⟩ := f3 x
    rw [q]
  have hM1 : Mesh s1 := by
    obtain ⟨s1', p1, ⟨p2, p3, p4⟩, ⟨p5, p6, p7⟩, -⟩ := C26_pair hS
    rw [h1] at p1
    injection p1 with p1
    injection p1 with _ p1
    subst p1
    refine ⟨consistent_congr hC fun x => by unfold Live; rw [nT1, st1], fun x hx => ?_, fun x hx i => ?_⟩
    · by_cases hlx : Live s x
      · exact (hC x hlx).2.1
      · rw [f2 x hlx]; exact hM.distinct x (nT1 ▸ hx)
    · rw [nV1]
      have b1 := fun j => hM.vertices evt.tri hl.1 j
      have b2 := fun j => hM.vertices n (hM.consistent n hS.p1).1 j
      by_cases q0 : x = evt.tri
      · subst q0
        fin_cases i
        · exact p2 ▸ b1 _
        · exact p3 ▸ b1 _
        · exact p4 ▸ b2 _
      · by_cases q1 : x = n
        · subst q1
          fin_cases i
          · exact p5 ▸ b2 _
          · exact p6 ▸ b1 _
          · exact p7 ▸ b1 _
        · by_cases hlx : Live s x
          · rw [(f1 x hlx q0 q1).1]; exact hM.vertices x hlx.1 i
          · rw [f2 x hlx]; exact hM.vertices x (nT1 ▸ hx) i
  obtain ⟨_, s2, h2, h⟩ := bind_run_ok.1 h
  have c2 := c_replaceInQueue _ _ _ _ _ h2
  have c3 := c_replaceInQueue _ _ _ _ _ h
  exact ⟨mesh_core (mesh_core hM1 c2) c3, n, k, s1, hS, h1, sameCorePre.trans _ _ _ c2 c3⟩

theorem evenLegs_mesh (t : TId) (e : Fin 3) (pivot : VId) (now : K) (step : ℤ) (s s' : St K) (hM : Mesh s)
    (h1 : (s.tri t).neighbours (e + 1) = none) (h2 : (s.tri t).neighbours (e + 2) = none)
    (h : evenLegs t e pivot now step s = .ok ((), s')) : Mesh s' ∧ Removed s s' t := by
  have g := g_evenLegs _ _ _ _ _ _ _ _ h
  unfold evenLegs at h
  obtain ⟨T, s1, h3, h⟩ := bind_run_ok.1 h
  obtain ⟨-, rfl, rfl⟩ := getT_run_ok.1 h3
  obtain ⟨_, s1, h3, h⟩ := bind_run_ok.1 h
  obtain ⟨-, rfl⟩ := assertM_run_ok.1 h3
  obtain ⟨_, s1, h3, h⟩ := bind_run_ok.1 h
  obtain ⟨-, rfl⟩ := assertM_run_ok.1 h3
  obtain ⟨_, s1, h3, h⟩ := bind_run_ok.1 h
  have e1 := st_stopAndRecord _ _ _ _ _ _ _ h3
  have n1 := (stopAndRecord_mesh h3).2.1
  obtain ⟨_, s2, h4, h⟩ := bind_run_ok.1 h
  have e2 : s2.tri = s.tri := Eq.trans (st_stopAt _ _ _ _ _ _ h4) e1
  have n2 : s2.nT = s.nT := (g_stopAt _ _ _ _ _ _ h4).nT.trans n1
  obtain ⟨_, s3, h5, h⟩ := bind_run_ok.1 h
  obtain ⟨x1, x2, x3, x4⟩ := stopTriangle_fields h5
  obtain ⟨T, s4, h6, h⟩ := bind_run_ok.1 h
  obtain ⟨-, rfl, rfl⟩ := getT_run_ok.1 h6
  have hD := detachAndSchedule_done h
  have hN : ∀ x, (s3.tri x).neighbours = (s.tri x).neighbours := fun x => by rw [(x4 x).2.1, e2]
  -- the same, with the triangle stopped last
  let sC : St K := { s' with tri := fun x => { s'.tri x with stopsAt := (s.tri x).stopsAt } }
  have hD' : Detached ((s.tri t).neighbours e) t s sC := by
    refine ⟨g.nT, fun _ => rfl, fun x => ?_, fun q x => ?_, fun n q => ?_⟩
    · exact (hD.vertices x).trans (by rw [(x4 x).1, e2])
    · exact (hD.nil (by rw [hN]; exact q) x).trans (hN x)
    · obtain ⟨i, q1, q2⟩ := hD.cons n (by rw [hN]; exact q)
      refine ⟨i, by rw [← hN]; exact q1, fun x => ?_⟩
      exact (q2 x).trans (by rw [hN, hN])
  refine detach_mesh hM h1 h2 hD' g.nV rfl fun x => ⟨rfl, rfl, ?_⟩
  rw [hD.stopsAt, (x4 x).2.2, e2]

end

end Grassfire
