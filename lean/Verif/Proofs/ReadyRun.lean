/-
Progress of the event loop (lemmas for C87): what holds between two events.
-/
import Verif.Proofs.SafeHandlers

set_option linter.unusedSectionVars false

namespace Grassfire

open Spec

variable {K : Type} [Field K] [LinearOrder K] [IsStrictOrderedRing K] [HasSqrt K]

variable {s s' : St K} {P : Line2 K → Prop}

/-- the neighbours along the wavefront of a side that vanishes -/
theorem edge_around (R : Ready P s) {t : TId} {e : Fin 3} (hl : Live s t) (hn : (s.tri t).neighbours e = none)
    (hc : Collapsible s t e) : ∃ l r, Points s l ((s.tri t).vertices (e + 1)) ∧
      Points s ((s.tri t).vertices (e + 2)) r ∧ l ≠ (s.tri t).vertices (e + 2) := by
  have inj := (R.mesh.consistent t hl).2.1
  have p12 := R.undead.points R.mesh hl hn
  have k1 : Kinetic s ((s.tri t).vertices (e + 1)) := by obtain ⟨k, _, b, -, h, -⟩ := p12; exact ⟨b, k, h⟩
  have k2 : Kinetic s ((s.tri t).vertices (e + 2)) := by obtain ⟨_, k, -, b, -, h, -⟩ := p12; exact ⟨b, k, h⟩
  obtain ⟨lB, FB, xB, kB, hxB, lxB, vB, nB⟩ := R.undead.fanAt R.mesh .ccw hl rfl k1
  obtain ⟨lA, FA, xA, kA, hxA, lxA, vA, nA⟩ := R.undead.fanAt R.mesh .cw hl rfl k2
  have pl := R.undead.points R.mesh lxB nB
  change Points s ((s.tri xB).vertices (kB + 1 + 1)) ((s.tri xB).vertices (kB + 1 + 2)) at pl
  rw [fin3_add_1_1, fin3_add_1_2, vB] at pl
  have pr := R.undead.points R.mesh lxA nA
  change Points s ((s.tri xA).vertices (kA + 2 + 1)) ((s.tri xA).vertices (kA + 2 + 2)) at pr
  rw [fin3_add_2_1, fin3_add_2_2, vA] at pr
  refine ⟨_, _, pl, pr, fun q => ?_⟩
  rcases hxB with rfl | hx
  · obtain rfl := inj vB
    rw [fin3_add_1_2] at q
    exact fin3_ne_2 e (inj q)
  · rcases hc xB lxB (FB.connected hl xB hx) ⟨_, vB⟩ ⟨_, q⟩ with z | z
    · exact FB.ne (z ▸ hx)
    · rw [hn] at z; cases z.1

/-- the neighbours along the wavefront of a vertex that hits a side -/
theorem split_around (R : Ready P s) {t : TId} {e : Fin 3} (hl : Live s t) (hk : Kinetic s ((s.tri t).vertices e)) :
    ∃ l r, Points s l ((s.tri t).vertices e) ∧ Points s ((s.tri t).vertices e) r ∧ l ≠ (s.tri t).vertices e := by
  obtain ⟨lB, FB, xB, kB, hxB, lxB, vB, nB⟩ := R.undead.fanAt R.mesh .ccw hl rfl hk
  obtain ⟨lA, FA, xA, kA, hxA, lxA, vA, nA⟩ := R.undead.fanAt R.mesh .cw hl rfl hk
  have pl := R.undead.points R.mesh lxB nB
  change Points s ((s.tri xB).vertices (kB + 1 + 1)) ((s.tri xB).vertices (kB + 1 + 2)) at pl
  rw [fin3_add_1_1, fin3_add_1_2, vB] at pl
  have pr := R.undead.points R.mesh lxA nA
  change Points s ((s.tri xA).vertices (kA + 2 + 1)) ((s.tri xA).vertices (kA + 2 + 2)) at pr
  rw [fin3_add_2_1, fin3_add_2_2, vA] at pr
  exact ⟨_, _, pl, pr, fun q => (fin3_ne_2 kB).symm ((R.mesh.consistent xB lxB).2.1 (q.trans vB.symm))⟩

/-- no vertex is infinitely fast -/
def Slow (s : St K) : Prop := ∀ v k, v < s.nV → s.vert v = .kin k → k.infFast = false

theorem slow_grows (h : Slow s) (g : Grows s s') (n : ℕ) (hn : s'.nV ≤ s.nV + n)
    (hnew : ∀ i < n, ∀ k, s'.vert (s.nV + i) = .kin k → k.infFast = false) : Slow s' := by
  intro v k hv hk
  by_cases hlt : v < s.nV
  · have q := g.vert v hlt
    rw [hk] at q
    cases hk0 : s.vert v with
    | kin k0 =>
      rw [hk0] at q
      exact (SameBirth.infFast q).trans (h v k0 hlt hk0)
    | inf o => rw [hk0] at q; exact q.elim
  · have hd : v = s.nV + (v - s.nV) := by have : s.nV ≤ v := Nat.le_of_not_lt hlt; exact (Nat.add_sub_cancel' this).symm
    rw [hd] at hk
    refine hnew (v - s.nV) ?_ k hk
    have h1 : v < s.nV + n := lt_of_lt_of_le hv hn
    have : s.nV ≤ v := Nat.le_of_not_lt hlt
    exact Nat.sub_lt_left_of_lt_add this h1

variable [SqrtUnit K] [HasTrig K]

theorem slow_handleEdge (R : Ready P s) {depth : ℕ} {evt : Event K} {step : ℤ} {e : Fin 3} (hl : Live s evt.tri)
    (he : evt.side = [e]) (hn : (s.tri evt.tri).neighbours e = none) (hc : Collapsible s evt.tri e)
    (hap : ∀ l r, LeftLine s ((s.tri evt.tri).vertices (e + 1)) l → RightLine s ((s.tri evt.tri).vertices (e + 2)) r →
      Apart l r) (h : handleEdge depth evt step s = .ok ((), s')) : Slow s' ∧ s'.nV = s.nV + 1 := by
  obtain ⟨l, r, pl, pr, hne⟩ := edge_around R hl hn hc
  have g := g_handleEdge _ _ _ _ _ _ h
  obtain ⟨e', kv, s1, s2, k, he', hV, hm, hk, hs, -⟩ := handleEdge_steps h
  obtain rfl : e' = e := by rw [he] at he'; simpa using he'.symm
  obtain ⟨rfl, nV1, -, -, -, -, a, b, -, -, -, -, H⟩ := edgeVertex_mid R.waves rfl rfl pl pr hne hap hV
  obtain ⟨kw, hkw, hslow, -⟩ := H
  have hv2 : s2.vert = s1.vert := by rw [hm]
  have hn2 : s2.nV = s1.nV := by rw [hm]
  rw [hv2, hkw] at hk
  cases hk
  obtain rfl := hs hslow
  refine ⟨slow_grows R.slow g 1 (Nat.le_of_eq (hn2.trans nV1)) fun i hi k hk => ?_, hn2.trans nV1⟩
  obtain rfl : i = 0 := by omega
  change s'.vert s.nV = _ at hk
  rw [hv2, hkw] at hk
  cases hk
  exact hslow

theorem slow_handleSplit (R : Ready P s) {depth : ℕ} {evt : Event K} {step : ℤ} {e : Fin 3} (hl : Live s evt.tri)
    (he : evt.side = [e]) (hn : (s.tri evt.tri).neighbours e = none) (hk : Kinetic s ((s.tri evt.tri).vertices e))
    (hapb : ∀ a b, LeftLine s ((s.tri evt.tri).vertices e) a → LeftLine s ((s.tri evt.tri).vertices (e + 2)) b → Apart a b)
    (hapa : ∀ a b, RightLine s ((s.tri evt.tri).vertices (e + 1)) a → RightLine s ((s.tri evt.tri).vertices e) b →
      Apart a b) (h : handleSplit depth evt step s = .ok ((), s')) : Slow s' ∧ s'.nV = s.nV + 2 := by
  obtain ⟨l, r, pl, pr, hne⟩ := split_around R hl hk
  have inj := (R.mesh.consistent _ hl).2.1
  have g := g_handleSplit _ _ _ _ _ _ h
  obtain ⟨e', x, s1, s2, he', hV, hm, hs, -⟩ := handleSplit_steps h
  obtain rfl : e' = e := by rw [he] at he'; simpa using he'.symm
  obtain ⟨rfl, nV1, -, -, -, ⟨a, b, -, -, -, -, Hb⟩, c, d, -, -, -, -, Ha⟩ :=
    splitVertices_mid R.waves (fun z => fin3_ne_1 e' (inj z).symm) (fun z => fin3_ne_2 e' (inj z).symm) hne
      (R.undead.points R.mesh hl hn) pl pr hapb hapa hV
  obtain ⟨kb, hkb, sb, -⟩ := Hb
  obtain ⟨ka, hka, sa, -⟩ := Ha
  have hv2 : s2.vert = s1.vert := by rw [hm]
  have hn2 : s2.nV = s1.nV := by rw [hm]
  have fb : ∀ k, s2.vert s.nV = .kin k → k.infFast = false := fun k q => by rw [hv2, hkb] at q; cases q; exact sb
  have fa : ∀ k, s2.vert (s.nV + 1) = .kin k → k.infFast = false := fun k q => by rw [hv2, hka] at q; cases q; exact sa
  obtain rfl := hs fb fa
  refine ⟨slow_grows R.slow g 2 (Nat.le_of_eq (hn2.trans nV1)) fun i hi => ?_, hn2.trans nV1⟩
  match i, hi with
  | 0, _ => exact fb
  | 1, _ => exact fa

theorem slow_handleEdge1 (R : Ready P s) {evt : Event K} {step : ℤ} {e : Fin 3}
    (hl : Live s evt.tri) (he : evt.side = [e]) (hn : ∀ j, (s.tri evt.tri).neighbours j = none)
    (hap : ∀ l r, LeftLine s ((s.tri evt.tri).vertices (e + 1)) l → RightLine s ((s.tri evt.tri).vertices (e + 2)) r →
      Apart l r) (h : handleEdge1 evt step s = .ok ((), s')) : Slow s' := by
  have g := g_handleEdge1 _ _ _ _ _ h
  unfold handleEdge1 at h
  obtain ⟨e', s1, h1, h⟩ := bind_run_ok.1 h
  obtain ⟨he', rfl⟩ := singleSide_run_ok h1
  obtain rfl : e' = e := by rw [he] at he'; simpa using he'.symm
  obtain ⟨T, s1, h1, h⟩ := bind_run_ok.1 h
  obtain ⟨-, rfl, rfl⟩ := getT_run_ok.1 h1
  obtain ⟨_, s1, h1, h⟩ := bind_run_ok.1 h
  obtain ⟨e1, e2, -⟩ := stopAndRecord_exact h1
  have l2 : s1.line = s.line := by rw [e2]
  have n2 : s1.nV = s.nV := by rw [e2]
  -- lines of the two vertices
  have p1 := R.undead.points R.mesh hl (hn (e' + 2))
  rw [fin3_add_2_1, fin3_add_2_2] at p1
  have p2 := R.undead.points R.mesh hl (hn (e' + 1))
  rw [fin3_add_1_1, fin3_add_1_2] at p2
  obtain ⟨-, k1, -, b1, -, hk1, -, ql⟩ := p1
  obtain ⟨k2, -, b2, -, hk2, -, qr, -⟩ := p2
  obtain ⟨-, _, f, -, g2, -⟩ := R.waves.leftRef b1 hk1 ql
  obtain ⟨-, _, g', -, g5, -⟩ := R.waves.rightRef b2 hk2 qr
  have ul := (R.waves.own _ k1 b1 hk1).1 f g2
  have ur := (R.waves.own _ k2 b2 hk2).2 g' g5
  have uf := R.waves.good _ (R.waves.linesOf _ k1 b1 hk1 _ (.inl ul))
  have ug := R.waves.good _ (R.waves.linesOf _ k2 b2 hk2 _ (.inr ur))
  have ap := hap _ _ ⟨k1, _, hk1, ul, rfl⟩ ⟨k2, _, hk2, ur, rfl⟩
  have q1 := e1 ((s.tri evt.tri).vertices (e' + 1))
  rw [hk1] at q1
  have q2 := e1 ((s.tri evt.tri).vertices (e' + 2))
  rw [hk2] at q2
  obtain ⟨k1', s2, h2, h⟩ := bind_run_ok.1 h
  obtain ⟨-, hk1', rfl⟩ := getK_run_ok.1 h2
  have ul' : k1'.ul = some (s.wfLine f) := by
    change s1.vert ((s.tri evt.tri).vertices (e' + 1)) = _ at hk1'
    rw [q1] at hk1'
    cases hk1'
    split <;> exact ul
  obtain ⟨k2', s2, h2, h⟩ := bind_run_ok.1 h
  obtain ⟨-, hk2', rfl⟩ := getK_run_ok.1 h2
  have ur' : k2'.ur = some (s.wfLine g') := by
    change s1.vert ((s.tri evt.tri).vertices (e' + 2)) = _ at hk2'
    rw [q2] at hk2'
    cases hk2'
    split <;> exact ur
  obtain ⟨ct, s2, h2, h⟩ := bind_run_ok.1 h
  obtain ⟨rfl, rfl⟩ := countVertices_run_ok.1 h2
  obtain ⟨kv, s3, h3, h⟩ := bind_run_ok.1 h
  rw [ul', ur'] at h3
  have slow3 := fun k => computeNewKvertex_slow (k := k) (by rw [l2]; exact uf) (by rw [l2]; exact ug) (by rw [l2]; exact ap) h3
  obtain ⟨rfl, kn, rfl, -⟩ := C30_attributes _ _ _ _ _ _ _ _ _ h3
  obtain ⟨_, s4, h4, h⟩ := bind_run_ok.1 h
  obtain rfl := appendVertex_run_ok.1 h4
  obtain ⟨_, s5, h5, h⟩ := bind_run_ok.1 h
  obtain ⟨x1, x2, x3, x4⟩ := stopTriangle_fields h
  obtain ⟨y1, y2, -⟩ := stopAndRecord_exact h5
  have n5 : s5.nV = s1.nV + 1 := by rw [y2]
  refine slow_grows R.slow g 1 (by rw [x2, n5, n2]) fun i hi k hk => ?_
  obtain rfl : i = 0 := by omega
  change s'.vert s.nV = _ at hk
  rw [x3] at hk
  have q := y1 s.nV
  have hself : Function.update s1.vert s1.nV (.kin kn) s.nV = .kin kn := by rw [← n2, Function.update_self]
  dsimp only at q
  rw [hself] at q
  dsimp only at q
  have hkn : kn.infFast = false := slow3 kn (by show Function.update s1.vert s1.nV (.kin kn) _ = _; rw [Function.update_self])
  rw [hk] at q
  obtain rfl := Vertex.kin.inj q
  split <;> exact hkn

theorem ready_handleEvent (R : Ready P s) {depth : ℕ} {evt : Event K} {step : ℤ}
    (hg : Live s evt.tri → Generic s evt) (h : handleEvent depth evt step s = .ok ((), s')) : Ready P s' := by
  have hw := waves_handleEvent (P := P) depth evt step s () s' h R.waves
  have g := g_handleEvent _ _ _ _ _ _ h
  unfold handleEvent at h
  obtain ⟨T, s1, h1, h⟩ := bind_run_ok.1 h
  obtain ⟨ht, rfl, rfl⟩ := getT_run_ok.1 h1
  by_cases hst : (s.tri evt.tri).stopsAt.isSome = true
  · rw [if_pos hst] at h
    obtain rfl := (pure_run_ok.1 h).2
    exact R
  rw [if_neg hst] at h
  have hl : Live s evt.tri := ⟨ht, by rw [Option.isSome_iff_ne_none, ne_eq, not_not] at hst; exact hst⟩
  have G := hg hl
  have all : ∀ j x, (s.tri evt.tri).neighbours j = some x → (fun _ : TId => True) x := fun _ _ _ => trivial
  cases htp : evt.tp with
  | edge =>
    rw [htp] at h
    dsimp only at h
    rcases G.edge htp with ⟨h3, hn⟩ | ⟨i, hs, hap, hc⟩
    · rw [if_pos h3] at h
      have hev : ∀ i n, (s.tri evt.tri).neighbours i = some n → (s.tri n).event.isSome := fun i n q => by
        rw [hn] at q; cases q
      refine ⟨(handleEdge3_mesh evt step s s' R.mesh hl hev h).1, ?_, hw, ?_⟩
      · exact (fitsD_handleEdge3 R.mesh hl hev h R.undead all fun i => .inr (.inl ⟨hn _, hn _⟩)).2 _ (fun _ _ q => q)
          fun j x q => by rw [hn] at q; cases q
      · have hnV : s'.nV = s.nV := by
          unfold handleEdge3 at h
          obtain ⟨_, s1, h1, h⟩ := bind_run_ok.1 h
          obtain ⟨-, rfl⟩ := assertM_run_ok.1 h1
          obtain ⟨T, s1, h1, h⟩ := bind_run_ok.1 h
          obtain ⟨-, rfl, rfl⟩ := getT_run_ok.1 h1
          obtain ⟨n, s1, h1, h⟩ := bind_run_ok.1 h
          obtain ⟨-, -, m3⟩ := stopAndRecord_mesh h1
          obtain ⟨_, s2, h2, h⟩ := bind_run_ok.1 h
          have mo : MeshOnly s1 s2 :=
            Keeps.forEach meshPre (fun i => mo_threeSidesNeighbour evt.tri evt.time i) _ _ _ _ h2
          obtain ⟨x1, x2, x3, x4⟩ := stopTriangle_fields h
          rw [x2, mo]; exact m3
        exact slow_grows R.slow g 0 (Nat.le_of_eq hnV) fun i hi => absurd hi (Nat.not_lt_zero _)
    · have hlen : evt.side.length = 1 := by rw [hs]; rfl
      rw [if_neg (by rw [hlen]; decide)] at h
      by_cases hall : ∀ j, (s.tri evt.tri).neighbours j = none
      · rw [if_pos ⟨hlen, type3.2 hall⟩] at h
        exact ⟨(handleEdge1_mesh evt step s s' R.mesh hall h).1,
          (fitsD_handleEdge1 R.mesh hl hall h R.undead).2 _ fun _ _ q => q, hw, slow_handleEdge1 R hl hs hall hap h⟩
      · rw [if_neg fun q => hall (type3.1 q.2), if_neg (by rw [hlen]; decide)] at h
        obtain ⟨h1, h2, -⟩ := hc.resolve_left hall
        obtain ⟨sl, n1⟩ := slow_handleEdge R hl hs h1 h2 hap h
        have sl1 : ∀ k, s'.vert s.nV = .kin k → k.infFast = false :=
          fun k => sl _ k (n1 ▸ Nat.lt_succ_self _)
        have p := R.undead.points R.mesh hl h1
        have r1 : Running s ((s.tri evt.tri).vertices (i + 1)) :=
          R.undead.running R.mesh hl (by obtain ⟨k, _, b, -, h, -⟩ := p; exact ⟨b, k, h⟩)
        have r2 : Running s ((s.tri evt.tri).vertices (i + 2)) :=
          R.undead.running R.mesh hl (by obtain ⟨_, k, -, b, -, h, -⟩ := p; exact ⟨b, k, h⟩)
        exact ⟨(handleEdge_mesh depth evt step s s' i R.mesh hl hs h2 h sl1).1,
          (fitsD_handleEdge R.mesh hl hs h2 h sl1 R.undead all (.inl ⟨r1, r2⟩)).2 _ (fun _ _ q => q)
            fun q => absurd h1 q, hw, sl⟩
  | flip =>
    rw [htp] at h
    obtain ⟨i, h1, h2, h3⟩ := G.flip htp
    refine ⟨(handleFlip_mesh evt s s' i R.mesh hl h1 h3 h).1,
      fitsD_handleFlip R.mesh hl h1 h3 h R.undead (fun _ _ q => q) all trivial, hw, ?_⟩
    have mo := mo_handleFlip _ _ _ _ h
    exact slow_grows R.slow g 0 (by rw [mo]; exact le_rfl) fun i hi => absurd hi (Nat.not_lt_zero _)
  | split =>
    rw [htp] at h
    obtain ⟨i, h1, h2, h3, h4, h5, h6, h7⟩ := G.split htp
    obtain ⟨sl, n1⟩ := slow_handleSplit R hl h1 h2 h5 h6 h7 h
    have slb : ∀ k, s'.vert s.nV = .kin k → k.infFast = false := fun k => sl _ k (by rw [n1]; exact Nat.lt_add_of_pos_right (by decide))
    have sla : ∀ k, s'.vert (s.nV + 1) = .kin k → k.infFast = false := fun k => sl _ k (by rw [n1]; exact Nat.lt_succ_self _)
    have p := R.undead.points R.mesh hl h2
    refine ⟨(handleSplit_mesh depth evt step s s' R.mesh hl h slb sla).1,
      (fitsD_handleSplit R.mesh hl h slb sla R.undead fun j => R.undead.running R.mesh hl ?_).2 _ fun _ _ q => q, hw, sl⟩
    rcases fin3_cases i j with rfl | rfl | rfl
    · exact h5
    · obtain ⟨k, _, b, -, h, -⟩ := p; exact ⟨b, k, h⟩
    · obtain ⟨_, k, -, b, -, h, -⟩ := p; exact ⟨b, k, h⟩

end Grassfire
