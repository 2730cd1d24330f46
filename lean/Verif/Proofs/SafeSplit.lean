/-
Progress of the event loop (lemmas for C87): `handle_split_event` in general position.
-/
import Verif.Proofs.SafeHandleEdge

set_option linter.unusedSectionVars false

namespace Grassfire

open Spec

variable {K : Type} [Field K] [LinearOrder K] [IsStrictOrderedRing K] [HasSqrt K]

variable {E : Err → Prop} {s : St K} {P : Line2 K → Prop}

/-- the two sides around a vertex have no triangle in common -/
theorem Undead.disjoint (h : Undead s) (hM : Mesh s) {t : TId} (hl : Live s t) {i : Fin 3} {v : VId}
    (hi : (s.tri t).vertices i = v) (hk : Kinetic s v) {lA lB : List TId} (hA : FanAt .cw s t i v lA)
    (hB : FanAt .ccw s t i v lB) : ∀ x ∈ lB, x ∉ lA := by
  obtain ⟨c, r, F, -⟩ := h
  have hC := hM.consistent
  have down : ∀ {ot l}, FanWalk .cw v s.tri ot l → ∀ (t : TId) (i : Fin 3), Live s t → (s.tri t).vertices i = v →
      ot = (s.tri t).neighbours (i + 2) → ∀ x ∈ l, ∀ k, (s.tri x).vertices k = v → r x k < r t i := by
    intro ot l h
    induction h with
    | stop => intro _ _ _ _ _ x hx; cases hx
    | @step a j l hj hw ih =>
      intro t i lt hi ho x hx k hk'
      have la := (facing hC lt ho.symm).1
      have q := (F.next t lt i a j ho.symm (hj.trans hi.symm) (by rw [hi]; exact hk)).2
      rcases List.mem_cons.1 hx with rfl | hx
      · obtain rfl := (hC x la).2.1 (hk'.trans hj.symm)
        exact q
      · exact (ih a j la hj rfl x hx k hk').trans q
  have up : ∀ {ot l}, FanWalk .ccw v s.tri ot l → ∀ (t : TId) (i : Fin 3), Live s t → (s.tri t).vertices i = v →
      ot = (s.tri t).neighbours (i + 1) → ∀ x ∈ l, ∀ k, (s.tri x).vertices k = v → r t i < r x k := by
    intro ot l h
    induction h with
    | stop => intro _ _ _ _ _ x hx; cases hx
    | @step a j l hj hw ih =>
      intro t i lt hi ho x hx k hk'
      obtain ⟨la, j', hj', hb⟩ := turn hC .ccw lt hi ho.symm
      obtain rfl := (hC a la).2.1 (hj'.trans hj.symm)
      have q := (F.next a la j' t i hb (hi.trans hj.symm) (by rw [hj]; exact hk)).2
      rcases List.mem_cons.1 hx with rfl | hx
      · obtain rfl := (hC x la).2.1 (hk'.trans hj.symm)
        exact q
      · exact q.trans (ih a j' la hj rfl x hx k hk')
  intro x hb ha
  obtain ⟨-, k, hk', -⟩ := hA.mem x ha
  exact lt_asymm (down hA.walk t i hl hi rfl x ha k hk') (up hB.walk t i hl hi rfl x hb k hk')

theorem safe_splitSide (R : Ready P s) {dir : Dir} {t n : TId} {i : Fin 3} {v : VId} {now : K} (hl : Live s t)
    (hi : (s.tri t).vertices i = v) (hn : (s.tri t).neighbours (dir.fn i) = some n)
    (huniq : ∀ j, (s.tri t).neighbours j = some n → j = dir.fn i) {l : List TId} (hA : FanAt dir s t i v l)
    {s1 : St K} (hview : ∀ w, w < s.nV → viewOf s1 w = viewOf s w) (honce : Once v s1)
    (hn1 : (s1.tri t).neighbours (dir.fn i) = some n)
    (hsame : ∀ x ∈ l, (s1.tri x).vertices = (s.tri x).vertices ∧ (s1.tri x).neighbours = (s.tri x).neighbours)
    {w : VId} {kw : KVertex K} (hkw : s1.vert w = .kin kw) (hslow : kw.infFast = false) (hvw : w ≠ v)
    (hkeep : KeepsLine dir (viewOf s1 w) (viewOf s v))
    (hother : NewSide dir (viewOf s1 w) (viewOf s ((s.tri t).vertices (dir.rev.fn i))))
    (hE : ∀ T : TView K, Followable T → Ambiguous T now →
      (∃ x, Substituted s dir t (dir.fn i) none x v (viewOf s1 w) T) → E .valueError) :
    Safe E (splitSide t (dir.fn i) v w now dir) s1 ∧
      ∀ fan s2, splitSide t (dir.fn i) v w now dir s1 = .ok (fan, s2) → fan = l ∧ s2.vert = s1.vert ∧ s2.line = s1.line ∧
        s2.node = s1.node ∧ SideDone (some n) t none v w dir s1 s2 fan := by
  have S := safe_side R (now := now) (E := E) (other := none) hl hi hn huniq hA hview hsame hkw hslow hkeep
    (fun _ => hother) hE
  have A : ∀ m s2, (assertSome ((s1.tri t).neighbours (dir.fn i)) : M K TId) s1 = .ok (m, s2) → m = n ∧ s2 = s1 := by
    intro m s2 h
    rw [hn1] at h
    obtain ⟨rfl, rfl⟩ := pure_run_ok.1 (show (pure n : M K TId) s1 = _ from h)
    exact ⟨rfl, rfl⟩
  constructor
  · unfold splitSide
    refine safe_bind (safe_getT t) fun T s2 h2 => ?_
    obtain ⟨-, rfl, rfl⟩ := getT_run_ok.1 h2
    refine safe_bind (by rw [hn1]; exact safe_pure _) fun m s2 h2 => ?_
    obtain ⟨rfl, rfl⟩ := A m s2 h2
    exact safe_bind S.1 fun u s2 h1 => (S.2 u s2 h1).1
  · intro fan s' h
    unfold splitSide at h
    obtain ⟨T, s2, h2, h3⟩ := bind_run_ok.1 h
    obtain ⟨-, rfl, rfl⟩ := getT_run_ok.1 h2
    obtain ⟨m, s3, h4, h5⟩ := bind_run_ok.1 h3
    obtain ⟨rfl, rfl⟩ := A m s3 h4
    obtain ⟨u, s2', h1, h⟩ := bind_run_ok.1 h5
    obtain ⟨-, q2, q3⟩ := S.2 u s2' h1
    have D := sideDone_some honce hvw h1 h
    have d1' : FanWalk dir v s2'.tri (some m) fan := by
      refine (C27_fan m v w hvw now dir _ _ _ ?_ h).1
      obtain ⟨j, -, rfl⟩ := relink_run h1
      intro x hx a b ha hb
      refine honce x hx a b ?_ ?_
      · dsimp only at ha
        by_cases q : x = m
        · subst q; rw [Function.update_self] at ha; exact ha
        · rw [Function.update_of_ne q] at ha; exact ha
      · dsimp only at hb
        by_cases q : x = m
        · subst q; rw [Function.update_self] at hb; exact hb
        · rw [Function.update_of_ne q] at hb; exact hb
    have m1 := mo_relink _ _ _ _ _ _ h1
    have m2 := mo_replaceKvertex _ _ _ _ _ _ _ _ h
    exact ⟨FanWalk.det q2 q3 _ d1', by rw [m2, m1], by rw [m2, m1], by rw [m2, m1], D⟩

section

variable [SqrtUnit K] [HasTrig K]

theorem splitVertices_mid {v v1 v2 l r : VId} {now : K} {step : ℤ} (w : Waves P s) (n1 : v1 ≠ v) (n2 : v2 ≠ v)
    (nl : l ≠ v) (p12 : Points s v1 v2) (pl : Points s l v) (pr : Points s v r)
    (hapb : ∀ a b, LeftLine s v a → LeftLine s v2 b → Apart a b)
    (hapa : ∀ a b, RightLine s v1 a → RightLine s v b → Apart a b) {x : VId × VId} {s1 : St K}
    (h : splitVertices v v1 v2 now step s = .ok (x, s1)) :
    x = (s.nV, s.nV + 1) ∧ s1.nV = s.nV + 2 ∧ s1.tri = s.tri ∧ s1.nT = s.nT ∧ s1.line = s.line ∧
    (∃ a b, LeftLine s v a ∧ LeftLine s v2 b ∧ (viewOf s v).ul = some a ∧ (viewOf s v2).ul = some b ∧ Heir s1 s.nV a b) ∧
    (∃ a b, RightLine s v1 a ∧ RightLine s v b ∧ (viewOf s v1).ur = some a ∧ (viewOf s v).ur = some b ∧
      Heir s1 (s.nV + 1) a b) := by
  obtain ⟨k1, k2, b1, b2, hk1, hk2, q1, q2⟩ := p12
  obtain ⟨kl, k, bl, b, hkl, hk, ql1, ql2⟩ := pl
  obtain ⟨k', kr, -, br, hk', hkr, qr1, qr2⟩ := pr
  obtain rfl : k = k' := by rw [hk] at hk'; injection hk'
  obtain ⟨-, _, f, -, g2, -⟩ := w.leftRef b hk ql2
  obtain ⟨-, _, g, -, g5, -⟩ := w.rightRef b hk qr1
  obtain ⟨-, k2'', hh, g7, g8, g9⟩ := w.rightRef b1 hk1 q1
  obtain rfl : k2 = k2'' := by rw [hk2] at g7; injection g7
  have ulv := (w.own v k b hk).1 f g2
  have urv := (w.own v k b hk).2 g g5
  have ur1 := (w.own v1 k1 b1 hk1).2 hh g8
  have ul2 := (w.own v2 k2 b2 hk2).1 hh g9
  have uf := w.good _ (w.linesOf v k b hk _ (.inl ulv))
  have ug := w.good _ (w.linesOf v k b hk _ (.inr urv))
  have uh := w.good _ (w.linesOf v1 k1 b1 hk1 _ (.inr ur1))
  obtain ⟨kk, kk1, kk2, node, s2, s4, kb, ka, Rr, hstop, -, j1, -, j2, -, j3, -, hb, hs4, ha, rfl, hR, hs1, -, hnew⟩ :=
    (splitVertices_steps h).steps
  obtain ⟨e1, e2, -⟩ := stopAndRecord_exact hstop
  have n2' : s2.nV = s.nV := by rw [e2]
  have l2 : s2.line = s.line := by rw [e2]
  have l4 : s4.line = s.line := by rw [hs4, e2]
  have E0 : kk.ul = k.ul ∧ kk.ur = k.ur ∧ kk.leftRef = k.leftRef ∧ kk.rightRef = k.rightRef := by
    rw [e1, hk] at j1
    cases j1
    split <;> exact ⟨rfl, rfl, rfl, rfl⟩
  have E1 : kk1 = k1 := by
    rw [e1, hk1] at j2
    dsimp only at j2
    rw [if_neg (by simpa using n1)] at j2
    cases j2; rfl
  have E2 : kk2 = k2 := by
    rw [e1, hk2] at j3
    dsimp only at j3
    rw [if_neg (by simpa using n2)] at j3
    cases j3; rfl
  subst E1 E2
  obtain rfl := hR n1.symm (by rw [E0.2.2.1, ql2]; exact fun q => nl (Option.some.inj q))
  obtain ⟨l', r', -, -, hvb, hva⟩ := hnew
    (fun x hx => by rw [E0.2.2.1, ql2] at hx; rw [n2', ← Option.some.inj hx]; exact bl)
    (fun x hx => by rw [E0.2.2.2, qr1] at hx; rw [n2', ← Option.some.inj hx]; exact br)
  rw [E0.1, ulv, ul2] at hb
  rw [E0.2.1, urv, ur1] at ha
  have Lv : LeftLine s v (s.line (s.wfLine f)) := ⟨k, _, hk, ulv, rfl⟩
  have Rv : RightLine s v (s.line (s.wfLine g)) := ⟨k, _, hk, urv, rfl⟩
  have R1 : RightLine s v1 (s.line (s.wfLine hh)) := ⟨kk1, _, hk1, ur1, rfl⟩
  have L2 : LeftLine s v2 (s.line (s.wfLine hh)) := ⟨kk2, _, hk2, ul2, rfl⟩
  have Ab := hapb _ _ Lv L2
  have Aa := hapa _ _ R1 Rv
  have Hb := heir_of_new (s := s2) (by rw [l2]; exact uf) (by rw [l2]; exact uh) (by rw [l2]; exact Ab) hb (kn := kb)
    (by dsimp only; rw [Function.update_self]) hvb rfl rfl rfl rfl rfl (by rw [hs1])
  have Ha := heir_of_new (s := s4) (by rw [l4]; exact uh) (by rw [l4]; exact ug) (by rw [l4]; exact Aa) ha (kn := ka)
    (by dsimp only; rw [Function.update_self]) hva rfl rfl rfl rfl rfl (by rw [hs1, hs4])
  rw [l2, n2'] at Hb
  rw [l4, n2'] at Ha
  refine ⟨by rw [n2'], ?_, ?_, ?_, ?_, ⟨_, _, Lv, L2, ?_, ?_, Hb⟩, _, _, R1, Rv, ?_, ?_, Ha⟩
  · rw [hs1]; dsimp only; rw [n2']
  · rw [hs1, e2]
  · rw [hs1, e2]
  · rw [hs1, e2]
  · unfold viewOf; rw [hk]; dsimp only; rw [ulv]; rfl
  · unfold viewOf; rw [hk2]; dsimp only; rw [ul2]; rfl
  · unfold viewOf; rw [hk1]; dsimp only; rw [ur1]; rfl
  · unfold viewOf; rw [hk]; dsimp only; rw [urv]; rfl

theorem safe_splitFan {depth : ℕ} {v : VId} {fan : List TId} {now : K} {dir : Dir} {step : ℤ} {k : KVertex K}
    (hk : s.vert v = .kin k) (hs : k.infFast = false) : Safe E (splitFan depth v fan now dir step) s ∧
      ∀ u s', splitFan depth v fan now dir step s = .ok (u, s') → s' = s := by
  constructor
  · unfold splitFan
    refine safe_bind (safe_getK ⟨k, hk⟩) fun k' s5 h7 => ?_
    obtain ⟨-, hk5, rfl⟩ := getK_run_ok.1 h7
    rw [hk] at hk5
    cases hk5
    rw [hs]
    exact safe_pure _
  · intro u s' h
    unfold splitFan at h
    obtain ⟨k', s6, h8, h7⟩ := bind_run_ok.1 h
    obtain ⟨-, hk5, rfl⟩ := getK_run_ok.1 h8
    rw [hk] at hk5
    cases hk5
    rw [hs] at h7
    exact (pure_run_ok.1 h7).2.symm

theorem safe_handleSplit (R : Ready P s) {N : Prop} {depth : ℕ} {evt : Event K} (hI : Inv N evt.time s) {step : ℤ}
    {e : Fin 3} (hl : Live s evt.tri)
    (he : evt.side = [e]) (hn : (s.tri evt.tri).neighbours e = none) (hna : (s.tri evt.tri).neighbours (e + 1) ≠ none)
    (hnb : (s.tri evt.tri).neighbours (e + 2) ≠ none) (hk : Kinetic s ((s.tri evt.tri).vertices e))
    (hapb : ∀ a b, LeftLine s ((s.tri evt.tri).vertices e) a → LeftLine s ((s.tri evt.tri).vertices (e + 2)) b → Apart a b)
    (hapa : ∀ a b, RightLine s ((s.tri evt.tri).vertices (e + 1)) a → RightLine s ((s.tri evt.tri).vertices e) b →
      Apart a b)
    (htp : evt.tp = .split)
    (hE : ∀ T : TView K, Followable T → Ambiguous T evt.time → Renewed s evt T → E .valueError) :
    Safe E (handleSplit depth evt step) s := by
  unfold handleSplit
  refine safe_bind (safe_singleSide he) fun e' s0 h0 => ?_
  obtain ⟨he', rfl⟩ := singleSide_run_ok h0
  obtain rfl : e' = e := by rw [he] at he'; simpa using he'.symm
  generalize ht : evt.tri = t at *
  generalize hnow : evt.time = now at *
  have hC := R.mesh.consistent
  have inj := (hC t hl).2.1
  have hb := R.mesh.vertices t hl.1
  have p12 := R.undead.points R.mesh hl hn
  have hv : ∀ {a b : Fin 3}, a ≠ b → (s.tri t).vertices a ≠ (s.tri t).vertices b := fun q z => q (inj z)
  refine safe_bind (safe_getT t) fun T s0 h2 => ?_
  obtain ⟨-, rfl, rfl⟩ := getT_run_ok.1 h2
  refine safe_bind (safe_assertM hn) fun _ s0 h2 => ?_
  obtain ⟨-, rfl⟩ := assertM_run_ok.1 h2
  show Safe E (do
      splitChecks ((s.tri t).vertices e') ((s.tri t).vertices (e' + 1)) ((s.tri t).vertices (e' + 2)) now
      let r ← splitVertices ((s.tri t).vertices e') ((s.tri t).vertices (e' + 1)) ((s.tri t).vertices (e' + 2)) now step
      let fanB ← splitSide t (e' + 1) ((s.tri t).vertices e') r.1 now .ccw
      let fanA ← splitSide t (e' + 2) ((s.tri t).vertices e') r.2 now .cw
      stopTriangle t now
      splitFan depth r.2 fanA now .cw step
      splitFan depth r.1 fanB now .ccw step) s
  generalize hv0 : (s.tri t).vertices e' = v at *
  have n1 : (s.tri t).vertices (e' + 1) ≠ v := hv0 ▸ hv (fin3_ne_1 e').symm
  have n2 : (s.tri t).vertices (e' + 2) ≠ v := hv0 ▸ hv (fin3_ne_2 e').symm
  obtain ⟨lB, FB, xB, kB, hxB, lxB, vB, nB⟩ := R.undead.fanAt R.mesh .ccw hl hv0 hk
  obtain ⟨lA, FA, xA, kA, hxA, lxA, vA, nA⟩ := R.undead.fanAt R.mesh .cw hl hv0 hk
  have pl := R.undead.points R.mesh lxB nB
  change Points s ((s.tri xB).vertices (kB + 1 + 1)) ((s.tri xB).vertices (kB + 1 + 2)) at pl
  rw [fin3_add_1_1, fin3_add_1_2, vB] at pl
  have pr := R.undead.points R.mesh lxA nA
  change Points s ((s.tri xA).vertices (kA + 2 + 1)) ((s.tri xA).vertices (kA + 2 + 2)) at pr
  rw [fin3_add_2_1, fin3_add_2_2, vA] at pr
  have nl : (s.tri xB).vertices (kB + 2) ≠ v := fun q => (fin3_ne_2 kB).symm ((hC xB lxB).2.1 (q.trans vB.symm))
  refine safe_bind (safe_splitChecks R.waves p12 pl pr) fun _ s0 h2 => ?_
  obtain rfl := splitChecks_same h2
  refine safe_bind (safe_splitVertices R.waves n1 n2 nl (hI.stoppable hk) p12 pl pr hapb hapa) fun x s1 h1 => ?_
  have g1 := g_splitVertices _ _ _ _ _ _ _ _ h1
  obtain ⟨rfl, nV1, t1, nT1, l1, ⟨a, b, La, Lb, ua, ub, Hb⟩, c, d, Rc, Rd, uc, ud, Ha⟩ :=
    splitVertices_mid R.waves n1 n2 nl p12 pl pr hapb hapa h1
  dsimp only
  have sv : ∀ w, w < s.nV → viewOf s1 w = viewOf s w := hI.sameVerts g1
  obtain ⟨kb, hkb, sb, hulb, hurb, -⟩ := id Hb
  obtain ⟨ka, hka, sa, hula, hura, -⟩ := id Ha
  have kb_kin : (viewOf s1 s.nV).kinetic = true := by unfold viewOf; rw [hkb]
  have ka_kin : (viewOf s1 (s.nV + 1)).kinetic = true := by unfold viewOf; rw [hka]
  have dis := R.undead.disjoint R.mesh hl hv0 hk FA FB
  obtain ⟨na, hna⟩ := Option.ne_none_iff_exists'.1 hna
  obtain ⟨nb, hnb⟩ := Option.ne_none_iff_exists'.1 hnb
  have maB : na ∈ lB := FanWalk.head (by have := FB.walk; change FanWalk _ _ _ ((s.tri t).neighbours (e' + 1)) _ at this; rw [hna] at this; exact this)
  have mbA : nb ∈ lA := FanWalk.head (by have := FA.walk; change FanWalk _ _ _ ((s.tri t).neighbours (e' + 2)) _ at this; rw [hnb] at this; exact this)
  have ne : na ≠ nb := fun q => dis na maB (q ▸ mbA)
  have view : ∀ y, (∃ i, y = (s.tri t).vertices i) → y < s.nV := by rintro y ⟨i, rfl⟩; exact hb i
  have M1 : Mesh s1 := mesh_same R.mesh nT1 (nV1 ▸ Nat.le_add_right _ _) t1
  have hvlt : v < s.nV := hv0 ▸ hb e'
  obtain ⟨pk1, pk2, pll, p1, p2⟩ := sideView_of_points R.waves p12
  have SB := safe_splitSide R (E := E) (dir := .ccw) (now := now) hl hv0 hna (fun j qj => by
      rcases fin3_cases e' j with rfl | rfl | rfl
      · rw [hn] at qj; cases qj
      · rfl
      · rw [hnb] at qj; exact absurd (Option.some.inj qj).symm ne) FB sv (s1 := s1) (mesh_once M1 v)
    (by rw [t1]; exact hna) (fun x _ => by rw [t1]; exact ⟨rfl, rfl⟩) hkb sb (Nat.ne_of_gt hvlt)
    (hulb.trans ua.symm)
    (show SideView (viewOf s1 s.nV) (viewOf s ((s.tri t).vertices (e' + 2))) from
      ⟨kb_kin, pk2, b, hurb, ub⟩)
    (fun T f am ⟨x, h⟩ => by
      subst ht
      exact hE T f am (.splitLeft htp he (hv0 ▸ La) Lb Hb.moves (hv0 ▸ h)))
  refine safe_bind SB.1 fun fanB s2 h3 => ?_
  obtain ⟨rfl, vB2, lB2, nB2, D⟩ := SB.2 fanB s2 h3
  have view2 : ∀ w, viewOf s2 w = viewOf s1 w := fun w => by unfold viewOf; rw [vB2, lB2, nB2]
  obtain ⟨j, -, -, d1, d2, d3⟩ := D.cons na rfl
  have htna : t ≠ na := fun q => FB.ne (q ▸ maB)
  have SA := safe_splitSide R (E := E) (dir := .cw) (now := now) hl hv0 hnb (fun j qj => by
      rcases fin3_cases e' j with rfl | rfl | rfl
      · rw [hn] at qj; cases qj
      · rw [hna] at qj; exact absurd (Option.some.inj qj) ne
      · rfl) FA (fun w hw => (view2 w).trans (sv w hw)) (s1 := s2)
    (once_none D M1 (Nat.ne_of_lt hvlt))
    (by rw [d3, if_neg htna, t1]; exact hnb) (fun x hx => by
      have : x ∉ fanB := fun z => dis x z hx
      rw [d2, d3, if_neg this, if_neg (fun z : x = na => this (z ▸ maB)), t1]
      exact ⟨rfl, rfl⟩) (w := s.nV + 1) (by rw [vB2]; exact hka) sa (Nat.ne_of_gt (Nat.lt_succ_of_lt hvlt))
    (by rw [view2]; exact hura.trans ud.symm)
    (show SideView (viewOf s ((s.tri t).vertices (e' + 1))) (viewOf s2 (s.nV + 1)) from by
      rw [view2]; exact ⟨pk1, ka_kin, c, uc, hula⟩)
    (fun T f am ⟨x, h⟩ => by
      subst ht
      rw [view2] at h
      exact hE T f am (.splitRight htp he Rc (hv0 ▸ Rd) Ha.moves (hv0 ▸ h)))
  refine safe_bind SA.1 fun fanA s3 h4 => ?_
  obtain ⟨rfl, vA3, -⟩ := SA.2 fanA s3 h4
  refine safe_bind (safe_stopTriangle _ _) fun _ s4 h6 => ?_
  obtain ⟨x1, x2, x3, x4⟩ := stopTriangle_fields h6
  have F1 := safe_splitFan (E := E) (s := s4) (depth := depth) (fan := fanA) (now := now) (dir := .cw) (step := step)
    (v := s.nV + 1) (by rw [x3, vA3, vB2]; exact hka) sa
  refine safe_bind F1.1 fun u s5 h7 => ?_
  obtain rfl := F1.2 u s5 h7
  exact (safe_splitFan (E := E) (v := s.nV) (by rw [x3, vA3, vB2]; exact hkb) sb).1

end

end Grassfire
