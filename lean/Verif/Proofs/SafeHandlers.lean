/-
Progress of the event loop (lemmas for C87): the other events in general position, and the dispatch.
-/
import Verif.Proofs.SafeSplit

set_option linter.unusedSectionVars false

namespace Grassfire

open Spec

variable {K : Type} [Field K] [LinearOrder K] [IsStrictOrderedRing K] [HasSqrt K]

variable {E : Err → Prop} {s : St K} {P : Line2 K → Prop}

/-! ### flips -/

theorem side_of {s1 : St K} {x : TId} (inj : Function.Injective (s1.tri x).vertices) {a b : VId} {n : Option TId}
    {i : Fin 3} (h : HasSide (s1.tri x) a b n) (hi : (s1.tri x).vertices (i + 1) = a) : (s1.tri x).neighbours i = n := by
  obtain ⟨j, q1, q2, q3⟩ := h
  obtain rfl : j = i := add_right_cancel (inj (q1.trans hi.symm))
  exact q3

theorem inj_of {s1 : St K} {x : TId} {A B C : VId} (h0 : (s1.tri x).vertices 0 = A)
    (h1 : (s1.tri x).vertices 1 = B) (h2 : (s1.tri x).vertices 2 = C) (hAB' : A ≠ B) (hBC' : B ≠ C) (hCA' : C ≠ A) :
    Function.Injective (s1.tri x).vertices := by
  intro i j hij
  match i, j, hij with
  | 0, 0, _ | 1, 1, _ | 2, 2, _ => rfl
  | 0, 1, q => exact absurd (h0.symm.trans (q.trans h1)) hAB'
  | 1, 0, q => exact absurd (h1.symm.trans (q.trans h0)) hAB'.symm
  | 0, 2, q => exact absurd (h0.symm.trans (q.trans h2)) hCA'.symm
  | 2, 0, q => exact absurd (h2.symm.trans (q.trans h0)) hCA'
  | 1, 2, q => exact absurd (h1.symm.trans (q.trans h2)) hBC'
  | 2, 1, q => exact absurd (h2.symm.trans (q.trans h1)) hBC'.symm

theorem follow_tri {s1 : St K} {x m : TId} {A B C : VId} (h0 : (s1.tri x).vertices 0 = A)
    (h1 : (s1.tri x).vertices 1 = B) (h2 : (s1.tri x).vertices 2 = C) (hAB' : A ≠ B) (hBC' : B ≠ C) (hCA' : C ≠ A)
    (hslow : ∀ v, v = A ∨ v = B ∨ v = C → (viewOf s1 v).infFast = false)
    {n1 n2 : Option TId} (hAB : HasSide (s1.tri x) A B n1) (hAB0 : n1 = none → SideView (viewOf s1 A) (viewOf s1 B))
    (hBC : HasSide (s1.tri x) B C n2) (hBC0 : n2 = none → SideView (viewOf s1 B) (viewOf s1 C))
    (hCA : HasSide (s1.tri x) C A (some m)) : Followable (viewT s1 x) := by
  have hv : ∀ i, (s1.tri x).vertices i = A ∨ (s1.tri x).vertices i = B ∨ (s1.tri x).vertices i = C := by
    intro i
    fin_cases i
    · exact .inl h0
    · exact .inr (.inl h1)
    · exact .inr (.inr h2)
  have inj := inj_of h0 h1 h2 hAB' hBC' hCA'
  have nb : ∀ {a b : VId} {n : Option TId} {i : Fin 3}, HasSide (s1.tri x) a b n → (s1.tri x).vertices (i + 1) = a →
      (s1.tri x).neighbours i = n := fun h hi => side_of inj h hi
  refine ⟨fun i => hslow _ (hv i), fun i hi => ?_, fun i hi => ?_⟩
  · change (viewOf s1 ((s1.tri x).vertices i)).kinetic = false at hi
    change (viewOf s1 ((s1.tri x).vertices i)).velocity = (0, 0)
    unfold viewOf at hi ⊢
    split at hi
    · cases hi
    · rfl
  · have hi' : (s1.tri x).neighbours i = none := Option.isNone_iff_eq_none.1 hi
    change SideView (viewOf s1 ((s1.tri x).vertices (i + 1))) (viewOf s1 ((s1.tri x).vertices (i + 2)))
    match i, hi' with
    | 0, hi' =>
      change SideView (viewOf s1 ((s1.tri x).vertices 1)) (viewOf s1 ((s1.tri x).vertices 2))
      rw [h1, h2]
      exact hBC0 ((nb (i := 0) hBC h1).symm.trans hi')
    | 1, hi' =>
      rw [nb (i := 1) hCA h2] at hi'
      cases hi'
    | 2, hi' =>
      change SideView (viewOf s1 ((s1.tri x).vertices 0)) (viewOf s1 ((s1.tri x).vertices 1))
      rw [h0, h1]
      exact hAB0 ((nb (i := 2) hAB h0).symm.trans hi')

theorem safe_handleFlip (R : Ready P s) {evt : Event K} {e : Fin 3} (hl : Live s evt.tri)
    (he : evt.side = [e]) (hn : (s.tri evt.tri).neighbours e ≠ none) (hf : ProperSide s evt.tri e)
    (htp : evt.tp = .flip)
    (hE : ∀ T : TView K, Followable T → Ambiguous T evt.time → Renewed s evt T → E .valueError) :
    Safe E (handleFlip evt) s := by
  have hC := R.mesh.consistent
  unfold handleFlip
  refine safe_bind (safe_singleSide he) fun e' s0 h0 => ?_
  obtain ⟨he', rfl⟩ := singleSide_run_ok h0
  obtain rfl : e' = e := by rw [he] at he'; simpa using he'.symm
  refine safe_bind (safe_getT _) fun T s0 h2 => ?_
  obtain ⟨-, rfl, rfl⟩ := getT_run_ok.1 h2
  obtain ⟨n, hn⟩ := Option.ne_none_iff_exists'.1 hn
  refine safe_bind (by rw [hn]; exact safe_pure _) fun m s0 h2 => ?_
  obtain ⟨hm, rfl⟩ := assertSome_run_ok.1 h2
  obtain rfl : n = m := by rw [hn] at hm; exact Option.some.inj hm
  refine safe_bind (safe_getT _) fun T s0 h2 => ?_
  obtain ⟨-, rfl, rfl⟩ := getT_run_ok.1 h2
  obtain ⟨ln, k0, b1, b2, b3⟩ := facing hC hl hn
  refine safe_bind (safe_needIdx ?_) fun k s0 h2 => ?_
  · cases q : index3 (s.tri n).neighbours (some evt.tri) with
    | none => exact absurd b1 (index3_none q k0)
    | some j => exact ⟨j, rfl⟩
  obtain ⟨hk, rfl⟩ := needIdx_run_ok.1 h2
  have hk := index3_some hk
  obtain ⟨-, j0, c1, c2, c3⟩ := facing hC ln hk
  obtain rfl : j0 = e' := by
    by_contra q
    have : ∃ i, (s.tri n).vertices i = (s.tri evt.tri).vertices e' := by
      rcases fin3_cases j0 e' with z | z | z
      · exact absurd z.symm q
      · subst z; exact ⟨_, c2.symm⟩
      · subst z; exact ⟨_, c3.symm⟩
    obtain ⟨i, hi⟩ := this
    exact hf n hn i hi
  have hS : SharedEdge (Live s) s evt.tri j0 n k ((s.tri evt.tri).vertices j0) ((s.tri evt.tri).vertices (j0 + 1))
      ((s.tri n).vertices k) ((s.tri evt.tri).vertices (j0 + 2)) :=
    ⟨hC, hl, hn, hk, rfl, rfl, rfl, rfl, c3.symm, c2.symm, (hf n hn k).symm⟩
  obtain ⟨s1, hflip, ⟨v00, v01, v02⟩, ⟨v10, v11, v12⟩, e1, e2, e3, e4, e5, e6⟩ := C26_pair hS
  refine safe_bind (safe_ok hflip) fun _ s1' h3 => ?_
  rw [hflip] at h3
  injection h3 with h3
  injection h3 with _ h3
  subst h3
  obtain ⟨-, -, -, f4⟩ := C26_frame hS hflip
  have ev : s1.vert = s.vert := by rw [← f4]
  have el : s1.line = s.line := by rw [← f4]
  have en : s1.node = s.node := by rw [← f4]
  have hview : ∀ w, viewOf s1 w = viewOf s w := fun w => by unfold viewOf; rw [ev, el, en]
  have it := (hC _ hl).2.1
  have in' := (hC n ln).2.1
  have bt := R.mesh.vertices _ hl.1
  have bn := R.mesh.vertices _ ln.1
  have nAC : (s.tri evt.tri).vertices j0 ≠ (s.tri n).vertices k := (hf n hn k).symm
  have nAB : (s.tri evt.tri).vertices j0 ≠ (s.tri evt.tri).vertices (j0 + 1) := fun q => fin3_ne_1 j0 (it q)
  have nAD : (s.tri evt.tri).vertices j0 ≠ (s.tri evt.tri).vertices (j0 + 2) := fun q => fin3_ne_2 j0 (it q)
  have nBC : (s.tri evt.tri).vertices (j0 + 1) ≠ (s.tri n).vertices k := by
    rw [c2]; exact fun q => fin3_ne_2 k (in' q).symm
  have nCD : (s.tri n).vertices k ≠ (s.tri evt.tri).vertices (j0 + 2) := by
    rw [c3]; exact fun q => fin3_ne_1 k (in' q)
  have F0 : Followable (viewT s1 evt.tri) := by
    refine follow_tri v00 v01 v02 nAB nBC nAC.symm ?_ (e3 _ ⟨j0 + 2, by rw [fin3_add_2_1], by rw [fin3_add_2_2], rfl⟩)
      (fun q => ?_) (e4 _ ⟨k + 1, by rw [fin3_add_1_1]; exact c2.symm, by rw [fin3_add_1_2], rfl⟩) (fun q => ?_) e1
    · rintro v (rfl | rfl | rfl)
      · rw [hview]; exact R.slowView (bt _)
      · rw [hview]; exact R.slowView (bt _)
      · rw [hview]; exact R.slowView (bn _)
    · have := R.side hl q
      rw [fin3_add_2_1, fin3_add_2_2] at this
      rw [hview, hview]; exact this
    · have := R.side ln q
      rw [fin3_add_1_1, fin3_add_1_2, ← c2] at this
      rw [hview, hview]; exact this
  have F1 : Followable (viewT s1 n) := by
    refine follow_tri v10 v11 v12 nCD nAD.symm nAC ?_
      (e5 _ ⟨k + 2, by rw [fin3_add_2_1], by rw [fin3_add_2_2]; exact c3.symm, rfl⟩)
      (fun q => ?_) (e6 _ ⟨j0 + 1, by rw [fin3_add_1_1], by rw [fin3_add_1_2], rfl⟩) (fun q => ?_) e2
    · rintro v (rfl | rfl | rfl)
      · rw [hview]; exact R.slowView (bn _)
      · rw [hview]; exact R.slowView (bt _)
      · rw [hview]; exact R.slowView (bt _)
    · have := R.side ln q
      rw [fin3_add_2_1, fin3_add_2_2, ← c3] at this
      rw [hview, hview]; exact this
    · have := R.side hl q
      rw [fin3_add_1_1, fin3_add_1_2] at this
      rw [hview, hview]; exact this
  have i0 := inj_of v00 v01 v02 nAB nBC nAC.symm
  have i1 := inj_of v10 v11 v12 nCD nAD.symm nAC
  have r0 : Renewed s evt (viewT s1 evt.tri) := by
    refine .flipFirst htp he hn hk ?_ ?_ ?_ ?_ ?_ ?_
    · show viewOf s1 ((s1.tri evt.tri).vertices 0) = _
      rw [hview, v00]
    · show viewOf s1 ((s1.tri evt.tri).vertices 1) = _
      rw [hview, v01]
    · show viewOf s1 ((s1.tri evt.tri).vertices 2) = _
      rw [hview, v02]
    · exact congrArg Option.isNone (side_of i0 (i := 0)
        (e4 _ ⟨k + 1, by rw [fin3_add_1_1]; exact c2.symm, by rw [fin3_add_1_2], rfl⟩) v01)
    · exact congrArg Option.isNone (side_of i0 (i := 1) e1 v02)
    · exact congrArg Option.isNone (side_of i0 (i := 2) (e3 _ ⟨j0 + 2, by rw [fin3_add_2_1], by rw [fin3_add_2_2], rfl⟩) v00)
  have r1 : Renewed s evt (viewT s1 n) := by
    refine .flipSecond htp he hn hk ?_ ?_ ?_ ?_ ?_ ?_
    · show viewOf s1 ((s1.tri n).vertices 0) = _
      rw [hview, v10]
    · show viewOf s1 ((s1.tri n).vertices 1) = _
      rw [hview, v11]
    · show viewOf s1 ((s1.tri n).vertices 2) = _
      rw [hview, v12]
    · exact congrArg Option.isNone (side_of i1 (i := 0) (e6 _ ⟨j0 + 1, by rw [fin3_add_1_1], by rw [fin3_add_1_2], rfl⟩) v11)
    · exact congrArg Option.isNone (side_of i1 (i := 1) e2 v12)
    · exact congrArg Option.isNone (side_of i1 (i := 2)
        (e5 _ ⟨k + 2, by rw [fin3_add_2_1], by rw [fin3_add_2_2]; exact c3.symm, rfl⟩) v10)
  refine safe_bind (safe_replaceInQueue F0 fun q => hE _ F0 q r0) fun _ s2 h4 => ?_
  have hc := viewT_core (c_replaceInQueue _ _ _ _ _ h4) n
  exact safe_replaceInQueue (by rw [hc]; exact F1) (by rw [hc]; exact fun q => hE _ F1 q r1)

/-! ### the last triangle -/

theorem safe_handleEdge3 (R : Ready P s) {N : Prop} {evt : Event K} (hI : Inv N evt.time s) {step : ℤ}
    (hl : Live s evt.tri) (he : evt.side.length = 3) (hn : ∀ j, (s.tri evt.tri).neighbours j = none) :
    Safe E (handleEdge3 evt step) s := by
  have inj := (R.mesh.consistent _ hl).2.1
  have kin : ∀ i, Kinetic s ((s.tri evt.tri).vertices i) := by
    intro i
    obtain ⟨_, k, -, b, -, h, -⟩ := R.undead.points R.mesh hl (hn (i + 1))
    rw [fin3_add_1_2] at b h
    exact ⟨b, k, h⟩
  unfold handleEdge3
  refine safe_bind (safe_assertM he) fun _ s0 h => ?_
  obtain ⟨-, rfl⟩ := assertM_run_ok.1 h
  refine safe_bind (safe_getT _) fun T s0 h => ?_
  obtain ⟨-, rfl, rfl⟩ := getT_run_ok.1 h
  have hne : ∀ {a b : Fin 3}, a ≠ b → (s.tri evt.tri).vertices a ≠ (s.tri evt.tri).vertices b := fun q z => q (inj z)
  refine safe_bind (safe_stopAndRecord (by nofun) ?_ ?_ _ _ _) fun nd s1 h1 => ?_
  · simp only [List.nodup_cons, List.mem_cons, List.not_mem_nil, or_false, not_or, List.nodup_nil, and_true,
      not_false_eq_true]
    exact ⟨⟨hne (by decide), hne (by decide)⟩, hne (by decide)⟩
  · intro v hv
    simp only [List.mem_cons, List.not_mem_nil, or_false] at hv
    rcases hv with rfl | rfl | rfl <;> exact hI.stoppable (kin _)
  · have t1 := (stopAndRecord_mesh h1).1
    have one : ∀ i s2, s2 = s1 → Safe E (threeSidesNeighbour evt.tri evt.time i) s2 ∧
        ∀ u s3, threeSidesNeighbour evt.tri evt.time i s2 = .ok (u, s3) → s3 = s2 := by
      rintro i s2 rfl
      constructor
      · refine safe_bind (safe_getT _) fun T s0 h => ?_
        obtain ⟨-, rfl, rfl⟩ := getT_run_ok.1 h
        rw [t1, hn]
        exact safe_pure _
      · intro u s3 h
        obtain ⟨T, s0, h2, h3⟩ := bind_run_ok.1 h
        obtain ⟨-, rfl, rfl⟩ := getT_run_ok.1 h2
        rw [t1, hn] at h3
        exact (pure_run_ok.1 h3).2.symm
    refine safe_bind ?_ fun _ _ _ => safe_stopTriangle _ _
    have all : ∀ l s2, s2 = s1 → Safe E (forEach (threeSidesNeighbour evt.tri evt.time) l) s2 := by
      intro l
      induction l with
      | nil => intro s2 _; exact safe_pure _
      | cons i l ih =>
        intro s2 hs
        refine safe_bind (one i s2 hs).1 fun u s3 h => ?_
        exact ih s3 (((one i s2 hs).2 u s3 h).trans hs)
    exact all _ s1 rfl

variable [SqrtUnit K] [HasTrig K]

theorem safe_handleEdge1 (R : Ready P s) {N : Prop} {evt : Event K} (hI : Inv N evt.time s) {step : ℤ} {e : Fin 3}
    (hl : Live s evt.tri) (he : evt.side = [e]) (hn : ∀ j, (s.tri evt.tri).neighbours j = none)
    (hap : ∀ l r, LeftLine s ((s.tri evt.tri).vertices (e + 1)) l → RightLine s ((s.tri evt.tri).vertices (e + 2)) r →
      Apart l r) : Safe E (handleEdge1 evt step) s := by
  have inj := (R.mesh.consistent _ hl).2.1
  have hb := R.mesh.vertices _ hl.1
  have kin : ∀ i, Kinetic s ((s.tri evt.tri).vertices i) := by
    intro i
    obtain ⟨_, k, -, b, -, h, -⟩ := R.undead.points R.mesh hl (hn (i + 1))
    rw [fin3_add_1_2] at b h
    exact ⟨b, k, h⟩
  unfold handleEdge1
  refine safe_bind (safe_singleSide he) fun e' s0 h0 => ?_
  obtain ⟨he', rfl⟩ := singleSide_run_ok h0
  obtain rfl : e' = e := by rw [he] at he'; simpa using he'.symm
  refine safe_bind (safe_getT _) fun T s0 h => ?_
  obtain ⟨-, rfl, rfl⟩ := getT_run_ok.1 h
  have hne : ∀ {a b : Fin 3}, a ≠ b → (s.tri evt.tri).vertices a ≠ (s.tri evt.tri).vertices b := fun q z => q (inj z)
  refine safe_bind (safe_stopAndRecord (by nofun) ?_ ?_ _ _ _) fun nd s1 h1 => ?_
  · simp only [List.nodup_cons, List.mem_cons, List.not_mem_nil, or_false, List.nodup_nil, and_true,
      not_false_eq_true]
    exact hne (fin3_1_ne_2 e')
  · intro v hv
    simp only [List.mem_cons, List.not_mem_nil, or_false] at hv
    rcases hv with rfl | rfl <;> exact hI.stoppable (kin _)
  obtain ⟨e1, e2, -⟩ := stopAndRecord_exact h1
  have l2 : s1.line = s.line := by rw [e2]
  have n2 : s1.nV = s.nV := by rw [e2]
  -- lines of the two vertices
  have p1 := R.undead.points R.mesh hl (hn (e' + 2))
  rw [fin3_add_2_1, fin3_add_2_2] at p1
  have p2 := R.undead.points R.mesh hl (hn (e' + 1))
  rw [fin3_add_1_1, fin3_add_1_2] at p2
  obtain ⟨-, k1, -, b1, -, hk1, -, ql⟩ := p1
  obtain ⟨k2, -, b2, -, hk2, -, qr, -⟩ := p2
  obtain ⟨-, _, f, -, g2, -⟩ := R.waves.leftRef b1 hk1 ql
  obtain ⟨-, _, g, -, g5, -⟩ := R.waves.rightRef b2 hk2 qr
  have ul := (R.waves.own _ k1 b1 hk1).1 f g2
  have ur := (R.waves.own _ k2 b2 hk2).2 g g5
  have uf := R.waves.good _ (R.waves.linesOf _ k1 b1 hk1 _ (.inl ul))
  have ug := R.waves.good _ (R.waves.linesOf _ k2 b2 hk2 _ (.inr ur))
  have ap := hap _ _ ⟨k1, _, hk1, ul, rfl⟩ ⟨k2, _, hk2, ur, rfl⟩
  have q1 := e1 ((s.tri evt.tri).vertices (e' + 1))
  rw [hk1] at q1
  have q2 := e1 ((s.tri evt.tri).vertices (e' + 2))
  rw [hk2] at q2
  refine safe_bind (safe_getK ⟨_, q1⟩) fun k1' s0 h => ?_
  obtain ⟨-, hk1', rfl⟩ := getK_run_ok.1 h
  have ul' : k1'.ul = some (s.wfLine f) := by
    change s1.vert ((s.tri evt.tri).vertices (e' + 1)) = _ at hk1'
    rw [q1] at hk1'
    cases hk1'
    split <;> exact ul
  refine safe_bind (safe_getK ⟨_, q2⟩) fun k2' s0 h => ?_
  obtain ⟨-, hk2', rfl⟩ := getK_run_ok.1 h
  have ur' : k2'.ur = some (s.wfLine g) := by
    change s1.vert ((s.tri evt.tri).vertices (e' + 2)) = _ at hk2'
    rw [q2] at hk2'
    cases hk2'
    split <;> exact ur
  refine safe_bind safe_countVertices fun ct s0 h => ?_
  obtain ⟨rfl, rfl⟩ := countVertices_run_ok.1 h
  rw [ul', ur']
  refine safe_bind (safe_computeNewKvertex (by rw [l2]; exact uf) (by rw [l2]; exact ug) (by rw [l2]; exact ap) _ _ _ _)
    fun kv s3 h3 => ?_
  obtain ⟨rfl, kn, rfl, st1, st2, st3, st4, -⟩ := C30_attributes _ _ _ _ _ _ _ _ _ h3
  refine safe_bind (safe_appendVertex _) fun _ s4 h4 => ?_
  obtain rfl := appendVertex_run_ok.1 h4
  refine safe_bind (safe_stopAndRecord (by nofun) ?_ ?_ _ _ _) fun _ _ _ => safe_stopTriangle _ _
  · simp only [List.nodup_cons, List.mem_cons, List.not_mem_nil, or_false, List.nodup_nil, and_true,
      not_false_eq_true]
    rw [n2]
    exact Nat.ne_of_lt (hb _)
  · intro v hv
    simp only [List.mem_cons, List.not_mem_nil, or_false] at hv
    rcases hv with rfl | rfl
    · obtain ⟨hb0, k0, hk0, z1, z2, z3⟩ := hI.stoppable (kin e')
      have q0 := e1 ((s.tri evt.tri).vertices e')
      rw [hk0] at q0
      dsimp only at q0
      rw [if_neg (by
        simp only [List.mem_cons, List.not_mem_nil, or_false, not_or]
        exact ⟨hne (fin3_ne_1 e'), hne (fin3_ne_2 e')⟩)] at q0
      refine ⟨?_, k0, ?_, z1, z2, z3⟩
      · show _ < s1.nV + 1
        rw [n2]; exact Nat.lt_succ_of_lt hb0
      · show Function.update s1.vert s1.nV (.kin kn) _ = _
        rw [Function.update_of_ne (by rw [n2]; exact Nat.ne_of_lt hb0), q0]
    · refine ⟨Nat.lt_succ_self _, kn, ?_, by rw [st1]; nofun, by rw [st2]; nofun, by rw [st3]; exact fun q => absurd rfl q⟩
      show Function.update s1.vert s1.nV (.kin kn) _ = _
      rw [Function.update_self]

/-! ### dispatch -/

theorem type3 {T : KTri K} : T.type = 3 ↔ ∀ j, T.neighbours j = none := by
  unfold KTri.type
  rw [count3_three]
  exact forall_congr' fun _ => Option.isNone_iff_eq_none

theorem safe_handleEvent (R : Ready P s) {N : Prop} {depth : ℕ} {evt : Event K} (hI : Inv N evt.time s) {step : ℤ}
    (hg : Live s evt.tri → Generic s evt)
    (hE : ∀ T : TView K, Followable T → Ambiguous T evt.time → Renewed s evt T → E .valueError) :
    Safe E (handleEvent depth evt step) s := by
  unfold handleEvent
  refine safe_bind (safe_getT _) fun T s0 h => ?_
  obtain ⟨ht, rfl, rfl⟩ := getT_run_ok.1 h
  by_cases hst : (s.tri evt.tri).stopsAt.isSome = true
  · rw [if_pos hst]
    exact safe_pure _
  rw [if_neg hst]
  have hl : Live s evt.tri := ⟨ht, by rw [Option.isSome_iff_ne_none, ne_eq, not_not] at hst; exact hst⟩
  have G := hg hl
  cases htp : evt.tp with
  | edge =>
    dsimp only
    rcases G.edge htp with ⟨h3, hn⟩ | ⟨i, hs, hap, h⟩
    · rw [if_pos h3]
      exact safe_handleEdge3 R hI hl h3 hn
    · have hlen : evt.side.length = 1 := by rw [hs]; rfl
      rw [if_neg (by rw [hlen]; decide)]
      by_cases hall : ∀ j, (s.tri evt.tri).neighbours j = none
      · rw [if_pos ⟨hlen, type3.2 hall⟩]
        exact safe_handleEdge1 R hI hl hs hall hap
      · rw [if_neg fun q => hall (type3.1 q.2), if_neg (by rw [hlen]; decide)]
        obtain ⟨h1, h2, h3⟩ := h.resolve_left hall
        exact safe_handleEdge R hI hl hs h1 h2 h3 hap htp hE
  | flip =>
    obtain ⟨i, h1, h2, h3⟩ := G.flip htp
    exact safe_handleFlip R hl h1 h2 h3 htp hE
  | split =>
    obtain ⟨i, h1, h2, h3, h4, h5, h6, h7⟩ := G.split htp
    exact safe_handleSplit R hI hl h1 h2 h3 h4 h5 h6 h7 htp hE

end Grassfire
