/-
Events do not turn wavefront edges round (lemmas for C91).
-/
import Verif.Proofs.GeneralRun
import Verif.Spec.Inward

set_option linter.unusedSectionVars false

namespace Grassfire

open Spec

variable {K : Type} [Field K] [LinearOrder K] [IsStrictOrderedRing K] [HasSqrt K]

variable {s s' : St K} {P : Line2 K → Prop}

theorem rightLine_unique {v : VId} {l l' : Line2 K} (h : RightLine s v l) (h' : RightLine s v l') : l = l' := by
  obtain ⟨k, a, h1, h2, rfl⟩ := h
  obtain ⟨k', a', h1', h2', rfl⟩ := h'
  rw [h1] at h1'
  cases h1'
  rw [h2] at h2'
  cases h2'
  rfl

theorem leftLine_unique {v : VId} {l l' : Line2 K} (h : LeftLine s v l) (h' : LeftLine s v l') : l = l' := by
  obtain ⟨k, a, h1, h2, rfl⟩ := h
  obtain ⟨k', a', h1', h2', rfl⟩ := h'
  rw [h1] at h1'
  cases h1'
  rw [h2] at h2'
  cases h2'
  rfl

theorem rightLine_grows (g : Grows s s') {v : VId} {l : Line2 K} (hv : v < s.nV) (h : RightLine s' v l) : RightLine s v l := by
  obtain ⟨k, a, h1, h2, rfl⟩ := h
  have q := g.vert v hv
  rw [h1] at q
  cases hk0 : s.vert v with
  | inf o => rw [hk0] at q; exact q.elim
  | kin k0 =>
    rw [hk0] at q
    have q : SameBirth k0 k := q
    exact ⟨k0, a, hk0, by rw [← q.ur]; exact h2, by rw [g.line]⟩

theorem leftLine_grows (g : Grows s s') {v : VId} {l : Line2 K} (hv : v < s.nV) (h : LeftLine s' v l) : LeftLine s v l := by
  obtain ⟨k, a, h1, h2, rfl⟩ := h
  have q := g.vert v hv
  rw [h1] at q
  cases hk0 : s.vert v with
  | inf o => rw [hk0] at q; exact q.elim
  | kin k0 =>
    rw [hk0] at q
    have q : SameBirth k0 k := q
    exact ⟨k0, a, hk0, by rw [← q.ul]; exact h2, by rw [g.line]⟩

/-- the two ends of a wavefront edge have its line in common -/
theorem Ready.edgeLine (R : Ready P s) {t : TId} (hl : Live s t) {i : Fin 3} (hn : (s.tri t).neighbours i = none) :
    ∃ l, RightLine s ((s.tri t).vertices (i + 1)) l ∧ LeftLine s ((s.tri t).vertices (i + 2)) l := by
  obtain ⟨k1, k2, b1, b2, hk1, hk2, q1, q2⟩ := R.undead.points R.mesh hl hn
  obtain ⟨-, k2', w, hk2', g1, g2⟩ := R.waves.rightRef b1 hk1 q1
  obtain rfl : k2 = k2' := by rw [hk2] at hk2'; injection hk2'
  exact ⟨s.line (s.wfLine w), ⟨k1, _, hk1, (R.waves.own _ k1 b1 hk1).2 w g1, rfl⟩,
    ⟨k2, _, hk2, (R.waves.own _ k2 b2 hk2).1 w g2, rfl⟩⟩

/-- `Forward` for one side -/
def AheadAt (s : St K) (t : TId) (i : Fin 3) (u : K) : Prop :=
  ∀ l p q, RightLine s ((s.tri t).vertices (i + 1)) l → placeAt s ((s.tri t).vertices (i + 1)) u = some p →
    placeAt s ((s.tri t).vertices (i + 2)) u = some q → 0 ≤ ahead l p q

/-- A side of `x'` after an event is part of a side of `x` before it, or is it: one end stays, the other may be replaced.
`r`: how much of it is left. -/
theorem ahead_first (R : Ready P s) (g : Grows s s') {x x' : TId} {i i' : Fin 3} {u r : K}
    (hl : Live s x) (h : AheadAt s x i u)
    (hv : (s'.tri x').vertices (i' + 1) = (s.tri x).vertices (i + 1)) (hr : 0 ≤ r)
    (hq : ∀ p q', placeAt s ((s.tri x).vertices (i + 1)) u = some p → placeAt s' ((s'.tri x').vertices (i' + 2)) u = some q' →
      ∃ q, placeAt s ((s.tri x).vertices (i + 2)) u = some q ∧ q' = (p.1 + r * (q.1 - p.1), p.2 + r * (q.2 - p.2))) :
    AheadAt s' x' i' u := by
  intro l p q' h1 h2 h3
  have hb := R.mesh.vertices x hl.1 (i + 1)
  rw [hv] at h1 h2
  rw [placeAt_grows g hb] at h2
  obtain ⟨q, e1, rfl⟩ := hq p q' h2 h3
  have := mul_nonneg hr (h l p q (rightLine_grows g hb h1) h2 e1)
  refine le_of_le_of_eq this ?_
  unfold ahead
  ring

theorem ahead_second (R : Ready P s) (R' : Ready P s') (g : Grows s s') {x x' : TId} {i i' : Fin 3} {u r : K}
    (hl : Live s x) (hn : (s.tri x).neighbours i = none) (h : AheadAt s x i u)
    (hl' : Live s' x') (hn' : (s'.tri x').neighbours i' = none)
    (hv : (s'.tri x').vertices (i' + 2) = (s.tri x).vertices (i + 2)) (hr : 0 ≤ r)
    (hq : ∀ q p', placeAt s ((s.tri x).vertices (i + 2)) u = some q → placeAt s' ((s'.tri x').vertices (i' + 1)) u = some p' →
      ∃ p, placeAt s ((s.tri x).vertices (i + 1)) u = some p ∧ p' = (q.1 - r * (q.1 - p.1), q.2 - r * (q.2 - p.2))) :
    AheadAt s' x' i' u := by
  intro l p' q h1 h2 h3
  have hb := R.mesh.vertices x hl.1 (i + 2)
  obtain ⟨m', m1, m2⟩ := R'.edgeLine hl' hn'
  obtain rfl := rightLine_unique h1 m1
  obtain ⟨m, m3, m4⟩ := R.edgeLine hl hn
  rw [hv] at m2 h3
  obtain rfl := leftLine_unique m4 (leftLine_grows g hb m2)
  rw [placeAt_grows g hb] at h3
  obtain ⟨p, e1, rfl⟩ := hq q p' h3 h2
  have := mul_nonneg hr (h _ p q m3 e1 h3)
  refine le_of_le_of_eq this ?_
  unfold ahead
  ring

/-- a side that was a wavefront edge before, with at most one end replaced, where it is -/
theorem ahead_old (R : Ready P s) (R' : Ready P s') (g : Grows s s') {x : TId} {i : Fin 3} {u : K}
    (hl : Live s x) (hn : (s.tri x).neighbours i = none) (h : AheadAt s x i u)
    (hl' : Live s' x) (hn' : (s'.tri x).neighbours i = none)
    (hp : ∀ j, placeAt s' ((s'.tri x).vertices j) u = placeAt s ((s.tri x).vertices j) u)
    (hv : (s'.tri x).vertices (i + 1) = (s.tri x).vertices (i + 1) ∨ (s'.tri x).vertices (i + 2) = (s.tri x).vertices (i + 2)) :
    AheadAt s' x i u := by
  rcases hv with hv | hv
  · refine ahead_first R g (r := 1) hl h hv zero_le_one fun p q' e1 e2 => ⟨q', by rw [← hp]; exact e2, ?_⟩
    ext <;> dsimp only <;> ring
  · refine ahead_second R R' g (r := 1) hl hn h hl' hn' hv zero_le_one fun q p' e1 e2 => ⟨p', by rw [← hp]; exact e2, ?_⟩
    ext <;> dsimp only <;> ring

theorem substitute_one {v w : VId} {vs : Fin 3 → VId} (hinj : Function.Injective vs) (i : Fin 3) :
    substitute v w vs (i + 1) = vs (i + 1) ∨ substitute v w vs (i + 2) = vs (i + 2) := by
  unfold substitute
  by_cases q : vs (i + 1) = v
  · refine .inr (if_neg fun q' => ?_)
    have := hinj (q.trans q'.symm)
    exact (by decide : ∀ z : Fin 3, z + 1 ≠ z + 2) i this
  · exact .inl (if_neg q)

theorem substitute_other {v w : VId} {vs : Fin 3 → VId} {j : Fin 3} (h : vs j ≠ v) : substitute v w vs j = vs j := if_neg h

variable [SqrtUnit K] [HasTrig K]

theorem forward_handleEvent (hP : Clear P) {S : TId → Prop} {N : Prop} {depth : ℕ} {e : Event K}
    {step : ℤ} {a : Unit} (h : Inv N e.time s) (ht : e.tri < s.nT) (hS : S e.tri) (R : Ready P s) (R' : Ready P s')
    (hc : Closed S s) (ha : Arcs s) (hm : handleEvent depth e step s = .ok (a, s'))
    (ho : Ordinary s s' e) (hx : (s.tri e.tri).stopsAt = none → Exact s s' e)
    (hg : Live s e.tri → Generic s e) (hap : Live s e.tri → Happens (viewT s e.tri) e.toEvCore)
    (hU : Forward S s e.time) : Forward S s' e.time := by
  have g := g_handleEvent _ _ _ _ _ _ hm
  have hM := R.mesh
  have hU : ∀ x, S x → Live s x → ∀ i, (s.tri x).neighbours i = none → AheadAt s x i e.time := hU
  unfold handleEvent at hm
  obtain ⟨T, s1, h1, hm⟩ := bind_run_ok.1 hm
  obtain ⟨-, rfl, rfl⟩ := getT_run_ok.1 h1
  by_cases hst : (s.tri e.tri).stopsAt.isSome = true
  · rw [if_pos hst] at hm
    obtain rfl := (pure_run_ok.1 hm).2
    exact hU
  rw [if_neg hst] at hm
  have hl : Live s e.tri := ⟨ht, by cases q : (s.tri e.tri).stopsAt <;> simp_all⟩
  have hx := hx hl.2
  have G := hg hl
  have A := hap hl
  have inj : ∀ x, Live s x → Function.Injective (s.tri x).vertices := fun x hx => (hM.consistent x hx).2.1
  have removed : (∀ j, (s.tri e.tri).neighbours j = none) → Removed s s' e.tri → Forward S s' e.time := by
    intro hall hR x hSx hl' i hn
    obtain ⟨hl1, hne⟩ := (hR.live x).1 hl'
    have hno : (s.tri x).neighbours i ≠ some e.tri := by
      intro q
      obtain ⟨-, j, q', -⟩ := facing hM.consistent hl1 q
      rw [hall] at q'
      cases q'
    rw [hR.neighbours x i hl1 hne, if_neg hno] at hn
    exact ahead_old R R' g hl1 hn (hU x hSx hl1 i hn) hl' (by rw [hR.neighbours x i hl1 hne, if_neg hno]; exact hn)
      (fun j => by rw [hR.vertices]; exact placeAt_grows g (hM.vertices x hl1.1 j) _) (.inl (by rw [hR.vertices]))
  cases htp : e.tp with
  | edge =>
    rw [htp] at hm
    dsimp only at hm
    by_cases h3 : e.side.length = 3
    · rw [if_pos h3] at hm
      refine removed ?_ (handleEdge3_mesh e step s s' hM hl (ho.three htp h3 hl.2) hm).2
      rcases G.edge htp with ⟨-, q⟩ | ⟨i, hi, -⟩
      · exact q
      · rw [hi] at h3; cases h3
    rw [if_neg h3] at hm
    by_cases h1 : e.side.length = 1 ∧ (s.tri e.tri).type = 3
    · rw [if_pos h1] at hm
      have hn : ∀ i, (s.tri e.tri).neighbours i = none := fun i => Option.isNone_iff_eq_none.1 ((count3_three _).1 h1.2 i)
      exact removed hn (handleEdge1_mesh e step s s' hM hn hm).2
    rw [if_neg h1] at hm
    by_cases h2 : e.side.length = 2
    · rw [if_pos h2] at hm; cases hm
    rw [if_neg h2] at hm
    have hslow : ∀ k, s'.vert s.nV = .kin k → k.infFast = false :=
      fun k => ho.slow _ k le_rfl (handleEdge_nV h ht hm)
    obtain ⟨-, i, p, hi, hr, hnew⟩ := arcs_handleEdge hP hm ha R.waves (hx.edge htp) hx.slow
    have hne : ∃ j, (s.tri e.tri).neighbours j ≠ none := by
      by_contra q
      push Not at q
      exact h1 ⟨by rw [hi]; rfl, (count3_three _).2 fun i => by rw [q i]; rfl⟩
    obtain ⟨-, hR⟩ := handleEdge_mesh depth e step s s' i hM hl hi (ho.edge htp i hi hne) hm hslow
    have hfront := generic_tidy G htp hi hne
    obtain ⟨fanA, fanB, hdis, -, -, D⟩ := hR.done
    have n1 : i + 1 ≠ i := (by decide : ∀ z : Fin 3, z + 1 ≠ z) i
    have n2 : i + 2 ≠ i := (by decide : ∀ z : Fin 3, z + 2 ≠ z) i
    have n12 : i + 1 ≠ i + 2 := (by decide : ∀ z : Fin 3, z + 1 ≠ z + 2) i
    have p1 := (hr _ n1).place
    have p2 := (hr _ n2).place
    have pk := hnew.place
    have b0 := hM.vertices e.tri ht i
    intro x hSx hl' j hn'
    obtain ⟨hl1, hnet⟩ := (hR.live x).1 hl'
    have hp : ∀ j, placeAt s' ((s'.tri x).vertices j) e.time = placeAt s ((s.tri x).vertices j) e.time := by
      intro j
      have hv := hM.vertices x hl1.1 j
      rw [D.vertices]
      split_ifs
      · exact place_substitute g j hv p2 pk
      · exact place_substitute g j hv p1 pk
      · exact placeAt_grows g hv _
    by_cases hnt : (s.tri x).neighbours j = some e.tri
    · -- a new wavefront edge
      obtain ⟨-, k, hk, k1, k2⟩ := facing hM.consistent hl1 hnt
      rcases fin3_cases i k with rfl | rfl | rfl
      · rw [hfront] at hk; cases hk
      · obtain ⟨hxA, q⟩ := D.gapA x j hk hnt
        have hf : (s.tri e.tri).neighbours (i + 2) = none := by rw [← q]; exact hn'
        rw [fin3_add_1_1] at k1
        rw [fin3_add_1_2] at k2
        have hv1 : (s'.tri x).vertices (j + 1) = (s.tri x).vertices (j + 1) := by
          rw [D.vertices, if_pos hxA]
          exact substitute_other fun q => n2 (inj _ hl (by rw [k2, q])).symm
        refine ahead_first (x := e.tri) (i := i + 2) (r := 1) R g hl (hU _ hS hl _ hf) ?_ zero_le_one
          fun p' q' e1 e2 => ⟨p, ?_, ?_⟩
        · rw [hv1, fin3_add_2_1, ← k2]
        · rw [fin3_add_2_2]; exact p1
        · rw [hp, ← k1, p2] at e2
          cases e2
          ext <;> dsimp only <;> ring
      · obtain ⟨hxB, q⟩ := D.gapB x j hk hnt
        have hf : (s.tri e.tri).neighbours (i + 1) = none := by rw [← q]; exact hn'
        rw [fin3_add_2_1] at k1
        rw [fin3_add_2_2] at k2
        have hv2 : (s'.tri x).vertices (j + 2) = (s.tri x).vertices (j + 2) := by
          rw [D.vertices, if_neg fun q => hdis x q hxB, if_pos hxB]
          exact substitute_other fun q => n1 (inj _ hl (by rw [k1, q])).symm
        refine ahead_second (x := e.tri) (i := i + 1) (r := 1) R R' g hl hf (hU _ hS hl _ hf) hl' hn' ?_ zero_le_one
          fun q' p' e1 e2 => ⟨p, ?_, ?_⟩
        · rw [hv2, fin3_add_1_2, ← k1]
        · rw [fin3_add_1_1]; exact p2
        · rw [hp, ← k2, p1] at e2
          cases e2
          ext <;> dsimp only <;> ring
    · have hn := hn'
      rw [D.same x j hl1 hnet hnt] at hn
      refine ahead_old R R' g hl1 hn (hU x hSx hl1 j hn) hl' hn' hp ?_
      rw [D.vertices]
      split_ifs
      · exact substitute_one (inj x hl1) j
      · exact substitute_one (inj x hl1) j
      · exact .inl rfl
  | flip =>
    rw [htp] at hm
    dsimp only at hm
    have hm' := hm
    unfold handleFlip at hm'
    obtain ⟨i, s1, q1, -⟩ := bind_run_ok.1 hm'
    obtain ⟨hi, -⟩ := singleSide_run_ok q1
    obtain ⟨-, n, k, s2, hX, hf, hk⟩ := handleFlip_mesh e s s' i hM hl hi (ho.flip htp i hi hl.2) hm
    obtain ⟨H0, H1⟩ := flip_halves hX hf
    obtain ⟨frame, -, same, rest⟩ := C26_frame hX hf
    have hnT : s2.nT = s.nT := by have := congrArg St.nT rest; exact this
    have hvert : s'.vert = s.vert := by
      have : s2.vert = s.vert := by have := congrArg St.vert rest; exact this
      rw [hk.vert, this]
    have hplace : ∀ v u, placeAt s' v u = placeAt s v u := fun v u => by unfold placeAt; rw [hvert]
    have hlive : ∀ x, Live s' x → Live s x := by
      intro x hx'
      obtain ⟨vs, ns, q⟩ := same x
      have e1 : (s'.tri x).stopsAt = (s2.tri x).stopsAt := hk.apply (fun y : St K => (y.tri x).stopsAt)
      have e2 : (s2.tri x).stopsAt = (s.tri x).stopsAt := by rw [q]
      exact ⟨by rw [← hnT, ← hk.nT]; exact hx'.1, by rw [← e2, ← e1]; exact hx'.2⟩
    have hln : Live s n := (facing hM.consistent hl hX.n0).1
    have hSn : S n := hc _ _ _ hS hX.n0
    -- a side of either triangle is a side of one of them before
    have move : ∀ x j y j', Live s y → (s'.tri x).vertices (j + 1) = (s.tri y).vertices (j' + 1) →
        (s'.tri x).vertices (j + 2) = (s.tri y).vertices (j' + 2) → AheadAt s y j' e.time → AheadAt s' x j e.time := by
      intro x j y j' hy e1 e2 hA
      refine ahead_first (x := y) (i := j') (r := 1) R g hy hA e1 zero_le_one fun p q' _ f => ⟨q', ?_, ?_⟩
      · rw [← e2, ← hplace]; exact f
      · ext <;> dsimp only <;> ring
    have half : ∀ x y i k, Live s x → Live s y → S x → S y → Half s s2 x i y k →
        (s.tri x).vertices (i + 1) = (s.tri y).vertices (k + 2) →
        ∀ j, (s'.tri x).neighbours j = none → AheadAt s' x j e.time := by
      intro x y i k hx hy sx sy H hsh j hn
      have hv : ∀ j, (s'.tri x).vertices j = (s2.tri x).vertices j := fun j => by rw [hk.vertices]
      have hnb : (s'.tri x).neighbours j = (s2.tri x).neighbours j := by rw [hk.neighbours]
      rw [hnb] at hn
      fin_cases j
      · refine move x 0 y (k + 1) hy ?_ ?_ (hU y sy hy (k + 1) (H.n0.symm.trans hn))
        · rw [fin3_add_1_1, hv]; exact H.v1.trans hsh
        · rw [fin3_add_1_2, hv]; exact H.v2
      · have := H.n1.symm.trans hn
        cases this
      · refine move x 2 x (i + 2) hx ?_ ?_ (hU x sx hx (i + 2) (H.n2.symm.trans hn))
        · rw [fin3_add_2_1, hv]; exact H.v0
        · rw [fin3_add_2_2, hv]; exact H.v1
    intro x hSx hlx j hn
    by_cases x0 : x = e.tri
    · subst x0
      exact half _ n i k hl hln hS hSn H0 hX.b1.symm j hn
    by_cases x1 : x = n
    · subst x1
      exact half _ e.tri k i hln hl hSn hS H1 hX.d1 j hn
    have hlx' := hlive x hlx
    obtain ⟨fv, fn⟩ := frame x hlx' x0 x1
    have hnb : (s'.tri x).neighbours j = (s2.tri x).neighbours j := by rw [hk.neighbours]
    have hn0 : (s.tri x).neighbours j = none := by
      rw [hnb] at hn
      by_cases q : (s.tri x).neighbours j = some e.tri ∨ (s.tri x).neighbours j = some n
      · rcases (fn j).2 q with q | q <;> rw [hn] at q <;> cases q
      · push Not at q
        rw [(fn j).1 q.1 q.2] at hn
        exact hn
    refine move x j x j hlx' ?_ ?_ (hU x hSx hlx' j hn0) <;> rw [hk.vertices, fv]
  | split =>
    rw [htp] at hm
    dsimp only at hm
    have hn := handleSplit_nV h ht hm
    obtain ⟨-, i, p, hi, hr, hb, hA⟩ := arcs_handleSplit hP hm ha R.waves (hx.split htp) hx.slow
    obtain ⟨-, i', hi', hR⟩ := handleSplit_mesh depth e step s s' hM hl hm
      (fun k => ho.slow _ k le_rfl (lt_of_le_of_lt (Nat.le_succ _) hn)) (fun k => ho.slow _ k (Nat.le_succ _) hn)
    obtain rfl : i' = i := by rw [hi] at hi'; simpa using hi'.symm
    obtain ⟨na, nb, fanA, fanB, hna, hnb, hdis, -, -, D⟩ := hR.done
    have n1 : i' + 1 ≠ i' := (by decide : ∀ z : Fin 3, z + 1 ≠ z) i'
    have n2 : i' + 2 ≠ i' := (by decide : ∀ z : Fin 3, z + 2 ≠ z) i'
    have hf := hR.opposite
    have hUe := hU _ hS hl _ hf
    have pp := hr.place
    -- the ends of the side that is hit
    obtain ⟨l1, ⟨k1, -, hk1, -⟩, ⟨k2, -, hk2, -⟩⟩ := R.edgeLine hl hf
    obtain ⟨r, r0, r1, hpr⟩ : ∃ r, 0 ≤ r ∧ r ≤ 1 ∧
        p = ((pointAt k1 e.time).1 + r * ((pointAt k2 e.time).1 - (pointAt k1 e.time).1),
          (pointAt k1 e.time).2 + r * ((pointAt k2 e.time).2 - (pointAt k1 e.time).2)) := by
      obtain ⟨-, r, r0, r1, hon⟩ := A.split htp i' (by rw [show e.toEvCore.side = e.side from rfl, hi]; exact List.mem_singleton.2 rfl)
      obtain ⟨k0, hk0, rfl⟩ := placeAt_some pp
      rw [corner_place hk0, corner_place hk1, corner_place hk2] at hon
      exact ⟨r, r0, r1, hon⟩
    have q1 : placeAt s ((s.tri e.tri).vertices (i' + 1)) e.time = some (pointAt k1 e.time) := by unfold placeAt; rw [hk1]
    have q2 : placeAt s ((s.tri e.tri).vertices (i' + 2)) e.time = some (pointAt k2 e.time) := by unfold placeAt; rw [hk2]
    intro x hSx hl' j hn'
    obtain ⟨hl1, hnet⟩ := (hR.live x).1 hl'
    have hp : ∀ j, placeAt s' ((s'.tri x).vertices j) e.time = placeAt s ((s.tri x).vertices j) e.time := by
      intro j
      have hv := hM.vertices x hl1.1 j
      rw [D.vertices]
      split_ifs
      · exact place_substitute g j hv pp hb.place
      · exact place_substitute g j hv pp hA.place
      · exact placeAt_grows g hv _
    have hsub : ∀ j, (s.tri x).vertices j ≠ (s.tri e.tri).vertices i' → (s'.tri x).vertices j = (s.tri x).vertices j := by
      intro j q
      rw [D.vertices]
      split_ifs
      · exact substitute_other q
      · exact substitute_other q
      · rfl
    by_cases hnt : (s.tri x).neighbours j = some e.tri
    · obtain ⟨-, k, hk, k1', k2'⟩ := facing hM.consistent hl1 hnt
      rcases fin3_cases i' k with rfl | rfl | rfl
      · rw [hf] at hk; cases hk
      · rw [fin3_add_1_1] at k1'
        rw [fin3_add_1_2] at k2'
        refine ahead_second (x := e.tri) (i := i') (r := 1 - r) R R' g hl hf hUe hl' hn' ?_ (sub_nonneg.2 r1)
          fun q' p' e1 e2 => ⟨_, q1, ?_⟩
        · rw [k1']; exact hsub _ fun q => n2 (inj _ hl (by rw [k1', q]))
        · rw [q2] at e1
          cases e1
          rw [hp, ← k2', pp, hpr] at e2
          cases e2
          ext <;> dsimp only <;> ring
      · rw [fin3_add_2_1] at k1'
        rw [fin3_add_2_2] at k2'
        refine ahead_first (x := e.tri) (i := i') (r := r) R g hl hUe ?_ r0
          fun p' q' e1 e2 => ⟨_, q2, ?_⟩
        · rw [k2']; exact hsub _ fun q => n1 (inj _ hl (by rw [k2', q]))
        · rw [q1] at e1
          cases e1
          rw [hp, ← k1', pp, hpr] at e2
          cases e2
          rfl
    · have hn := hn'
      rw [D.same x j hl1 hnet hnt] at hn
      refine ahead_old R R' g hl1 hn (hU x hSx hl1 j hn) hl' hn' hp ?_
      rw [D.vertices]
      split_ifs
      · exact substitute_one (inj x hl1) j
      · exact substitute_one (inj x hl1) j
      · exact .inl rfl

end Grassfire
