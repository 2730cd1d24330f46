/-
Which sides of the wavefront an event leaves (lemmas for C98).
-/
import Verif.Proofs.Around
import Verif.Proofs.Roof

set_option linter.unusedSectionVars false

namespace Grassfire

open Spec

variable {K : Type} [Field K] [LinearOrder K] [IsStrictOrderedRing K] [HasSqrt K] [SqrtUnit K] [HasTrig K]

/-- a side of the wavefront in `s'` that is longer than zero at time `x` is what is left of such a side in `s` -/
def Leaves (s s' : St K) (x : K) : Prop :=
  ∀ t' i', Live s' t' → (s'.tri t').neighbours i' = none →
    whereAt s' x ((s'.tri t').vertices (i' + 1)) ≠ whereAt s' x ((s'.tri t').vertices (i' + 2)) →
    ∃ t i, Live s t ∧ (s.tri t).neighbours i = none ∧
      ((s'.tri t').vertices (i' + 1) < s.nV → (s.tri t).vertices (i + 1) = (s'.tri t').vertices (i' + 1)) ∧
      ((s'.tri t').vertices (i' + 2) < s.nV → (s.tri t).vertices (i + 2) = (s'.tri t').vertices (i' + 2)) ∧
      whereAt s x ((s.tri t).vertices (i + 1)) ≠ whereAt s x ((s.tri t).vertices (i + 2))

theorem Leaves.refl (s : St K) (x : K) : Leaves s s x := fun t i h1 h2 h3 => ⟨t, i, h1, h2, fun _ => rfl, fun _ => rfl, h3⟩

theorem Leaves.trans {s s' s'' : St K} {x : K} (hn : s.nV ≤ s'.nV) (h : Leaves s s' x) (h' : Leaves s' s'' x) :
    Leaves s s'' x := by
  intro t i h1 h2 h3
  obtain ⟨t', i', a1, a2, a3, a4, a5⟩ := h' t i h1 h2 h3
  obtain ⟨t0, i0, b1, b2, b3, b4, b5⟩ := h t' i' a1 a2 a5
  refine ⟨t0, i0, b1, b2, fun q => ?_, fun q => ?_, b5⟩
  · have e := a3 (lt_of_lt_of_le q hn)
    rw [b3 (by rw [e]; exact q), e]
  · have e := a4 (lt_of_lt_of_le q hn)
    rw [b4 (by rw [e]; exact q), e]

/-- the sides of the triangles that have not been touched -/
theorem leaves_removed {s s' : St K} {x : K} {t : TId} (hl : ∀ y, Live s' y ↔ Live s y ∧ y ≠ t)
    (hv : ∀ y, Live s y → ∀ j, (s'.tri y).vertices j < s.nV → (s.tri y).vertices j = (s'.tri y).vertices j)
    (hp : ∀ y, Live s y → ∀ j, whereAt s' x ((s'.tri y).vertices j) = whereAt s x ((s.tri y).vertices j))
    (hs : ∀ y i, Live s y → y ≠ t → (s.tri y).neighbours i ≠ some t → (s'.tri y).neighbours i = (s.tri y).neighbours i)
    (ht : ∀ y i, Live s y → y ≠ t → (s.tri y).neighbours i = some t → (s'.tri y).neighbours i = none →
      whereAt s x ((s.tri y).vertices (i + 1)) ≠ whereAt s x ((s.tri y).vertices (i + 2)) →
      ∃ t i', Live s t ∧ (s.tri t).neighbours i' = none ∧
      ((s'.tri y).vertices (i + 1) < s.nV → (s.tri t).vertices (i' + 1) = (s'.tri y).vertices (i + 1)) ∧
      ((s'.tri y).vertices (i + 2) < s.nV → (s.tri t).vertices (i' + 2) = (s'.tri y).vertices (i + 2)) ∧
      whereAt s x ((s.tri t).vertices (i' + 1)) ≠ whereAt s x ((s.tri t).vertices (i' + 2))) : Leaves s s' x := by
  intro y i h1 h2 h3
  obtain ⟨l1, l2⟩ := (hl y).1 h1
  rw [hp y l1, hp y l1] at h3
  by_cases c : (s.tri y).neighbours i = some t
  · exact ht y i l1 l2 c h2 h3
  · rw [hs y i l1 l2 c] at h2
    exact ⟨y, i, l1, h2, hv y l1 _, hv y l1 _, h3⟩

theorem substitute_old {v w m : VId} {vs : Fin 3 → VId} {j : Fin 3} (hw : m ≤ w) (h : substitute v w vs j < m) :
    vs j = substitute v w vs j := by
  unfold substitute at h ⊢
  split_ifs at h ⊢ with c
  · exact absurd h (not_lt.2 hw)
  · rfl

/-- the sides of the wavefront after an event -/
theorem leaves_handleEvent {P : Line2 K → Prop} (hP : Clear P) {N : Prop} {depth : ℕ} {e : Event K}
    {step : ℤ} {s s' : St K} {a : Unit} (h : Inv N e.time s) (ht : e.tri < s.nT) (hM : Mesh s)
    (ha : Arcs s) (hw : Waves P s) (hm : handleEvent depth e step s = .ok (a, s'))
    (ho : Ordinary s s' e) (hx : (s.tri e.tri).stopsAt = none → Exact s s' e)
    (hk : Live s e.tri → ∀ i, Kinetic s ((s.tri e.tri).vertices i))
    (hap : Live s e.tri → Happens (viewT s e.tri) e.toEvCore) : Leaves s s' e.time := by
  have g := g_handleEvent _ _ _ _ _ _ hm
  unfold handleEvent at hm
  obtain ⟨T, s1, h1, hm⟩ := bind_run_ok.1 hm
  obtain ⟨-, rfl, rfl⟩ := getT_run_ok.1 h1
  by_cases hst : (s.tri e.tri).stopsAt.isSome = true
  · rw [if_pos hst] at hm
    obtain rfl := (pure_run_ok.1 hm).2
    exact Leaves.refl _ _
  rw [if_neg hst] at hm
  have hl : Live s e.tri := ⟨ht, by cases q : (s.tri e.tri).stopsAt <;> simp_all⟩
  have hx := hx hl.2
  have hk := hk hl
  have A := hap hl
  have flat : ∀ p, (∀ j, Reaches s e.time ((s.tri e.tri).vertices j) p) → Removed s s' e.tri → Leaves s s' e.time := by
    intro p hp hR
    refine leaves_removed hR.live (fun y _ j _ => by rw [hR.vertices]) (fun y hy j => ?_) (fun y i ly ne hn => ?_)
      fun y i ly ne hn _ hw => ?_
    · rw [hR.vertices]
      unfold whereAt
      rw [placeAt_grows g (hM.vertices y hy.1 j)]
    · rw [hR.neighbours y i ly ne, if_neg hn]
    · obtain ⟨-, j, -, j1, j2⟩ := facing hM.consistent ly hn
      refine (hw ?_).elim
      unfold whereAt
      rw [← j1, ← j2, (hp _).place, (hp _).place]
  cases htp : e.tp with
  | edge =>
    rw [htp] at hm
    dsimp only at hm
    by_cases h3 : e.side.length = 3
    · rw [if_pos h3] at hm
      obtain ⟨p, hp⟩ := hx.three htp (.inl h3)
      exact flat p hp (handleEdge3_mesh e step s s' hM hl (ho.three htp h3 hl.2) hm).2
    rw [if_neg h3] at hm
    by_cases h1 : e.side.length = 1 ∧ (s.tri e.tri).type = 3
    · rw [if_pos h1] at hm
      have hn : ∀ i, (s.tri e.tri).neighbours i = none := fun i => Option.isNone_iff_eq_none.1 ((count3_three _).1 h1.2 i)
      obtain ⟨p, hp⟩ := hx.three htp (.inr hn)
      exact flat p hp (handleEdge1_mesh e step s s' hM hn hm).2
    rw [if_neg h1] at hm
    by_cases h2 : e.side.length = 2
    · rw [if_pos h2] at hm; cases hm
    rw [if_neg h2] at hm
    have hslow : ∀ k, s'.vert s.nV = .kin k → k.infFast = false :=
      fun k => ho.slow _ k le_rfl (handleEdge_nV h ht hm)
    obtain ⟨-, i, p, hi, hr, hnew⟩ := arcs_handleEdge hP hm ha hw (hx.edge htp) hx.slow
    have hne : ∃ j, (s.tri e.tri).neighbours j ≠ none := by
      by_contra q
      push Not at q
      exact h1 ⟨by rw [hi]; rfl, (count3_three _).2 fun i => by rw [q i]; rfl⟩
    obtain ⟨-, hR⟩ := handleEdge_mesh depth e step s s' i hM hl hi (ho.edge htp i hi hne) hm hslow
    obtain ⟨fanA, fanB, hd, -, -, D⟩ := hR.done
    have n1 : i + 1 ≠ i := (by decide : ∀ z : Fin 3, z + 1 ≠ z) i
    have n2 : i + 2 ≠ i := (by decide : ∀ z : Fin 3, z + 2 ≠ z) i
    have e3 : i + 1 + 2 = i := (by decide : ∀ z : Fin 3, z + 1 + 2 = z) i
    have e4 : i + 2 + 1 = i := (by decide : ∀ z : Fin 3, z + 2 + 1 = z) i
    have e5 : i + 2 + 2 = i + 1 := (by decide : ∀ z : Fin 3, z + 2 + 2 = z + 1) i
    have e6 : i + 1 + 1 = i + 2 := (by decide : ∀ z : Fin 3, z + 1 + 1 = z + 2) i
    have w12 : whereAt s e.time ((s.tri e.tri).vertices (i + 1)) = whereAt s e.time ((s.tri e.tri).vertices (i + 2)) := by
      unfold whereAt
      rw [(hr _ n1).place, (hr _ n2).place]
    have hv : ∀ y, Live s y → ∀ j, (s'.tri y).vertices j < s.nV → (s.tri y).vertices j = (s'.tri y).vertices j := by
      intro y hy j q
      rw [D.vertices] at q ⊢
      split_ifs at q ⊢
      · exact substitute_old le_rfl q
      · exact substitute_old le_rfl q
      · rfl
    refine leaves_removed hR.live hv (fun y hy j => ?_) (fun y i ly ne hn => D.same y i ly ne hn)
      fun y j ly ne hn hn' hw => ?_
    · have hv := hM.vertices y hy.1 j
      unfold whereAt
      rw [D.vertices]
      split_ifs
      · rw [place_substitute g j hv (hr _ n2).place hnew.place]
      · rw [place_substitute g j hv (hr _ n1).place hnew.place]
      · rw [placeAt_grows g hv]
    · obtain ⟨-, f, f0, f1, f2⟩ := facing hM.consistent ly hn
      rcases (by decide : ∀ z f : Fin 3, f = z ∨ f = z + 1 ∨ f = z + 2) i f with rfl | rfl | rfl
      · exact (hw (by rw [← f1, ← f2, w12])).elim
      · obtain ⟨mem, gn⟩ := D.gapA y j f0 hn
        rw [hn'] at gn
        rw [e3] at f2
        rw [e6] at f1
        refine ⟨e.tri, i + 2, hl, gn.symm, fun q => ?_, fun q => ?_, ?_⟩
        · rw [e4, f2]; exact hv y ly _ q
        · rw [D.vertices, if_pos mem] at q
          unfold substitute at q
          rw [if_pos f1.symm] at q
          exact absurd q (lt_irrefl _)
        · rw [e4, e5, f2, w12, f1]; exact hw
      · obtain ⟨mem, gn⟩ := D.gapB y j f0 hn
        rw [hn'] at gn
        rw [e5] at f2
        rw [e4] at f1
        have nA : y ∉ fanA := fun q => hd y q mem
        refine ⟨e.tri, i + 1, hl, gn.symm, fun q => ?_, fun q => ?_, ?_⟩
        · rw [D.vertices, if_neg nA, if_pos mem] at q
          unfold substitute at q
          rw [if_pos f2.symm] at q
          exact absurd q (lt_irrefl _)
        · rw [e3, f1]; exact hv y ly _ q
        · rw [e3, e6, f1, ← w12, f2]; exact hw
  | flip =>
    rw [htp] at hm
    dsimp only at hm
    have hm' := hm
    unfold handleFlip at hm'
    obtain ⟨i, s1, q1, -⟩ := bind_run_ok.1 hm'
    obtain ⟨hi, -⟩ := singleSide_run_ok q1
    obtain ⟨-, n, k, s2, hX, hf, hk⟩ := handleFlip_mesh e s s' i hM hl hi (ho.flip htp i hi hl.2) hm
    obtain ⟨H0, H1⟩ := flip_halves hX hf
    obtain ⟨frame, -, same, rest⟩ := C26_frame hX hf
    have hnT : s2.nT = s.nT := by have := congrArg St.nT rest; exact this
    have hvert : s'.vert = s.vert := by
      have : s2.vert = s.vert := by have := congrArg St.vert rest; exact this
      rw [hk.vert, this]
    have hplace : ∀ v u, whereAt s' u v = whereAt s u v := fun v u => by unfold whereAt placeAt; rw [hvert]
    have hlive : ∀ x, Live s' x ↔ Live s x := by
      intro x
      obtain ⟨vs, ns, q⟩ := same x
      have e1 : (s'.tri x).stopsAt = (s2.tri x).stopsAt := hk.apply (fun y : St K => (y.tri x).stopsAt)
      have e2 : (s2.tri x).stopsAt = (s.tri x).stopsAt := by rw [q]
      unfold Live
      rw [hk.nT, hnT, e1, e2]
    have hln : Live s n := (facing hM.consistent hl hX.n0).1
    have half : ∀ {t0 t1 : TId} {s0 s1 : Fin 3}, Live s t0 → Live s t1 → Half s s2 t0 s0 t1 s1 →
        (s.tri t1).vertices (s1 + 2) = (s.tri t0).vertices (s0 + 1) → ∀ j, (s2.tri t0).neighbours j = none →
        ∃ t i, Live s t ∧ (s.tri t).neighbours i = none ∧ (s.tri t).vertices (i + 1) = (s2.tri t0).vertices (j + 1) ∧
          (s.tri t).vertices (i + 2) = (s2.tri t0).vertices (j + 2) := by
      intro t0 t1 a b l0 l1 H hB j hj
      rcases (by decide : ∀ j : Fin 3, j = 0 ∨ j = 1 ∨ j = 2) j with rfl | rfl | rfl
      · rw [H.n0] at hj
        refine ⟨t1, b + 1, l1, hj, ?_, ?_⟩
        · rw [(by decide : ∀ z : Fin 3, z + 1 + 1 = z + 2) b, hB]; exact H.v1.symm
        · rw [(by decide : ∀ z : Fin 3, z + 1 + 2 = z) b]; exact H.v2.symm
      · rw [H.n1] at hj; cases hj
      · rw [H.n2] at hj
        refine ⟨t0, a + 2, l0, hj, ?_, ?_⟩
        · rw [(by decide : ∀ z : Fin 3, z + 2 + 1 = z) a]; exact H.v0.symm
        · rw [(by decide : ∀ z : Fin 3, z + 2 + 2 = z + 1) a]; exact H.v1.symm
    intro y j h1 h2 h3
    have ly := (hlive y).1 h1
    rw [hk.vertices, hplace, hplace] at h3
    rw [hk.vertices]
    have nb : (s'.tri y).neighbours j = (s2.tri y).neighbours j := hk.apply (fun z : St K => (z.tri y).neighbours j)
    rw [nb] at h2
    have : ∃ t i, Live s t ∧ (s.tri t).neighbours i = none ∧ (s.tri t).vertices (i + 1) = (s2.tri y).vertices (j + 1) ∧
          (s.tri t).vertices (i + 2) = (s2.tri y).vertices (j + 2) := by
      by_cases c : y = e.tri
      · subst c; exact half hl hln H0 hX.b1 j h2
      by_cases c' : y = n
      · subst c'; exact half hln hl H1 hX.d1.symm j h2
      obtain ⟨f1, f2⟩ := frame y ly c c'
      obtain ⟨f3, f4⟩ := f2 j
      refine ⟨y, j, ly, ?_, by rw [f1], by rw [f1]⟩
      by_cases q : (s.tri y).neighbours j = some e.tri ∨ (s.tri y).neighbours j = some n
      · rcases f4 q with q | q <;> rw [q] at h2 <;> cases h2
      · rw [not_or] at q
        rw [← f3 q.1 q.2]; exact h2
    obtain ⟨t, i, a1, a2, a3, a4⟩ := this
    exact ⟨t, i, a1, a2, fun _ => a3, fun _ => a4, by rw [a3, a4]; exact h3⟩
  | split =>
    rw [htp] at hm
    dsimp only at hm
    have hn := handleSplit_nV h ht hm
    obtain ⟨-, i, p, hi, hr, hb, hA⟩ := arcs_handleSplit hP hm ha hw (hx.split htp) hx.slow
    obtain ⟨-, i', hi', hR⟩ := handleSplit_mesh depth e step s s' hM hl hm
      (fun k => ho.slow _ k le_rfl (lt_of_le_of_lt (Nat.le_succ _) hn)) (fun k => ho.slow _ k (Nat.le_succ _) hn)
    obtain rfl : i' = i := by rw [hi] at hi'; simpa using hi'.symm
    obtain ⟨b, c, fanA, fanB, hb1, hc1, hd, -, -, D⟩ := hR.done
    obtain ⟨-, on⟩ := A.split htp i' (by show i' ∈ e.side; rw [hi]; exact List.mem_singleton_self _)
    have e3 : i' + 1 + 2 = i' := (by decide : ∀ z : Fin 3, z + 1 + 2 = z) i'
    have e4 : i' + 2 + 1 = i' := (by decide : ∀ z : Fin 3, z + 2 + 1 = z) i'
    have e5 : i' + 2 + 2 = i' + 1 := (by decide : ∀ z : Fin 3, z + 2 + 2 = z + 1) i'
    have e6 : i' + 1 + 1 = i' + 2 := (by decide : ∀ z : Fin 3, z + 1 + 1 = z + 2) i'
    have hon : whereAt s e.time ((s.tri e.tri).vertices (i' + 1)) = whereAt s e.time ((s.tri e.tri).vertices (i' + 2)) →
        whereAt s e.time ((s.tri e.tri).vertices i') = whereAt s e.time ((s.tri e.tri).vertices (i' + 1)) := by
      rw [whereAt_corner (hk _), whereAt_corner (hk _), whereAt_corner (hk _)]
      intro q
      obtain ⟨r, -, -, q'⟩ := on
      change cornerAt (viewT s e.tri) i' e.time = _ at q'
      change _ = (_, _) at q'
      rw [q']
      change cornerAt (viewT s e.tri) (i' + 1) e.time = cornerAt (viewT s e.tri) (i' + 2) e.time at q
      have q1 := congrArg Prod.fst q
      have q2 := congrArg Prod.snd q
      ext
      · dsimp only; rw [← q1]; ring
      · dsimp only; rw [← q2]; ring
    have hv : ∀ y, Live s y → ∀ j, (s'.tri y).vertices j < s.nV → (s.tri y).vertices j = (s'.tri y).vertices j := by
      intro y hy j q
      rw [D.vertices] at q ⊢
      split_ifs at q ⊢
      · exact substitute_old le_rfl q
      · exact substitute_old (Nat.le_succ _) q
      · rfl
    refine leaves_removed hR.live hv (fun y hy j => ?_) (fun y i ly ne hn => D.same y i ly ne hn)
      fun y j ly ne hn hn' hw => ?_
    · have hv := hM.vertices y hy.1 j
      unfold whereAt
      rw [D.vertices]
      split_ifs
      · rw [place_substitute g j hv hr.place hb.place]
      · rw [place_substitute g j hv hr.place hA.place]
      · rw [placeAt_grows g hv]
    · obtain ⟨-, f, f0, f1, f2⟩ := facing hM.consistent ly hn
      rcases (by decide : ∀ z f : Fin 3, f = z ∨ f = z + 1 ∨ f = z + 2) i' f with rfl | rfl | rfl
      · rw [hR.opposite] at f0; cases f0
      · obtain rfl : b = y := by rw [hb1] at f0; injection f0
        have mem : b ∈ fanB := by cases D.walkB; exact List.mem_cons_self
        rw [e3] at f2
        rw [e6] at f1
        refine ⟨e.tri, i', hl, hR.opposite, fun q => ?_, fun q => ?_, fun q => hw ?_⟩
        · rw [D.vertices, if_pos mem] at q
          unfold substitute at q
          rw [if_pos f2.symm] at q
          exact absurd q (lt_irrefl _)
        · rw [f1]; exact hv _ ly _ q
        · rw [← f1, ← f2, hon q, q]
      · obtain rfl : c = y := by rw [hc1] at f0; injection f0
        have mem : c ∈ fanA := by cases D.walkA; exact List.mem_cons_self
        have nB : c ∉ fanB := fun q => hd c q mem
        rw [e5] at f2
        rw [e4] at f1
        refine ⟨e.tri, i', hl, hR.opposite, fun q => ?_, fun q => ?_, fun q => hw ?_⟩
        · rw [f2]; exact hv _ ly _ q
        · rw [D.vertices, if_neg nB, if_pos mem] at q
          unfold substitute at q
          rw [if_pos f1.symm] at q
          exact absurd q (not_lt.2 (Nat.le_succ _))
        · rw [← f1, ← f2, hon q]

variable {dt : Dt K} {depth : ℕ} {skel s0 : St K} {n : ℕ} {now : K} {s s1 : St K} {trace : List (Event K × K)}

/-- the sides of the wavefront after an iteration of the loop -/
theorem GeneralRun.leaves {now' : K} {s' : St K} {e : Event K} (h : GeneralRun dt depth skel s0 (n + 1) now' s' (trace ++ [(e, now')]))
    (h1 : initEventList s0 = .ok ((), s1)) (hr : Run depth { s1 with immediate := [] } 0 n now s trace)
    (hs : loopStep depth (n + 1 : ℕ) now s = .ok (some (e, now'), s')) : Leaves s s' now' := by
  have hp := h.prefix (Nat.le_succ n) h1 hr
  obtain ⟨G, S⟩ := C90_sharp hp
  obtain ⟨G', S'⟩ := C90_sharp h
  obtain ⟨St, -, C⟩ := S.steady
  obtain ⟨St', -, -⟩ := S'.steady
  have T := (C84_steady S).1.standing
  obtain ⟨R, hi, hgen⟩ := G.ready
  obtain ⟨-, -, -, c4⟩ := w_loopStep T.closed T.events hs
  obtain ⟨hM, hc, hk, -⟩ := hp.frame
  have ho := (G'.iteration h1 (Nat.lt_succ_self n) hr hs).1
  have hx := St'.exact.exact s1 h1 n (Nat.lt_succ_self n) _ _ _ _ _ _ hr hs
  have hcr := h.unblurred.sharp s1 h1 n (Nat.lt_succ_self n) _ _ _ _ _ _ hr hs
  obtain ⟨pyid, tr, -, hs0, hpre⟩ := id h.start
  obtain ⟨ts, vs, nbr, unwanted, sorted, hd⟩ := initSkeleton_ok hs0
  have w0 : Waves (InputLine dt) s0 := by rw [hpre]; exact (hd.waves h.mesh.toDtOk h.lengths).prepare true tr
  have a0 : Arcs s0 := by
    rw [hpre]; exact (hd.arcs h.mesh.toDtOk h.lengths h.angles h.spikes).prepare true tr
  have ha := execution_arcs h.angles w0 a0 St.exact
  have hw := execution_waves w0 hp.run
  have Rw : Ready (InputLine dt) s := ⟨R.mesh, R.undead, hw, R.slow⟩
  obtain ⟨s2, h2, h3⟩ := loopStep_some hs
  obtain ⟨i1, ht, -, hlt⟩ := wp_ok (i_takeEvent hi) h2
  obtain ⟨q, i, rfl⟩ : ∃ q i, s2 = { s with queue := q, immediate := i } := by
    rcases takeEvent_run now s with ⟨x, r, -, hx⟩ | ⟨x, r, -, -, hx⟩ | ⟨-, -, hx⟩ <;> rw [hx] at h2 <;> cases h2
    · exact ⟨_, _, rfl⟩
    · exact ⟨_, _, rfl⟩
  subst ht
  have hap : Live s e.tri → Happens (viewT s e.tri) e.toEvCore := fun hl => C90_happens hp hs hcr hl.2
  have Rq := Rw.queues q i
  exact leaves_handleEvent (s := { s with queue := q, immediate := i }) h.angles i1 hlt Rq.mesh
    (ha.relinked (Relinked.of_mesh rfl)) Rq.waves h3
    ⟨ho.slow, ho.edge, ho.flip, ho.three⟩ (fun z => by obtain ⟨a1, a2, a3, a4⟩ := hx z; exact ⟨a1, a2, a3, a4⟩)
    (hk e.tri (List.mem_toFinset.2 c4)) hap

/-- the state `w` before the events at time `x`, and what they leave -/
structure JustBefore (depth : ℕ) (s1 : St K) (x : K) (u : St K) (m : ℕ) (y : K) (w : St K) (tr : List (Event K × K)) : Prop where
  run : Run depth { s1 with immediate := [] } 0 m y w tr
  lt : y < x
  hi : w.immediate = []
  hq : ∀ f ∈ w.queue, x ≤ f.time
  since : Since (x ≤ ·) w u
  grows : Grows w u
  leaves : Leaves w u x

theorem GeneralRun.just_before (h1 : initEventList s0 = .ok ((), s1)) {x : K} (hx : 0 < x) : ∀ {n : ℕ} {s : St K}
    {trace : List (Event K × K)}, GeneralRun dt depth skel s0 n x s trace →
    Run depth { s1 with immediate := [] } 0 n x s trace →
    ∃ m ≤ n, ∃ y w tr, JustBefore depth s1 x s m y w tr := by
  intro n
  induction n with
  | zero =>
    intro s trace h hr
    obtain ⟨rfl, -⟩ := run_unique hr .start
    exact absurd hx (lt_irrefl _)
  | succ n ih =>
    intro s trace h hr
    obtain ⟨-, hI0⟩ := ready_start (C90_sharp h).1.start h1
    cases hr with
    | @step _ now _ s' _ tr e hr hs =>
      have hI := (run_inv hr hI0).1
      have hle := (wp_ok (i_loopStep depth (n + 1 : ℕ) hI) hs).2.2
      have hS := (si_iteration hI hs).mono (z := (x ≤ ·)) fun t q => q.ge
      have hG := g_loopStep _ _ _ _ _ _ hs
      have hL := h.leaves h1 hr hs
      rcases hle.lt_or_eq with c | c
      · obtain ⟨q1, q2⟩ := (taken_min hI hs).resolve_left c.ne'
        exact ⟨n, Nat.le_succ n, _, _, _, hr, c, q1, q2, hS, hG, hL⟩
      · subst c
        obtain ⟨m, hm, y, w, tr', J⟩ := ih (h.prefix (Nat.le_succ n) h1 hr) hr
        exact ⟨m, hm.trans (Nat.le_succ n), y, w, tr', J.run, J.lt, J.hi, J.hq, sincePre.trans _ _ _ J.since hS,
          growsPre.trans _ _ _ J.grows hG, J.leaves.trans J.grows.nV hL⟩

variable {m : ℕ} {x y : K} {u : St K} {tr : List (Event K × K)}

/-- the state before the events at time `x`, when there are any -/
theorem GeneralRun.before (h : GeneralRun dt depth skel s0 n now s trace) (h1 : initEventList s0 = .ok ((), s1)) (hx : 0 < x)
    (L : LastUpTo depth s1 n s x m y u tr) : ∃ m' ≤ n, ∃ y' w tr', JustBefore depth s1 x u m' y' w tr' := by
  rcases L.hy.lt_or_eq with c | rfl
  · exact ⟨m, L.hm, y, u, tr, L.run, c, L.hi, fun f hf => (L.hq f hf).le, sincePre.refl _, growsPre.refl _, Leaves.refl _ _⟩
  · obtain ⟨m', hm, q⟩ := GeneralRun.just_before h1 hx (h.prefix L.hm h1 L.run) L.run
    exact ⟨m', hm.trans L.hm, q⟩

/-- it is the last state up to earlier times -/
theorem JustBefore.last {m' : ℕ} {y' : K} {w : St K} {tr' : List (Event K × K)} (J : JustBefore depth s1 x u m' y' w tr')
    (hm : m' ≤ n) (L : LastUpTo depth s1 n s x m y u tr) {z : K} (hz : y' ≤ z) (hzx : z < x) :
    LastUpTo depth s1 n s z m' y' w tr' :=
  ⟨hm, J.run, hz, J.hi, fun f hf => hzx.trans_le (J.hq f hf),
    sincePre.trans _ _ _ (J.since.mono fun _ q => hzx.trans_le q) (L.since.mono fun _ q => hzx.trans q),
    growsPre.trans _ _ _ J.grows L.grows⟩

end Grassfire
