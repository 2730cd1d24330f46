/-
Executions that are not blurred by tolerances are exact (lemmas for C84).
-/
import Verif.Proofs.SharpSteps

set_option linter.unusedSectionVars false

namespace Grassfire

open Spec

variable {K : Type} [Field K] [LinearOrder K] [HasSqrt K]

/-- what holds between the iterations -/
structure Crisp (S : TId → Prop) (now : K) (s : St K) : Prop where
  kinetic : ∀ t, S t → Live s t → ∀ i, Kinetic s ((s.tri t).vertices i)
  started : ∀ v k t, v < s.nV → s.vert v = .kin k → k.startsAt = some t → t = now ∨ t + 1 / 10 ^ 10 < now
  fits : FitsD S (Joined now s) s
  tight : ∀ e ∈ s.immediate, Tight now s e.tri

theorem kinetic_grows {s s' : St K} (g : Grows s s') {v : VId} (h : Kinetic s v) : Kinetic s' v := by
  obtain ⟨hv, k, hk⟩ := h
  have hb := g.vert v hv
  rw [hk] at hb
  refine ⟨g.vlt hv, ?_⟩
  cases q : s'.vert v with
  | inf o => rw [q] at hb; exact hb.elim
  | kin k' => exact ⟨k', rfl⟩

theorem kinetic_substitute {s : St K} {v w : VId} {vs : Fin 3 → VId} {j : Fin 3} (hw : Kinetic s w)
    (hv : Kinetic s (vs j)) : Kinetic s (substitute v w vs j) := by
  unfold substitute
  split_ifs
  · exact hw
  · exact hv

theorem started_halts {now : K} {s s' : St K} {V : VId → Prop} (H : Halts now s s' V) (g : Grows s s')
    (h : ∀ v k t, v < s.nV → s.vert v = .kin k → k.startsAt = some t → t = now ∨ t + 1 / 10 ^ 10 < now) :
    ∀ v k t, v < s'.nV → s'.vert v = .kin k → k.startsAt = some t → t = now ∨ t + 1 / 10 ^ 10 < now := by
  intro v k t hv hk ht
  by_cases q : v < s.nV
  · have hb := g.vert v q
    rw [hk] at hb
    cases q' : s.vert v with
    | inf o => rw [q'] at hb; exact hb.elim
    | kin k0 =>
      rw [q'] at hb
      have hb : SameBirth k0 k := hb
      exact h v k0 t q q' (by rw [← hb.startsAt]; exact ht)
  · rw [H.new v k (Nat.le_of_not_lt q) hv hk] at ht
    cases ht
    exact .inl rfl

variable [IsStrictOrderedRing K] [SqrtUnit K] [HasTrig K]

theorem crisp_handleEvent {P : Line2 K → Prop} (hP : Clear P) {S : TId → Prop} {N : Prop} {depth : ℕ} {e : Event K}
    {step : ℤ} {s s' : St K} {a : Unit} (h : Inv N e.time s) (ht : e.tri < s.nT) (hS : S e.tri) (hM : Mesh s)
    (hc : Closed S s) (ha : Arcs s) (hw : Waves P s) (hm : handleEvent depth e step s = .ok (a, s'))
    (ho : Ordinary s s' e) (hx : (s.tri e.tri).stopsAt = none → Exact s s' e)
    (hp : (s.tri e.tri).stopsAt = none → Plain s e) (himm : (s.tri e.tri).stopsAt = none → e.tp ≠ .edge → s.immediate = [])
    (hslow : ∀ v k, v < s'.nV → s'.vert v = .kin k → k.infFast = false) (C : Crisp S e.time s) : Crisp S e.time s' := by
  have g := g_handleEvent _ _ _ _ _ _ hm
  unfold handleEvent at hm
  obtain ⟨T, s1, h1, hm⟩ := bind_run_ok.1 hm
  obtain ⟨-, rfl, rfl⟩ := getT_run_ok.1 h1
  by_cases hst : (s.tri e.tri).stopsAt.isSome = true
  · rw [if_pos hst] at hm
    obtain rfl := (pure_run_ok.1 hm).2
    exact C
  rw [if_neg hst] at hm
  have hl : Live s e.tri := ⟨ht, by cases q : (s.tri e.tri).stopsAt <;> simp_all⟩
  have hx := hx hl.2
  have hp := hp hl.2
  have himm := himm hl.2
  have hv : ∀ x, x < s.nT → ∀ j, (s.tri x).vertices j < s.nV := hM.vertices
  have hSn : ∀ j x, (s.tri e.tri).neighbours j = some x → S x := fun j x q => hc _ _ _ hS q
  have told : ∀ f ∈ s.immediate, f.tri < s.nT ∧ Tight e.time s f.tri := fun f hf =>
    ⟨(h.current f (List.mem_append_left _ hf)).1, C.tight f hf⟩
  -- the neighbour over a side that vanishes
  have near : ∀ i x p, (s.tri e.tri).neighbours i = some x → Reaches s e.time ((s.tri e.tri).vertices (i + 1)) p →
      Reaches s e.time ((s.tri e.tri).vertices (i + 2)) p → x < s.nT ∧ Tight e.time s x := by
    intro i x p hn r1 r2
    obtain ⟨hx, j, -, j1, j2⟩ := facing hM.consistent hl hn
    refine ⟨hx.1, j, .inl ?_⟩
    show spot s ((s.tri x).vertices (j + 1)) e.time = spot s ((s.tri x).vertices (j + 2)) e.time
    rw [j1, j2, reaches_spot r1, reaches_spot r2]
  have removed : Removed s s' e.tri → (∀ x, S x → Live s' x → ∀ i, Kinetic s' ((s'.tri x).vertices i)) := by
    intro hR x hSx hlx i
    rw [hR.vertices]
    exact kinetic_grows g (C.kinetic x hSx ((hR.live x).1 hlx).1 i)
  cases htp : e.tp with
  | edge =>
    rw [htp] at hm
    dsimp only at hm
    by_cases h3 : e.side.length = 3
    · rw [if_pos h3] at hm
      have hR := (handleEdge3_mesh e step s s' hM hl (ho.three htp h3 hl.2) hm).2
      obtain ⟨p, hr⟩ := hx.three htp (.inl h3)
      obtain ⟨H, F⟩ := fitsD_handleEdge3 hM hl (ho.three htp h3 hl.2) hm C.fits hSn (hp.three htp h3)
      exact ⟨removed hR, started_halts H g C.started, F _ (fun _ _ q => q.kept H g) fun j x _ =>
        .made H g (hv _ ht _) (hv _ ht _) ⟨_, rfl⟩ ⟨_, rfl⟩ (hr _) (hr _),
        (watch_handleEdge3 hm hv fun i x q => near i x p q (hr _) (hr _)).tight told⟩
    rw [if_neg h3] at hm
    by_cases h1 : e.side.length = 1 ∧ (s.tri e.tri).type = 3
    · rw [if_pos h1] at hm
      have hn : ∀ i, (s.tri e.tri).neighbours i = none :=
        fun i => Option.isNone_iff_eq_none.1 ((count3_three _).1 h1.2 i)
      have hR := (handleEdge1_mesh e step s s' hM hn hm).2
      obtain ⟨H, F⟩ := fitsD_handleEdge1 hM hl hn hm C.fits
      exact ⟨removed hR, started_halts H g C.started, F _ fun _ _ q => q.kept H g, (watch_handleEdge1 hm hv).tight told⟩
    rw [if_neg h1] at hm
    by_cases h2 : e.side.length = 2
    · rw [if_pos h2] at hm; cases hm
    rw [if_neg h2] at hm
    have hslow1 : ∀ k, s'.vert s.nV = .kin k → k.infFast = false :=
      fun k => ho.slow _ k le_rfl (handleEdge_nV h ht hm)
    obtain ⟨-, i, p, hi, hr, hnew⟩ := arcs_handleEdge hP hm ha hw (hx.edge htp) hx.slow
    have hne : ∃ j, (s.tri e.tri).neighbours j ≠ none := by
      by_contra q
      push Not at q
      exact h1 ⟨by rw [hi]; rfl, (count3_three _).2 fun i => by rw [q i]; rfl⟩
    obtain ⟨-, hR⟩ := handleEdge_mesh depth e step s s' i hM hl hi (ho.edge htp i hi hne) hm hslow1
    have n1 : i + 1 ≠ i := (by decide : ∀ z : Fin 3, z + 1 ≠ z) i
    have n2 : i + 2 ≠ i := (by decide : ∀ z : Fin 3, z + 2 ≠ z) i
    obtain ⟨H, F⟩ := fitsD_handleEdge hM hl hi (ho.edge htp i hi hne) hm hslow1 C.fits hSn (hp.edge htp i hi hne)
    have hk : Kinetic s' s.nV := by
      obtain ⟨k, q, -⟩ := hnew
      exact ⟨handleEdge_nV h ht hm, k, q⟩
    refine ⟨fun x hSx hlx j => ?_, started_halts H g C.started, F _ (fun _ _ q => q.kept H g)
      (fun _ => .made H g (hv _ ht _) (hv _ ht _) (.inr rfl) (.inl rfl) (hr _ n2) (hr _ n1)),
      (watch_handleEdge hm hi hv ht hslow hr hnew fun x q => near i x p q (hr _ n1) (hr _ n2)).tight told⟩
    obtain ⟨fanA, fanB, -, -, -, D⟩ := hR.done
    have hkx := kinetic_grows g (C.kinetic x hSx ((hR.live x).1 hlx).1 j)
    rw [D.vertices]
    split_ifs
    · exact kinetic_substitute hk hkx
    · exact kinetic_substitute hk hkx
    · exact hkx
  | flip =>
    rw [htp] at hm
    dsimp only at hm
    have hm' := hm
    unfold handleFlip at hm'
    obtain ⟨i, s1, q1, hm'⟩ := bind_run_ok.1 hm'
    obtain ⟨hi, rfl⟩ := singleSide_run_ok q1
    have hps := ho.flip htp i hi hl.2
    have himm' : s'.immediate = [] := by
      have hi0 := himm (by rw [htp]; nofun)
      obtain ⟨T, s1, q1, hm'⟩ := bind_run_ok.1 hm'
      obtain ⟨-, rfl, rfl⟩ := getT_run_ok.1 q1
      obtain ⟨n, s1, q1, hm'⟩ := bind_run_ok.1 hm'
      obtain ⟨-, rfl⟩ := assertSome_run_ok.1 q1
      obtain ⟨T, s1, q1, hm'⟩ := bind_run_ok.1 hm'
      obtain ⟨-, rfl, rfl⟩ := getT_run_ok.1 q1
      obtain ⟨k, s1, q1, hm'⟩ := bind_run_ok.1 hm'
      obtain ⟨-, rfl⟩ := needIdx_run_ok.1 q1
      obtain ⟨_, s1, q1, hm'⟩ := bind_run_ok.1 hm'
      obtain ⟨_, s2, q2, q3⟩ := bind_run_ok.1 hm'
      have e1 : s1.immediate = s.immediate := im_flip _ _ _ _ _ _ _ q1
      have f2 := fw_replaceInQueue _ _ _ _ _ q2
      have f3 := fw_replaceInQueue _ _ _ _ _ q3
      rw [List.eq_nil_iff_forall_not_mem]
      intro f hf
      have := f2.immediate f (f3.immediate f hf)
      rw [e1, hi0] at this
      cases this
    obtain ⟨-, n, k, s2, hX, hf, hk⟩ := handleFlip_mesh e s s' i hM hl hi hps hm
    obtain ⟨H0, H1⟩ := flip_halves hX hf
    obtain ⟨frame, -, same, rest⟩ := C26_frame hX hf
    have hnT : s2.nT = s.nT := by have := congrArg St.nT rest; exact this
    have hnV : s'.nV = s.nV := by
      have : s2.nV = s.nV := by have := congrArg St.nV rest; exact this
      rw [hk.nV, this]
    have hvert : s'.vert = s.vert := by
      have : s2.vert = s.vert := by have := congrArg St.vert rest; exact this
      rw [hk.vert, this]
    have hkin : ∀ v, Kinetic s v → Kinetic s' v := fun v q => by unfold Kinetic; rw [hnV, hvert]; exact q
    have hlive : ∀ x, Live s' x → Live s x := by
      intro x hx'
      obtain ⟨vs, ns, q⟩ := same x
      have e1 : (s'.tri x).stopsAt = (s2.tri x).stopsAt := hk.apply (fun y : St K => (y.tri x).stopsAt)
      have e2 : (s2.tri x).stopsAt = (s.tri x).stopsAt := by rw [q]
      exact ⟨by rw [← hnT, ← hk.nT]; exact hx'.1, by rw [← e2, ← e1]; exact hx'.2⟩
    have hln : Live s n := (facing hM.consistent hl hX.n0).1
    have hSN : S n := hSn _ _ hX.n0
    refine ⟨fun x hSx hlx j => hkin _ ?_, fun v kv t hv' hk' => ?_, fitsD_handleFlip hM hl hi hps hm C.fits
      (fun _ _ q => q.same hvert hnV) hSn hS, fun f hf => by rw [himm'] at hf; cases hf⟩
    · rw [hk.vertices]
      by_cases x0 : x = e.tri
      · subst x0
        fin_cases j
        · show Kinetic s ((s2.tri e.tri).vertices 0)
          rw [H0.v0]; exact C.kinetic _ hS hl _
        · show Kinetic s ((s2.tri e.tri).vertices 1)
          rw [H0.v1]; exact C.kinetic _ hS hl _
        · show Kinetic s ((s2.tri e.tri).vertices 2)
          rw [H0.v2]; exact C.kinetic _ hSN hln _
      by_cases x1 : x = n
      · subst x1
        fin_cases j
        · show Kinetic s ((s2.tri x).vertices 0)
          rw [H1.v0]; exact C.kinetic _ hSN hln _
        · show Kinetic s ((s2.tri x).vertices 1)
          rw [H1.v1]; exact C.kinetic _ hSN hln _
        · show Kinetic s ((s2.tri x).vertices 2)
          rw [H1.v2]; exact C.kinetic _ hS hl _
      rw [(frame x (hlive x hlx) x0 x1).1]
      exact C.kinetic x hSx (hlive x hlx) j
    · rw [hnV] at hv'
      rw [hvert] at hk'
      exact C.started v kv t hv' hk'
  | split =>
    rw [htp] at hm
    dsimp only at hm
    have hn := handleSplit_nV h ht hm
    have s1 : ∀ k, s'.vert s.nV = .kin k → k.infFast = false :=
      fun k => ho.slow _ k le_rfl (lt_of_le_of_lt (Nat.le_succ _) hn)
    have s2 : ∀ k, s'.vert (s.nV + 1) = .kin k → k.infFast = false := fun k => ho.slow _ k (Nat.le_succ _) hn
    obtain ⟨-, i, p, hi, hr, hb, hA⟩ := arcs_handleSplit hP hm ha hw (hx.split htp) hx.slow
    obtain ⟨-, i', hi', hR⟩ := handleSplit_mesh depth e step s s' hM hl hm s1 s2
    obtain rfl : i' = i := by rw [hi] at hi'; simpa using hi'.symm
    obtain ⟨⟨_, -, H⟩, F⟩ := fitsD_handleSplit hM hl hm s1 s2 C.fits (hp.split htp)
    have kb : Kinetic s' s.nV := by
      obtain ⟨k, q, -⟩ := hb
      exact ⟨lt_of_le_of_lt (Nat.le_succ _) hn, k, q⟩
    have ka : Kinetic s' (s.nV + 1) := by
      obtain ⟨k, q, -⟩ := hA
      exact ⟨hn, k, q⟩
    refine ⟨fun x hSx hlx j => ?_, started_halts H g C.started, F _ fun _ _ q => q.kept H g,
      (watch_handleSplit hm hi hv ht hslow hr hb hA).tight told⟩
    obtain ⟨_, _, fanA, fanB, h1, h2, -, -, -, D⟩ := hR.done
    have hkx := kinetic_grows g (C.kinetic x hSx ((hR.live x).1 hlx).1 j)
    rw [D.vertices]
    split_ifs
    · exact kinetic_substitute kb hkx
    · exact kinetic_substitute ka hkx
    · exact hkx

end Grassfire
