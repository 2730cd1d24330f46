/-
Events do not turn triangles over (lemmas for C77).
-/
import Verif.Proofs.AnchorRun
import Verif.Proofs.ForestRun
import Verif.Proofs.OrientationRoots
import Verif.Spec.Upright

set_option linter.unusedSectionVars false

namespace Grassfire

open Spec

variable {K : Type} [Field K] [LinearOrder K] [IsStrictOrderedRing K]

theorem Spec.Reaches.place {s : St K} {now : K} {v : VId} {p : Pt K} (h : Reaches s now v p) : placeAt s v now = some p := by
  obtain ⟨k, h1, -, rfl, -⟩ := h
  unfold placeAt
  rw [h1]

theorem placeAt_grows {s s' : St K} (g : Grows s s') {v : VId} (hv : v < s.nV) (u : K) :
    placeAt s' v u = placeAt s v u := by
  have h := g.vert v hv
  unfold placeAt
  cases q : s.vert v with
  | inf o =>
    rw [q] at h
    cases q' : s'.vert v with
    | inf o' => rfl
    | kin k => rw [q'] at h; exact h.elim
  | kin k =>
    rw [q] at h
    cases q' : s'.vert v with
    | inf o' => rw [q'] at h; exact h.elim
    | kin k' =>
      rw [q'] at h
      have h : SameBirth k k' := h
      dsimp only
      unfold pointAt
      rw [h.origin, h.velocity]

theorem area2_turn (a b c : Pt K) : area2 b c a = area2 a b c := by unfold area2; ring

/-- the order of the corners does not matter, as long as they are taken in turn -/
theorem uprightAt_iff {s : St K} {t : TId} {u : K} (i : Fin 3) : UprightAt s t u ↔
    ∀ a b c, placeAt s ((s.tri t).vertices i) u = some a → placeAt s ((s.tri t).vertices (i + 1)) u = some b →
      placeAt s ((s.tri t).vertices (i + 2)) u = some c → 0 ≤ area2 a b c := by
  unfold UprightAt
  fin_cases i
  · exact Iff.rfl
  · constructor
    · intro h a b c h1 h2 h3
      rw [← area2_turn, ← area2_turn]
      exact h c a b h3 h1 h2
    · intro h a b c h1 h2 h3
      rw [← area2_turn]
      exact h b c a h2 h3 h1
  · constructor
    · intro h a b c h1 h2 h3
      rw [← area2_turn]
      exact h b c a h2 h3 h1
    · intro h a b c h1 h2 h3
      rw [← area2_turn, ← area2_turn]
      exact h c a b h3 h1 h2

/-- when corners are replaced at the place where they are -/
theorem upright_corners {S : TId → Prop} {s s' : St K} {u : K} (hU : Upright S s u)
    (h : ∀ x, S x → Live s' x → Live s x ∧ ∀ j, placeAt s' ((s'.tri x).vertices j) u = placeAt s ((s.tri x).vertices j) u) :
    Upright S s' u := by
  intro x hx hl a b c h1 h2 h3
  obtain ⟨hl', hp⟩ := h x hx hl
  rw [hp] at h1 h2 h3
  exact hU x hx hl' a b c h1 h2 h3

theorem place_substitute {s s' : St K} (g : Grows s s') {v w : VId} {u : K} {p : Pt K} {vs : Fin 3 → VId} (j : Fin 3)
    (hv : vs j < s.nV) (h1 : placeAt s v u = some p) (h2 : placeAt s' w u = some p) :
    placeAt s' (substitute v w vs j) u = placeAt s (vs j) u := by
  unfold substitute
  split_ifs with q
  · rw [h2, q, h1]
  · exact placeAt_grows g hv u

variable [HasSqrt K] [SqrtUnit K] [HasTrig K]

theorem upright_handleEvent {P : Line2 K → Prop} (hP : Clear P) {S : TId → Prop} {N : Prop} {depth : ℕ} {e : Event K}
    {step : ℤ} {s s' : St K} {a : Unit} (h : Inv N e.time s) (ht : e.tri < s.nT) (hS : S e.tri) (hM : Mesh s)
    (hc : Closed S s) (ha : Arcs s) (hw : Waves P s) (hm : handleEvent depth e step s = .ok (a, s'))
    (ho : Ordinary s s' e) (hx : (s.tri e.tri).stopsAt = none → Exact s s' e)
    (hfl : (s.tri e.tri).stopsAt = none → FlipOnSide s e) (hU : Upright S s e.time) : Upright S s' e.time := by
  have g := g_handleEvent _ _ _ _ _ _ hm
  unfold handleEvent at hm
  obtain ⟨T, s1, h1, hm⟩ := bind_run_ok.1 hm
  obtain ⟨-, rfl, rfl⟩ := getT_run_ok.1 h1
  by_cases hst : (s.tri e.tri).stopsAt.isSome = true
  · rw [if_pos hst] at hm
    obtain rfl := (pure_run_ok.1 hm).2
    exact hU
  rw [if_neg hst] at hm
  have hl : Live s e.tri := ⟨ht, by cases q : (s.tri e.tri).stopsAt <;> simp_all⟩
  have hx := hx hl.2
  have hfl := hfl hl.2
  have removed : Removed s s' e.tri → Upright S s' e.time := fun hR =>
    upright_corners hU fun x _ hl' => by
      have hl1 := ((hR.live x).1 hl').1
      exact ⟨hl1, fun j => by rw [hR.vertices]; exact placeAt_grows g (hM.vertices x hl1.1 j) _⟩
  cases htp : e.tp with
  | edge =>
    rw [htp] at hm
    dsimp only at hm
    by_cases h3 : e.side.length = 3
    · rw [if_pos h3] at hm
      exact removed (handleEdge3_mesh e step s s' hM hl (ho.three htp h3 hl.2) hm).2
    rw [if_neg h3] at hm
    by_cases h1 : e.side.length = 1 ∧ (s.tri e.tri).type = 3
    · rw [if_pos h1] at hm
      have hn := (count3_three _).1 h1.2
      exact removed (handleEdge1_mesh e step s s' hM (fun i => Option.isNone_iff_eq_none.1 (hn i)) hm).2
    rw [if_neg h1] at hm
    by_cases h2 : e.side.length = 2
    · rw [if_pos h2] at hm; cases hm
    rw [if_neg h2] at hm
    have hslow : ∀ k, s'.vert s.nV = .kin k → k.infFast = false :=
      fun k => ho.slow _ k le_rfl (handleEdge_nV h ht hm)
    obtain ⟨-, i, p, hi, hr, hnew⟩ := arcs_handleEdge hP hm ha hw (hx.edge htp) hx.slow
    have hne : ∃ j, (s.tri e.tri).neighbours j ≠ none := by
      by_contra q
      push Not at q
      exact h1 ⟨by rw [hi]; rfl, (count3_three _).2 fun i => by rw [q i]; rfl⟩
    obtain ⟨-, hR⟩ := handleEdge_mesh depth e step s s' i hM hl hi (ho.edge htp i hi hne) hm hslow
    obtain ⟨fanA, fanB, -, -, -, D⟩ := hR.done
    refine upright_corners hU fun x _ hl' => ?_
    have hl1 := ((hR.live x).1 hl').1
    refine ⟨hl1, fun j => ?_⟩
    have hv := hM.vertices x hl1.1 j
    have n1 : i + 1 ≠ i := (by decide : ∀ z : Fin 3, z + 1 ≠ z) i
    have n2 : i + 2 ≠ i := (by decide : ∀ z : Fin 3, z + 2 ≠ z) i
    rw [D.vertices]
    split_ifs
    · exact place_substitute g j hv (hr _ n2).place hnew.place
    · exact place_substitute g j hv (hr _ n1).place hnew.place
    · exact placeAt_grows g hv _
  | flip =>
    rw [htp] at hm
    dsimp only at hm
    have hm' := hm
    unfold handleFlip at hm'
    obtain ⟨i, s1, q1, -⟩ := bind_run_ok.1 hm'
    obtain ⟨hi, -⟩ := singleSide_run_ok q1
    obtain ⟨-, n, k, s2, hX, hf, hk⟩ := handleFlip_mesh e s s' i hM hl hi (ho.flip htp i hi hl.2) hm
    obtain ⟨H0, H1⟩ := flip_halves hX hf
    obtain ⟨frame, -, same, rest⟩ := C26_frame hX hf
    have hnT : s2.nT = s.nT := by have := congrArg St.nT rest; exact this
    have hvert : s'.vert = s.vert := by
      have : s2.vert = s.vert := by have := congrArg St.vert rest; exact this
      rw [hk.vert, this]
    have hplace : ∀ v u, placeAt s' v u = placeAt s v u := fun v u => by unfold placeAt; rw [hvert]
    have hlive : ∀ x, Live s' x → Live s x := by
      intro x hx'
      obtain ⟨vs, ns, q⟩ := same x
      have e1 : (s'.tri x).stopsAt = (s2.tri x).stopsAt := hk.apply (fun y : St K => (y.tri x).stopsAt)
      have e2 : (s2.tri x).stopsAt = (s.tri x).stopsAt := by rw [q]
      exact ⟨by rw [← hnT, ← hk.nT]; exact hx'.1, by rw [← e2, ← e1]; exact hx'.2⟩
    obtain ⟨pa, pb, pc, r, ea, eb, ec, r0, r1, hpa⟩ := hfl htp i hi
    have hln : Live s n := (facing hM.consistent hl hX.n0).1
    have hn := (uprightAt_iff k).1 (hU n (hc _ _ _ hS hX.n0) hln)
    have eD : placeAt s ((s.tri n).vertices (k + 1)) e.time = some pc := by rw [hX.d1]; exact ec
    have eB : placeAt s ((s.tri n).vertices (k + 2)) e.time = some pb := by rw [hX.b1]; exact eb
    intro x hSx hlx
    by_cases x0 : x = e.tri
    · subst x0
      intro a' b' c' f1 f2 f3
      rw [hplace, hk.vertices, H0.v0, ea] at f1
      rw [hplace, hk.vertices, H0.v1, eb] at f2
      rw [hplace, hk.vertices, H0.v2] at f3
      cases f1
      cases f2
      have := mul_nonneg r0 (hn _ _ _ f3 eD eB)
      rw [hpa]
      refine le_of_le_of_eq this ?_
      unfold area2
      ring
    by_cases x1 : x = n
    · subst x1
      intro a' b' c' f1 f2 f3
      rw [hplace, hk.vertices, H1.v0] at f1
      rw [hplace, hk.vertices, H1.v1, eD] at f2
      rw [hplace, hk.vertices, H1.v2, ea] at f3
      cases f2
      cases f3
      have := mul_nonneg (sub_nonneg.2 r1) (hn _ _ _ f1 eD eB)
      rw [hpa]
      refine le_of_le_of_eq this ?_
      unfold area2
      ring
    have hlx' := hlive x hlx
    intro a' b' c' f1 f2 f3
    rw [hplace, hk.vertices, (frame x hlx' x0 x1).1] at f1 f2 f3
    exact hU x hSx hlx' a' b' c' f1 f2 f3
  | split =>
    rw [htp] at hm
    dsimp only at hm
    have hn := handleSplit_nV h ht hm
    obtain ⟨-, i, p, hi, hr, hb, hA⟩ := arcs_handleSplit hP hm ha hw (hx.split htp) hx.slow
    obtain ⟨-, i', hi', hR⟩ := handleSplit_mesh depth e step s s' hM hl hm
      (fun k => ho.slow _ k le_rfl (lt_of_le_of_lt (Nat.le_succ _) hn)) (fun k => ho.slow _ k (Nat.le_succ _) hn)
    obtain rfl : i' = i := by rw [hi] at hi'; simpa using hi'.symm
    obtain ⟨_, _, fanA, fanB, -, -, -, -, -, D⟩ := hR.done
    refine upright_corners hU fun x _ hl' => ?_
    have hl1 := ((hR.live x).1 hl').1
    refine ⟨hl1, fun j => ?_⟩
    have hv := hM.vertices x hl1.1 j
    rw [D.vertices]
    split_ifs
    · exact place_substitute g j hv hr.place hb.place
    · exact place_substitute g j hv hr.place hA.place
    · exact placeAt_grows g hv _

end Grassfire
