/-
At an event the triangle that vanishes is dealt with, and no other triangle becomes flat (lemmas for C92).
-/
import Verif.Proofs.UprightSteps
import Verif.Spec.Ending

set_option linter.unusedSectionVars false

namespace Grassfire

open Spec

variable {K : Type} [Field K] [LinearOrder K] [IsStrictOrderedRing K]

/-- the order of the corners does not matter, as long as they are taken in turn -/
theorem flatAt_iff {s : St K} {t : TId} {u : K} (i : Fin 3) : FlatAt s t u ↔
    ∃ a b c, placeAt s ((s.tri t).vertices i) u = some a ∧ placeAt s ((s.tri t).vertices (i + 1)) u = some b ∧
      placeAt s ((s.tri t).vertices (i + 2)) u = some c ∧ area2 a b c = 0 := by
  unfold FlatAt
  fin_cases i
  · exact Iff.rfl
  · constructor
    · rintro ⟨a, b, c, h1, h2, h3, h4⟩
      exact ⟨b, c, a, h2, h3, h1, by rw [area2_turn]; exact h4⟩
    · rintro ⟨a, b, c, h1, h2, h3, h4⟩
      exact ⟨c, a, b, h3, h1, h2, by rw [← area2_turn]; exact h4⟩
  · constructor
    · rintro ⟨a, b, c, h1, h2, h3, h4⟩
      exact ⟨c, a, b, h3, h1, h2, by rw [← area2_turn]; exact h4⟩
    · rintro ⟨a, b, c, h1, h2, h3, h4⟩
      exact ⟨b, c, a, h2, h3, h1, by rw [area2_turn]; exact h4⟩

/-- when corners are replaced at the place where they are -/
theorem flat_corners {s s' : St K} {x : TId} {u : K}
    (h : ∀ j, placeAt s' ((s'.tri x).vertices j) u = placeAt s ((s.tri x).vertices j) u) (hf : FlatAt s' x u) :
    FlatAt s x u := by
  obtain ⟨a, b, c, h1, h2, h3, h4⟩ := hf
  rw [h] at h1 h2 h3
  exact ⟨a, b, c, h1, h2, h3, h4⟩

variable [HasSqrt K] [SqrtUnit K] [HasTrig K]

theorem flat_handleEvent {P : Line2 K → Prop} (hP : Clear P) {N : Prop} {depth : ℕ} {e : Event K}
    {step : ℤ} {s s' : St K} {a : Unit} (h : Inv N e.time s) (hl : Live s e.tri) (hM : Mesh s)
    (ha : Arcs s) (hw : Waves P s) (hm : handleEvent depth e step s = .ok (a, s'))
    (ho : Ordinary s s' e) (hx : Exact s s' e) (hfl : FlipOnSide s e) (htn : Turning s e) {t : TId} (hlt : Live s' t)
    (hft : FlatAt s' t e.time) : t ≠ e.tri ∧ Live s t ∧ FlatAt s t e.time := by
  have g := g_handleEvent _ _ _ _ _ _ hm
  have ht := hl.1
  unfold handleEvent at hm
  obtain ⟨T, s1, h1, hm⟩ := bind_run_ok.1 hm
  obtain ⟨-, rfl, rfl⟩ := getT_run_ok.1 h1
  have hst : ¬ (s.tri e.tri).stopsAt.isSome = true := by rw [hl.2]; nofun
  rw [if_neg hst] at hm
  have removed : Removed s s' e.tri → t ≠ e.tri ∧ Live s t ∧ FlatAt s t e.time := fun hR => by
    obtain ⟨hl1, hne⟩ := (hR.live t).1 hlt
    exact ⟨hne, hl1, flat_corners (fun j => by rw [hR.vertices]; exact placeAt_grows g (hM.vertices t hl1.1 j) _) hft⟩
  cases htp : e.tp with
  | edge =>
    rw [htp] at hm
    dsimp only at hm
    by_cases h3 : e.side.length = 3
    · rw [if_pos h3] at hm
      exact removed (handleEdge3_mesh e step s s' hM hl (ho.three htp h3 hl.2) hm).2
    rw [if_neg h3] at hm
    by_cases h1 : e.side.length = 1 ∧ (s.tri e.tri).type = 3
    · rw [if_pos h1] at hm
      have hn := (count3_three _).1 h1.2
      exact removed (handleEdge1_mesh e step s s' hM (fun i => Option.isNone_iff_eq_none.1 (hn i)) hm).2
    rw [if_neg h1] at hm
    by_cases h2 : e.side.length = 2
    · rw [if_pos h2] at hm; cases hm
    rw [if_neg h2] at hm
    have hslow : ∀ k, s'.vert s.nV = .kin k → k.infFast = false :=
      fun k => ho.slow _ k le_rfl (handleEdge_nV h ht hm)
    obtain ⟨-, i, p, hi, hr, hnew⟩ := arcs_handleEdge hP hm ha hw (hx.edge htp) hx.slow
    have hne : ∃ j, (s.tri e.tri).neighbours j ≠ none := by
      by_contra q
      push Not at q
      exact h1 ⟨by rw [hi]; rfl, (count3_three _).2 fun i => by rw [q i]; rfl⟩
    obtain ⟨-, hR⟩ := handleEdge_mesh depth e step s s' i hM hl hi (ho.edge htp i hi hne) hm hslow
    obtain ⟨fanA, fanB, -, -, -, D⟩ := hR.done
    obtain ⟨hl1, hne⟩ := (hR.live t).1 hlt
    refine ⟨hne, hl1, flat_corners (fun j => ?_) hft⟩
    have hv := hM.vertices t hl1.1 j
    have n1 : i + 1 ≠ i := (by decide : ∀ z : Fin 3, z + 1 ≠ z) i
    have n2 : i + 2 ≠ i := (by decide : ∀ z : Fin 3, z + 2 ≠ z) i
    rw [D.vertices]
    split_ifs
    · exact place_substitute g j hv (hr _ n2).place hnew.place
    · exact place_substitute g j hv (hr _ n1).place hnew.place
    · exact placeAt_grows g hv _
  | flip =>
    rw [htp] at hm
    dsimp only at hm
    have hm' := hm
    unfold handleFlip at hm'
    obtain ⟨i, s1, q1, -⟩ := bind_run_ok.1 hm'
    obtain ⟨hi, -⟩ := singleSide_run_ok q1
    obtain ⟨-, n, k, s2, hX, hf, hk⟩ := handleFlip_mesh e s s' i hM hl hi (ho.flip htp i hi hl.2) hm
    obtain ⟨H0, H1⟩ := flip_halves hX hf
    obtain ⟨frame, -, same, rest⟩ := C26_frame hX hf
    have hnT : s2.nT = s.nT := by have := congrArg St.nT rest; exact this
    have hvert : s'.vert = s.vert := by
      have : s2.vert = s.vert := by have := congrArg St.vert rest; exact this
      rw [hk.vert, this]
    have hplace : ∀ v u, placeAt s' v u = placeAt s v u := fun v u => by unfold placeAt; rw [hvert]
    have hlive : ∀ x, Live s' x → Live s x := by
      intro x hx'
      obtain ⟨vs, ns, q⟩ := same x
      have e1 : (s'.tri x).stopsAt = (s2.tri x).stopsAt := hk.apply (fun y : St K => (y.tri x).stopsAt)
      have e2 : (s2.tri x).stopsAt = (s.tri x).stopsAt := by rw [q]
      exact ⟨by rw [← hnT, ← hk.nT]; exact hx'.1, by rw [← e2, ← e1]; exact hx'.2⟩
    obtain ⟨pa, pb, pc, r, ea, eb, ec, r0, r1, hpa⟩ := hfl htp i hi
    obtain ⟨t1, t2⟩ := htn htp i hi
    have hnn := fun q => t1 n hX.n0 ((flatAt_iff k).2 q)
    have hab : pa ≠ pb := t2 (i + 1) pa pb ((by decide : ∀ z : Fin 3, z + 1 ≠ z) i) ea eb
    have hac : pa ≠ pc := t2 (i + 2) pa pc ((by decide : ∀ z : Fin 3, z + 2 ≠ z) i) ea ec
    have hr0 : r ≠ 0 := fun q => hab (by rw [hpa, q]; simp)
    have hr1 : 1 - r ≠ 0 := fun q => hac (by rw [hpa, ← sub_eq_zero.1 q]; simp)
    have eD : placeAt s ((s.tri n).vertices (k + 1)) e.time = some pc := by rw [hX.d1]; exact ec
    have eB : placeAt s ((s.tri n).vertices (k + 2)) e.time = some pb := by rw [hX.b1]; exact eb
    by_cases x0 : t = e.tri
    · subst x0
      exfalso
      obtain ⟨a', b', c', f1, f2, f3, f4⟩ := hft
      rw [hplace, hk.vertices, H0.v0, ea] at f1
      rw [hplace, hk.vertices, H0.v1, eb] at f2
      rw [hplace, hk.vertices, H0.v2] at f3
      cases f1
      cases f2
      refine hnn ⟨c', pc, pb, f3, eD, eB, (mul_eq_zero.1 ?_).resolve_left hr0⟩
      rw [hpa] at f4
      rw [← f4]
      unfold area2
      ring
    by_cases x1 : t = n
    · subst x1
      exfalso
      obtain ⟨a', b', c', f1, f2, f3, f4⟩ := hft
      rw [hplace, hk.vertices, H1.v0] at f1
      rw [hplace, hk.vertices, H1.v1, eD] at f2
      rw [hplace, hk.vertices, H1.v2, ea] at f3
      cases f2
      cases f3
      refine hnn ⟨a', pc, pb, f1, eD, eB, (mul_eq_zero.1 ?_).resolve_left hr1⟩
      rw [hpa] at f4
      rw [← f4]
      unfold area2
      ring
    have hlx' := hlive t hlt
    refine ⟨x0, hlx', flat_corners (fun j => ?_) hft⟩
    rw [hplace, hk.vertices, (frame t hlx' x0 x1).1]
  | split =>
    rw [htp] at hm
    dsimp only at hm
    have hn := handleSplit_nV h ht hm
    obtain ⟨-, i, p, hi, hr, hb, hA⟩ := arcs_handleSplit hP hm ha hw (hx.split htp) hx.slow
    obtain ⟨-, i', hi', hR⟩ := handleSplit_mesh depth e step s s' hM hl hm
      (fun k => ho.slow _ k le_rfl (lt_of_le_of_lt (Nat.le_succ _) hn)) (fun k => ho.slow _ k (Nat.le_succ _) hn)
    obtain rfl : i' = i := by rw [hi] at hi'; simpa using hi'.symm
    obtain ⟨_, _, fanA, fanB, -, -, -, -, -, D⟩ := hR.done
    obtain ⟨hl1, hne⟩ := (hR.live t).1 hlt
    refine ⟨hne, hl1, flat_corners (fun j => ?_) hft⟩
    have hv := hM.vertices t hl1.1 j
    rw [D.vertices]
    split_ifs
    · exact place_substitute g j hv hr.place hb.place
    · exact place_substitute g j hv hr.place hA.place
    · exact placeAt_grows g hv _

end Grassfire
