/-
Vertices run from node to node: the event handlers and the loop (lemmas for C75).
-/
import Verif.Proofs.AnchorLemmas
import Verif.Proofs.FreshQueue

set_option linter.unusedSectionVars false

namespace Grassfire

open Spec

variable {K : Type} [Field K] [LinearOrder K] [IsStrictOrderedRing K] [HasSqrt K] [SqrtUnit K] [HasTrig K]

/-- any two lines such that `P` cross or are exactly parallel -/
def Clear (P : Line2 K → Prop) : Prop :=
  ∀ l r, P l → P r → Cross l r ∨ l.w = r.w ∨ l.w = (-r.w.1, -r.w.2)

/-- the intersection of two wavefronts that meet in `p` -/
theorem tryIntersection_meet {l r : Line2 K} {now : K} {s s' : St K} {pos : Option (Pt K)} {p : Pt K}
    (h : tryIntersection l r now s = .ok (pos, s')) (hl : l.w.1 ^ 2 + l.w.2 ^ 2 = 1) (hr : r.w.1 ^ 2 + r.w.2 ^ 2 = 1)
    (d1 : AtDistance l now p) (d2 : AtDistance r now p) : pos = none ∨ pos = some p := by
  unfold tryIntersection at h
  by_cases hc : Cross l r
  · obtain ⟨_, _, _, _, hall⟩ := C13_wavefront_vertex l r hl hr hc
    obtain ⟨q, hq, q1, q2, -⟩ := hall now
    rw [hq] at h
    cases h
    right
    exact congrArg some (cross_unique hc (sub_eq_zero.1 (Eq.trans (by dsimp only [Advanced]; ring) q1))
      (sub_eq_zero.1 (Eq.trans (by dsimp only [Advanced]; ring) q2)) d1 d2)
  · rw [(C13_parallel_wavefronts l r now hl hr (not_lt.1 hc)).1] at h
    cases h
    exact .inl rfl

/-- a vertex that reaches a place is on its wavefronts -/
theorem Arcs.on {s : St K} (ha : Arcs s) {P : Line2 K → Prop} (hw : Waves P s) {v : VId} {now : K} {p : Pt K}
    (hv : v < s.nV) (hr : Reaches s now v p) {k : KVertex K} (hk : s.vert v = .kin k) :
    ∃ a b, k.ul = some a ∧ k.ur = some b ∧ P (s.line a) ∧ P (s.line b) ∧ AtDistance (s.line a) now p ∧
      AtDistance (s.line b) now p := by
  obtain ⟨a, b, e1, e2, e3, e4⟩ := hw.lines v k hv hk
  obtain ⟨k', hk', hi, rfl, -⟩ := hr
  rw [hk] at hk'
  cases hk'
  obtain ⟨t1, t2⟩ := ha.tracks v k hv hk hi a b e1 e2 now
  exact ⟨a, b, e1, e2, e3, e4, t1, t2⟩

/-- the vertex that replaces two vertices that meet -/
theorem edgeVertex_arcs {P : Line2 K → Prop} (hP : Clear P) {t : TId} {e : Fin 3} {now : K} {step : ℤ} {s s' : St K}
    {kv : VId} {p : Pt K} (h : edgeVertex t e now step s = .ok (kv, s')) (ha : Arcs s) (hw : Waves P s)
    (hr : ∀ j, j ≠ e → Reaches s now ((s.tri t).vertices j) p)
    (hslow : ∀ k, s'.vert kv = .kin k → k.infFast = false) : Arcs s' ∧ kv = s.nV ∧ Reaches s' now kv p := by
  unfold edgeVertex at h
  obtain ⟨T, s1, h1, h⟩ := bind_run_ok.1 h
  obtain ⟨-, rfl, rfl⟩ := getT_run_ok.1 h1
  dsimp only at h
  obtain ⟨k1, s1, h1, h⟩ := bind_run_ok.1 h
  obtain ⟨hv1, hk1, rfl⟩ := getK_run_ok.1 h1
  obtain ⟨k2, s1, h1, h⟩ := bind_run_ok.1 h
  obtain ⟨hv2, hk2, rfl⟩ := getK_run_ok.1 h1
  obtain ⟨_, s1, h1, h⟩ := bind_run_ok.1 h
  obtain ⟨-, rfl⟩ := assertM_run_ok.1 h1
  obtain ⟨_, s1, h1, h⟩ := bind_run_ok.1 h
  obtain ⟨-, rfl⟩ := assertM_run_ok.1 h1
  obtain ⟨_, s1, h1, h⟩ := bind_run_ok.1 h
  obtain ⟨-, rfl⟩ := assertM_run_ok.1 h1
  obtain ⟨a, s1, h1, h⟩ := bind_run_ok.1 h
  obtain ⟨hwl, rfl⟩ := need_run_ok.1 h1
  obtain ⟨c, s1, h1, h⟩ := bind_run_ok.1 h
  obtain ⟨hwr, rfl⟩ := need_run_ok.1 h1
  obtain ⟨la, s1, h1, h⟩ := bind_run_ok.1 h
  obtain ⟨hla, rfl⟩ := getWfLine_run_ok.1 h1
  obtain ⟨lc, s1, h1, h⟩ := bind_run_ok.1 h
  obtain ⟨hlc, rfl⟩ := getWfLine_run_ok.1 h1
  obtain ⟨_, s1, h1, h⟩ := bind_run_ok.1 h
  obtain ⟨-, rfl⟩ := lift_run_ok.1 h1
  obtain ⟨pos, s1, h1, h⟩ := bind_run_ok.1 h
  have hpos := h1
  obtain rfl := tryIntersection_same h1
  obtain ⟨node, s2, h2, h⟩ := bind_run_ok.1 h
  obtain ⟨ct, s3, h3, h⟩ := bind_run_ok.1 h
  obtain ⟨-, rfl⟩ := countVertices_run_ok.1 h3
  obtain ⟨nv, s4, h4, h⟩ := bind_run_ok.1 h
  have ne1 : ccw e ≠ e := (by decide : ∀ x : Fin 3, ccw x ≠ x) e
  have ne2 : cw e ≠ e := (by decide : ∀ x : Fin 3, cw x ≠ x) e
  obtain ⟨l, m, eul, -, pl, -, d1, -⟩ := ha.on hw hv1 (hr _ ne1) hk1
  obtain ⟨m', r, -, eur, -, pr, -, d2⟩ := ha.on hw hv2 (hr _ ne2) hk2
  have o1 := (hw.own _ k1 hv1 hk1).1 a hwl
  have o2 := (hw.own _ k2 hv2 hk2).2 c hwr
  rw [eul] at o1
  rw [eur] at o2
  injection o1 with o1
  injection o2 with o2
  rw [← hla, ← hlc, ← o1, ← o2] at hpos
  have hpp := tryIntersection_meet hpos (hw.good _ pl) (hw.good _ pr) d1 d2
  obtain ⟨b1, b2, b3⟩ := stop_arcs (p := p) h2 ha (by simp) (by
    intro v hv
    simp only [List.mem_cons, List.not_mem_nil, or_false] at hv
    rcases hv with rfl | rfl
    · exact hr _ ne1
    · exact hr _ ne2) hpp
  obtain ⟨-, e2, -, -⟩ := stopAndRecord_exact h2
  have hline : s2.line = s.line := by rw [e2]
  have hnV : s2.nV = s.nV := by rw [e2]
  obtain ⟨hnv, kn, hs4, -⟩ := C30_attributes _ _ _ _ _ _ _ _ _ h4
  have hr4 : Relinked s4 s' ∧ kv = nv := by
    obtain ⟨_, s5, h5, h⟩ := bind_run_ok.1 h
    have r := Keeps.use h5 (relinked_modifyK nv _ (fun k => rfl))
    obtain ⟨_, s6, h6, h⟩ := bind_run_ok.1 h
    obtain ⟨-, -, rfl⟩ := getK_run_ok.1 h6
    obtain ⟨_, s6, h6, h⟩ := bind_run_ok.1 h
    have r := relinkedPre.trans _ _ _ r (relinked_of_mo (mo_evalPosition _ _) _ _ _ h6)
    obtain ⟨_, s7, h7, h⟩ := bind_run_ok.1 h
    obtain ⟨-, -, rfl⟩ := getK_run_ok.1 h7
    obtain ⟨_, s7, h7, h⟩ := bind_run_ok.1 h
    have r := relinkedPre.trans _ _ _ r (relinked_of_mo (mo_evalPosition _ _) _ _ _ h7)
    obtain ⟨_, s8, h8, h⟩ := bind_run_ok.1 h
    have r := relinkedPre.trans _ _ _ r (relinked_appendVertex _ _ _ _ h8)
    obtain ⟨_, s9, h9, h⟩ := bind_run_ok.1 h
    have r := relinkedPre.trans _ _ _ r (relinked_updateCirc _ _ _ _ _ _ h9)
    obtain ⟨_, s10, h10, h⟩ := bind_run_ok.1 h
    obtain ⟨-, -, rfl⟩ := getK_run_ok.1 h10
    obtain ⟨_, s10, h10, h⟩ := bind_run_ok.1 h
    have r := relinkedPre.trans _ _ _ r (relinked_updateCirc _ _ _ _ _ _ h10)
    obtain ⟨_, s11, h11, h⟩ := bind_run_ok.1 h
    have r := relinkedPre.trans _ _ _ r (relinked_of_mo (mo_checkLinks _) _ _ _ h11)
    obtain ⟨rfl, rfl⟩ := pure_run_ok.1 h
    exact ⟨r, rfl⟩
  obtain ⟨r4, rfl⟩ := hr4
  have hkn : s4.vert kv = .kin kn := by rw [hs4, hnv]; exact Function.update_self _ _ _
  suffices q : Arcs s4 ∧ Reaches s4 now kv (s2.node node).pos by
    rw [b2] at q
    exact ⟨q.1.relinked r4, hnv.trans hnV, q.2.relinked r4⟩
  refine new_arcs h4 b3 ?_ ?_ ?_ ?_
  · rintro z (hz | hz) <;> rw [hline]
    · rw [eul] at hz; cases hz; exact hw.good _ pl
    · rw [eur] at hz; cases hz; exact hw.good _ pr
  · intro z z' hz hz'
    rw [eul] at hz
    rw [eur] at hz'
    cases hz
    cases hz'
    rw [hline]
    exact hP _ _ pl pr
  · rintro z (hz | hz) <;> rw [hline, b2]
    · rw [eul] at hz; cases hz; exact d1
    · rw [eur] at hz; cases hz; exact d2
  · intro k hk
    have := r4.vert kv
    rw [hk] at this
    obtain ⟨k', q1, q2⟩ := this
    have := hslow k' q1
    unfold SameButLinks at q2
    rw [q2] at this
    exact this

theorem arcs_handleEdge {P : Line2 K → Prop} (hP : Clear P) {depth : ℕ} {evt : Event K} {step : ℤ} {s s' : St K}
    {u : Unit} (h : handleEdge depth evt step s = .ok (u, s')) (ha : Arcs s) (hw : Waves P s)
    (hr : ∀ i, evt.side = [i] → ∃ p, ∀ j, j ≠ i → Reaches s evt.time ((s.tri evt.tri).vertices j) p)
    (hslow : ∀ v k, s.nV ≤ v → v < s'.nV → s'.vert v = .kin k → k.infFast = false) :
    Arcs s' ∧ ∃ i p, evt.side = [i] ∧ (∀ j, j ≠ i → Reaches s evt.time ((s.tri evt.tri).vertices j) p) ∧
      Reaches s' evt.time s.nV p := by
  obtain ⟨e, kv, s1, s2, k, he, h1, m, hk, h2, g⟩ := handleEdge_steps h
  obtain ⟨p, hp⟩ := hr e he
  have hkv : kv = s.nV ∧ kv < s1.nV := by
    obtain ⟨_, _, _, _, _, _, s3, _, _, -, -, -, -, -, -, -, hst, -, hkv, -, hs1, -, -⟩ := (edgeVertex_steps h1).steps
    obtain ⟨-, e2, -, -⟩ := stopAndRecord_exact hst
    have : s3.nV = s.nV := by rw [e2]
    refine ⟨hkv.trans this, ?_⟩
    rw [hs1, hkv]
    exact Nat.lt_succ_self _
  have hlt2 : kv < s2.nV := by rw [m]; exact hkv.2
  have hb := g.vert kv hlt2
  rw [hk] at hb
  have hi : k.infFast = false := by
    cases q : s'.vert kv with
    | inf o => rw [q] at hb; exact hb.elim
    | kin k' =>
      rw [q] at hb
      have := hslow kv k' (Nat.le_of_eq hkv.1.symm) (Nat.lt_of_lt_of_le hlt2 g.nV) q
      have hb : SameBirth k k' := hb
      rw [← hb.infFast]
      exact this
  obtain rfl := h2 hi
  suffices q : Arcs s1 ∧ kv = s.nV ∧ Reaches s1 evt.time kv p by
    obtain ⟨q1, rfl, q3⟩ := q
    exact ⟨q1.relinked (Relinked.of_mesh m), e, p, he, hp, q3.relinked (Relinked.of_mesh m)⟩
  refine edgeVertex_arcs hP h1 ha hw hp ?_
  intro k' hk'
  have : s'.vert kv = s1.vert kv := by rw [m]
  rw [← this, hk] at hk'
  cases hk'
  exact hi

theorem SameButLinks.refs {k k' : KVertex K} (h : SameButLinks k k') :
    k'.ul = k.ul ∧ k'.ur = k.ur ∧ k'.infFast = k.infFast := by
  unfold SameButLinks at h
  rw [h]
  exact ⟨rfl, rfl, rfl⟩

/-- the two vertices that replace one that hits a side -/
theorem splitVertices_arcs {P : Line2 K → Prop} (hP : Clear P) {v v1 v2 : VId} {now : K} {step : ℤ} {s s' : St K}
    {r : VId × VId} {p : Pt K} (h : splitVertices v v1 v2 now step s = .ok (r, s')) (ha : Arcs s) (hw : Waves P s)
    (hr : Reaches s now v p)
    (hd : ∀ k a, s.vert v2 = .kin k → k.ul = some a → AtDistance (s.line a) now p)
    (hb : ∀ k, s'.vert r.1 = .kin k → k.infFast = false) (hA : ∀ k, s'.vert r.2 = .kin k → k.infFast = false) :
    Arcs s' ∧ Reaches s' now r.1 p ∧ Reaches s' now r.2 p := by
  unfold splitVertices at h
  obtain ⟨node, s2, h2, h⟩ := bind_run_ok.1 h
  obtain ⟨q1, q2, q3, q4⟩ := stopAndRecord_exact h2
  obtain ⟨hin, -⟩ := stopAndRecord_source h2
  have hline : s2.line = s.line := by rw [q2]
  have hnV : s2.nV = s.nV := by rw [q2]
  have same : ∀ w k, s2.vert w = .kin k → ∃ k0, s.vert w = .kin k0 ∧ k0.ul = k.ul ∧ k0.ur = k.ur := by
    intro w k hk
    have := q1 w
    cases q : s.vert w with
    | inf o => rw [q, hk] at this; cases this
    | kin k0 =>
      rw [q, hk] at this
      dsimp only at this
      split at this <;> cases this <;> exact ⟨_, rfl, rfl, rfl⟩
  obtain ⟨b1, b2, b3⟩ := stop_arcs (p := p) h2 ha (by simp) (by
    intro w hv
    simp only [List.mem_cons, List.not_mem_nil, or_false] at hv
    subst hv
    exact hr) (.inl rfl)
  obtain ⟨k, s3, h3, h⟩ := bind_run_ok.1 h
  obtain ⟨hv, hk, rfl⟩ := getK_run_ok.1 h3
  obtain ⟨k1, s3, h3, h⟩ := bind_run_ok.1 h
  obtain ⟨hv1, hk1, rfl⟩ := getK_run_ok.1 h3
  obtain ⟨k2, s3, h3, h⟩ := bind_run_ok.1 h
  obtain ⟨hv2, hk2, rfl⟩ := getK_run_ok.1 h3
  obtain ⟨_, s3, h3, h⟩ := bind_run_ok.1 h
  obtain ⟨h12, rfl⟩ := assertM_run_ok.1 h3
  obtain ⟨k0, hk0, e1, e2⟩ := same v k hk
  obtain ⟨k20, hk20, e3, e4⟩ := same v2 k2 hk2
  obtain ⟨l, m, eul, eur, pl, pm, d1, d2⟩ := ha.on hw (hnV ▸ hv) hr hk0
  obtain ⟨z, z', ez, -, pz, -⟩ := hw.lines v2 k20 (hnV ▸ hv2) hk20
  have dz := hd k20 z hk20 ez
  rw [e1] at eul
  rw [e2] at eur
  rw [e3] at ez
  rw [ez] at h12
  obtain ⟨ct, s3, h3, h⟩ := bind_run_ok.1 h
  obtain ⟨-, rfl⟩ := countVertices_run_ok.1 h3
  obtain ⟨vb, s4, h4, h⟩ := bind_run_ok.1 h
  obtain ⟨_, s5, h5, h⟩ := bind_run_ok.1 h
  have r5 := Keeps.use h5 (relinked_modifyK vb _ (fun k => rfl))
  obtain ⟨_, s6, h6, h⟩ := bind_run_ok.1 h
  have r6 := relinkedPre.trans _ _ _ r5 (relinked_appendVertex _ _ _ _ h6)
  obtain ⟨ct', s7, h7, h⟩ := bind_run_ok.1 h
  obtain ⟨-, rfl⟩ := countVertices_run_ok.1 h7
  obtain ⟨va, s8, h8, h⟩ := bind_run_ok.1 h
  have hr8 : Relinked s8 s' ∧ r = (vb, va) := by
    obtain ⟨_, s9, h9, h⟩ := bind_run_ok.1 h
    have r := Keeps.use h9 (relinked_modifyK va _ (fun k => rfl))
    obtain ⟨_, s10, h10, h⟩ := bind_run_ok.1 h
    have r := relinkedPre.trans _ _ _ r (relinked_appendVertex _ _ _ _ h10)
    obtain ⟨_, s11, h11, h⟩ := bind_run_ok.1 h
    have r := relinkedPre.trans _ _ _ r (relinked_updateCirc _ _ _ _ _ _ h11)
    obtain ⟨_, s12, h12, h⟩ := bind_run_ok.1 h
    have r := relinkedPre.trans _ _ _ r (relinked_updateCirc _ _ _ _ _ _ h12)
    obtain ⟨_, s13, h13, h⟩ := bind_run_ok.1 h
    have r := relinkedPre.trans _ _ _ r (relinked_of_mo (mo_checkLinks _) _ _ _ h13)
    obtain ⟨_, s14, h14, h⟩ := bind_run_ok.1 h
    have r := relinkedPre.trans _ _ _ r (relinked_updateCirc _ _ _ _ _ _ h14)
    obtain ⟨_, s15, h15, h⟩ := bind_run_ok.1 h
    obtain ⟨-, -, rfl⟩ := getK_run_ok.1 h15
    obtain ⟨_, s15, h15, h⟩ := bind_run_ok.1 h
    have r := relinkedPre.trans _ _ _ r (relinked_updateCirc _ _ _ _ _ _ h15)
    obtain ⟨_, s16, h16, h⟩ := bind_run_ok.1 h
    have r := relinkedPre.trans _ _ _ r (relinked_of_mo (mo_checkLinks _) _ _ _ h16)
    obtain ⟨rfl, rfl⟩ := pure_run_ok.1 h
    exact ⟨r, rfl⟩
  obtain ⟨r8, rfl⟩ := hr8
  obtain ⟨rfl, kb, hs4, -⟩ := C30_attributes _ _ _ _ _ _ _ _ _ h4
  obtain ⟨rfl, kA, hs8, -⟩ := C30_attributes _ _ _ _ _ _ _ _ _ h8
  have hl4 : s4.line = s.line := by rw [hs4]; exact hline
  have hn4 : s4.node = s2.node := by rw [hs4]
  have hl6 : s6.line = s.line := r6.line.trans hl4
  have hn6 : s6.node = s2.node := r6.node.trans hn4
  have hv6 : s6.nV = s2.nV + 1 := by rw [r6.nV, hs4]
  have hkb4 : s4.vert s2.nV = .kin kb := by rw [hs4]; exact Function.update_self _ _ _
  have hkA8 : s8.vert s6.nV = .kin kA := by rw [hs8]; exact Function.update_self _ _ _
  have slowA : kA.infFast = false := by
    have := r8.vert s6.nV
    rw [hkA8] at this
    obtain ⟨k', q1, q2⟩ := this
    rw [← q2.refs.2.2]
    exact hA k' q1
  have slowB : kb.infFast = false := by
    have h46 := r6.vert s2.nV
    rw [hkb4] at h46
    obtain ⟨k', q1, q2⟩ := h46
    have h68 : s8.vert s2.nV = s6.vert s2.nV := by
      rw [hs8]
      exact Function.update_of_ne (by rw [hv6]; exact Nat.ne_of_lt (Nat.lt_succ_self _)) _ _
    have := r8.vert s2.nV
    rw [h68, q1] at this
    obtain ⟨k'', q3, q4⟩ := this
    rw [← q2.refs.2.2, ← q4.refs.2.2]
    exact hb k'' q3
  have arcs4 := new_arcs h4 b3 (by
      rintro x (hx | hx) <;> rw [hline]
      · rw [eul] at hx; cases hx; exact hw.good _ pl
      · rw [ez] at hx; cases hx; exact hw.good _ pz) (by
      intro x x' hx hx'
      rw [eul] at hx
      rw [ez] at hx'
      cases hx
      cases hx'
      rw [hline]
      exact hP _ _ pl pz) (by
      rintro x (hx | hx) <;> rw [hline, b2]
      · rw [eul] at hx; cases hx; exact d1
      · rw [ez] at hx; cases hx; exact dz) (fun k' hk' => by
      rw [hkb4] at hk'
      cases hk'
      exact slowB)
  have arcs8 := new_arcs h8 (arcs4.1.relinked r6) (by
      rintro x (hx | hx) <;> rw [hl6]
      · rw [h12] at hx; cases hx; exact hw.good _ pz
      · rw [eur] at hx; cases hx; exact hw.good _ pm) (by
      intro x x' hx hx'
      rw [h12] at hx
      rw [eur] at hx'
      cases hx
      cases hx'
      rw [hl6]
      exact hP _ _ pz pm) (by
      rintro x (hx | hx) <;> rw [hl6, hn6, b2]
      · rw [h12] at hx; cases hx; exact dz
      · rw [eur] at hx; cases hx; exact d2) (fun k' hk' => by
      rw [hkA8] at hk'
      cases hk'
      exact slowA)
  obtain ⟨a4, t4⟩ := arcs4
  obtain ⟨a8, t8⟩ := arcs8
  rw [b2] at t4
  rw [hn6, b2] at t8
  refine ⟨a8.relinked r8, ?_, t8.relinked r8⟩
  obtain ⟨k', t1, t2⟩ := t4.relinked r6
  refine Spec.Reaches.relinked ⟨k', ?_, t2⟩ r8
  rw [hs8]
  exact (Function.update_of_ne (by rw [hv6]; exact Nat.ne_of_lt (Nat.lt_succ_self _)) _ _).trans t1

theorem arcs_handleSplit {P : Line2 K → Prop} (hP : Clear P) {depth : ℕ} {evt : Event K} {step : ℤ} {s s' : St K}
    {u : Unit} (h : handleSplit depth evt step s = .ok (u, s')) (ha : Arcs s) (hw : Waves P s)
    (hr : ∀ i, evt.side = [i] → ∃ p, Reaches s evt.time ((s.tri evt.tri).vertices i) p ∧
      ∀ k a, s.vert ((s.tri evt.tri).vertices (i + 2)) = .kin k → k.ul = some a → AtDistance (s.line a) evt.time p)
    (hslow : ∀ v k, s.nV ≤ v → v < s'.nV → s'.vert v = .kin k → k.infFast = false) :
    Arcs s' ∧ ∃ i p, evt.side = [i] ∧ Reaches s evt.time ((s.tri evt.tri).vertices i) p ∧
      Reaches s' evt.time s.nV p ∧ Reaches s' evt.time (s.nV + 1) p := by
  obtain ⟨e, r, s1, s2, he, h1, m, h2, g⟩ := handleSplit_steps h
  obtain ⟨p, hp, hd⟩ := hr e he
  have hrr : r = (s.nV, s.nV + 1) ∧ s1.nV = s.nV + 1 + 1 := by
    obtain ⟨_, _, _, _, s3, _, _, _, _, hst, -, -, -, -, -, -, -, -, -, -, hr, -, hs1, -⟩ := (splitVertices_steps h1).steps
    obtain ⟨-, e2, -, -⟩ := stopAndRecord_exact hst
    have : s3.nV = s.nV := by rw [e2]
    rw [this] at hr
    exact ⟨hr, by rw [hs1]; dsimp only; rw [this]⟩
  obtain ⟨rfl, hn1⟩ := hrr
  have hn2 : s2.nV = s.nV + 1 + 1 := by rw [m]; exact hn1
  have slow2 : ∀ w k, s.nV ≤ w → w < s.nV + 1 + 1 → s2.vert w = .kin k → k.infFast = false := by
    intro w k hle hlt hk
    have hb := g.vert w (by rw [hn2]; exact hlt)
    rw [hk] at hb
    cases q : s'.vert w with
    | inf o => rw [q] at hb; exact hb.elim
    | kin k' =>
      rw [q] at hb
      have hb : SameBirth k k' := hb
      rw [← hb.infFast]
      exact hslow w k' hle (Nat.lt_of_lt_of_le (by rw [hn2]; exact hlt) g.nV) q
  have l1 : s.nV < s.nV + 1 + 1 := Nat.lt_succ_of_lt (Nat.lt_succ_self _)
  obtain rfl := h2 (slow2 _ · le_rfl l1) (slow2 _ · (Nat.le_succ _) (Nat.lt_succ_self _))
  have hvv : s'.vert = s1.vert := by rw [m]
  have two : cw e = e + 2 := (by decide : ∀ i : Fin 3, cw i = i + 2) e
  suffices q : Arcs s1 ∧ Reaches s1 evt.time s.nV p ∧ Reaches s1 evt.time (s.nV + 1) p by
    obtain ⟨q1, q2, q3⟩ := q
    exact ⟨q1.relinked (Relinked.of_mesh m), e, p, he, hp, q2.relinked (Relinked.of_mesh m),
      q3.relinked (Relinked.of_mesh m)⟩
  refine splitVertices_arcs hP h1 ha hw hp (by rw [two]; exact hd) ?_ ?_
  · intro k hk
    rw [← hvv] at hk
    exact slow2 _ k le_rfl l1 hk
  · intro k hk
    rw [← hvv] at hk
    exact slow2 _ k (Nat.le_succ _) (Nat.lt_succ_self _) hk

theorem arcs_handleEdge3 {evt : Event K} {step : ℤ} {s s' : St K} {u : Unit}
    (h : handleEdge3 evt step s = .ok (u, s')) (ha : Arcs s) {p : Pt K}
    (hr : ∀ j, Reaches s evt.time ((s.tri evt.tri).vertices j) p) : Arcs s' := by
  unfold handleEdge3 at h
  obtain ⟨_, s1, h1, h⟩ := bind_run_ok.1 h
  obtain ⟨-, rfl⟩ := assertM_run_ok.1 h1
  obtain ⟨T, s1, h1, h⟩ := bind_run_ok.1 h
  obtain ⟨-, rfl, rfl⟩ := getT_run_ok.1 h1
  obtain ⟨n, s1, h1, h⟩ := bind_run_ok.1 h
  obtain ⟨_, s2, h2, h⟩ := bind_run_ok.1 h
  have m2 : MeshOnly s1 s2 := Keeps.forEach meshPre (fun i => mo_threeSidesNeighbour evt.tri evt.time i) _ _ _ _ h2
  have m3 := meshPre.trans _ _ _ m2 (mo_stopTriangle _ _ _ _ _ h)
  refine (stop_arcs (p := p) h1 ha (by simp) (fun v hv => ?_) (.inl rfl)).2.2.relinked (Relinked.of_mesh m3)
  simp only [List.mem_cons, List.not_mem_nil, or_false] at hv
  rcases hv with rfl | rfl | rfl <;> exact hr _

theorem arcs_handleEdge1 {P : Line2 K → Prop} (hP : Clear P) {evt : Event K} {step : ℤ} {s s' : St K} {u : Unit}
    (h : handleEdge1 evt step s = .ok (u, s')) (ha : Arcs s) (hw : Waves P s) {p : Pt K}
    (hr : ∀ j, Reaches s evt.time ((s.tri evt.tri).vertices j) p)
    (hslow : ∀ v k, s.nV ≤ v → v < s'.nV → s'.vert v = .kin k → k.infFast = false) : Arcs s' := by
  have horig := h
  unfold handleEdge1 at h
  obtain ⟨e, s1, h1, h⟩ := bind_run_ok.1 h
  obtain ⟨he, rfl⟩ := singleSide_run_ok h1
  obtain ⟨T, s1, h1, h⟩ := bind_run_ok.1 h
  obtain ⟨-, rfl, rfl⟩ := getT_run_ok.1 h1
  obtain ⟨n, s1, h1, h⟩ := bind_run_ok.1 h
  obtain ⟨q1, q2, q3, q4⟩ := stopAndRecord_exact h1
  have hline : s1.line = s.line := by rw [q2]
  have hnV : s1.nV = s.nV := by rw [q2]
  obtain ⟨b1, b2, b3⟩ := stop_arcs (p := p) h1 ha (by simp) (by
    intro w hv
    simp only [List.mem_cons, List.not_mem_nil, or_false] at hv
    rcases hv with rfl | rfl <;> exact hr _) (.inl rfl)
  have same : ∀ w k, s1.vert w = .kin k → ∃ k0, s.vert w = .kin k0 ∧ k0.ul = k.ul ∧ k0.ur = k.ur := by
    intro w k hk
    have := q1 w
    cases q : s.vert w with
    | inf o => rw [q, hk] at this; cases this
    | kin k0 =>
      rw [q, hk] at this
      dsimp only at this
      split at this <;> cases this <;> exact ⟨_, rfl, rfl, rfl⟩
  obtain ⟨k1, s3, h3, h⟩ := bind_run_ok.1 h
  obtain ⟨hv1, hk1, rfl⟩ := getK_run_ok.1 h3
  obtain ⟨k2, s3, h3, h⟩ := bind_run_ok.1 h
  obtain ⟨hv2, hk2, rfl⟩ := getK_run_ok.1 h3
  obtain ⟨ct, s3, h3, h⟩ := bind_run_ok.1 h
  obtain ⟨-, rfl⟩ := countVertices_run_ok.1 h3
  obtain ⟨kv, s4, h4, h⟩ := bind_run_ok.1 h
  obtain ⟨_, s5, h5, h⟩ := bind_run_ok.1 h
  have r5 := relinked_appendVertex _ _ _ _ h5
  obtain ⟨n2, s6, h6, h⟩ := bind_run_ok.1 h
  have m7 := mo_stopTriangle _ _ _ _ _ h
  obtain ⟨k10, hk10, e1, -⟩ := same _ k1 hk1
  obtain ⟨k20, hk20, -, e2⟩ := same _ k2 hk2
  obtain ⟨l, m, eul, -, pl, -, d1, -⟩ := ha.on hw (hnV ▸ hv1) (hr _) hk10
  obtain ⟨m', r, -, eur, -, pr, -, d2⟩ := ha.on hw (hnV ▸ hv2) (hr _) hk20
  rw [e1] at eul
  rw [e2] at eur
  obtain ⟨rfl, kn, hs4, -⟩ := C30_attributes _ _ _ _ _ _ _ _ _ h4
  have hkn : s4.vert s1.nV = .kin kn := by rw [hs4]; exact Function.update_self _ _ _
  obtain ⟨p1, p2, p3, p4⟩ := stopAndRecord_exact h6
  have hv46 : ∀ w, s5.vert w = s4.vert w := by
    intro w
    obtain rfl := appendVertex_run_ok.1 h5
    rfl
  have slow : kn.infFast = false := by
    have e6 := p1 s1.nV
    rw [hv46, hkn] at e6
    dsimp only at e6
    rw [if_pos (by simp)] at e6
    have e7 : s'.vert s1.nV = s6.vert s1.nV := by rw [m7]
    have hn6 : s6.nV = s5.nV := by rw [p2]
    have hn7 : s'.nV = s6.nV := by rw [m7]
    have := hslow s1.nV _ (Nat.le_of_eq hnV.symm)
      (by rw [hn7, hn6, r5.nV, hs4]; exact Nat.lt_succ_self _) (e7.trans e6)
    exact this
  obtain ⟨A4, R4⟩ := new_arcs h4 b3 (by
      rintro x (hx | hx) <;> rw [hline]
      · rw [eul] at hx; cases hx; exact hw.good _ pl
      · rw [eur] at hx; cases hx; exact hw.good _ pr) (by
      intro x x' hx hx'
      rw [eul] at hx
      rw [eur] at hx'
      cases hx
      cases hx'
      rw [hline]
      exact hP _ _ pl pr) (by
      rintro x (hx | hx) <;> rw [hline, b2]
      · rw [eul] at hx; cases hx; exact d1
      · rw [eur] at hx; cases hx; exact d2) (fun k' hk' => by
      rw [hkn] at hk'
      cases hk'
      exact slow)
  rw [b2] at R4
  refine (stop_arcs (p := p) h6 (A4.relinked r5) (by simp) (fun w hw' => ?_) (.inl rfl)).2.2.relinked (Relinked.of_mesh m7)
  simp only [List.mem_cons, List.not_mem_nil, or_false] at hw'
  rcases hw' with rfl | rfl
  · -- the third corner
    obtain ⟨k0, c1, c2, c3, c4, c5⟩ := hr e
    by_cases hnew : (s.tri evt.tri).vertices e = s1.nV
    · rw [hnew]
      obtain ⟨k', g1, g2⟩ := R4
      exact ⟨k', (hv46 _).trans g1, g2⟩
    · have e5 : s5.vert ((s.tri evt.tri).vertices e) = s1.vert ((s.tri evt.tri).vertices e) := by
        rw [hv46, hs4]
        exact Function.update_of_ne hnew _ _
      have e1' := q1 ((s.tri evt.tri).vertices e)
      rw [c1] at e1'
      dsimp only at e1'
      split at e1'
      · exact ⟨_, e5.trans e1', c2, c3, fun t ht => by cases ht; rfl, c5⟩
      · exact ⟨_, e5.trans e1', c2, c3, c4, c5⟩
  · obtain ⟨k', g1, g2⟩ := R4
    exact ⟨k', (hv46 _).trans g1, g2⟩

theorem arcs_handleEvent {P : Line2 K → Prop} (hP : Clear P) {depth : ℕ} {evt : Event K} {step : ℤ} {s s' : St K}
    {u : Unit} (h : handleEvent depth evt step s = .ok (u, s')) (ha : Arcs s) (hw : Waves P s)
    (he : (s.tri evt.tri).stopsAt = none → Exact s s' evt) : Arcs s' := by
  unfold handleEvent at h
  obtain ⟨T, s1, h1, h⟩ := bind_run_ok.1 h
  obtain ⟨-, rfl, rfl⟩ := getT_run_ok.1 h1
  by_cases hst : (s.tri evt.tri).stopsAt.isSome = true
  · rw [if_pos hst] at h
    obtain rfl := (pure_run_ok.1 h).2
    exact ha
  rw [if_neg hst] at h
  have he := he (by cases q : (s.tri evt.tri).stopsAt <;> simp_all)
  cases htp : evt.tp with
  | edge =>
    rw [htp] at h
    dsimp only at h
    by_cases h3 : evt.side.length = 3
    · rw [if_pos h3] at h
      obtain ⟨p, hp⟩ := he.three htp (.inl h3)
      exact arcs_handleEdge3 h ha hp
    rw [if_neg h3] at h
    by_cases h1 : evt.side.length = 1 ∧ (s.tri evt.tri).type = 3
    · rw [if_pos h1] at h
      have hn := (count3_three _).1 h1.2
      obtain ⟨p, hp⟩ := he.three htp (.inr fun i => Option.isNone_iff_eq_none.1 (hn i))
      exact arcs_handleEdge1 hP h ha hw hp he.slow
    rw [if_neg h1] at h
    by_cases h2 : evt.side.length = 2
    · rw [if_pos h2] at h; cases h
    rw [if_neg h2] at h
    exact (arcs_handleEdge hP h ha hw (he.edge htp) he.slow).1
  | flip =>
    rw [htp] at h
    exact ha.relinked (Relinked.of_mesh (mo_handleFlip _ _ _ _ h))
  | split =>
    rw [htp] at h
    exact (arcs_handleSplit hP h ha hw (he.split htp) he.slow).1

theorem arcs_loopStep {P : Line2 K → Prop} (hP : Clear P) {depth : ℕ} {step : ℤ} {now now' : K} {s s' : St K}
    {e : Event K} (h : loopStep depth step now s = .ok (some (e, now'), s')) (ha : Arcs s) (hw : Waves P s)
    (he : (s.tri e.tri).stopsAt = none → Exact s s' e) : Arcs s' := by
  obtain ⟨s1, h1, h2⟩ := loopStep_some h
  obtain ⟨q, i, rfl⟩ : ∃ q i, s1 = { s with queue := q, immediate := i } := by
    unfold takeEvent at h1
    split at h1
    · cases h1; exact ⟨_, _, rfl⟩
    · split at h1 <;> cases h1
      exact ⟨_, _, rfl⟩
  refine arcs_handleEvent hP h2 (ha.relinked (Relinked.of_mesh rfl)) (hw.quiet (quiet_queues s q i)) fun hs => ?_
  obtain ⟨e1, e2, e3, e4⟩ := he hs
  exact ⟨e1, e2, e3, e4⟩

end Grassfire
