/-
Property C26: flipping an edge.
-/
import Verif.Proofs.FlipLemmas
import Verif.Spec.Triangulation
import Verif.Spec.Samples

set_option linter.unusedSectionVars false

namespace Grassfire

open Spec

variable {K : Type} [Field K] [LinearOrder K]

/-- The situation before a flip: `t0` and `t1`, two triangles of a consistent triangulation, share
the edge from `B` to `D`, which is side `s0` of `t0` and side `s1` of `t1`; their apexes are `A`
and `C`. -/
structure SharedEdge (P : TId → Prop) (s : St K) (t0 : TId) (s0 : Fin 3) (t1 : TId) (s1 : Fin 3)
    (A B C D : VId) : Prop where
  consistent : Consistent P s
  p0 : P t0
  n0 : (s.tri t0).neighbours s0 = some t1
  n1 : (s.tri t1).neighbours s1 = some t0
  a : (s.tri t0).vertices s0 = A
  b0 : (s.tri t0).vertices (s0 + 1) = B
  d0 : (s.tri t0).vertices (s0 + 2) = D
  c : (s.tri t1).vertices s1 = C
  d1 : (s.tri t1).vertices (s1 + 1) = D
  b1 : (s.tri t1).vertices (s1 + 2) = B
  apexes : A ≠ C

theorem inj_of_sides {s : St K} {t : TId} (h : Function.Injective (s.tri t).vertices) (i : Fin 3) :
    (s.tri t).vertices i ≠ (s.tri t).vertices (ccw i) ∧
    (s.tri t).vertices i ≠ (s.tri t).vertices (cw i) ∧
    (s.tri t).vertices (ccw i) ≠ (s.tri t).vertices (cw i) :=
  ⟨fun e => ccw_ne i (h e).symm, fun e => cw_ne i (h e).symm, fun e => cw_ne_ccw i (h e).symm⟩

/-- the side of an outer neighbour -/
theorem Spec.Consistent.back {P : TId → Prop} {s : St K} (h : Consistent P s) {t n : TId} (ht : P t)
    {i : Fin 3} (hn : (s.tri t).neighbours i = some n) :
    P n ∧ n < s.nT ∧ ∃ j, (s.tri n).vertices (ccw j) = (s.tri t).vertices (cw i) ∧
      (s.tri n).vertices (cw j) = (s.tri t).vertices (ccw i) ∧ (s.tri n).neighbours j = some t := by
  obtain ⟨_, _, h3⟩ := h t ht
  obtain ⟨pn, j, h5, h6, h7⟩ := h3 _ _ n ⟨i, rfl, rfl, hn⟩
  exact ⟨pn, (h n pn).1, j, h5, h6, h7⟩

section
variable {P : TId → Prop} {s : St K} {t0 t1 : TId} {s0 s1 : Fin 3} {A B C D : VId}

theorem SharedEdge.corners (h : SharedEdge P s t0 s0 t1 s1 A B C D) :
    A ≠ B ∧ A ≠ D ∧ B ≠ D ∧ C ≠ D ∧ C ≠ B := by
  have p1 := (h.consistent.back h.p0 h.n0).1
  obtain ⟨x1, x2, x3⟩ := inj_of_sides (h.consistent t0 h.p0).2.1 s0
  obtain ⟨y1, y2, _⟩ := inj_of_sides (h.consistent t1 p1).2.1 s1
  have := h.a; have := h.b0; have := h.d0; have := h.c; have := h.d1; have := h.b1
  unfold ccw cw at *
  subst_vars
  refine ⟨x1, x2, x3, ?_, ?_⟩ <;> simp_all

theorem SharedEdge.p1 (h : SharedEdge P s t0 s0 t1 s1 A B C D) : P t1 :=
  (h.consistent.back h.p0 h.n0).1

theorem SharedEdge.ne (h : SharedEdge P s t0 s0 t1 s1 A B C D) : t0 ≠ t1 := by
  intro e
  obtain ⟨c1, c2, c3, c4, c5⟩ := h.corners
  have hi := (h.consistent t0 h.p0).2.1
  have hc := h.c
  rw [← e] at hc
  rcases three_sides s0 s1 with e1 | e1 | e1
  · rw [e1, h.a] at hc; exact h.apexes hc
  · rw [e1] at hc; exact c5 (hc.symm.trans h.b0)
  · rw [e1] at hc; exact c4 (hc.symm.trans h.d0)

theorem SharedEdge.flippable (h : SharedEdge P s t0 s0 t1 s1 A B C D) : Flippable t0 s0 t1 s1 s where
  lt0 := (h.consistent t0 h.p0).1
  lt1 := (h.consistent t1 h.p1).1
  od := h.b0.trans h.b1.symm
  do_ := h.d0.trans h.d1.symm
  n0 := by rw [h.n0]; rfl
  n1 := by rw [h.n1]; rfl
  ab := fun n hn => by
    obtain ⟨_, h2, j, h3, h4, _⟩ := h.consistent.back h.p0 hn
    exact ⟨h2, _, by rw [h4, ccw_cw]⟩
  bc := fun n hn => by
    obtain ⟨_, h2, j, h3, h4, _⟩ := h.consistent.back h.p1 hn
    exact ⟨h2, cw j, by rw [h4, ccw_ccw]; exact h.b1.trans h.b0.symm⟩
  cd := fun n hn => by
    obtain ⟨_, h2, j, h3, h4, _⟩ := h.consistent.back h.p1 hn
    exact ⟨h2, cw j, by rw [h4, ccw_cw]⟩
  da := fun n hn => by
    obtain ⟨_, h2, j, h3, h4, _⟩ := h.consistent.back h.p0 hn
    exact ⟨h2, cw j, by rw [h4, ccw_ccw]⟩

/-- the outer triangles of the two are neither of the two -/
theorem SharedEdge.outside0 (h : SharedEdge P s t0 s0 t1 s1 A B C D) {i : Fin 3} (hi : i ≠ s0) {n : TId}
    (hn : (s.tri t0).neighbours i = some n) : n ≠ t0 ∧ n ≠ t1 := by
  obtain ⟨c1, c2, c3, c4, c5⟩ := h.corners
  obtain ⟨pn, _, j, h3, h4, h5⟩ := h.consistent.back h.p0 hn
  have hin := (h.consistent n pn).2.1
  constructor
  · rintro rfl
    exact no_reverse (hin h3) (hin h4)
  · rintro rfl
    have hA : ∃ k, (s.tri n).vertices k = A := by
      rcases three_sides s0 i with e | e | e
      · exact absurd e hi
      · subst e
        exact ⟨_, h3.trans (by rw [cw_ccw]; exact h.a)⟩
      · subst e
        exact ⟨_, h4.trans (by rw [ccw_cw]; exact h.a)⟩
    obtain ⟨k, hk⟩ := hA
    rcases three_sides s1 k with e | e | e
    · subst e; exact h.apexes (hk.symm.trans h.c)
    · subst e; exact c2 (hk.symm.trans h.d1)
    · subst e; exact c1 (hk.symm.trans h.b1)

/-- seen from the other side -/
theorem SharedEdge.symm (h : SharedEdge P s t0 s0 t1 s1 A B C D) :
    SharedEdge P s t1 s1 t0 s0 C D A B where
  consistent := h.consistent
  p0 := h.p1
  n0 := h.n1
  n1 := h.n0
  a := h.c
  b0 := h.d1
  d0 := h.b1
  c := h.a
  d1 := h.b0
  b1 := h.d0
  apexes := h.apexes.symm

theorem SharedEdge.outside1 (h : SharedEdge P s t0 s0 t1 s1 A B C D) {i : Fin 3} (hi : i ≠ s1) {n : TId}
    (hn : (s.tri t1).neighbours i = some n) : n ≠ t0 ∧ n ≠ t1 :=
  (h.symm.outside0 hi hn).symm

/-- C26: flipping a shared edge of a consistent triangulation succeeds.  Afterwards the two triangles
have the corners A, B, C and C, D, A (in this order, i.e. the orientation is kept); they are
neighbours over the new diagonal and have the old neighbours over the four outer sides, wavefront
edges included. -/
theorem C26_pair (h : SharedEdge P s t0 s0 t1 s1 A B C D) :
    ∃ s', flip t0 s0 t1 s1 s = .ok ((), s') ∧
      ((s'.tri t0).vertices 0 = A ∧ (s'.tri t0).vertices 1 = B ∧ (s'.tri t0).vertices 2 = C) ∧
      ((s'.tri t1).vertices 0 = C ∧ (s'.tri t1).vertices 1 = D ∧ (s'.tri t1).vertices 2 = A) ∧
      HasSide (s'.tri t0) C A (some t1) ∧ HasSide (s'.tri t1) A C (some t0) ∧
      (∀ n, HasSide (s.tri t0) A B n → HasSide (s'.tri t0) A B n) ∧
      (∀ n, HasSide (s.tri t1) B C n → HasSide (s'.tri t0) B C n) ∧
      (∀ n, HasSide (s.tri t1) C D n → HasSide (s'.tri t1) C D n) ∧
      (∀ n, HasSide (s.tri t0) D A n → HasSide (s'.tri t1) D A n) := by
  have hne := h.ne
  obtain ⟨c1, c2, c3, c4, c5⟩ := h.corners
  have i0 := (h.consistent t0 h.p0).2.1
  have i1 := (h.consistent t1 h.p1).2.1
  have ha := h.a; have hb := h.b0; have hd := h.d0; have hc := h.c; have hd1 := h.d1; have hb1 := h.b1
  have e0 : flipTri t0 s0 t1 s1 s t0 = { linkAround t0 s0 t1 s1 s t0 with
      vertices := ![A, B, C]
      neighbours := ![(s.tri t1).neighbours (ccw s1), some t1, (s.tri t0).neighbours (cw s0)] } := by
    unfold flipTri
    rw [if_neg hne, if_pos rfl]
    unfold ccw cw
    rw [ha, hb, hc]
  have e1 : flipTri t0 s0 t1 s1 s t1 = { linkAround t0 s0 t1 s1 s t1 with
      vertices := ![C, D, A]
      neighbours := ![(s.tri t0).neighbours (ccw s0), some t0, (s.tri t1).neighbours (cw s1)] } := by
    unfold flipTri
    rw [if_pos rfl]
    unfold ccw cw
    rw [ha, hc, hd]
  refine ⟨_, flip_run hne h.flippable, ?_⟩
  dsimp only
  rw [e0, e1]
  have get : ∀ {T : KTri K} {a b : VId} {n : Option TId} (i : Fin 3), Function.Injective T.vertices →
      T.vertices (i + 1) = a → HasSide T a b n → T.neighbours i = n := by
    rintro T a b n i hi h1 ⟨j, h2, _, h4⟩
    have : i + 1 = j + 1 := hi (h1.trans h2.symm)
    have : i = j := by simpa using this
    rw [this, h4]
  refine ⟨⟨rfl, rfl, rfl⟩, ⟨rfl, rfl, rfl⟩, ⟨1, rfl, rfl, rfl⟩, ⟨1, rfl, rfl, rfl⟩, ?_, ?_, ?_, ?_⟩
  · intro n hn
    refine ⟨2, rfl, rfl, ?_⟩
    exact get (cw s0) i0 (by change (s.tri t0).vertices (ccw (cw s0)) = A; rw [ccw_cw]; exact ha) hn
  · intro n hn
    refine ⟨0, rfl, rfl, ?_⟩
    exact get (ccw s1) i1 (by change (s.tri t1).vertices (ccw (ccw s1)) = B; rw [ccw_ccw]; exact hb1) hn
  · intro n hn
    refine ⟨2, rfl, rfl, ?_⟩
    exact get (cw s1) i1 (by change (s.tri t1).vertices (ccw (cw s1)) = C; rw [ccw_cw]; exact hc) hn
  · intro n hn
    refine ⟨0, rfl, rfl, ?_⟩
    exact get (ccw s0) i0 (by change (s.tri t0).vertices (ccw (ccw s0)) = D; rw [ccw_ccw]; exact hd) hn

/-- neighbours of an outer triangle after the flip -/
theorem flip_outer (h : SharedEdge P s t0 s0 t1 s1 A B C D) {u : TId} (pu : P u) (h0 : u ≠ t0) (h1 : u ≠ t1)
    (i : Fin 3) :
    (flipTri t0 s0 t1 s1 s u).vertices = (s.tri u).vertices ∧
    ((s.tri u).neighbours i ≠ some t0 ∧ (s.tri u).neighbours i ≠ some t1 ∧
      (flipTri t0 s0 t1 s1 s u).neighbours i = (s.tri u).neighbours i ∨
    (s.tri u).neighbours i = some t0 ∧ (s.tri u).vertices (cw i) = A ∧ (s.tri u).vertices (ccw i) = B ∧
      (s.tri t0).neighbours (cw s0) = some u ∧
      (flipTri t0 s0 t1 s1 s u).neighbours i = some t0 ∨
    (s.tri u).neighbours i = some t1 ∧ (s.tri u).vertices (cw i) = B ∧ (s.tri u).vertices (ccw i) = C ∧
      (s.tri t1).neighbours (ccw s1) = some u ∧
      (flipTri t0 s0 t1 s1 s u).neighbours i = some t0 ∨
    (s.tri u).neighbours i = some t1 ∧ (s.tri u).vertices (cw i) = C ∧ (s.tri u).vertices (ccw i) = D ∧
      (s.tri t1).neighbours (cw s1) = some u ∧
      (flipTri t0 s0 t1 s1 s u).neighbours i = some t1 ∨
    (s.tri u).neighbours i = some t0 ∧ (s.tri u).vertices (cw i) = D ∧ (s.tri u).vertices (ccw i) = A ∧
      (s.tri t0).neighbours (ccw s0) = some u ∧
      (flipTri t0 s0 t1 s1 s u).neighbours i = some t1) := by
  have ef : flipTri t0 s0 t1 s1 s u = linkAround t0 s0 t1 s1 s u := by
    unfold flipTri; rw [if_neg h1, if_neg h0]
  rw [ef]
  obtain ⟨ns, hns⟩ := linkAround_rest t0 s0 t1 s1 s u
  refine ⟨by rw [hns], ?_⟩
  obtain ⟨c1, c2, c3, c4, c5⟩ := h.corners
  have c6 := h.apexes
  have iu := (h.consistent u pu).2.1
  rw [linkAround_neighbours t0 s0 t1 s1 s u iu i]
  have ha := h.a; have hb := h.b0; have hd := h.d0; have hc := h.c; have hd1 := h.d1; have hb1 := h.b1
  change (s.tri t0).vertices (ccw s0) = B at hb
  change (s.tri t0).vertices (cw s0) = D at hd
  change (s.tri t1).vertices (ccw s1) = D at hd1
  change (s.tri t1).vertices (cw s1) = B at hb1
  rw [ha, hb, hd, hc]
  -- the pointer from the pair to `u` at the corner `X` belongs to this side
  have key : ∀ {t : TId} {k : Fin 3}, P t → (s.tri t).neighbours k = some u →
      (s.tri u).vertices (cw i) = (s.tri t).vertices (ccw k) → (s.tri u).neighbours i = some t ∧
        (s.tri u).vertices (ccw i) = (s.tri t).vertices (cw k) := by
    intro t k pt hk hv
    obtain ⟨_, _, j, h3, h4, h5⟩ := h.consistent.back pt hk
    have : cw i = cw j := iu (hv.trans h4.symm)
    have : i = j := cw_inj this
    subst this
    exact ⟨h5, h3⟩
  by_cases n0 : (s.tri u).neighbours i = some t0
  · obtain ⟨_, _, k, h3, h4, h5⟩ := h.consistent.back pu n0
    rcases three_sides s0 k with e | e | e
    · subst e
      rw [h.n0] at h5
      exact absurd (Option.some.inj h5).symm h1
    · subst e
      rw [ccw_ccw, hd] at h3
      rw [cw_ccw, ha] at h4
      refine .inr (.inr (.inr (.inr ⟨n0, h3.symm, h4.symm, h5, ?_⟩)))
      rw [if_pos ⟨h5, h3.symm⟩]
    · subst e
      rw [ccw_cw, ha] at h3
      rw [cw_cw, hb] at h4
      refine .inr (.inl ⟨n0, h3.symm, h4.symm, h5, ?_⟩)
      rw [← h3, if_neg (fun x => c2 x.2), if_neg (fun x => c6 x.2), if_neg (fun x => c1 x.2),
        if_pos ⟨h5, rfl⟩]
  · by_cases n1 : (s.tri u).neighbours i = some t1
    · obtain ⟨_, _, k, h3, h4, h5⟩ := h.consistent.back pu n1
      rcases three_sides s1 k with e | e | e
      · subst e
        rw [h.n1] at h5
        exact absurd (Option.some.inj h5).symm h0
      · subst e
        rw [ccw_ccw, hb1] at h3
        rw [cw_ccw, hc] at h4
        refine .inr (.inr (.inl ⟨n1, h3.symm, h4.symm, h5, ?_⟩))
        rw [← h3, if_neg (fun x => c3 x.2), if_neg (fun x => c5 x.2.symm), if_pos ⟨h5, rfl⟩]
      · subst e
        rw [ccw_cw, hc] at h3
        rw [cw_cw, hd1] at h4
        refine .inr (.inr (.inr (.inl ⟨n1, h3.symm, h4.symm, h5, ?_⟩)))
        rw [← h3, if_neg (fun x => c4 x.2), if_pos ⟨h5, rfl⟩]
    · refine .inl ⟨n0, n1, ?_⟩
      rw [if_neg, if_neg, if_neg, if_neg]
      · rintro ⟨x, y⟩
        exact n0 (key h.p0 x (by rw [ccw_cw, ha]; exact y)).1
      · rintro ⟨x, y⟩
        exact n1 (key h.p1 x (by rw [ccw_ccw, hb1]; exact y)).1
      · rintro ⟨x, y⟩
        exact n1 (key h.p1 x (by rw [ccw_cw, hc]; exact y)).1
      · rintro ⟨x, y⟩
        exact n0 (key h.p0 x (by rw [ccw_ccw, hd]; exact y)).1

/-- C26: nothing but these pointers changes: all other triangles keep their corners; their
neighbours that are not in the pair are unchanged and those in the pair stay in the pair; no
triangle changes its event, number, stop time or mark; no vertex, node, queue, ... is
changed. -/
theorem C26_frame (h : SharedEdge P s t0 s0 t1 s1 A B C D) {s' : St K}
    (hr : flip t0 s0 t1 s1 s = .ok ((), s')) :
    (∀ u, P u → u ≠ t0 → u ≠ t1 → (s'.tri u).vertices = (s.tri u).vertices ∧ ∀ i,
      ((s.tri u).neighbours i ≠ some t0 → (s.tri u).neighbours i ≠ some t1 →
        (s'.tri u).neighbours i = (s.tri u).neighbours i) ∧
      ((s.tri u).neighbours i = some t0 ∨ (s.tri u).neighbours i = some t1 →
        (s'.tri u).neighbours i = some t0 ∨ (s'.tri u).neighbours i = some t1)) ∧
    (∀ u, ¬ P u → s'.tri u = s.tri u) ∧
    (∀ u, ∃ vs ns, s'.tri u = { s.tri u with vertices := vs, neighbours := ns }) ∧
    { s' with tri := s.tri } = s := by
  rw [flip_run h.ne h.flippable] at hr
  simp only [Except.ok.injEq, Prod.mk.injEq, true_and] at hr
  subst hr
  refine ⟨fun u pu h0 h1 => ⟨(flip_outer h pu h0 h1 0).1, fun i => ?_⟩, fun u pu => ?_, fun u => ?_, rfl⟩
  · obtain ⟨_, ho⟩ := flip_outer h pu h0 h1 i
    constructor
    · intro a b
      rcases ho with ho | ho | ho | ho | ho
      · exact ho.2.2
      · exact absurd ho.1 a
      · exact absurd ho.1 b
      · exact absurd ho.1 b
      · exact absurd ho.1 a
    · intro a
      rcases ho with ho | ho | ho | ho | ho
      · exact absurd a (by simp [ho.1, ho.2.1])
      · exact .inl ho.2.2.2.2
      · exact .inl ho.2.2.2.2
      · exact .inr ho.2.2.2.2
      · exact .inr ho.2.2.2.2
  · have h0 : u ≠ t0 := by rintro rfl; exact pu h.p0
    have h1 : u ≠ t1 := by rintro rfl; exact pu h.p1
    show flipTri t0 s0 t1 s1 s u = s.tri u
    unfold flipTri
    rw [if_neg h1, if_neg h0]
    have no : ∀ {t : TId} {k : Fin 3}, P t → (s.tri t).neighbours k ≠ some u :=
      fun pt hk => pu (h.consistent.back pt hk).1
    have step : ∀ {nb : Option TId} (side : Option (Fin 3)) (t : TId) (f : TId → KTri K), nb ≠ some u →
        linkTri nb side t f u = f u := by
      intro nb side t f hn
      unfold linkTri
      split
      · rename_i n i
        have : u ≠ n := by rintro rfl; exact hn rfl
        simp [this]
      · rfl
    unfold linkAround
    rw [step _ _ _ (no h.p0), step _ _ _ (no h.p1), step _ _ _ (no h.p1), step _ _ _ (no h.p0)]
  · obtain ⟨ns, hns⟩ := linkAround_rest t0 s0 t1 s1 s u
    show ∃ vs ns, flipTri t0 s0 t1 s1 s u = _
    unfold flipTri
    split_ifs with e1 e0
    · subst e1; rw [hns]; exact ⟨_, _, rfl⟩
    · subst e0; rw [hns]; exact ⟨_, _, rfl⟩
    · rw [hns]; exact ⟨_, _, rfl⟩

/-- C26: the triangulation stays consistent: all corners distinct, all neighbours mutual. -/
theorem C26_consistent (h : SharedEdge P s t0 s0 t1 s1 A B C D) {s' : St K}
    (hr : flip t0 s0 t1 s1 s = .ok ((), s')) : Consistent P s' := by
  rw [flip_run h.ne h.flippable] at hr
  simp only [Except.ok.injEq, Prod.mk.injEq, true_and] at hr
  subst hr
  obtain ⟨c1, c2, c3, c4, c5⟩ := h.corners
  have c6 := h.apexes
  have hne := h.ne
  have ha := h.a; have hb := h.b0; have hd := h.d0; have hc := h.c; have hd1 := h.d1; have hb1 := h.b1
  change (s.tri t0).vertices (ccw s0) = B at hb
  change (s.tri t0).vertices (cw s0) = D at hd
  change (s.tri t1).vertices (ccw s1) = D at hd1
  change (s.tri t1).vertices (cw s1) = B at hb1
  have e0 : flipTri t0 s0 t1 s1 s t0 = { linkAround t0 s0 t1 s1 s t0 with
      vertices := ![A, B, C]
      neighbours := ![(s.tri t1).neighbours (ccw s1), some t1, (s.tri t0).neighbours (cw s0)] } := by
    unfold flipTri
    rw [if_neg hne, if_pos rfl, ha, hb, hc]
  have e1 : flipTri t0 s0 t1 s1 s t1 = { linkAround t0 s0 t1 s1 s t1 with
      vertices := ![C, D, A]
      neighbours := ![(s.tri t0).neighbours (ccw s0), some t0, (s.tri t1).neighbours (cw s1)] } := by
    unfold flipTri
    rw [if_pos rfl, ha, hc, hd]
  -- an outer neighbour of the pair points back
  have out : ∀ {t n : TId} {k : Fin 3}, P t → (s.tri t).neighbours k = some n → n ≠ t0 → n ≠ t1 →
      P n ∧ ∃ j, (s.tri n).vertices (ccw j) = (s.tri t).vertices (cw k) ∧
        (s.tri n).vertices (cw j) = (s.tri t).vertices (ccw k) ∧ (s.tri n).neighbours j = some t := by
    intro t n k pt hk _ _
    obtain ⟨pn, _, j, h3, h4, h5⟩ := h.consistent.back pt hk
    exact ⟨pn, j, h3, h4, h5⟩
  intro t pt
  refine ⟨(h.consistent t pt).1, ?_, ?_⟩
  · show Function.Injective (flipTri t0 s0 t1 s1 s t).vertices
    by_cases h0 : t = t0
    · subst h0
      rw [e0]
      exact inj3 c1 c6 c5.symm
    · by_cases h1 : t = t1
      · subst h1
        rw [e1]
        exact inj3 c4 c6.symm c2.symm
      · rw [(flip_outer h pt h0 h1 0).1]
        exact (h.consistent t pt).2.1
  · rintro a b n ⟨i, hia, hib, hin⟩
    change (flipTri t0 s0 t1 s1 s t).vertices (ccw i) = a at hia
    change (flipTri t0 s0 t1 s1 s t).vertices (cw i) = b at hib
    change (flipTri t0 s0 t1 s1 s t).neighbours i = some n at hin
    show P n ∧ HasSide (flipTri t0 s0 t1 s1 s n) b a (some t)
    by_cases h0 : t = t0
    · subst h0
      rw [e0] at hia hib hin
      match i, hia, hib, hin with
      | 0, hia, hib, hin =>
        -- side BC
        change B = a at hia
        change C = b at hib
        change (s.tri t1).neighbours (ccw s1) = some n at hin
        obtain ⟨n0, n1⟩ := h.outside1 (ccw_ne s1) hin
        obtain ⟨pn, j, h3, h4, h5⟩ := out h.p1 hin n0 n1
        rw [cw_ccw, hc] at h3
        rw [ccw_ccw, hb1] at h4
        obtain ⟨hv, ho⟩ := flip_outer h pn n0 n1 j
        refine ⟨pn, j, ?_, ?_, ?_⟩
        · rw [hv, ← hib]; exact h3
        · rw [hv, ← hia]; exact h4
        · rcases ho with ho | ho | ho | ho | ho
          · exact absurd h5 ho.2.1
          · exact absurd (ho.2.1.symm.trans h4) c1
          · exact ho.2.2.2.2
          · exact absurd (ho.2.1.symm.trans h4) c5
          · exact absurd (ho.2.1.symm.trans h4) c3.symm
      | 1, hia, hib, hin =>
        change C = a at hia
        change A = b at hib
        change some t1 = some n at hin
        obtain rfl := Option.some.inj hin
        refine ⟨h.p1, 1, ?_, ?_, ?_⟩ <;> rw [e1]
        · exact hib
        · exact hia
        · rfl
      | 2, hia, hib, hin =>
        change A = a at hia
        change B = b at hib
        change (s.tri t).neighbours (cw s0) = some n at hin
        obtain ⟨n0, n1⟩ := h.outside0 (cw_ne s0) hin
        obtain ⟨pn, j, h3, h4, h5⟩ := out h.p0 hin n0 n1
        rw [cw_cw, hb] at h3
        rw [ccw_cw, ha] at h4
        obtain ⟨hv, ho⟩ := flip_outer h pn n0 n1 j
        refine ⟨pn, j, ?_, ?_, ?_⟩
        · rw [hv, ← hib]; exact h3
        · rw [hv, ← hia]; exact h4
        · rcases ho with ho | ho | ho | ho | ho
          · exact absurd h5 ho.1
          · exact ho.2.2.2.2
          · exact absurd (ho.2.1.symm.trans h4) c1.symm
          · exact absurd (ho.2.1.symm.trans h4) c6.symm
          · exact absurd (ho.2.1.symm.trans h4) c2.symm
    · by_cases h1 : t = t1
      · subst h1
        rw [e1] at hia hib hin
        match i, hia, hib, hin with
        | 0, hia, hib, hin =>
          -- side DA
          change D = a at hia
          change A = b at hib
          change (s.tri t0).neighbours (ccw s0) = some n at hin
          obtain ⟨n0, n1⟩ := h.outside0 (ccw_ne s0) hin
          obtain ⟨pn, j, h3, h4, h5⟩ := out h.p0 hin n0 n1
          rw [cw_ccw, ha] at h3
          rw [ccw_ccw, hd] at h4
          obtain ⟨hv, ho⟩ := flip_outer h pn n0 n1 j
          refine ⟨pn, j, ?_, ?_, ?_⟩
          · rw [hv, ← hib]; exact h3
          · rw [hv, ← hia]; exact h4
          · rcases ho with ho | ho | ho | ho | ho
            · exact absurd h5 ho.1
            · exact absurd (ho.2.1.symm.trans h4) c2
            · exact absurd (ho.2.1.symm.trans h4) c3
            · exact absurd (ho.2.1.symm.trans h4) c4
            · exact ho.2.2.2.2
        | 1, hia, hib, hin =>
          change A = a at hia
          change C = b at hib
          change some t0 = some n at hin
          obtain rfl := Option.some.inj hin
          refine ⟨h.p0, 1, ?_, ?_, ?_⟩ <;> rw [e0]
          · exact hib
          · exact hia
          · rfl
        | 2, hia, hib, hin =>
          change C = a at hia
          change D = b at hib
          change (s.tri t).neighbours (cw s1) = some n at hin
          obtain ⟨n0, n1⟩ := h.outside1 (cw_ne s1) hin
          obtain ⟨pn, j, h3, h4, h5⟩ := out h.p1 hin n0 n1
          rw [cw_cw, hd1] at h3
          rw [ccw_cw, hc] at h4
          obtain ⟨hv, ho⟩ := flip_outer h pn n0 n1 j
          refine ⟨pn, j, ?_, ?_, ?_⟩
          · rw [hv, ← hib]; exact h3
          · rw [hv, ← hia]; exact h4
          · rcases ho with ho | ho | ho | ho | ho
            · exact absurd h5 ho.2.1
            · exact absurd (ho.2.1.symm.trans h4) c6
            · exact absurd (ho.2.1.symm.trans h4) c5.symm
            · exact ho.2.2.2.2
            · exact absurd (ho.2.1.symm.trans h4) c4.symm
      · obtain ⟨hv, ho⟩ := flip_outer h pt h0 h1 i
        rw [hv] at hia hib
        rcases ho with ho | ho | ho | ho | ho
        · rw [ho.2.2] at hin
          obtain ⟨pn, _, j, h3, h4, h5⟩ := h.consistent.back pt hin
          have n0 : n ≠ t0 := by rintro rfl; exact ho.1 hin
          have n1 : n ≠ t1 := by rintro rfl; exact ho.2.1 hin
          obtain ⟨hv', ho'⟩ := flip_outer h pn n0 n1 j
          refine ⟨pn, j, ?_, ?_, ?_⟩
          · rw [hv', ← hib]; exact h3
          · rw [hv', ← hia]; exact h4
          · rcases ho' with ho' | ho' | ho' | ho' | ho'
            · exact ho'.2.2.trans h5
            · exact absurd (Option.some.inj (h5.symm.trans ho'.1)) h0
            · exact absurd (Option.some.inj (h5.symm.trans ho'.1)) h1
            · exact absurd (Option.some.inj (h5.symm.trans ho'.1)) h1
            · exact absurd (Option.some.inj (h5.symm.trans ho'.1)) h0
        · obtain ⟨_, g1, g2, g3, g4⟩ := ho
          rw [g4] at hin
          obtain rfl := Option.some.inj hin
          refine ⟨h.p0, 2, ?_, ?_, ?_⟩ <;> rw [e0]
          · exact g1.symm.trans hib
          · exact g2.symm.trans hia
          · exact g3
        · obtain ⟨_, g1, g2, g3, g4⟩ := ho
          rw [g4] at hin
          obtain rfl := Option.some.inj hin
          refine ⟨h.p0, 0, ?_, ?_, ?_⟩ <;> rw [e0]
          · exact g1.symm.trans hib
          · exact g2.symm.trans hia
          · exact g3
        · obtain ⟨_, g1, g2, g3, g4⟩ := ho
          rw [g4] at hin
          obtain rfl := Option.some.inj hin
          refine ⟨h.p1, 2, ?_, ?_, ?_⟩ <;> rw [e1]
          · exact g1.symm.trans hib
          · exact g2.symm.trans hia
          · exact g3
        · obtain ⟨_, g1, g2, g3, g4⟩ := ho
          rw [g4] at hin
          obtain rfl := Option.some.inj hin
          refine ⟨h.p1, 0, ?_, ?_, ?_⟩ <;> rw [e1]
          · exact g1.symm.trans hib
          · exact g2.symm.trans hia
          · exact g3

/-- the situation after a flip is that before a flip of the other diagonal -/
theorem SharedEdge.next (h : SharedEdge P s t0 s0 t1 s1 A B C D) {s' : St K}
    (hr : flip t0 s0 t1 s1 s = .ok ((), s')) : SharedEdge P s' t0 1 t1 1 B C D A := by
  have hcons := C26_consistent h hr
  obtain ⟨s2, hr2, ⟨a1, a2, a3⟩, ⟨b1, b2, b3⟩, _⟩ := C26_pair h
  rw [hr] at hr2
  cases hr2
  have hrun := flip_run h.ne h.flippable
  rw [hr] at hrun
  simp only [Except.ok.injEq, Prod.mk.injEq, true_and] at hrun
  refine ⟨hcons, h.p0, ?_, ?_, a2, a3, a1, b2, b3, b1, h.corners.2.2.1⟩
  · rw [hrun]
    show (flipTri t0 s0 t1 s1 s t0).neighbours 1 = _
    unfold flipTri
    rw [if_neg h.ne, if_pos rfl]
    rfl
  · rw [hrun]
    show (flipTri t0 s0 t1 s1 s t1).neighbours 1 = _
    unfold flipTri
    rw [if_pos rfl]
    rfl

/-- C26: flipping the new diagonal restores the triangulation, with the two triangle objects
exchanged: each side that a triangle had before, its twin has afterwards, with the same (exchanged)
neighbour. -/
theorem C26_twice (h : SharedEdge P s t0 s0 t1 s1 A B C D) {s' : St K}
    (hr : flip t0 s0 t1 s1 s = .ok ((), s')) :
    ∃ s'', flip t0 1 t1 1 s' = .ok ((), s'') ∧ ∀ u, P u → ∀ a b n, HasSide (s.tri u) a b n →
      HasSide (s''.tri (Equiv.swap t0 t1 u)) a b (n.map (Equiv.swap t0 t1)) := by
  have h' := h.next hr
  obtain ⟨c1, c2, c3, c4, c5⟩ := h.corners
  have c6 := h.apexes
  have hne := h.ne
  have hrun := flip_run hne h.flippable
  have hrun' := flip_run hne h'.flippable
  have hs' := hrun.symm.trans hr
  simp only [Except.ok.injEq, Prod.mk.injEq, true_and] at hs'
  subst hs'
  refine ⟨_, hrun', ?_⟩
  have ha := h.a; have hb := h.b0; have hd := h.d0; have hc := h.c; have hd1 := h.d1; have hb1 := h.b1
  change (s.tri t0).vertices (ccw s0) = B at hb
  change (s.tri t0).vertices (cw s0) = D at hd
  change (s.tri t1).vertices (ccw s1) = D at hd1
  change (s.tri t1).vertices (cw s1) = B at hb1
  have e0 : flipTri t0 s0 t1 s1 s t0 = { linkAround t0 s0 t1 s1 s t0 with
      vertices := ![A, B, C]
      neighbours := ![(s.tri t1).neighbours (ccw s1), some t1, (s.tri t0).neighbours (cw s0)] } := by
    unfold flipTri
    rw [if_neg hne, if_pos rfl, ha, hb, hc]
  have e1 : flipTri t0 s0 t1 s1 s t1 = { linkAround t0 s0 t1 s1 s t1 with
      vertices := ![C, D, A]
      neighbours := ![(s.tri t0).neighbours (ccw s0), some t0, (s.tri t1).neighbours (cw s1)] } := by
    unfold flipTri
    rw [if_pos rfl, ha, hc, hd]
  obtain ⟨S, hS⟩ : ∃ S : St K, S = { s with tri := flipTri t0 s0 t1 s1 s } := ⟨_, rfl⟩
  rw [← hS] at h' ⊢
  have f0 : flipTri t0 1 t1 1 S t0 = { linkAround t0 1 t1 1 S t0 with
      vertices := ![B, C, D]
      neighbours := ![(s.tri t1).neighbours (cw s1), some t1, (s.tri t1).neighbours (ccw s1)] } := by
    have g1 : (S.tri t1).neighbours (ccw 1) = (s.tri t1).neighbours (cw s1) := by
      rw [hS]; show (flipTri t0 s0 t1 s1 s t1).neighbours 2 = _; rw [e1]; rfl
    have g2 : (S.tri t0).neighbours (cw 1) = (s.tri t1).neighbours (ccw s1) := by
      rw [hS]; show (flipTri t0 s0 t1 s1 s t0).neighbours 0 = _; rw [e0]; rfl
    rw [← g1, ← g2, ← h'.a, ← h'.b0, ← h'.c]
    unfold flipTri
    rw [if_neg hne, if_pos rfl]
    rfl
  have f1 : flipTri t0 1 t1 1 S t1 = { linkAround t0 1 t1 1 S t1 with
      vertices := ![D, A, B]
      neighbours := ![(s.tri t0).neighbours (cw s0), some t0, (s.tri t0).neighbours (ccw s0)] } := by
    have g1 : (S.tri t1).neighbours (cw 1) = (s.tri t0).neighbours (ccw s0) := by
      rw [hS]; show (flipTri t0 s0 t1 s1 s t1).neighbours 0 = _; rw [e1]; rfl
    have g2 : (S.tri t0).neighbours (ccw 1) = (s.tri t0).neighbours (cw s0) := by
      rw [hS]; show (flipTri t0 s0 t1 s1 s t0).neighbours 2 = _; rw [e0]; rfl
    rw [← g1, ← g2, ← h'.c, ← h'.d0, ← h'.a]
    unfold flipTri
    rw [if_pos rfl]
    rfl
  have fix : ∀ {o : Option TId}, (∀ n, o = some n → n ≠ t0 ∧ n ≠ t1) → o.map (Equiv.swap t0 t1) = o := by
    intro o ho
    cases o with
    | none => rfl
    | some n => exact congrArg some (Equiv.swap_apply_of_ne_of_ne (ho n rfl).1 (ho n rfl).2)
  rintro u pu a b n ⟨i, hia, hib, rfl⟩
  change (s.tri u).vertices (ccw i) = a at hia
  change (s.tri u).vertices (cw i) = b at hib
  show HasSide (flipTri t0 1 t1 1 S (Equiv.swap t0 t1 u)) a b _
  by_cases h0 : u = t0
  · subst h0
    rw [Equiv.swap_apply_left, f1]
    rcases three_sides s0 i with e | e | e
    · subst e
      refine ⟨1, hb.symm.trans hia, hd.symm.trans hib, ?_⟩
      · show some u = _
        rw [h.n0]
        exact (congrArg some (Equiv.swap_apply_right u t1)).symm
    · subst e
      rw [ccw_ccw, hd] at hia
      rw [cw_ccw, ha] at hib
      refine ⟨2, hia, hib, ?_⟩
      show (s.tri u).neighbours (ccw s0) = _
      exact (fix fun n hn => h.outside0 (ccw_ne s0) hn).symm
    · subst e
      rw [ccw_cw, ha] at hia
      rw [cw_cw, hb] at hib
      refine ⟨0, hia, hib, ?_⟩
      show (s.tri u).neighbours (cw s0) = _
      exact (fix fun n hn => h.outside0 (cw_ne s0) hn).symm
  · by_cases h1 : u = t1
    · subst h1
      rw [Equiv.swap_apply_right, f0]
      rcases three_sides s1 i with e | e | e
      · subst e
        refine ⟨1, hd1.symm.trans hia, hb1.symm.trans hib, ?_⟩
        show some u = _
        rw [h.n1]
        exact (congrArg some (Equiv.swap_apply_left t0 u)).symm
      · subst e
        rw [ccw_ccw, hb1] at hia
        rw [cw_ccw, hc] at hib
        refine ⟨2, hia, hib, ?_⟩
        show (s.tri u).neighbours (ccw s1) = _
        exact (fix fun n hn => h.outside1 (ccw_ne s1) hn).symm
      · subst e
        rw [ccw_cw, hc] at hia
        rw [cw_cw, hd1] at hib
        refine ⟨0, hia, hib, ?_⟩
        show (s.tri u).neighbours (cw s1) = _
        exact (fix fun n hn => h.outside1 (cw_ne s1) hn).symm
    · rw [Equiv.swap_apply_of_ne_of_ne h0 h1]
      obtain ⟨hv, ho⟩ := flip_outer h pu h0 h1 i
      obtain ⟨hv', ho'⟩ := flip_outer h' pu h0 h1 i
      have hSu : S.tri u = flipTri t0 s0 t1 s1 s u := by rw [hS]
      rw [hSu] at hv' ho'
      refine ⟨i, ?_, ?_, ?_⟩
      · rw [hv', hv]; exact hia
      · rw [hv', hv]; exact hib
      · rw [hv] at ho'
        rcases ho with ho | ho | ho | ho | ho
        · rw [ho.2.2] at ho'
          rw [fix fun n hn => ⟨by rintro rfl; exact ho.1 hn, by rintro rfl; exact ho.2.1 hn⟩]
          rcases ho' with g | g | g | g | g
          · exact g.2.2
          · exact absurd g.1 ho.1
          · exact absurd g.1 ho.2.1
          · exact absurd g.1 ho.2.1
          · exact absurd g.1 ho.1
        all_goals
          obtain ⟨g1, g2, _, _, g5⟩ := ho
          rw [g5, g2] at ho'
          rw [g1]
          simp only [Option.map_some, Equiv.swap_apply_left, Equiv.swap_apply_right]
          have hne' := hne.symm
          simp only [ne_eq, not_true_eq_false, false_and, Option.some.injEq, hne, hne', true_and, false_or,
            c1, c2, c3, c4, c5, c6, c1.symm, c2.symm, c3.symm, c4.symm, c5.symm, c6.symm, or_false,
            and_false, not_false_eq_true] at ho'
          exact ho'.2.2

end

/-- A concrete case: the two triangles of the square (as `P` all triangles) and its diagonal. -/
example : SharedEdge (fun t => t < 2) Sample.square 0 1 1 2 1 2 3 0 := by
  refine ⟨?_, by decide, by decide +kernel, by decide +kernel, by decide +kernel, by decide +kernel,
    by decide +kernel, by decide +kernel, by decide +kernel, by decide +kernel, by decide⟩
  intro t ht
  have hi : ∀ t : Fin 2, Function.Injective (Sample.square.tri t).vertices := by decide +kernel
  have hs : ∀ t : Fin 2, ∀ i : Fin 3, ((Sample.square.tri t).neighbours i).all (fun n => decide (n < 2 ∧
      ∃ j : Fin 3, (Sample.square.tri n).vertices (j + 1) = (Sample.square.tri t).vertices (i + 2) ∧
        (Sample.square.tri n).vertices (j + 2) = (Sample.square.tri t).vertices (i + 1) ∧
        (Sample.square.tri n).neighbours j = some t.1)) = true := by decide +kernel
  refine ⟨ht, hi ⟨t, ht⟩, ?_⟩
  rintro a b n ⟨i, rfl, rfl, hn⟩
  have := hs ⟨t, ht⟩ i
  rw [hn] at this
  simp only [Option.all_some, decide_eq_true_eq] at this
  exact this

/-- ... and the outcome -/
example : Sample.outcome (flip 0 1 1 2) (fun _ s => ((s.tri 0).vertices, (s.tri 1).vertices,
      (s.tri 0).neighbours, (s.tri 1).neighbours)) Sample.square =
    some (![1, 2, 3], ![3, 0, 1], ![none, some 1, none], ![none, some 0, none]) := by
  decide +kernel

end Grassfire
