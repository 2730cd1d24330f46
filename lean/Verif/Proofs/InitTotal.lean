/-
`init_skeleton` does not raise on triangulations of points within three infinite vertices (lemmas for C85).
-/
import Verif.Proofs.InitMesh
import Verif.Props.Line2d
import Verif.Spec.Wavefronts

set_option linter.unusedSectionVars false

namespace Grassfire

open Spec

variable {K : Type} [Field K] [LinearOrder K] [HasSqrt K] {dt : Dt K}

/-! ### loops of checks -/

theorem mapE_total {α β ε : Type} {f : α → Except ε β} : ∀ {l : List α}, (∀ x ∈ l, ∃ y, f x = .ok y) →
    ∃ ys, mapE f l = .ok ys
  | [], _ => ⟨[], rfl⟩
  | x :: xs, h => by
    obtain ⟨y, hy⟩ := h x (List.mem_cons_self ..)
    obtain ⟨ys, hys⟩ := mapE_total (l := xs) fun z hz => h z (List.mem_cons_of_mem _ hz)
    refine ⟨y :: ys, ?_⟩
    unfold mapE
    rw [hy, hys]
    rfl

theorem passert_true {p : Prop} [Decidable p] (h : p) : passert (decide p) = .ok () := by
  rw [decide_eq_true h]
  rfl

/-! ### triangles -/

/-- the line of a segment whose length can be computed -/
theorem fromPoints_exact [IsStrictOrderedRing K] [SqrtUnit K] {p q : Pt K} (hpq : p ≠ q)
    (hx : HasSqrt.sqrt ((q.1 - p.1) ^ 2 + (q.2 - p.2) ^ 2) ^ 2 = (q.1 - p.1) ^ 2 + (q.2 - p.2) ^ 2) :
    ∃ l, Line2.fromPoints p q = .ok l := by
  obtain ⟨px, py⟩ := p
  obtain ⟨qx, qy⟩ := q
  dsimp only at hx
  have hpos : 0 < (qx - px) ^ 2 + (qy - py) ^ 2 := by
    rcases eq_or_ne px qx with rfl | h
    · have : py ≠ qy := fun e => hpq (by rw [e])
      have : 0 < (qy - py) ^ 2 := by have := sub_ne_zero.2 this.symm; positivity
      have : 0 ≤ (px - px) ^ 2 := sq_nonneg _
      linarith
    · have : 0 < (qx - px) ^ 2 := by have := sub_ne_zero.2 h.symm; positivity
      have : 0 ≤ (qy - py) ^ 2 := sq_nonneg _
      linarith
  obtain ⟨a, b, c, hco, hn⟩ : ∃ a b c : K, coefficientsFromPoints (px, py) (qx, qy) = (a, b, c) ∧
      norm2d ((a, b) : Pt K) ≠ 0 := by
    have one : ∀ a b : K, a * a + b * b = 1 → norm2d ((a, b) : Pt K) ≠ 0 := by
      intro a b e
      unfold norm2d normSq2 dot2
      dsimp only
      rw [e, SqrtUnit.sqrt_one]
      exact one_ne_zero
    unfold coefficientsFromPoints
    simp only
    split_ifs with h1 h2 h3 h4 h5 h6
    · exact ⟨_, _, _, rfl, one _ _ (by ring)⟩
    · exact absurd (by rw [h1, h3]) hpq
    · exact ⟨_, _, _, rfl, one _ _ (by ring)⟩
    · exact ⟨_, _, _, rfl, one _ _ (by ring)⟩
    · exact absurd h6.symm h1
    · exact ⟨_, _, _, rfl, one _ _ (by ring)⟩
    · refine ⟨_, _, _, rfl, ?_⟩
      unfold norm2d normSq2 dot2
      dsimp only
      rw [show (py - qy) * (py - qy) + (qx - px) * (qx - px) = (qx - px) ^ 2 + (qy - py) ^ 2 by ring]
      intro e
      rw [e] at hx
      rw [← hx] at hpos
      norm_num at hpos
  unfold Line2.fromPoints
  rw [hco]
  simp only [Line2.make, unit2, div2, pdiv, bind, Except.bind, if_neg hn]
  rw [if_neg fun e => hpq e.symm]
  exact ⟨_, rfl⟩

/-- `make_support_line` succeeds; constrained sides get a line with a unit normal -/
theorem supportLine_total [IsStrictOrderedRing K] [SqrtUnit K] (hdt : DtOk dt) (hfr : DtFrame dt) (hx : ExactLengths dt)
    {t : DT} (ht : t < dt.nT) (i : Fin 3) :
    ∃ o, supportLine dt t i = .ok o ∧ (dt.constrained t i = true → ∃ l, o = some l ∧ UnitNormal l) := by
  unfold supportLine
  by_cases hc : dt.constrained t i = true
  · rw [if_pos hc]
    obtain ⟨a, ha, -⟩ := hdt.corners t ht (ccw i)
    obtain ⟨b, hb, -⟩ := hdt.corners t ht (cw i)
    obtain ⟨e1, e2⟩ := hx t i a b ht hc ha hb
    have hne := hfr.long t ht i a b hc ha hb
    obtain ⟨l, hl⟩ := fromPoints_exact hne e2
    rw [ha, hb]
    refine ⟨some l, ?_, fun _ => ⟨l, rfl, (C10_exact _ _ l hl e2 e1).1⟩⟩
    unfold WaveFront.make
    simp only [hl, bind, Except.bind]
  · rw [if_neg hc]
    exact ⟨none, rfl, fun h => absurd h hc⟩

/-- the neighbour over one side -/
theorem linkSide_total (hfr : DtFrame dt) {t : DT} (ht : t < dt.nT) (i : Fin 3) :
    ∃ o, linkSide dt t i = .ok o ∧ (o = none ↔ dt.constrained t i = false ∧ FarSide dt t i) := by
  unfold linkSide
  by_cases hc : dt.constrained t i = true
  · rw [if_pos hc]
    refine ⟨_, rfl, fun h => (by cases h), fun h => ?_⟩
    rw [hc] at h
    cases h.1
  · rw [if_neg hc, hfr.outer t ht i]
    have hc' : dt.constrained t i = false := by simpa using hc
    cases hn : dt.neighbour t i with
    | none => exact ⟨none, rfl, fun _ => ⟨hc', Or.inl rfl⟩, fun _ => rfl⟩
    | some n =>
      dsimp only
      by_cases h2 : dt.corner n 2 = none
      · rw [if_pos h2]
        exact ⟨none, rfl, fun _ => ⟨hc', Or.inr ⟨n, rfl, h2⟩⟩, fun _ => rfl⟩
      · rw [if_neg h2]
        obtain ⟨w, hw⟩ := Option.ne_none_iff_exists'.1 h2
        rw [if_pos (hfr.inner t ht i n w hn hw)]
        refine ⟨_, rfl, fun h => (by cases h), ?_⟩
        rintro ⟨-, h | ⟨m, h, h'⟩⟩
        · cases h
        · cases h
          exact absurd h' h2

theorem count3_one {α : Type} [DecidableEq α] {f : Fin 3 → α} {x : α} {i : Fin 3} (h : f i = x)
    (hu : ∀ j, f j = x → j = i) : count3 f x = 1 := by
  unfold count3
  have key : ∀ j, j ≠ i → f j ≠ x := fun j hj e => hj (hu j e)
  fin_cases i <;> dsimp only [Fin.isValue, Fin.zero_eta, Fin.mk_one, Fin.reduceFinMk] at h key
  · rw [if_pos h, if_neg (key 1 (by decide)), if_neg (key 2 (by decide))]
  · rw [if_neg (key 0 (by decide)), if_pos h, if_neg (key 2 (by decide))]
  · rw [if_neg (key 0 (by decide)), if_neg (key 1 (by decide)), if_pos h]

theorem count3_zero {α : Type} [DecidableEq α] {f : Fin 3 → α} {x : α} (h : ∀ i, f i ≠ x) : count3 f x = 0 := by
  unfold count3
  rw [if_neg (h 0), if_neg (h 1), if_neg (h 2)]

theorem farSide_free (hdt : DtMesh dt) {t : DT} (ht : t < dt.nT) {i : Fin 3} (h : FarSide dt t i) :
    dt.constrained t i = false := by
  by_contra hc
  have ne : ∀ i : Fin 3, i + 1 ≠ i := by decide
  obtain ⟨v, hv, hf⟩ := h (i + 1) (ne i)
  have := hdt.constrained_finite t ht i (by simpa using hc) (i + 1) (ne i) v hv
  rw [hf] at this
  cases this

/-- a triangle has at most one side with two infinite ends, as it has a finite corner -/
theorem farSide_unique (hdt : DtMesh dt) {t : DT} (ht : t < dt.nT) {i j : Fin 3} (hi : FarSide dt t i)
    (hj : FarSide dt t j) : i = j := by
  by_contra hne
  obtain ⟨k, v, hv, hf⟩ := hdt.proper t ht
  by_cases hk : k = i
  · subst hk
    obtain ⟨w, hw, hw'⟩ := hj k hne
    rw [hv] at hw
    cases hw
    rw [hf] at hw'
    cases hw'
  · obtain ⟨w, hw, hw'⟩ := hi k hk
    rw [hv] at hw
    cases hw
    rw [hf] at hw'
    cases hw'

/-- what is prepared for one triangle -/
theorem initTri_total [IsStrictOrderedRing K] [SqrtUnit K] (hdt : DtMesh dt) (hfr : DtFrame dt) (hx : ExactLengths dt)
    {t : DT} (ht : t < dt.nT) : ∃ x, initTri dt t = .ok x ∧
      (∀ i, dt.constrained t i = true → ∃ l, x.lines i = some l ∧ UnitNormal l) ∧
      ((∃ i, FarSide dt t i) → x.unwanted = 1) ∧ ((¬ ∃ i, FarSide dt t i) → x.unwanted = 0) := by
  obtain ⟨l0, a0, b0⟩ := supportLine_total hdt.toDtOk hfr hx ht 0
  obtain ⟨l1, a1, b1⟩ := supportLine_total hdt.toDtOk hfr hx ht 1
  obtain ⟨l2, a2, b2⟩ := supportLine_total hdt.toDtOk hfr hx ht 2
  obtain ⟨n0, c0, d0⟩ := linkSide_total hfr ht 0
  obtain ⟨n1, c1, d1⟩ := linkSide_total hfr ht 1
  obtain ⟨n2, c2, d2⟩ := linkSide_total hfr ht 2
  have hd : ∀ i, (![n0, n1, n2] : Fin 3 → Option (Option TId)) i = none ↔ FarSide dt t i := by
    intro i
    have : ∀ o : Option (Option TId), (o = none ↔ dt.constrained t i = false ∧ FarSide dt t i) → (o = none ↔ FarSide dt t i) :=
      fun o h => h.trans ⟨fun q => q.2, fun q => ⟨farSide_free hdt ht q, q⟩⟩
    fin_cases i
    · exact this _ d0
    · exact this _ d1
    · exact this _ d2
  refine ⟨⟨![l0, l1, l2], ![n0.join, n1.join, n2.join], count3 ![n0, n1, n2] none⟩, ?_, ?_, ?_, ?_⟩
  · unfold initTri
    rw [a0, a1, a2, c0, c1, c2]
    rfl
  · intro i hc
    fin_cases i
    · exact b0 hc
    · exact b1 hc
    · exact b2 hc
  · rintro ⟨i, hi⟩
    exact count3_one ((hd i).2 hi) fun j hj => farSide_unique hdt ht ((hd j).1 hj) hi
  · intro h
    exact count3_zero fun i hi => h ⟨i, (hd i).1 hi⟩

/-! ### vertices -/

theorem getBisector_total [IsStrictOrderedRing K] [SqrtUnit K] {l r : Line2 K} (hl : UnitNormal l) (hr : UnitNormal r) :
    ∃ b, getBisector l r = .ok b := by
  by_cases hd : 1 / 10 ^ 10 < |l.w.1 * r.w.2 - r.w.1 * l.w.2|
  · obtain ⟨b, p0, h, -⟩ := C13_wavefront_vertex l r hl hr hd
    exact ⟨b, h⟩
  · rcases (C13_parallel_wavefronts l r 0 hl hr (not_lt.1 hd)).2 with h | h
    · exact ⟨_, h⟩
    · exact ⟨_, h⟩

theorem vertexGroups_total (hdt : DtMesh dt) (hfr : DtFrame dt) {v : DV} (hv : v < dt.nV) :
    ∃ gs, vertexGroups dt v = .ok gs ∧ ∀ g ∈ gs, GroupOk dt g ∧ ∀ e ∈ g, e ∈ dt.star v := by
  obtain ⟨gs, hg, hok⟩ := C41_groups dt v (hdt.star_ok v hv)
  have hb := hfr.bounded v hv
  have hne : dt.star v ≠ [] := by
    intro e
    rw [e] at hb
    simp at hb
  have hlen := C41_count dt v (hdt.star_ok v hv) hne gs hg
  have h1 : 1 < gs.length := by rw [hlen]; omega
  obtain ⟨hr, -⟩ := C41_rotation dt v gs hg
  refine ⟨gs, ?_, fun g hgm => ⟨hok h1 g hgm, fun e he => hr.mem_iff.1 (List.mem_flatten.2 ⟨g, hgm, he⟩)⟩⟩
  unfold vertexGroups
  rw [(hfr.listed v hv).1, hg]
  change (if gs.length = 1 then _ else _) = _
  rw [if_neg h1.ne']

theorem makeVertex_total [IsStrictOrderedRing K] [SqrtUnit K] (hdt : DtMesh dt) (hfr : DtFrame dt)
    {ts : List (TriStart K)} (hl : ∀ t < dt.nT, ∀ i, dt.constrained t i = true → ∃ l, lineAt ts t i = some l ∧ UnitNormal l)
    {v : DV} (hv : v < dt.nV) {g : List DEdge} (hg : GroupOk dt g) (hs : ∀ e ∈ g, e ∈ dt.star v) (ct : ℕ) :
    ∃ kv, makeVertex dt ts v ct g = .ok kv := by
  obtain ⟨first, hf⟩ := Option.ne_none_iff_exists'.1 fun e => hg.nonempty (List.head?_eq_none_iff.1 e)
  obtain ⟨last, hla⟩ := Option.ne_none_iff_exists'.1 fun e => hg.nonempty (List.getLast?_eq_none_iff.1 e)
  have mf := hs first (List.mem_of_head? hf)
  have ml := hs last (List.mem_of_getLast? hla)
  have bf := (hfr.listed v hv).2 first mf
  have bl := (hfr.listed v hv).2 last ml
  obtain ⟨a, ha, -⟩ := hdt.corners last.1 bl (cw last.2)
  obtain ⟨b, hb, -⟩ := hdt.corners first.1 bf (ccw first.2)
  obtain ⟨l, h1, u1⟩ := hl last.1 bl _ (hg.last last hla)
  obtain ⟨r, h2, u2⟩ := hl first.1 bf _ (hg.first first hf)
  obtain ⟨bi, hbi⟩ := getBisector_total u1 u2
  have hall : (g.all fun e => decide (e.1 < dt.nT)) = true :=
    List.all_eq_true.2 fun e he => decide_eq_true ((hfr.listed v hv).2 e (hs e he))
  unfold makeVertex
  rw [hf, hla]
  dsimp only
  rw [hdt.star_corner v hv last ml, hdt.star_corner v hv first mf, ha, hb, passert_true rfl]
  dsimp only [bind, Except.bind]
  rw [if_pos ⟨bf, bl⟩, h1, h2]
  dsimp only
  rw [hbi]
  dsimp only
  rw [if_pos hall]
  exact ⟨_, rfl⟩

theorem makeGroup_total {ts : List (TriStart K)} {v : DV} : ∀ {gs : List (List DEdge)} (ct : ℕ),
    (∀ g ∈ gs, ∀ ct, ∃ kv, makeVertex dt ts v ct g = .ok kv) → ∃ vs, makeGroup dt ts v ct gs = .ok vs
  | [], ct, _ => ⟨[], rfl⟩
  | g :: gs, ct, h => by
    obtain ⟨kv, hk⟩ := h g (List.mem_cons_self ..) ct
    obtain ⟨vs, hvs⟩ := makeGroup_total (gs := gs) (ct + 1) fun g' hg' => h g' (List.mem_cons_of_mem _ hg')
    refine ⟨(kv, g) :: vs, ?_⟩
    unfold makeGroup
    rw [hk, hvs]
    rfl

theorem makeVertices_total {ts : List (TriStart K)} : ∀ {l : List DV} (ct : ℕ),
    (∀ v ∈ l, ∃ gs, vertexGroups dt v = .ok gs ∧ ∀ g ∈ gs, ∀ ct, ∃ kv, makeVertex dt ts v ct g = .ok kv) →
    ∃ vs, makeVertices dt ts ct l = .ok vs
  | [], ct, _ => ⟨[], rfl⟩
  | v :: l, ct, h => by
    obtain ⟨gs, hg, hk⟩ := h v (List.mem_cons_self ..)
    obtain ⟨here, hh⟩ := makeGroup_total ct hk
    obtain ⟨rest, hr⟩ := makeVertices_total (l := l) (ct + gs.length) fun v' hv' => h v' (List.mem_cons_of_mem _ hv')
    refine ⟨here ++ rest, ?_⟩
    unfold makeVertices
    rw [hg]
    dsimp only [bind, Except.bind]
    rw [hh]
    dsimp only
    rw [hr]

/-! ### the three triangles -/

theorem isInf_kref {vs : List (KVertex K × List DEdge)} {t : DT} {i : Fin 3} {w : DV} (hw : dt.corner t i = some w) :
    KRef.isInf (kref dt vs t i) = !dt.finite w := by
  unfold kref
  rw [hw]
  dsimp only
  cases hf : dt.finite w with
  | true => cases kcorner vs t i <;> rfl
  | false => rfl

/-- two infinite corners -/
theorem far_iff (hdt : DtMesh dt) {vs : List (KVertex K × List DEdge)} {t : DT} (ht : t < dt.nT) :
    sides.countP (fun i => KRef.isInf (kref dt vs t i)) = 2 ↔ ∃ i, FarSide dt t i := by
  have hinf : ∀ i, KRef.isInf (kref dt vs t i) = true ↔ ∃ v, dt.corner t i = some v ∧ dt.finite v = false := by
    intro i
    obtain ⟨w, hw, -⟩ := hdt.corners t ht i
    rw [isInf_kref hw]
    constructor
    · intro h
      exact ⟨w, hw, by simpa using h⟩
    · rintro ⟨v, hv, hf⟩
      rw [hw] at hv
      cases hv
      rw [hf]
      rfl
  obtain ⟨k, w, hw, hf⟩ := hdt.proper t ht
  have hk : KRef.isInf (kref dt vs t k) = false := by rw [isInf_kref hw, hf]; rfl
  have hfar : ∀ i, FarSide dt t i ↔ ∀ j, j ≠ i → KRef.isInf (kref dt vs t j) = true :=
    fun i => forall_congr' fun j => imp_congr_right fun _ => (hinf j).symm
  simp only [hfar]
  unfold sides
  simp only [List.countP_cons, List.countP_nil]
  revert hk
  generalize h0 : KRef.isInf (kref dt vs t 0) = a
  generalize h1 : KRef.isInf (kref dt vs t 1) = b
  generalize h2 : KRef.isInf (kref dt vs t 2) = c
  intro hk
  have hall : ∀ i, (∀ j, j ≠ i → KRef.isInf (kref dt vs t j) = true) ↔
      ((0 : Fin 3) ≠ i → a = true) ∧ ((1 : Fin 3) ≠ i → b = true) ∧ ((2 : Fin 3) ≠ i → c = true) := by
    intro i
    rw [← h0, ← h1, ← h2]
    exact ⟨fun q => ⟨q 0, q 1, q 2⟩, fun q j => by
      fin_cases j
      · exact q.1
      · exact q.2.1
      · exact q.2.2⟩
  have hkk : (k = 0 → a = false) ∧ (k = 1 → b = false) ∧ (k = 2 → c = false) := by
    refine ⟨?_, ?_, ?_⟩ <;> rintro rfl <;> first | exact h0 ▸ hk | exact h1 ▸ hk | exact h2 ▸ hk
  simp only [hall]
  clear hall h0 h1 h2 hk hfar hinf hw
  revert a b c k
  decide

/-- the list of unwanted triangles -/
theorem unwanted_eq {P : ℕ → Prop} [DecidablePred P] : ∀ {ts : List (TriStart K)} (k : ℕ),
    (∀ (i : ℕ) x, ts[i]? = some x → (P (k + i) → x.unwanted = 1) ∧ (¬ P (k + i) → x.unwanted = 0)) →
    ((ts.zipIdx k).flatMap fun x => List.replicate x.1.unwanted x.2) = (List.range' k ts.length).filter P
  | [], k, _ => rfl
  | x :: ts, k, h => by
    rw [List.zipIdx_cons, List.flatMap_cons, List.length_cons, List.range'_succ, List.filter_cons,
      unwanted_eq (k + 1) fun i y hy => by
        have := h (i + 1) y (by simpa using hy)
        rwa [show k + (i + 1) = k + 1 + i by ring] at this]
    obtain ⟨h1, h2⟩ := h 0 x rfl
    by_cases hp : P k
    · rw [h1 hp, if_pos (decide_eq_true hp)]
      rfl
    · rw [h2 hp, if_neg (by simpa using hp)]
      rfl

theorem length_three {α : Type} [DecidableEq α] {l : List α} (hn : l.Nodup) {a b c : α} (hab : a ≠ b) (hac : a ≠ c)
    (hbc : b ≠ c) (h : ∀ x, x ∈ l ↔ x = a ∨ x = b ∨ x = c) : l.length = 3 := by
  have : l.Perm [a, b, c] := (List.perm_ext_iff_of_nodup hn (by simp [hab, hac, hbc])).2 fun x => by rw [h x]; simp
  rw [this.length_eq]
  rfl

theorem infinites_three (hfr : DtFrame dt) : (infinites dt).length = 3 := by
  obtain ⟨a, b, c, h1, h2, h3, h⟩ := hfr.corners
  refine length_three (List.nodup_dedup _) h1 h2 h3 fun p => ?_
  rw [← h p]
  unfold infinites
  rw [List.mem_dedup, List.mem_flatMap]
  constructor
  · rintro ⟨t, ht, hp⟩
    obtain ⟨i, -, hi⟩ := List.mem_filterMap.1 hp
    refine ⟨t, List.mem_range.1 ht, i, ?_⟩
    split at hi
    · rename_i v hv
      split_ifs at hi with hf
      cases hi
      exact ⟨v, hv, by simpa using hf, rfl⟩
    · cases hi
  · rintro ⟨t, ht, i, v, hv, hf, rfl⟩
    refine ⟨t, List.mem_range.2 ht, List.mem_filterMap.2 ⟨i, mem_sides i, ?_⟩⟩
    rw [hv]
    dsimp only
    rw [hf]
    rfl

/-- the first stages succeed -/
theorem early_total [IsStrictOrderedRing K] [SqrtUnit K] (hdt : DtMesh dt) (hfr : DtFrame dt) (hx : ExactLengths dt) :
    ∃ ts vs unwanted, mapE (initTri dt) (List.range dt.nT) = .ok ts ∧ Early dt ts vs unwanted ∧ unwanted.length = 3 ∧
      ∀ t, t ∈ unwanted ↔ t < dt.nT ∧ ∃ i, FarSide dt t i := by
  classical
  obtain ⟨ts, hts⟩ := mapE_total (f := initTri dt) (l := List.range dt.nT) fun t ht => by
    obtain ⟨x, h, -⟩ := initTri_total hdt hfr hx (List.mem_range.1 ht)
    exact ⟨x, h⟩
  have htri := tris_ok hts
  have hat : ∀ t (ht : t < dt.nT), ∃ x, ts[t]? = some x ∧ (∀ i, dt.constrained t i = true → ∃ l, x.lines i = some l ∧
      UnitNormal l) ∧ ((∃ i, FarSide dt t i) → x.unwanted = 1) ∧ ((¬ ∃ i, FarSide dt t i) → x.unwanted = 0) := by
    intro t ht
    have hlt : t < ts.length := by rw [htri.1]; exact ht
    obtain ⟨x, h1, h2⟩ := initTri_total hdt hfr hx ht
    have := htri.2 t _ (List.getElem?_eq_getElem hlt)
    rw [h1] at this
    cases this
    exact ⟨_, List.getElem?_eq_getElem hlt, h2⟩
  have hl : ∀ t < dt.nT, ∀ i, dt.constrained t i = true → ∃ l, lineAt ts t i = some l ∧ UnitNormal l := by
    intro t ht i hc
    obtain ⟨x, h1, h2, -⟩ := hat t ht
    unfold lineAt
    rw [h1]
    exact h2 i hc
  obtain ⟨vs, hvs⟩ := makeVertices_total (dt := dt) (ts := ts) (l := List.range dt.nV) 0 fun v hv => by
    rw [List.mem_range] at hv
    obtain ⟨gs, hg, hok⟩ := vertexGroups_total hdt hfr hv
    exact ⟨gs, hg, fun g hgm ct => makeVertex_total hdt hfr hl hv (hok g hgm).1 (hok g hgm).2 ct⟩
  have hun : unwantedOf ts = (List.range dt.nT).filter fun t => ∃ i, FarSide dt t i := by
    unfold unwantedOf
    rw [List.range_eq_range', ← htri.1]
    refine unwanted_eq (P := fun t => ∃ i, FarSide dt t i) 0 fun t x hx => ?_
    rw [Nat.zero_add]
    have ht : t < dt.nT := by rw [← htri.1]; exact (List.getElem?_eq_some_iff.1 hx).1
    obtain ⟨y, h1, -, h2⟩ := hat t ht
    rw [hx] at h1
    cases h1
    exact h2
  have hrem : removeOf dt (kref dt vs) = (List.range dt.nT).filter fun t => ∃ i, FarSide dt t i := by
    unfold removeOf
    refine List.filter_congr fun t ht => ?_
    rw [decide_eq_decide]
    exact far_iff hdt (List.mem_range.1 ht)
  have hmem : ∀ t, t ∈ (List.range dt.nT).filter (fun t => ∃ i, FarSide dt t i) ↔ t < dt.nT ∧ ∃ i, FarSide dt t i := by
    intro t
    rw [List.mem_filter, List.mem_range, decide_eq_true_eq]
  refine ⟨ts, vs, (List.range dt.nT).filter (fun t => ∃ i, FarSide dt t i), hts, ⟨htri, hvs, hun.symm, hrem.symm⟩, ?_, hmem⟩
  obtain ⟨a, b, c, h1, h2, h3, h⟩ := hfr.far
  exact length_three (List.nodup_range.filter _) h1 h2 h3 fun t => by rw [hmem t]; exact h t

end Grassfire
