/-
Property C100: the interior of an arc of the skeleton meets no other arc.
-/
import Verif.Proofs.Nodes

set_option linter.unusedSectionVars false

namespace Grassfire

open Spec

variable {K : Type} [Field K] [LinearOrder K] [IsStrictOrderedRing K] [HasSqrt K] [SqrtUnit K] [HasTrig K]

variable {dt : Dt K} {depth : ℕ} {skel s0 : St K} {n : ℕ} {now : K} {s s1 : St K} {trace : List (Event K × K)}

variable {x : K} {v v' : VId}

/-- a vertex of the wavefront, and one that may have started there -/
theorem front_apart (h : GeneralRun dt depth skel s0 n now s trace) (hl : LoneEvents depth s0 n)
    (hone : ∀ o, dtWinding dt o ≤ 1) (hx : 0 < x) (hset : Settled s now x) (hv : OnFront s x v) (ha : Arrives s x v)
    (hne : v ≠ v') (hv' : OnFront s x v') : placeAt s v x ≠ placeAt s v' x := by
  intro he
  obtain ⟨-, s1, h1, -⟩ := id h.run
  obtain ⟨m, y, u, tr, L⟩ := h.last h1 hx.le hset
  obtain ⟨m', hm, y', w, tr', J⟩ := h.before h1 hx L
  obtain ⟨-, hI0⟩ := ready_start (C90_sharp h).1.start h1
  have hy0 : 0 ≤ y' := (run_inv J.run hI0).2.1
  obtain ⟨hw, rw', pw⟩ := h.arrived hl h1 L hm J ha
  obtain ⟨hu, ru, -, -⟩ := h.vertex_of hl h1 L hv
  rw [pw] at he
  obtain ⟨-, -, pl, t', ht', lt', i', rfl⟩ := h.vertex_of hl h1 L hv'
  rw [pl] at he
  have he := Option.some.inj he
  have A := h.areas_at h1 L ht' lt'
  obtain ⟨e1, e2, e3, e4⟩ := sides_after i'
  set P := whereAt u x ((u.tri t').vertices (i' + 1)) with hP
  set Q := whereAt u x ((u.tri t').vertices (i' + 2)) with hQ
  set r := whereAt u x ((u.tri t').vertices i') with hr
  have A' := A
  rw [areaOf_side i', ← hP, ← hQ, ← hr] at A'
  set g : Pt K := (P.1 + Q.1 - 2 * r.1, P.2 + Q.2 - 2 * r.2) with hg
  have t1 : 0 < sideTurn u x t' (i' + 1) g := by
    refine A'.trans_eq ?_
    unfold sideTurn area2
    rw [e1, e2, ← hQ, ← hr, hg]
    ring
  have t2 : 0 < sideTurn u x t' (i' + 2) g := by
    refine A'.trans_eq ?_
    unfold sideTurn area2
    rw [e3, e4, ← hP, ← hr, hg]
    ring
  rcases h.surround hl h1 L hm J hu ru hw rw' g with ⟨a, b, -, -, -, t, ht, i, ⟨f1, f2, f3, f4⟩, S⟩ | ⟨f, S⟩
  · obtain ⟨δ, -, ⟨z, z1, z2, on⟩, k⟩ := (S.and (inside_going A t1 t2)).some
    obtain ⟨c1, c2⟩ := h.side_is hl h1 (J.last hm L z1.le z2) (a := (t, i)) (mem_rim.2 ⟨List.mem_toFinset.2 ht, f1, f2⟩)
    dsimp only at c1 c2
    rw [f3, f4] at c2
    rw [he] at on
    exact h.not_earlier hl hone h1 (hy0.trans z1.le) z2 hset L (f4 ▸ c1.1) c2 on ht' lt' fun j => (k j).le
  · have lin : ∀ j η, sideTurn u x t' j (going g f η) = sideTurn u x t' j g + η * sideTurn u x t' j f := fun j η => by
      unfold sideTurn going
      dsimp only
      ring
    obtain ⟨η, η0, k1, k2⟩ := ((small_pos (b := sideTurn u x t' (i' + 1) f) t1).and
      (small_pos (b := sideTurn u x t' (i' + 2) f) t2)).some
    rw [← lin] at k1 k2
    obtain ⟨δ, -, ⟨t, ht, lt, ⟨j, hj⟩, cl⟩, k⟩ := ((S η η0).and (inside_going A k1 k2)).some
    rw [he] at cl
    obtain ⟨ε, -, q1, q2⟩ := ((inward_inside (h.areas_at h1 L ht lt) cl).and
      (k.near (w := inward u x t (going r (going g f η) δ)))).some
    generalize going (going r (going g f η) δ) _ ε = o at q1 q2
    have tt : t' ≠ t := by
      rintro rfl
      have wh := where_grows J.grows rw'.kinetic x
      rw [he, ← hj, hr] at wh
      have jj : i' ≠ j := by
        rintro rfl
        exact hne hj.symm
      rw [areaOf_side j] at A
      rcases (by decide : ∀ j j' : Fin 3, j ≠ j' → j = j' + 1 ∨ j = j' + 2) i' j jj with rfl | rfl
      · rw [wh] at A
        unfold area2 at A
        ring_nf at A
        exact lt_irrefl _ A
      · rw [wh] at A
        unfold area2 at A
        ring_nf at A
        exact lt_irrefl _ A
    have two := (h.winding_ge hl h1 L ht lt q1).2 t' ht' lt' tt q2
    rcases (C96_range h hl hx.le hset o).2 (hone o) with q | q
    · rw [q] at two
      exact absurd two (by decide)
    · rw [q] at two
      exact absurd two (by decide)

/-- a vertex of the wavefront, and one that may end there -/
theorem arrival_apart (h : GeneralRun dt depth skel s0 n now s trace) (hl : LoneEvents depth s0 n)
    (hone : ∀ o, dtWinding dt o ≤ 1) (hx : 0 < x) (hset : Settled s now x) (hv : OnFront s x v) (ha : Arrives s x v)
    (hne : v ≠ v') (hv' : Arrives s x v') : placeAt s v x ≠ placeAt s v' x := by
  intro he
  obtain ⟨-, s1, h1, -⟩ := id h.run
  obtain ⟨m, y, u, tr, L⟩ := h.last h1 hx.le hset
  obtain ⟨m', hm, y', w, tr', J⟩ := h.before h1 hx L
  obtain ⟨-, hI0⟩ := ready_start (C90_sharp h).1.start h1
  have hy0 : 0 ≤ y' := (run_inv J.run hI0).2.1
  obtain ⟨hw, rw', pw⟩ := h.arrived hl h1 L hm J ha
  obtain ⟨hu, ru, -, -⟩ := h.vertex_of hl h1 L hv
  rw [pw] at he
  obtain ⟨hw', rv', pl⟩ := h.arrived hl h1 L hm J hv'
  rw [pl] at he
  have he := Option.some.inj he
  obtain ⟨a', ha', front⟩ := Arrives.before hv'
  obtain ⟨d', hd'⟩ := where_moves w v'
  have back : ∀ δ, whereAt w (x - δ) v' = going (whereAt w x v) (-d'.1, -d'.2) δ := by
    intro δ
    rw [sub_eq_add_neg, hd', he]
    unfold going
    ext <;> dsimp only <;> ring
  have near : Small fun δ => y' < x - δ ∧ OnFront s (x - δ) v' := by
    refine ((small_le J.lt).and (small_le ha')).mono fun δ δ0 ⟨q1, q2⟩ => ⟨by linarith, front _ (by linarith) (by linarith)⟩
  rcases h.surround hl h1 L hm J hu ru hw rw' (-d'.1, -d'.2) with
    ⟨a, b, hab, hp, hdif, t, ht, i, ⟨f1, f2, f3, f4⟩, S⟩ | ⟨f, S⟩
  · obtain ⟨δ, δ0, ⟨z, z1, z2, on⟩, k1, k2⟩ := (S.and near).some
    have k3 : x - δ < x := by linarith
    rw [← back] at on
    have Lz := J.last hm L z1.le z2
    have Lz' := J.last hm L k1.le k3
    have mem : (t, i) ∈ rim s0.skTriangles.toFinset w := mem_rim.2 ⟨List.mem_toFinset.2 ht, f1, f2⟩
    obtain ⟨c1, c2⟩ := h.side_is hl h1 Lz mem
    dsimp only at c1 c2
    rw [f3, f4] at c2
    rw [f4] at c1
    obtain ⟨-, -, pv, T, hT, lT, I, hI⟩ := h.vertex_of hl h1 Lz' k2
    obtain ⟨l', p, q, ol, ll, -, pq, es⟩ := front_side h hl (hy0.trans k1.le) (hset.before k3.le) k2
    rw [pv] at pq
    obtain rfl := Option.some.inj pq
    have on' : On p (whereAt w (x - δ) v') (whereAt w (x - δ) v') := ⟨1, zero_le_one, le_rfl, by ext <;> dsimp only <;> ring⟩
    rcases lt_trichotomy z (x - δ) with c | c | c
    · refine h.not_earlier hl hone h1 (hy0.trans z1.le) c (hset.before k3.le) Lz' c1.1 c2 on hT lT ?_
      rw [← hI]
      exact corner_closed (h.areas_at h1 Lz' hT lT) I
    · subst c
      have hev := J.quiet h h1 k1 k3
      have z0 : 0 < x - δ := hy0.trans_lt k1
      by_cases bv : b = v'
      · subst bv
        rcases hab with rfl | rfl
        · exact hdif he
        · exact hne rfl
      · obtain ⟨-, la⟩ := h.neighbours h1 Lz.hm Lz.run Lz.hy Lz.since hp
        rcases C98_simple h hl hone z0 (hset.before k3.le) hev c1 k2 bv la ll c2 es on on' with ⟨-, k⟩ | ⟨k, -⟩
        · exact C98_places h hl hone z0 (hset.before k3.le) hev c1 k2 bv (k.trans pv.symm)
        · subst k
          rcases hab with rfl | rfl
          · exact hne rfl
          · exact hdif he.symm
    · obtain ⟨ζ, ζ0, ζ1, e⟩ := on
      refine h.not_earlier hl hone h1 (hy0.trans k1.le) c (hset.before z2.le) Lz k2.1 es on' ht f1 ?_
      exact (closed_edge (h.areas_at h1 Lz ht f1) ζ0 ζ1 (by rw [f3]) (by rw [f4]) e).2
  · have sm : Small fun η : K => 0 < 1 - η * η * (f.1 ^ 2 + f.2 ^ 2) := by
      have := (Tends.const (1 : K)).sub ((Tends.id.mul Tends.id).mul (Tends.const (f.1 ^ 2 + f.2 ^ 2)))
      exact this.pos (by norm_num)
    obtain ⟨η, η0, k⟩ := sm.some
    obtain ⟨δ, δ0, ⟨t, ht, lt, -, cl⟩, k1, k2⟩ := ((S η η0).and near).some
    have k3 : x - δ < x := by linarith
    obtain ⟨-, -, pv, -⟩ := h.vertex_of hl h1 (J.last hm L k1.le k3) k2
    obtain ⟨l', p, q, ol, ll, -, pq, es⟩ := front_side h hl (hy0.trans k1.le) (hset.before k3.le) k2
    rw [pv] at pq
    obtain rfl := Option.some.inj pq
    have on' : On p (whereAt w (x - δ) v') (whereAt w (x - δ) v') := ⟨1, zero_le_one, le_rfl, by ext <;> dsimp only <;> ring⟩
    have := h.apart_closed hl hone h1 (hy0.trans k1.le) k3 hset L k2.1 es on' ht lt cl
    rw [back] at this
    have e : distSq (going (whereAt w x v) (-d'.1, -d'.2) δ) (going (whereAt w x v) (going (-d'.1, -d'.2) f η) δ) =
        δ ^ 2 * (η * η * (f.1 ^ 2 + f.2 ^ 2)) := by
      unfold distSq going
      dsimp only
      ring
    rw [e] at this
    have m := mul_pos (pow_pos δ0 2) k
    have : (x - (x - δ)) ^ 2 = δ ^ 2 := by ring
    linarith

theorem run_since {N : Prop} {s0 s : St K} (hI : Inv N 0 s0) (hr : Run depth s0 0 n now s trace) : Since (0 ≤ ·) s0 s := by
  induction hr with
  | start => exact sincePre.refl _
  | step hr hs ih =>
    have q := run_inv hr hI
    have le := (wp_ok (i_loopStep depth _ q.1) hs).2.2
    exact sincePre.trans _ _ _ ih ((si_iteration q.1 hs).mono (z := (0 ≤ ·)) fun t e => by rw [e]; exact q.2.1.trans le)

/-- vertices start at time 0 or later -/
theorem GeneralRun.starts (h : GeneralRun dt depth skel s0 n now s trace) {k : KVertex K} (hv : v ∈ s.skVertices)
    (e : s.vert v = .kin k) {a : K} (ha : k.startsAt = some a) : 0 ≤ a := by
  obtain ⟨-, s1, h1, hr⟩ := id h.run
  have G := (C90_sharp h).1
  obtain ⟨-, hI0⟩ := ready_start G.start h1
  obtain ⟨-, hI, -⟩ := G.ready
  have hlt := hI.refs.skVertices v hv
  have S := run_since hI0 hr
  obtain ⟨f1, f2, -⟩ := start_frame h1
  by_cases c : v < s1.nV
  · have q := S.kept v c
    rw [e] at q
    cases e' : s1.vert v with
    | inf o => dsimp only at q; rw [e'] at q; exact q.elim
    | kin k' =>
      dsimp only at q
      rw [e'] at q
      have q : SinceK _ k' k := q
      obtain ⟨z, -⟩ := G.start.initial.lives v k' (f2 ▸ c) (f1 ▸ e')
      rw [q.startsAt, z] at ha
      cases ha
      exact le_rfl
  · obtain ⟨t, e1, e2⟩ := S.fresh v (not_lt.1 c) hlt k e
    rw [e1] at ha
    cases ha
    exact e2

/-- limits of numbers that are not negative -/
theorem Tends.nonneg {f : K → K} {a : K} (h : Tends f a) (h0 : Small fun ε => 0 ≤ f ε) : 0 ≤ a := by
  by_contra c
  obtain ⟨ε, -, k1, k2⟩ := ((h.neg.pos (neg_pos.2 (not_le.1 c))).and h0).some
  linarith

/-- the place of a vertex that has one -/
theorem place_where {p : Pt K} (e : placeAt s v x = some p) (z : K) : placeAt s v z = some (whereAt s z v) := by
  unfold whereAt
  unfold placeAt at e ⊢
  cases q : s.vert v with
  | inf o => rw [q] at e; cases e
  | kin k => rfl

/-- **C100.** In general position, when the boundary of the input winds around no point more than once: the places of two
vertices of the skeleton at times `x` and `x'`, up to and including the ends of their arcs, have a distance of at least
`x - x'`. -/
theorem C100_distance (h : GeneralRun dt depth skel s0 n now s trace) (hl : LoneEvents depth s0 n)
    (hone : ∀ o, dtWinding dt o ≤ 1) (hx : 0 ≤ x) {x' : K} (hx' : 0 ≤ x') (hset : Settled s now x) (hset' : Settled s now x')
    (hv : OnFront s x v ∨ Arrives s x v) (hv' : OnFront s x' v' ∨ Arrives s x' v') {p p' : Pt K}
    (e : placeAt s v x = some p) (e' : placeAt s v' x' = some p') : (x - x') ^ 2 ≤ distSq p p' := by
  obtain ⟨-, s1, h1, -⟩ := id h.run
  have sym : ∀ p q : Pt K, distSq p q = distSq q p := fun p q => by unfold distSq; ring
  have early : ∀ {x x' : K} {v v' : VId} {p p' : Pt K}, 0 ≤ x → 0 ≤ x' → Settled s now x → Settled s now x' → OnFront s x v →
      OnFront s x' v' → placeAt s v x = some p → placeAt s v' x' = some p' → x < x' → (x' - x) ^ 2 ≤ distSq p p' := by
    intro x x' v v' p p' hx hx' hset hset' hv hv' e e' hlt
    obtain ⟨a, p1, q, -, -, -, eq, es⟩ := front_side h hl hx hset hv
    rw [e] at eq
    obtain rfl := Option.some.inj eq
    obtain ⟨m, y, u, tr, L⟩ := h.last h1 hx' hset'
    obtain ⟨-, -, ep, t, ht, lt, i, hi⟩ := h.vertex_of hl h1 L hv'
    rw [e'] at ep
    obtain rfl := Option.some.inj ep
    refine h.apart_closed hl hone h1 hx hlt hset' L hv.1 es ⟨1, zero_le_one, le_rfl, ?_⟩ ht lt ?_
    · ext <;> dsimp only <;> ring
    · rw [← hi]
      exact corner_closed (h.areas_at h1 L ht lt) i
  have front : ∀ {x x' : K} {v v' : VId} {p p' : Pt K}, 0 ≤ x → 0 ≤ x' → Settled s now x → Settled s now x' → OnFront s x v →
      OnFront s x' v' → placeAt s v x = some p → placeAt s v' x' = some p' → (x - x') ^ 2 ≤ distSq p p' := by
    intro x x' v v' p p' hx hx' hset hset' hv hv' e e'
    rcases lt_trichotomy x x' with c | rfl | c
    · refine (early hx hx' hset hset' hv hv' e e' c).trans' (le_of_eq ?_)
      ring
    · rw [sub_self]
      unfold distSq
      have := sq_nonneg (p.1 - p'.1)
      have := sq_nonneg (p.2 - p'.2)
      linarith
    · rw [sym]
      exact early hx' hx hset' hset hv' hv e' e c
  have extend : ∀ {x x' : K} {v : VId} {p p' : Pt K}, Settled s now x → Arrives s x v → placeAt s v x = some p →
      (∀ z q, 0 ≤ z → Settled s now z → OnFront s z v → placeAt s v z = some q → (z - x') ^ 2 ≤ distSq q p') →
      (x - x') ^ 2 ≤ distSq p p' := by
    intro x x' v p p' hset hv e H
    have hp : p = whereAt s x v := by
      have := place_where e x
      rw [e] at this
      exact Option.some.inj this
    obtain ⟨a, ha, q⟩ := Arrives.before hv
    have T : Tends (fun ε => distSq (whereAt s (x - ε) v) p' - (x - ε - x') * (x - ε - x'))
        (distSq (whereAt s x v) p' - (x - x') * (x - x')) := by
      have k : Tends (fun ε : K => x - ε - x') (x - x') := by
        have := ((Tends.const x).sub Tends.id).sub (Tends.const x')
        rw [sub_zero] at this
        exact this
      exact ((where_before s x v).dist (.const _)).sub (k.mul k)
    have := T.nonneg ((small_le ha).mono fun ε ε0 k => ?_)
    · rw [hp, sq]
      linarith
    · have f := q (x - ε) (by linarith) (by linarith)
      have h0 : 0 ≤ x - ε := by
        obtain ⟨f1, kv, f2, ⟨b, f3, f4⟩, -⟩ := f
        exact (h.starts f1 f2 f3).trans f4
      have := H (x - ε) _ h0 (hset.before (by linarith)) f (place_where e _)
      rw [sq] at this
      linarith
  have first : ∀ {x' : K} {v' : VId} {p' : Pt K}, 0 ≤ x' → Settled s now x' → OnFront s x' v' → placeAt s v' x' = some p' →
      (x - x') ^ 2 ≤ distSq p p' := by
    intro x' v' p' hx' hset' hv' e'
    rcases hv with hv | hv
    · exact front hx hx' hset hset' hv hv' e e'
    · exact extend hset hv e fun z q hz hs hf eq => front hz hx' hs hset' hf hv' eq e'
  rcases hv' with hv' | hv'
  · exact first hx' hset' hv' e'
  · have := extend (x' := x) hset' hv' e' fun z q hz hs hf eq => by
      have := first hz hs hf eq
      rw [sym] at this
      refine this.trans' (le_of_eq ?_)
      ring
    rw [sym] at this
    refine this.trans' (le_of_eq ?_)
    ring

/-- **C100.** The inner points of the arc of a vertex are on the arc of no other vertex, the ends of that arc included. -/
theorem C100_arcs (h : GeneralRun dt depth skel s0 n now s trace) (hl : LoneEvents depth s0 n)
    (hone : ∀ o, dtWinding dt o ≤ 1) (hset : Settled s now x) {x' : K} (hx' : 0 ≤ x') (hset' : Settled s now x')
    (hv : OnFront s x v) (ha : Arrives s x v) (hne : v ≠ v') (hv' : OnFront s x' v' ∨ Arrives s x' v') :
    placeAt s v x ≠ placeAt s v' x' := by
  intro he
  have hx : 0 < x := by
    obtain ⟨f1, k, f2, ⟨b, f3, f4⟩, -⟩ := ha
    exact (h.starts f1 f2 f3).trans_lt f4
  obtain ⟨p, e⟩ : ∃ p, placeAt s v x = some p := by
    obtain ⟨-, k, e, -⟩ := ha
    exact ⟨_, by unfold placeAt; rw [e]⟩
  have d := C100_distance h hl hone hx.le hx' hset hset' (.inl hv) hv' e (he ▸ e)
  have : x = x' := by
    unfold distSq at d
    rw [sub_self, sub_self] at d
    have := pow_eq_zero_iff (two_ne_zero) |>.1 (le_antisymm (d.trans_eq (by ring)) (sq_nonneg (x - x')))
    linarith
  subst this
  rcases hv' with hv' | hv'
  · exact front_apart h hl hone hx hset hv ha hne hv' he
  · exact arrival_apart h hl hone hx hset hv ha hne hv' he

/-- **C100.** So where the arcs of two vertices meet, the vertices are there at the same time and both arcs end. -/
theorem C100_meet (h : GeneralRun dt depth skel s0 n now s trace) (hl : LoneEvents depth s0 n)
    (hone : ∀ o, dtWinding dt o ≤ 1) (hx : 0 ≤ x) {x' : K} (hx' : 0 ≤ x') (hset : Settled s now x) (hset' : Settled s now x')
    (hne : v ≠ v') (hv : OnFront s x v ∨ Arrives s x v) (hv' : OnFront s x' v' ∨ Arrives s x' v')
    (he : placeAt s v x = placeAt s v' x') :
    x = x' ∧ ¬ (OnFront s x v ∧ Arrives s x v) ∧ ¬ (OnFront s x v' ∧ Arrives s x v') := by
  have k1 : ¬ (OnFront s x v ∧ Arrives s x v) := fun q => C100_arcs h hl hone hset hx' hset' q.1 q.2 hne hv' he
  have k2 : ¬ (OnFront s x' v' ∧ Arrives s x' v') := fun q => C100_arcs h hl hone hset' hx hset q.1 q.2 hne.symm hv he.symm
  have : x = x' := by
    obtain ⟨p, e⟩ : ∃ p, placeAt s v x = some p := by
      obtain ⟨k, e⟩ : ∃ k, s.vert v = .kin k := by
        rcases hv with ⟨-, k, e, -⟩ | ⟨-, k, e, -⟩ <;> exact ⟨k, e⟩
      exact ⟨_, by unfold placeAt; rw [e]⟩
    have d := C100_distance h hl hone hx hx' hset hset' hv hv' e (he ▸ e)
    unfold distSq at d
    rw [sub_self, sub_self] at d
    have := pow_eq_zero_iff (two_ne_zero) |>.1 (le_antisymm (d.trans_eq (by ring)) (sq_nonneg (x - x')))
    linarith
  subst this
  exact ⟨rfl, k1, k2⟩

/-- vertex `v` of the skeleton starts at time `a` and is stopped at time `b` -/
def Sample.lives (s : St ℚ) (v : VId) (a b : ℚ) : Bool :=
  decide (v ∈ s.skVertices) && match s.vert v with
    | .kin k => decide (k.startsAt = some a) && decide (k.stopsAt = some b)
    | .inf _ => false

theorem Sample.lives_front {s : St ℚ} {v : VId} {a b x : ℚ} (h : Sample.lives s v a b = true) :
    (a ≤ x → x < b → OnFront s x v) ∧ (a < x → x ≤ b → Arrives s x v) := by
  unfold Sample.lives at h
  cases e : s.vert v with
  | inf o => rw [e] at h; simp at h
  | kin k =>
    rw [e] at h
    simp only [Bool.and_eq_true, decide_eq_true_eq] at h
    obtain ⟨h1, h2, h3⟩ := h
    refine ⟨fun q1 q2 => ⟨h1, k, e, ⟨a, h2, q1⟩, fun c hc => ?_⟩, fun q1 q2 => ⟨h1, k, e, ⟨a, h2, q1⟩, fun c hc => ?_⟩⟩
    · rw [h3] at hc; cases hc; exact q2
    · rw [h3] at hc; cases hc; exact q2

/-- The hypotheses of C100 are met by the pentagon at the time when it is split: vertex 2 is on the wavefront before and
after, vertex 0 ends and vertex 11 starts. -/
example : ∃ s tr, GeneralRun Sample.notchDt 100 Sample.notchSkeleton Sample.notchStart 4 (29 / 12) s tr ∧
    LoneEvents 100 Sample.notchStart 4 ∧ (∀ o, dtWinding Sample.notchDt o ≤ 1) ∧ Settled s (29 / 12) (34 / 21) ∧
    OnFront s (34 / 21) 2 ∧ Arrives s (34 / 21) 2 ∧ OnFront s (34 / 21) 11 ∧ ¬ OnFront s (34 / 21) 0 ∧
    Arrives s (34 / 21) 0 := by
  obtain ⟨s, tr, hs, hi, hq, h⟩ := Sample.notch_done
  have hv : (stateAt 100 Sample.notchFirst 4).map (fun r => Sample.lives r.2 2 0 (29 / 12) &&
      Sample.lives r.2 11 (34 / 21) (387 / 196) && Sample.lives r.2 0 0 (34 / 21)) = some true := by decide +kernel
  rw [hs] at hv
  have hv : (Sample.lives s 2 0 (29 / 12) && Sample.lives s 11 (34 / 21) (387 / 196) && Sample.lives s 0 0 (34 / 21)) = true :=
    Option.some.inj hv
  rw [Bool.and_eq_true, Bool.and_eq_true] at hv
  obtain ⟨⟨a, b⟩, c⟩ := hv
  refine ⟨s, tr, h, Sample.notch_input.lone 4, Sample.notch_winding, .inl (by norm_num),
    (Sample.lives_front a).1 (by norm_num) (by norm_num), (Sample.lives_front a).2 (by norm_num) (by norm_num),
    (Sample.lives_front b).1 le_rfl (by norm_num), ?_, (Sample.lives_front c).2 (by norm_num) le_rfl⟩
  rintro ⟨-, k, e, -, q⟩
  unfold Sample.lives at c
  rw [e] at c
  simp only [Bool.and_eq_true, decide_eq_true_eq] at c
  exact absurd (q _ c.2.2) (lt_irrefl _)

end Grassfire
