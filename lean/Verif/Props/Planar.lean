/-
Property C98: the skeleton is a plane graph.
-/
import Verif.Proofs.Around

set_option linter.unusedSectionVars false

namespace Grassfire

open Spec

variable {K : Type} [Field K] [LinearOrder K] [IsStrictOrderedRing K] [HasSqrt K] [SqrtUnit K] [HasTrig K]

variable {dt : Dt K} {depth : ℕ} {skel s0 : St K} {n : ℕ} {now : K} {s s1 : St K} {trace : List (Event K × K)}

variable {m : ℕ} {x y : K} {u : St K} {tr : List (Event K × K)}

/-- **C98.** In general position, when the boundary of the input winds around no point more than once: the sides of the
wavefront at time `x` have a distance of at least `x' - x` to all points inside the wavefront at any later time `x'`. -/
theorem C98_apart (h : GeneralRun dt depth skel s0 n now s trace) (hl : LoneEvents depth s0 n)
    (hone : ∀ o, dtWinding dt o ≤ 1) (hx : 0 ≤ x) {x' : K} (hxx : x < x') (hset : Settled s now x') {v : VId} {p q r o : Pt K}
    (hv : v ∈ s.skVertices) (hs : sideAt s x v = some (p, q)) (hr : On p q r) (ho : 0 < winding s x' o) :
    (x' - x) ^ 2 ≤ distSq r o := by
  by_contra hlt
  have hlt := sub_pos.2 (not_le.1 hlt)
  obtain ⟨-, s1, h1, -⟩ := id h.run
  obtain ⟨m, y, u, tr, x1, hx1, LL⟩ := h.longer h1 hx (hset.before hxx.le)
  have L := LL x le_rfl hx1
  obtain ⟨t, ht, lt, i, hn, -, rfl, rfl⟩ := h.side_of hl h1 L hv hs
  obtain ⟨z, z0, z1, hr⟩ := hr
  change r = along _ _ z at hr
  subst hr
  have hy0 : 0 ≤ y := by
    obtain ⟨-, hI0⟩ := ready_start (C90_sharp h).1.start h1
    exact (run_inv L.run hI0).2.1
  have P := where_after u x ((u.tri t).vertices (i + 1))
  have Q := where_after u x ((u.tri t).vertices (i + 2))
  have M : Tends (fun ε => z + ε * (1 / 2 - z)) z := by
    have := (Tends.const z).add (Tends.id.mul (Tends.const (1 / 2 - z)))
    rw [zero_mul, add_zero] at this
    exact this
  have E := P.along Q M
  have F : Tends (fun ε => (x' - (x + ε)) ^ 2) ((x' - x) ^ 2) := by
    have k := (Tends.const x').sub ((Tends.const x).add Tends.id)
    have := k.mul k
    rw [add_zero] at this
    simpa only [sq] using this
  obtain ⟨ε, e0, ⟨⟨k1, k2⟩, k3⟩, k4⟩ := ((((F.sub (E.dist (.const o))).pos hlt).and (small_le hx1)).and (small_le hxx)
    |>.and ⟨1, one_pos, fun ε _ q => (q : ε ≤ 1)⟩).some
  have Lz := LL (x + ε) (by linarith) k2
  have am : Amid (whereAt u (x + ε) ((u.tri t).vertices (i + 1))) (whereAt u (x + ε) ((u.tri t).vertices (i + 2)))
      (along _ _ (z + ε * (1 / 2 - z))) := ⟨z + ε * (1 / 2 - z), by nlinarith, by nlinarith, rfl⟩
  have A := h.areas_at h1 Lz ht lt
  rw [areaOf_side i] at A
  have B := base_pos A
  generalize along _ _ (z + ε * (1 / 2 - z)) = c at k1 am
  obtain ⟨w, hw⟩ : ∃ w, sideTurn u (x + ε) t i w < 0 := by
    refine ⟨((whereAt u (x + ε) ((u.tri t).vertices (i + 2))).2 -
      (whereAt u (x + ε) ((u.tri t).vertices (i + 1))).2, -((whereAt u (x + ε) ((u.tri t).vertices (i + 2))).1 -
      (whereAt u (x + ε) ((u.tri t).vertices (i + 1))).1)), ?_⟩
    unfold sideTurn
    dsimp only
    nlinarith
  obtain ⟨η, -, j1, j2⟩ := ((h.winding_passed hl h1 Lz (L.hy.trans_lt (lt_add_of_pos_right _ e0)) ht lt hn hw am).and
    (((Tends.const ((x' - (x + ε)) ^ 2)).sub ((TendsP.going c w).dist (.const o))).pos k1)).some
  have c1 := C96_clearance h hl (by linarith) k3.le hset (sub_nonneg.1 j2.le)
  have c2 : ∀ o, winding s y o ≤ 1 := fun o => by
    rcases (C96_range h hl hy0 (hset.before (L.hy.trans hxx.le)) _).2 (hone o) with q | q <;> rw [q]
    decide
  have := j1.trans (c2 _)
  omega

/-- a vertex on the wavefront, in the last state -/
theorem GeneralRun.vertex_of (h : GeneralRun dt depth skel s0 n now s trace) (hl : LoneEvents depth s0 n)
    (h1 : initEventList s0 = .ok ((), s1)) (L : LastUpTo depth s1 n s x m y u tr) {v : VId} (hv : OnFront s x v) :
    v ∈ u.skVertices ∧ Running u v ∧ placeAt s v x = some (whereAt u x v) ∧ ∃ t ∈ s0.skTriangles, Live u t ∧
      ∃ i, (u.tri t).vertices i = v := by
  obtain ⟨a1, a2⟩ := (h.onFront hl h1 L.hm L.run L.hy L.since L.grows v).1 hv
  have U := h.prefix L.hm h1 L.run
  have Lo := U.lone fun z hz k hk => hl z hz k (hk.trans L.hm)
  obtain ⟨-, -, hP, -⟩ := Lo.state
  have hsk : u.skTriangles = s0.skTriangles := U.run.triangles
  have := hP.held v a1 a2
  rw [hsk] at this
  refine ⟨a1, a2, ?_, this⟩
  obtain ⟨hlt, k, e⟩ := a2.kinetic
  exact grows_place L.grows hlt (by unfold whereAt placeAt; rw [e]; rfl)

/-- the left neighbour of a vertex on the wavefront is on the wavefront -/
theorem front_side (h : GeneralRun dt depth skel s0 n now s trace) (hl : LoneEvents depth s0 n) (hx : 0 ≤ x)
    (hset : Settled s now x) {v : VId} (hv : OnFront s x v) : ∃ a p q, OnFront s x a ∧ LeftAt s x v a ∧
      placeAt s a x = some p ∧ placeAt s v x = some q ∧ sideAt s x v = some (p, q) := by
  obtain ⟨a, oa, la, -⟩ := (C94_rings h hl hx hset).1.left v hv
  obtain ⟨-, ka, ea, -⟩ := id oa
  obtain ⟨-, k, ek, ⟨b, eb, hb⟩, hc⟩ := id hv
  obtain ⟨k', ek', el⟩ := id la
  rw [ek] at ek'
  cases ek'
  refine ⟨a, pointAt ka x, pointAt k x, oa, la, by unfold placeAt; rw [ea], by unfold placeAt; rw [ek], ?_⟩
  unfold sideAt
  rw [ek]
  dsimp only
  rw [if_pos, el]
  · unfold placeAt
    dsimp only
    rw [ea]
    rfl
  · rw [eb]
    cases hs : k.stopsAt with
    | none => simpa using hb
    | some c => simpa using ⟨hb, hc c hs⟩

/-- **C98.** No place is passed by two vertices at different times. -/
theorem C98_times (h : GeneralRun dt depth skel s0 n now s trace) (hl : LoneEvents depth s0 n)
    (hone : ∀ o, dtWinding dt o ≤ 1) (hx : 0 ≤ x) {x' : K} (hx' : 0 ≤ x') (hset : Settled s now x) (hset' : Settled s now x')
    {v v' : VId} (hv : OnFront s x v) (hv' : OnFront s x' v') (he : placeAt s v x = placeAt s v' x') : x = x' := by
  obtain ⟨-, s1, h1, -⟩ := id h.run
  have main : ∀ {x x' : K} {v v' : VId}, 0 ≤ x → 0 ≤ x' → Settled s now x → Settled s now x' → OnFront s x v → OnFront s x' v' →
      placeAt s v x = placeAt s v' x' → ¬ x < x' := by
    intro x x' v v' hx hx' hset hset' hv hv' he hlt
    obtain ⟨a, p, q, -, -, -, eq, es⟩ := front_side h hl hx hset hv
    obtain ⟨m, y, u, tr, L⟩ := h.last h1 hx' hset'
    obtain ⟨-, -, ep, t, ht, lt, i, hi⟩ := h.vertex_of hl h1 L hv'
    rw [ep, eq] at he
    obtain rfl := Option.some.inj he
    have A := h.areas_at h1 L ht lt
    have cl : ∀ j, 0 ≤ sideArea u x' t j (whereAt u x' v') := by
      rw [← hi]
      obtain ⟨e1, e2, e3, e4⟩ := sides_after i
      refine threeSides _ i ?_ ?_ ?_
      · rw [areaOf_side i] at A
        exact A.le
      · refine le_of_eq ?_
        unfold sideArea area2
        rw [e1, e2]
        ring
      · refine le_of_eq ?_
        unfold sideArea area2
        rw [e3, e4]
        ring
    have far : 0 < (x' - x) ^ 2 - distSq (whereAt u x' v') (whereAt u x' v') := by
      unfold distSq
      rw [sub_self, sub_self]
      have := pow_pos (sub_pos.2 hlt) 2
      linarith
    obtain ⟨ε, -, k1, k2⟩ := ((inward_inside A cl).and
      (((Tends.const ((x' - x) ^ 2)).sub ((TendsP.const (whereAt u x' v')).dist (TendsP.going (whereAt u x' v')
        (inward u x' t (whereAt u x' v'))))).pos far)).some
    have w := (h.winding_ge hl h1 L ht lt k1).1
    have := C98_apart (r := whereAt u x' v') h hl hone hx hlt hset' hv.1 es ⟨1, zero_le_one, le_rfl, by ext <;> dsimp only <;> ring⟩ (lt_of_lt_of_le zero_lt_one w)
    linarith
  rcases lt_trichotomy x x' with c | c | c
  · exact (main hx hx' hset hset' hv hv' he c).elim
  · exact c
  · exact (main hx' hx hset' hset hv' hv he.symm c).elim

/-- **C98.** Between the times of events, different vertices of the wavefront are at different places. -/
theorem C98_places (h : GeneralRun dt depth skel s0 n now s trace) (hl : LoneEvents depth s0 n)
    (hone : ∀ o, dtWinding dt o ≤ 1) (hx : 0 < x) (hset : Settled s now x) (hev : ∀ e ∈ trace, e.2 ≠ x) {v v' : VId}
    (hv : OnFront s x v) (hv' : OnFront s x v') (hne : v ≠ v') : placeAt s v x ≠ placeAt s v' x := by
  intro he
  obtain ⟨-, s1, h1, hrun⟩ := id h.run
  obtain ⟨m, y, u, tr, L⟩ := h.last h1 hx.le hset
  have hyx : y < x := by
    refine lt_of_le_of_ne L.hy ?_
    rintro rfl
    rcases run_time hrun L.run L.hm with rfl | ⟨e, he, q⟩
    · exact lt_irrefl _ hx
    · exact hev e he q
  obtain ⟨-, hI0⟩ := ready_start (C90_sharp h).1.start h1
  have hy0 : 0 ≤ y := (run_inv L.run hI0).2.1
  obtain ⟨a1, a2, a3, -⟩ := h.vertex_of hl h1 L hv
  obtain ⟨b1, b2, b3, -⟩ := h.vertex_of hl h1 L hv'
  rw [a3, b3] at he
  have he := Option.some.inj he
  obtain ⟨ε, e0, ⟨k1, c⟩, -, c'⟩ := ((h.covered hl h1 L hyx a1 a2).and (h.covered hl h1 L hyx b1 b2)).some
  have Lz := L.earlier k1 (sub_le_self x e0.le)
  rw [← he] at c'
  refine h.covered_once hl h1 Lz (fun o => ?_) c c' fun t ht lt j j' hj hj' => ?_
  · rcases (C96_range h hl (hy0.trans k1) (hset.before (sub_le_self x e0.le)) o).2 (hone o) with q | q <;> rw [q]
    decide
  · have A := h.areas_at h1 L ht lt
    have jj : j ≠ j' := by
      rintro rfl
      exact hne (hj.symm.trans hj')
    rw [areaOf_side j] at A
    rcases (by decide : ∀ j j' : Fin 3, j ≠ j' → j' = j + 1 ∨ j' = j + 2) j j' jj with rfl | rfl
    · rw [hj, hj', ← he] at A
      unfold area2 at A
      ring_nf at A
      exact lt_irrefl _ A
    · rw [hj, hj', ← he] at A
      unfold area2 at A
      ring_nf at A
      exact lt_irrefl _ A

/-- **C98.** Where the arcs of two vertices of the skeleton meet, the vertices are there at the same time, which is 0 or that
of an event. -/
theorem C98_plane (h : GeneralRun dt depth skel s0 n now s trace) (hl : LoneEvents depth s0 n)
    (hone : ∀ o, dtWinding dt o ≤ 1) (hx : 0 ≤ x) {x' : K} (hx' : 0 ≤ x') (hset : Settled s now x) (hset' : Settled s now x')
    {v v' : VId} (hne : v ≠ v') (hv : OnFront s x v) (hv' : OnFront s x' v') (he : placeAt s v x = placeAt s v' x') :
    x = x' ∧ (x = 0 ∨ ∃ e ∈ trace, e.2 = x) := by
  obtain rfl := C98_times h hl hone hx hx' hset hset' hv hv' he
  refine ⟨rfl, ?_⟩
  by_contra c
  push Not at c
  exact C98_places h hl hone (lt_of_le_of_ne hx fun q => c.1 q.symm) hset c.2 hv hv' hne he

/-- **C98.** Between the times of events, the wavefront consists of simple polygons that do not touch each other: two sides
have at most a vertex in common. -/
theorem C98_simple (h : GeneralRun dt depth skel s0 n now s trace) (hl : LoneEvents depth s0 n)
    (hone : ∀ o, dtWinding dt o ≤ 1) (hx : 0 < x) (hset : Settled s now x) (hev : ∀ e ∈ trace, e.2 ≠ x) {v v' a a' : VId}
    {p q p' q' r : Pt K} (hv : OnFront s x v) (hv' : OnFront s x v') (hne : v ≠ v') (ha : LeftAt s x v a)
    (ha' : LeftAt s x v' a') (hs : sideAt s x v = some (p, q)) (hs' : sideAt s x v' = some (p', q')) (hr : On p q r)
    (hr' : On p' q' r) : v = a' ∧ placeAt s v x = some r ∨ v' = a ∧ placeAt s v' x = some r := by
  obtain ⟨b, p1, q1, ob, lb, eb, ev, es⟩ := front_side h hl hx.le hset hv
  obtain ⟨b', p1', q1', ob', lb', eb', ev', es'⟩ := front_side h hl hx.le hset hv'
  obtain rfl := leftAt_unique lb ha
  obtain rfl := leftAt_unique lb' ha'
  rw [hs] at es
  cases es
  rw [hs'] at es'
  cases es'
  have ends : ∀ {p q r : Pt K}, On p q r → Amid p q r ∨ r = p ∨ r = q := by
    rintro p q r ⟨z, z0, z1, e⟩
    rcases z0.lt_or_eq with z0 | rfl
    · rcases z1.lt_or_eq with z1 | rfl
      · exact .inl ⟨z, z0, z1, e⟩
      · refine .inr (.inr (e.trans ?_))
        ext <;> dsimp only <;> ring
    · refine .inr (.inl (e.trans ?_))
      ext <;> dsimp only <;> ring
  have same : ∀ {c d : VId} {w : Pt K}, OnFront s x c → OnFront s x d → placeAt s c x = some w → placeAt s d x = some w →
      c = d := by
    intro c d w hc hd ec ed
    by_contra k
    exact C98_places h hl hone hx hset hev hc hd k (ec.trans ed.symm)
  rcases ends hr with k | k
  · exact (C97_touch h hl hone hx hset hev hv.1 hv'.1 hne hs hs' k hr').elim
  · rcases ends hr' with k' | k'
    · exact (C97_touch h hl hone hx hset hev hv'.1 hv.1 hne.symm hs' hs k' hr).elim
    · rcases k with rfl | rfl
      · rcases k' with rfl | rfl
        · refine (hne ?_).elim
          obtain rfl := same ob ob' eb eb'
          have R := (C94_rings h hl hx.le hset).1
          obtain ⟨c, -, lc, k, e1, e2⟩ := R.left v hv
          obtain ⟨c', -, lc', k', e1', e2'⟩ := R.left v' hv'
          obtain rfl := leftAt_unique lc lb
          obtain rfl := leftAt_unique lc' lb'
          rw [e1] at e1'
          cases e1'
          rw [e2] at e2'
          exact Option.some.inj (Option.some.inj e2')
        · exact .inr ⟨same hv' ob ev' eb, ev'⟩
      · rcases k' with rfl | rfl
        · exact .inl ⟨same hv ob' ev eb', ev⟩
        · exact (hne (same hv hv' ev ev')).elim

/-- The hypotheses of C98 are met by the pentagon between two events, when its wavefront has two parts. -/
example := Sample.notch_between

/-- The two vertices that start where the pentagon is split: they are at the same place at the time of this event. -/
example : ∃ s tr, GeneralRun Sample.notchDt 100 Sample.notchSkeleton Sample.notchStart 4 (29 / 12) s tr ∧
    LoneEvents 100 Sample.notchStart 4 ∧ (∀ o, dtWinding Sample.notchDt o ≤ 1) ∧ Settled s (29 / 12) (34 / 21) ∧
    s.skVertices.filterMap (fun v => (sideAt s (34 / 21) v).map fun a => (v, a.2)) =
      [(2, 50 / 21, 34 / 21), (4, 50 / 21, 337 / 84), (6, -571 / 189, -5 / 126), (8, -899 / 336, -73 / 84),
      (11, -17 / 21, 34 / 21), (12, -17 / 21, 34 / 21)] := by
  obtain ⟨s, tr, hs, hi, hq, h⟩ := Sample.notch_done
  have hv : (stateAt 100 Sample.notchFirst 4).map
      (fun r => r.2.skVertices.filterMap (fun v => (sideAt r.2 (34 / 21) v).map fun a => (v, a.2))) =
      some [(2, 50 / 21, 34 / 21), (4, 50 / 21, 337 / 84), (6, -571 / 189, -5 / 126), (8, -899 / 336, -73 / 84),
      (11, -17 / 21, 34 / 21), (12, -17 / 21, 34 / 21)] := by decide +kernel
  rw [hs] at hv
  exact ⟨s, tr, h, Sample.notch_input.lone 4, Sample.notch_winding, .inl (by norm_num), Option.some.inj hv⟩

end Grassfire
