/-
The triangles around a vertex, for C98.
-/
import Verif.Proofs.Apart

set_option linter.unusedSectionVars false

namespace Grassfire

open Spec

variable {K : Type} [Field K] [LinearOrder K] [IsStrictOrderedRing K]

variable {u : St K} {z : K} {t : TId} {i : Fin 3} {r : Pt K} {v : VId} {S : TId → Prop}

/-- around a vertex, from one side of the wavefront to the other, one comes past every point that is inside both -/
theorem fan_find (hM : Mesh u) (hS : Closed S u)
    (hN : ∀ t, S t → Live u t → ∀ j, (u.tri t).vertices j = v → (u.tri t).neighbours (j + 2) = none →
      0 < sideArea u z t (j + 2) r) {ot : Option TId} {l : List TId} (hw : FanWalk .cw v u.tri ot l) :
    ∀ t, ot = some t → S t → Live u t → ∀ i, (u.tri t).vertices i = v → 0 < sideArea u z t (i + 1) r →
      ∃ t', S t' ∧ Live u t' ∧ ∃ j, (u.tri t').vertices j = v ∧ 0 < sideArea u z t' (j + 1) r ∧
        0 ≤ sideArea u z t' (j + 2) r := by
  induction hw with
  | stop => intro t h; cases h
  | @step t i l hi hw ih =>
    intro t' e st lt i' hi' pos
    cases e
    obtain rfl : i = i' := hM.distinct t lt.1 (hi.trans hi'.symm)
    rcases le_or_gt 0 (sideArea u z t (i + 2) r) with c | c
    · exact ⟨t, st, lt, i, hi, pos, c⟩
    · cases hn : (u.tri t).neighbours (i + 2) with
      | none => exact absurd (hN t st lt i hi hn) (not_lt.2 c.le)
      | some n =>
        obtain ⟨ln, j, -, j1, j2⟩ := facing hM.consistent lt hn
        obtain ⟨e1, e2, e3, e4⟩ := sides_after i
        obtain ⟨f1, f2, f3, f4⟩ := sides_after j
        refine ih n hn (hS t (i + 2) n st hn) ln (j + 2) (by rw [j2, e3, hi]) ?_
        rw [f3]
        unfold sideArea at c ⊢
        rw [j1, j2, area2_swap]
        exact neg_pos.2 c

theorem edge_amid (hA : 0 < areaOf u z t) (h : EdgeT u z t i r) :
    Amid (whereAt u z ((u.tri t).vertices (i + 1))) (whereAt u z ((u.tri t).vertices (i + 2))) r := by
  obtain ⟨h1, h2, h3⟩ := h
  obtain ⟨e1, e2, e3, e4⟩ := sides_after i
  rw [areaOf_side i] at hA
  unfold sideArea at h1 h2 h3
  rw [e1, e2] at h2
  rw [e3, e4] at h3
  generalize whereAt u z ((u.tri t).vertices (i + 1)) = a at *
  generalize whereAt u z ((u.tri t).vertices (i + 2)) = b at *
  generalize whereAt u z ((u.tri t).vertices i) = c at *
  have sum : area2 b c r + area2 c a r = area2 a b c := by
    have : area2 a b r + area2 b c r + area2 c a r = area2 a b c := by unfold area2; ring
    rw [h1] at this
    linarith
  refine ⟨area2 c a r / area2 a b c, div_pos h3 hA, (div_lt_one hA).2 (by linarith), ?_⟩
  have k1 : area2 a b c * (r.1 - a.1) = area2 c a r * (b.1 - a.1) + area2 a b r * (c.1 - a.1) := by unfold area2; ring
  have k2 : area2 a b c * (r.2 - a.2) = area2 c a r * (b.2 - a.2) + area2 a b r * (c.2 - a.2) := by unfold area2; ring
  rw [h1, zero_mul, add_zero] at k1 k2
  ext
  · dsimp only
    rw [div_mul_eq_mul_div, ← k1, mul_div_cancel_left₀ _ hA.ne']
    ring
  · dsimp only
    rw [div_mul_eq_mul_div, ← k2, mul_div_cancel_left₀ _ hA.ne']
    ring

theorem amid_symm {p q r : Pt K} (h : Amid p q r) : Amid q p r := by
  obtain ⟨z, z0, z1, rfl⟩ := h
  refine ⟨1 - z, by linarith, by linarith, ?_⟩
  ext
  · dsimp only; ring
  · dsimp only; ring

/-- the point is inside a triangle with corner `v`, or between two -/
def Covered (S : TId → Prop) (u : St K) (z : K) (v : VId) (r : Pt K) : Prop :=
  ∃ t, S t ∧ Live u t ∧ (∃ j, (u.tri t).vertices j = v) ∧ (∀ j, 0 ≤ sideArea u z t j r) ∧ (InsideT u z t r ∨ ∃ k, EdgeT u z t k r ∧
    ∃ t', S t' ∧ Live u t' ∧ (∃ j, (u.tri t').vertices j = v) ∧ ∃ k', EdgeT u z t' k' r ∧
      ∀ w, sideTurn u z t' k' w = -sideTurn u z t k w)

theorem fan_covers (hM : Mesh u) (hS : Closed S u) (hA : ∀ t, S t → Live u t → 0 < areaOf u z t)
    (hN : ∀ t, S t → Live u t → ∀ j, (u.tri t).vertices j = v → (u.tri t).neighbours (j + 2) = none →
      0 < sideArea u z t (j + 2) r)
    (hT : ∀ t, S t → Live u t → ∀ j, (u.tri t).vertices j = v → 0 < sideArea u z t j r) {l : List TId}
    (hw : FanWalk .cw v u.tri (some t) l) (ht : S t) (hl : Live u t) (hi : (u.tri t).vertices i = v)
    (h0 : 0 < sideArea u z t (i + 1) r) : Covered S u z v r := by
  obtain ⟨t, st, lt, j, hj, c1, c2⟩ := fan_find hM hS hN hw t rfl ht hl i hi h0
  have c0 := hT t st lt j hj
  refine ⟨t, st, lt, ⟨j, hj⟩, threeSides _ j c0.le c1.le c2, ?_⟩
  rcases c2.lt_or_eq with c2 | c2
  · exact .inl (threeSides _ j c0 c1 c2)
  · obtain ⟨e1, e2, e3, e4⟩ := sides_after j
    have E : EdgeT u z t (j + 2) r := ⟨c2.symm, by rw [e3]; exact c0, by rw [e4]; exact c1⟩
    refine .inr ⟨j + 2, E, ?_⟩
    cases hn : (u.tri t).neighbours (j + 2) with
    | none => exact absurd (hN t st lt j hj hn) (by rw [← c2]; exact lt_irrefl _)
    | some n =>
      obtain ⟨ln, k, -, k1, k2⟩ := facing hM.consistent lt hn
      have sn := hS t (j + 2) n st hn
      refine ⟨n, sn, ln, ⟨k + 2, by rw [k2, e3, hj]⟩, k, amid_edge (hA n sn ln) ?_, fun w => ?_⟩
      · rw [k1, k2]
        exact amid_symm (edge_amid (hA t st lt) E)
      · unfold sideTurn
        rw [k1, k2]
        ring

theorem small_list {α : Type} {P : α → K → Prop} (l : List α) (h : ∀ a ∈ l, Small (P a)) : Small fun ε => ∀ a ∈ l, P a ε := by
  induction l with
  | nil => exact ⟨1, one_pos, fun _ _ _ => nofun⟩
  | cons a l ih =>
    refine ((h a List.mem_cons_self).and (ih fun b hb => h b (List.mem_cons_of_mem _ hb))).mono fun ε _ q b hb => ?_
    rcases List.mem_cons.1 hb with rfl | hb
    · exact q.1
    · exact q.2 b hb

variable [HasSqrt K] [SqrtUnit K] [HasTrig K]

variable {dt : Dt K} {depth : ℕ} {skel s0 : St K} {n : ℕ} {now : K} {s s1 : St K} {trace : List (Event K × K)}

variable {m : ℕ} {x y : K} {tr : List (Event K × K)}

/-- where the ends of a side will be is inside, now -/
theorem GeneralRun.side_inside (U : GeneralRun dt depth skel s0 m y u tr) (hi : u.immediate = [])
    (hq : ∀ f ∈ u.queue, x ≤ f.time) (hz : y ≤ z) (hzx : z < x) (ht : t ∈ s0.skTriangles) (hl : Live u t)
    (hn : (u.tri t).neighbours i = none) (hr : r = whereAt u x ((u.tri t).vertices (i + 1)) ∨
      r = whereAt u x ((u.tri t).vertices (i + 2))) : 0 < sideArea u z t i r := by
  obtain ⟨G, e⟩ := U.between hi hz hzx.le hq
  obtain ⟨e1, e2, e3, e4, e5, -, -, e8⟩ := e (t, i) (mem_rim.2 ⟨List.mem_toFinset.2 ht, hl, hn⟩)
  have hpos := e8 hzx
  unfold sideArea
  rw [← area2_turn, ← area2_turn, area_from (o := r) e2 e3 e1]
  refine mul_pos hpos ?_
  unfold AtDistance at e4 e5
  rcases hr with rfl | rfl
  · linarith
  · linarith

/-- just before, the place that a vertex goes to is inside the triangles around it -/
theorem GeneralRun.covered (h : GeneralRun dt depth skel s0 n now s trace) (hl : LoneEvents depth s0 n)
    (h1 : initEventList s0 = .ok ((), s1)) (L : LastUpTo depth s1 n s x m y u tr) (hyx : y < x) (hv : v ∈ u.skVertices)
    (hr : Running u v) :
    Small fun ε => y ≤ x - ε ∧ Covered (· ∈ s0.skTriangles) u (x - ε) v (whereAt u x v) := by
  have U := h.prefix L.hm h1 L.run
  obtain ⟨G, -⟩ := C90_sharp U
  obtain ⟨R, hI, -⟩ := G.ready
  have Lo := U.lone fun z hz k hk => hl z hz k (hk.trans L.hm)
  obtain ⟨-, -, hP, -⟩ := Lo.state
  have hsk : u.skTriangles = s0.skTriangles := U.run.triangles
  have hrun := (C90_exact U).2.2.2
  have hL := (C90_linked G).1
  obtain ⟨hM, hc, hk, -⟩ := U.frame
  have hc' : Closed (· ∈ s0.skTriangles) u := fun t i n ht hn => List.mem_toFinset.1 (hc t i n (List.mem_toFinset.2 ht) hn)
  have F := (front_rings R.mesh hL hP (by rw [hsk]; exact hrun) hv hr).2
  rw [hsk] at F
  obtain ⟨t, ht, i, a, ⟨b1, b2, b3, b4⟩, -⟩ := F
  obtain ⟨l, hw⟩ := hL.fans t b1 (i + 2) (hrun t ht b1 (i + 2)).kinetic
  rw [b4] at hw
  have third : Small fun ε => ∀ t ∈ s0.skTriangles, Live u t → ∀ j, (u.tri t).vertices j = v →
      0 < sideArea u (x - ε) t j (whereAt u x v) := by
    refine small_list _ fun t ht => ?_
    by_cases lt : Live u t
    · have : ∀ j, Small fun ε => (u.tri t).vertices j = v → 0 < sideArea u (x - ε) t j (whereAt u x v) := by
        intro j
        by_cases e : (u.tri t).vertices j = v
        · have A := h.areas_at h1 L ht lt
          rw [areaOf_side j, e] at A
          exact (((where_before u x _).area (where_before u x _) (.const _)).pos A).mono fun _ _ q _ => q
        · exact ⟨1, one_pos, fun _ _ _ q => absurd q e⟩
      exact (small_fin this).mono fun _ _ q _ => q
    · exact ⟨1, one_pos, fun _ _ _ q => absurd q lt⟩
  refine (third.and (small_le hyx)).mono fun ε e0 ⟨q1, q2⟩ => ?_
  have z1 : y ≤ x - ε := by linarith
  have z2 : x - ε < x := by linarith
  have hq : ∀ f ∈ u.queue, x ≤ f.time := fun f hf => (L.hq f hf).le
  refine ⟨z1, fan_covers (i := i + 2) hM hc' (fun t ht lt => h.areas_at h1 (L.earlier z1 z2.le) ht lt)
    (fun t ht lt j hj hn => ?_) (fun t ht lt j hj => q1 t ht lt j hj) hw ht b1 b4 ?_⟩
  · obtain ⟨-, -, f3, -⟩ := sides_after j
    exact U.side_inside L.hi hq z1 z2 ht lt hn (.inl (by rw [f3, hj]))
  · obtain ⟨-, -, f3, -⟩ := sides_after i
    rw [f3]
    exact U.side_inside L.hi hq z1 z2 ht b1 b2 (.inr (by rw [b4]))

/-- a point in the triangles around one vertex is not in those around another -/
theorem GeneralRun.covered_once (h : GeneralRun dt depth skel s0 n now s trace) (hl : LoneEvents depth s0 n)
    (h1 : initEventList s0 = .ok ((), s1)) (L : LastUpTo depth s1 n s z m y u tr) (hw : ∀ o, winding s z o ≤ 1) {v' : VId}
    (c : Covered (· ∈ s0.skTriangles) u z v r) (c' : Covered (· ∈ s0.skTriangles) u z v' r)
    (hno : ∀ t ∈ s0.skTriangles, Live u t → ∀ j j', (u.tri t).vertices j = v → (u.tri t).vertices j' ≠ v') : False := by
  obtain ⟨t, ht, lt, ⟨j, hj⟩, -, c⟩ := c
  obtain ⟨t', ht', lt', ⟨j', hj'⟩, c', -⟩ := c'
  have inn := inward_inside (h.areas_at h1 L ht' lt') c'
  have two : ∀ t ∈ s0.skTriangles, Live u t → (∃ j, (u.tri t).vertices j = v) → ∀ o, InsideT u z t o → InsideT u z t' o →
      False := fun t ht lt ⟨j, hj⟩ o k1 k2 => by
    have := (h.winding_ge hl h1 L ht lt k1).2 t' ht' lt' (by rintro rfl; exact hno _ ht lt j j' hj hj') k2
    have := hw o
    omega
  set w := inward u z t' r
  rcases c with c | ⟨k, E, t2, ht2, lt2, ⟨j2, hj2⟩, k2, E2, turn⟩
  · obtain ⟨ε, -, q1, q2⟩ := (c.near.and inn).some
    exact two t ht lt ⟨j, hj⟩ _ q1 q2
  · rcases lt_trichotomy 0 (sideTurn u z t k w) with c | c | c
    · obtain ⟨ε, -, q1, q2⟩ := ((E.push c).and inn).some
      exact two t ht lt ⟨j, hj⟩ _ q1 q2
    · obtain ⟨ε, -, q1, q2⟩ := ((E.slide c.symm).and inn).some
      have A := h.areas_at h1 L ht lt
      rw [areaOf_side k] at A
      have hturn : 0 < sideTurn u z t k (-((whereAt u z ((u.tri t).vertices (k + 2))).2 -
          (whereAt u z ((u.tri t).vertices (k + 1))).2), (whereAt u z ((u.tri t).vertices (k + 2))).1 -
          (whereAt u z ((u.tri t).vertices (k + 1))).1) := by
        refine (base_pos A).trans_eq ?_
        unfold sideTurn
        ring
      obtain ⟨η, -, q3, q4⟩ := ((q1.push hturn).and q2.near).some
      exact two t ht lt ⟨j, hj⟩ _ q3 q4
    · obtain ⟨ε, -, q1, q2⟩ := ((E2.push (by rw [turn]; exact neg_pos.2 c)).and inn).some
      exact two t2 ht2 lt2 ⟨j2, hj2⟩ _ q1 q2

end Grassfire
