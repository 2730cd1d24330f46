/-
Property C97: the sides of the wavefront do not cross.
-/
import Verif.Proofs.Disjoint

set_option linter.unusedSectionVars false

namespace Grassfire

open Spec

variable {K : Type} [Field K] [LinearOrder K] [IsStrictOrderedRing K] [HasSqrt K] [SqrtUnit K] [HasTrig K]

variable {dt : Dt K} {depth : ℕ} {skel s0 : St K} {n : ℕ} {now : K} {s s1 : St K} {trace : List (Event K × K)}

variable {m : ℕ} {x y : K} {u : St K} {tr : List (Event K × K)}

/-- a triangle with an area has a base -/
theorem base_pos {a b c : Pt K} (hA : 0 < area2 a b c) : 0 < (b.1 - a.1) ^ 2 + (b.2 - a.2) ^ 2 := by
  by_contra q
  have s1 := sq_nonneg (b.1 - a.1)
  have s2 := sq_nonneg (b.2 - a.2)
  have q1 : b.1 - a.1 = 0 := pow_eq_zero_iff two_ne_zero |>.1 (by linarith)
  have q2 : b.2 - a.2 = 0 := pow_eq_zero_iff two_ne_zero |>.1 (by linarith)
  unfold area2 at hA
  rw [q1, q2] at hA
  simp at hA

/-- the sides of the wavefront at time `x` are sides without neighbour in the last state up to `x` -/
theorem GeneralRun.side_of (h : GeneralRun dt depth skel s0 n now s trace) (hl : LoneEvents depth s0 n)
    (h1 : initEventList s0 = .ok ((), s1)) (L : LastUpTo depth s1 n s x m y u tr) {v : VId} {p q : Pt K}
    (hv : v ∈ s.skVertices) (hs : sideAt s x v = some (p, q)) : ∃ t ∈ s0.skTriangles, Live u t ∧ ∃ i,
      (u.tri t).neighbours i = none ∧ (u.tri t).vertices (i + 2) = v ∧
      p = whereAt u x ((u.tri t).vertices (i + 1)) ∧ q = whereAt u x ((u.tri t).vertices (i + 2)) := by
  have U := h.prefix L.hm h1 L.run
  obtain ⟨G, -⟩ := C90_sharp U
  obtain ⟨R, hI, -⟩ := G.ready
  have Lo := U.lone fun z hz k hk => hl z hz k (hk.trans L.hm)
  obtain ⟨-, -, hP, -⟩ := Lo.state
  have hsk : u.skTriangles = s0.skTriangles := U.run.triangles
  have hrun := (C90_exact U).2.2.2
  have hL := (C90_linked G).1
  obtain ⟨ov, z, o1, o2, o3⟩ := sideAt_some hv hs
  obtain ⟨a1, a2⟩ := (h.onFront hl h1 L.hm L.run L.hy L.since L.grows v).1 ov
  have := (front_rings R.mesh hL hP (by rw [hsk]; exact hrun) a1 a2).2
  rw [hsk] at this
  obtain ⟨t, ht, i, a, ⟨b1, b2, b3, b4⟩, -, ra, hp⟩ := this
  obtain rfl := leftAt_unique (h.neighbours h1 L.hm L.run L.hy L.since hp).2 o1
  have place : ∀ {w : VId} {r : Pt K}, Running u w → placeAt s w x = some r → r = whereAt u x w := by
    intro w r hw hr
    obtain ⟨hlt, k, e⟩ := hw.kinetic
    have := grows_place L.grows hlt (show placeAt u w x = some (whereAt u x w) by unfold whereAt placeAt; rw [e]; rfl)
    rw [this] at hr
    exact (Option.some.inj hr).symm
  refine ⟨t, ht, b1, i, b2, b4, ?_, ?_⟩
  · rw [b3]; exact place ra o2
  · rw [b4]; exact place a2 o3

/-- **C97.** In general position, when the boundary of the input winds around no point more than once: at no time that the
loop has gone past do two sides of the wavefront cross each other, or run along each other in the same direction. -/
theorem C97_cross (h : GeneralRun dt depth skel s0 n now s trace) (hl : LoneEvents depth s0 n)
    (hone : ∀ o, dtWinding dt o ≤ 1) (hx : 0 ≤ x) (hset : Settled s now x) {v v' : VId} {p q p' q' r : Pt K}
    (hv : v ∈ s.skVertices) (hv' : v' ∈ s.skVertices) (hne : v ≠ v') (hs : sideAt s x v = some (p, q))
    (hs' : sideAt s x v' = some (p', q')) (hr : Amid p q r) (hr' : Amid p' q' r) : Opposite p q p' q' := by
  obtain ⟨-, s1, h1, -⟩ := id h.run
  obtain ⟨m, y, u, tr, L⟩ := h.last h1 hx hset
  obtain ⟨t, ht, lt, i, -, e1, rfl, rfl⟩ := h.side_of hl h1 L hv hs
  obtain ⟨t', ht', lt', i', -, e1', rfl, rfl⟩ := h.side_of hl h1 L hv' hs'
  have E := amid_edge (h.areas_at h1 L ht lt) hr
  have E' := amid_edge (h.areas_at h1 L ht' lt') hr'
  have hw : ∀ o, winding s x o ≤ 1 := fun o => by
    rcases (C96_range h hl hx hset o).2 (hone o) with q | q <;> rw [q]
    decide
  have tt : t ≠ t' := by
    rintro rfl
    have ii : i ≠ i' := by
      rintro rfl
      exact hne (e1.symm.trans e1')
    rcases (by decide : ∀ i i' : Fin 3, i ≠ i' → i = i' + 1 ∨ i = i' + 2) i i' ii with rfl | rfl
    · exact E'.next.ne' E.on
    · exact E'.prev.ne' E.on
  have main : ∀ w, 0 < sideTurn u x t i w → 0 < sideTurn u x t' i' w → False := by
    intro w w1 w2
    obtain ⟨ε, -, k1, k2⟩ := ((E.push w1).and (E'.push w2)).some
    have := (h.winding_ge hl h1 L ht lt k1).2 t' ht' lt' tt.symm k2
    have := hw (going r w ε)
    omega
  have A := h.areas_at h1 L ht lt
  have A' := h.areas_at h1 L ht' lt'
  rw [areaOf_side i] at A
  rw [areaOf_side i'] at A'
  unfold sideTurn at main
  generalize whereAt u x ((u.tri t).vertices (i + 1)) = p at *
  generalize whereAt u x ((u.tri t).vertices (i + 2)) = q at *
  generalize whereAt u x ((u.tri t').vertices (i' + 1)) = p' at *
  generalize whereAt u x ((u.tri t').vertices (i' + 2)) = q' at *
  have z1 := base_pos A
  have z2 := base_pos A'
  rcases lt_trichotomy 0 ((q.1 - p.1) * (q'.2 - p'.2) - (q.2 - p.2) * (q'.1 - p'.1)) with c | c | c
  · refine (main ((q'.1 - p'.1) - (q.1 - p.1), (q'.2 - p'.2) - (q.2 - p.2)) ?_ ?_).elim
    · dsimp only; linear_combination c
    · dsimp only; linear_combination c
  · refine ⟨c.symm, ?_⟩
    by_contra d
    have d := not_lt.1 d
    rcases d.lt_or_eq with d | d
    · refine (main (-(q.2 - p.2), q.1 - p.1) ?_ ?_).elim
      · dsimp only; linear_combination z1
      · dsimp only; linear_combination d
    · have e : ((q.1 - p.1) ^ 2 + (q.2 - p.2) ^ 2) * ((q'.1 - p'.1) ^ 2 + (q'.2 - p'.2) ^ 2) =
          ((q.1 - p.1) * (q'.2 - p'.2) - (q.2 - p.2) * (q'.1 - p'.1)) ^ 2 +
          ((q.1 - p.1) * (q'.1 - p'.1) + (q.2 - p.2) * (q'.2 - p'.2)) ^ 2 := by ring
      rw [← c, ← d] at e
      have := mul_pos z1 z2
      rw [e] at this
      norm_num at this
  · refine (main ((q.1 - p.1) - (q'.1 - p'.1), (q.2 - p.2) - (q'.2 - p'.2)) ?_ ?_).elim
    · dsimp only; linear_combination c
    · dsimp only; linear_combination c

/-- the time of a state of a run is 0, or that of an event -/
theorem run_time {depth : ℕ} {s0 : St K} {now0 now y : K} {n m : ℕ} {s u : St K} {trace tr : List (Event K × K)}
    (hr : Run depth s0 now0 n now s trace) (hu : Run depth s0 now0 m y u tr) (hm : m ≤ n) :
    y = now0 ∨ ∃ e ∈ trace, e.2 = y := by
  obtain ⟨y', u', tr', h1, h2, -⟩ := C37_run _ _ _ _ _ _ _ hr m hm
  obtain ⟨rfl, rfl, rfl⟩ := run_unique h1 hu
  cases h1 with
  | start => exact .inl rfl
  | step h3 h4 => exact .inr ⟨_, h2.subset (List.mem_append_right _ (List.mem_singleton_self _)), rfl⟩

/-- **C97.** Between the times of events, two sides of the wavefront do not even touch each other, other than with their
ends. -/
theorem C97_touch (h : GeneralRun dt depth skel s0 n now s trace) (hl : LoneEvents depth s0 n)
    (hone : ∀ o, dtWinding dt o ≤ 1) (hx : 0 < x) (hset : Settled s now x) (hev : ∀ e ∈ trace, e.2 ≠ x) {v v' : VId}
    {p q p' q' r : Pt K} (hv : v ∈ s.skVertices) (hv' : v' ∈ s.skVertices) (hne : v ≠ v') (hs : sideAt s x v = some (p, q))
    (hs' : sideAt s x v' = some (p', q')) (hr : Amid p q r) : ¬ On p' q' r := by
  rintro ⟨z, z0, z1, hr'⟩
  obtain ⟨-, s1, h1, hrun⟩ := id h.run
  obtain ⟨m, y, u, tr, L⟩ := h.last h1 hx.le hset
  have hyx : y < x := by
    refine lt_of_le_of_ne L.hy ?_
    rintro rfl
    rcases run_time hrun L.run L.hm with rfl | ⟨e, he, q⟩
    · exact lt_irrefl _ hx
    · exact hev e he q
  obtain ⟨-, hI0⟩ := ready_start (C90_sharp h).1.start h1
  have hy0 : 0 ≤ y := (run_inv L.run hI0).2.1
  obtain ⟨t, ht, lt, i, hn, e1, rfl, rfl⟩ := h.side_of hl h1 L hv hs
  obtain ⟨t', ht', lt', i', -, e1', e2', e3'⟩ := h.side_of hl h1 L hv' hs'
  have E := amid_edge (h.areas_at h1 L ht lt) hr
  have A' := h.areas_at h1 L ht' lt'
  obtain ⟨c1, c2⟩ := closed_edge A' z0 z1 e2' e3' hr'
  have hw : ∀ z, 0 ≤ z → z ≤ x → ∀ o, winding s z o ≤ 1 := fun z hz hzx o => by
    rcases (C96_range h hl hz (hset.before hzx) o).2 (hone o) with q | q <;> rw [q]
    decide
  have tt : t' ≠ t := by
    rintro rfl
    have ii : i ≠ i' := by
      rintro rfl
      exact hne (e1.symm.trans e1')
    rcases (by decide : ∀ i i' : Fin 3, i ≠ i' → i' = i + 1 ∨ i' = i + 2) i i' ii with rfl | rfl
    · exact E.next.ne' c1
    · exact E.prev.ne' c1
  have inn := inward_inside A' c2
  set w := inward u x t' r
  have two : ∀ o, InsideT u x t o → InsideT u x t' o → False := fun o k1 k2 => by
    have := (h.winding_ge hl h1 L ht lt k1).2 t' ht' lt' tt k2
    have := hw x hx.le le_rfl o
    omega
  rcases lt_trichotomy 0 (sideTurn u x t i w) with c | c | c
  · obtain ⟨ε, -, k1, k2⟩ := ((E.push c).and inn).some
    exact two _ k1 k2
  · obtain ⟨ε, -, k1, k2⟩ := ((E.slide c.symm).and inn).some
    have hturn : 0 < sideTurn u x t i (-((whereAt u x ((u.tri t).vertices (i + 2))).2 -
        (whereAt u x ((u.tri t).vertices (i + 1))).2), (whereAt u x ((u.tri t).vertices (i + 2))).1 -
        (whereAt u x ((u.tri t).vertices (i + 1))).1) := by
      have A := h.areas_at h1 L ht lt
      rw [areaOf_side i] at A
      refine (base_pos A).trans_eq ?_
      unfold sideTurn
      ring
    obtain ⟨ε', -, k3, k4⟩ := ((k1.push hturn).and k2.near).some
    exact two _ k3 k4
  · obtain ⟨ε, -, k1, k2⟩ := ((h.winding_passed hl h1 L hyx ht lt hn c hr).and inn).some
    have := (h.winding_ge hl h1 L ht' lt' k2).1
    have := hw y hy0 hyx.le (going r w ε)
    omega

/-! ### the hypotheses are met -/

/-- an event of a run happens at the time of the state that follows it -/
theorem run_events {depth : ℕ} {s0 : St K} {now0 now : K} {n : ℕ} {s : St K} {trace : List (Event K × K)}
    (hr : Run depth s0 now0 n now s trace) : ∀ e ∈ trace, ∃ k, 1 ≤ k ∧ k ≤ n ∧ ∃ u tr, Run depth s0 now0 k e.2 u tr := by
  induction hr with
  | start => intro e he; cases he
  | step hr hs ih =>
    intro e he
    rcases List.mem_append.1 he with q | q
    · obtain ⟨k, k1, k2, r⟩ := ih e q
      exact ⟨k, k1, Nat.le_succ_of_le k2, r⟩
    · obtain rfl := List.mem_singleton.1 q
      exact ⟨_, Nat.succ_pos _, le_rfl, _, _, .step hr hs⟩

/-- The events of the pentagon happen at these times. -/
theorem Sample.notch_times : (List.range 4).map (fun k => (stateAt 100 Sample.notchFirst (k + 1)).map (·.1)) =
    [some (3 / 8), some (34 / 21), some (387 / 196), some (29 / 12)] := by decide +kernel

/-- The pentagon after its split: sides of the two parts of the wavefront, between events. -/
theorem Sample.notch_between : ∃ s tr, GeneralRun Sample.notchDt 100 Sample.notchSkeleton Sample.notchStart 4 (29 / 12) s tr ∧
    LoneEvents 100 Sample.notchStart 4 ∧ (∀ o, dtWinding Sample.notchDt o ≤ 1) ∧ Settled s (29 / 12) (9 / 5) ∧
    (∀ e ∈ tr, e.2 ≠ 9 / 5) ∧ s.skVertices.filterMap (fun v => sideAt s (9 / 5) v) =
      [((-4 / 15, 9 / 5), 11 / 5, 9 / 5), ((11 / 5, 9 / 5), 11 / 5, 73 / 20), ((-12 / 7, 5 / 7), -14 / 5, -1 / 10),
      ((-14 / 5, -1 / 10), -1473 / 560, -71 / 140), ((-1473 / 560, -71 / 140), -12 / 7, 5 / 7),
      ((11 / 5, 73 / 20), -4 / 15, 9 / 5)] := by
  obtain ⟨s, tr, hs, hi, hq, h⟩ := Sample.notch_done
  have hl := Sample.notch_input.lone 4
  have hv : (stateAt 100 Sample.notchFirst 4).map (fun r => r.2.skVertices.filterMap (fun v => sideAt r.2 (9 / 5) v)) =
      some [((-4 / 15, 9 / 5), 11 / 5, 9 / 5), ((11 / 5, 9 / 5), 11 / 5, 73 / 20), ((-12 / 7, 5 / 7), -14 / 5, -1 / 10),
      ((-14 / 5, -1 / 10), -1473 / 560, -71 / 140), ((-1473 / 560, -71 / 140), -12 / 7, 5 / 7),
      ((11 / 5, 73 / 20), -4 / 15, 9 / 5)] := by decide +kernel
  rw [hs] at hv
  refine ⟨s, tr, h, hl, Sample.notch_winding, .inl (by norm_num), ?_, Option.some.inj hv⟩
  obtain ⟨-, s1, h1, hrun⟩ := id h.run
  intro e he q
  obtain ⟨k, k1, k2, u, tr', r⟩ := run_events hrun e he
  have hs1 : { s1 with immediate := [] } = Sample.notchFirst := by
    unfold Sample.notchFirst Sample.after
    rw [h1]
  have := stateAt_run r
  rw [hs1] at this
  have T := Sample.notch_times
  simp only [List.range_succ, List.range_zero, List.map_nil, List.map_cons, List.nil_append,
    List.cons_append, List.cons.injEq, and_true] at T
  obtain ⟨T1, T2, T3, T4⟩ := T
  rcases (by omega : k = 1 ∨ k = 2 ∨ k = 3 ∨ k = 4) with rfl | rfl | rfl | rfl
  · rw [this, q] at T1
    norm_num at T1
  · rw [this, q] at T2
    norm_num at T2
  · rw [this, q] at T3
    norm_num at T3
  · rw [this, q] at T4
    norm_num at T4

/-- the hypotheses of C97 are met -/
example := Sample.notch_between

end Grassfire
