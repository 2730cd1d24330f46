/-
The area inside the wavefront (lemmas for C95).
-/
import Verif.Props.Rings
import Verif.Spec.Area

set_option linter.unusedSectionVars false

namespace Grassfire

open Spec

variable {K : Type} [Field K] [LinearOrder K] [IsStrictOrderedRing K] [HasSqrt K] [SqrtUnit K] [HasTrig K]

/-- where a vertex is -/
def whereAt (s : St K) (u : K) (v : VId) : Pt K := (placeAt s v u).getD (0, 0)

/-- the place of a vertex at time `u`, seen by someone who moves with velocity `d` -/
def drift (d : Pt K) (s : St K) (u : K) (v : VId) : Pt K := ((whereAt s u v).1 - u * d.1, (whereAt s u v).2 - u * d.2)

/-- something that is summed over the sides of triangles -/
structure SideSum (c : Pt K → Pt K → K) : Prop where
  anti : ∀ p q, c p q + c q p = 0
  flat : ∀ a b d, area2 a b d = 0 → c a b + c b d + c d a = 0
  nonneg : ∀ a b d, 0 ≤ area2 a b d → 0 ≤ c a b + c b d + c d a

variable {c : Pt K → Pt K → K} {d : Pt K}

/-- the sum over the sides of a triangle -/
def sumOf (c : Pt K → Pt K → K) (d : Pt K) (s : St K) (u : K) (t : TId) : K :=
  c (drift d s u ((s.tri t).vertices 0)) (drift d s u ((s.tri t).vertices 1)) +
  c (drift d s u ((s.tri t).vertices 1)) (drift d s u ((s.tri t).vertices 2)) +
  c (drift d s u ((s.tri t).vertices 2)) (drift d s u ((s.tri t).vertices 0))

open Classical in
/-- the sum over the sides of the triangles of `F` that are left -/
noncomputable def liveSum (c : Pt K → Pt K → K) (d : Pt K) (F : Finset TId) (s : St K) (u : K) : K :=
  ∑ t ∈ F.filter (Live s), sumOf c d s u t

theorem sumOf_turn {s : St K} {u : K} {t : TId} (i : Fin 3) : sumOf c d s u t =
    c (drift d s u ((s.tri t).vertices i)) (drift d s u ((s.tri t).vertices (i + 1))) +
    c (drift d s u ((s.tri t).vertices (i + 1))) (drift d s u ((s.tri t).vertices (i + 2))) +
    c (drift d s u ((s.tri t).vertices (i + 2))) (drift d s u ((s.tri t).vertices i)) := by
  unfold sumOf
  fin_cases i
  · rfl
  · show c (drift d s u ((s.tri t).vertices 0)) (drift d s u ((s.tri t).vertices 1)) +
      c (drift d s u ((s.tri t).vertices 1)) (drift d s u ((s.tri t).vertices 2)) +
      c (drift d s u ((s.tri t).vertices 2)) (drift d s u ((s.tri t).vertices 0)) =
      c (drift d s u ((s.tri t).vertices 1)) (drift d s u ((s.tri t).vertices 2)) +
      c (drift d s u ((s.tri t).vertices 2)) (drift d s u ((s.tri t).vertices 0)) +
      c (drift d s u ((s.tri t).vertices 0)) (drift d s u ((s.tri t).vertices 1))
    ring
  · show c (drift d s u ((s.tri t).vertices 0)) (drift d s u ((s.tri t).vertices 1)) +
      c (drift d s u ((s.tri t).vertices 1)) (drift d s u ((s.tri t).vertices 2)) +
      c (drift d s u ((s.tri t).vertices 2)) (drift d s u ((s.tri t).vertices 0)) =
      c (drift d s u ((s.tri t).vertices 2)) (drift d s u ((s.tri t).vertices 0)) +
      c (drift d s u ((s.tri t).vertices 0)) (drift d s u ((s.tri t).vertices 1)) +
      c (drift d s u ((s.tri t).vertices 1)) (drift d s u ((s.tri t).vertices 2))
    ring

/-- the area of a triangle -/
def areaOf (s : St K) (u : K) (t : TId) : K :=
  area2 (whereAt s u ((s.tri t).vertices 0)) (whereAt s u ((s.tri t).vertices 1)) (whereAt s u ((s.tri t).vertices 2))

theorem sumOf_shoelace {s : St K} {u : K} {t : TId} : sumOf shoelace d s u t = areaOf s u t := by
  unfold sumOf drift areaOf shoelace area2
  ring

theorem area2_drift {s : St K} {u : K} {v w z : VId} :
    area2 (drift d s u v) (drift d s u w) (drift d s u z) = area2 (whereAt s u v) (whereAt s u w) (whereAt s u z) := by
  unfold drift area2
  ring

theorem shoelace_sideSum : SideSum (shoelace (K := K)) := by
  have e : ∀ a b d : Pt K, shoelace a b + shoelace b d + shoelace d a = area2 a b d := by
    intro a b d
    unfold shoelace area2
    ring
  exact ⟨fun p q => by unfold shoelace; ring, fun a b d h => by rw [e, h], fun a b d h => by rw [e]; exact h⟩

theorem whereAt_corner {s : St K} {t : TId} {i : Fin 3} (h : Kinetic s ((s.tri t).vertices i)) (u : K) :
    whereAt s u ((s.tri t).vertices i) = cornerAt (viewT s t) i u := by
  obtain ⟨-, k, hk⟩ := h
  rw [corner_place hk]
  unfold whereAt placeAt
  rw [hk]
  rfl

theorem areaOf_view {s : St K} {t : TId} (h : ∀ i, Kinetic s ((s.tri t).vertices i)) (u : K) :
    areaOf s u t = areaAt (viewT s t) u := by
  unfold areaOf areaAt
  rw [whereAt_corner (h 0), whereAt_corner (h 1), whereAt_corner (h 2)]

/-- a triangle of zero area is taken out, and corners are replaced at the place where they are -/
theorem sum_removed {F : Finset TId} {s s' : St K} {u : K} {t : TId} (h0 : sumOf c d s u t = 0)
    (hl : ∀ x, Live s' x ↔ Live s x ∧ x ≠ t)
    (h : ∀ x, Live s x → ∀ j, placeAt s' ((s'.tri x).vertices j) u = placeAt s ((s.tri x).vertices j) u) :
    liveSum c d F s' u = liveSum c d F s u := by
  classical
  unfold liveSum
  have e : ∀ x ∈ F.filter (Live s'), sumOf c d s' u x = sumOf c d s u x := by
    intro x hx
    have hx := ((hl x).1 (Finset.mem_filter.1 hx).2).1
    unfold sumOf drift whereAt
    rw [h x hx, h x hx, h x hx]
  rw [Finset.sum_congr rfl e]
  refine Finset.sum_subset (fun x hx => ?_) fun x hx hx' => ?_
  · obtain ⟨h1, h2⟩ := Finset.mem_filter.1 hx
    exact Finset.mem_filter.2 ⟨h1, ((hl x).1 h2).1⟩
  · obtain ⟨h1, h2⟩ := Finset.mem_filter.1 hx
    by_cases q : x = t
    · rw [q]; exact h0
    · exact absurd (Finset.mem_filter.2 ⟨h1, (hl x).2 ⟨h2, q⟩⟩) hx'

theorem happens_flat {T : TView K} {e : EvCore K} (h : Happens T e) {i : Fin 3} (hi : i ∈ e.side) : areaAt T e.time = 0 := by
  have key : ∀ i : Fin 3, areaAt T e.time = area2 (cornerAt T i e.time) (cornerAt T (i + 1) e.time) (cornerAt T (i + 2) e.time) := by
    intro i
    unfold areaAt
    fin_cases i
    · rfl
    · exact (area2_turn _ _ _).symm
    · exact area2_turn _ _ _
  have on : OnSide T i e.time → areaAt T e.time = 0 := by
    rintro ⟨r, -, -, hr⟩
    rw [key i, hr]
    unfold area2
    ring
  rw [key i]
  cases q : e.tp with
  | edge =>
    rw [h.edge q i hi]
    unfold area2
    ring
  | split => rw [← key i]; exact on (h.split q i hi).2
  | flip => rw [← key i]; exact on (h.flip q i hi)


/-- the sum stays the same when an event is handled -/
theorem sum_handleEvent (hc' : SideSum c) {P : Line2 K → Prop} (hP : Clear P) {F : Finset TId} {N : Prop} {depth : ℕ} {e : Event K}
    {step : ℤ} {s s' : St K} {a : Unit} (h : Inv N e.time s) (ht : e.tri < s.nT) (hS : e.tri ∈ F) (hM : Mesh s)
    (hc : Closed (· ∈ F) s) (ha : Arcs s) (hw : Waves P s) (hm : handleEvent depth e step s = .ok (a, s'))
    (ho : Ordinary s s' e) (hx : (s.tri e.tri).stopsAt = none → Exact s s' e)
    (hk : Live s e.tri → ∀ i, Kinetic s ((s.tri e.tri).vertices i))
    (hap : Live s e.tri → Happens (viewT s e.tri) e.toEvCore) : liveSum c d F s' e.time = liveSum c d F s e.time := by
  classical
  have g := g_handleEvent _ _ _ _ _ _ hm
  unfold handleEvent at hm
  obtain ⟨T, s1, h1, hm⟩ := bind_run_ok.1 hm
  obtain ⟨-, rfl, rfl⟩ := getT_run_ok.1 h1
  by_cases hst : (s.tri e.tri).stopsAt.isSome = true
  · rw [if_pos hst] at hm
    obtain rfl := (pure_run_ok.1 hm).2
    rfl
  rw [if_neg hst] at hm
  have hl : Live s e.tri := ⟨ht, by cases q : (s.tri e.tri).stopsAt <;> simp_all⟩
  have hx := hx hl.2
  have hk := hk hl
  have A := hap hl
  have zero : ∀ i ∈ e.side, sumOf c d s e.time e.tri = 0 := fun i hi =>
    hc'.flat _ _ _ (by
      have := areaOf_view hk e.time
      rw [happens_flat A hi] at this
      rw [← this]
      exact area2_drift)
  have removed : sumOf c d s e.time e.tri = 0 → Removed s s' e.tri → liveSum c d F s' e.time = liveSum c d F s e.time := fun h0 hR =>
    sum_removed h0 hR.live fun x hx j => by rw [hR.vertices]; exact placeAt_grows g (hM.vertices x hx.1 j) _
  have some_of : 0 < e.side.length → sumOf c d s e.time e.tri = 0 := fun q => by
    obtain ⟨i, l, e1⟩ := List.exists_cons_of_length_pos q
    exact zero i (by rw [e1]; exact List.mem_cons_self)
  cases htp : e.tp with
  | edge =>
    rw [htp] at hm
    dsimp only at hm
    by_cases h3 : e.side.length = 3
    · rw [if_pos h3] at hm
      exact removed (some_of (by omega)) (handleEdge3_mesh e step s s' hM hl (ho.three htp h3 hl.2) hm).2
    rw [if_neg h3] at hm
    by_cases h1 : e.side.length = 1 ∧ (s.tri e.tri).type = 3
    · rw [if_pos h1] at hm
      have hn := (count3_three _).1 h1.2
      exact removed (some_of (by omega))
        (handleEdge1_mesh e step s s' hM (fun i => Option.isNone_iff_eq_none.1 (hn i)) hm).2
    rw [if_neg h1] at hm
    by_cases h2 : e.side.length = 2
    · rw [if_pos h2] at hm; cases hm
    rw [if_neg h2] at hm
    have hslow : ∀ k, s'.vert s.nV = .kin k → k.infFast = false :=
      fun k => ho.slow _ k le_rfl (handleEdge_nV h ht hm)
    obtain ⟨-, i, p, hi, hr, hnew⟩ := arcs_handleEdge hP hm ha hw (hx.edge htp) hx.slow
    have hne : ∃ j, (s.tri e.tri).neighbours j ≠ none := by
      by_contra q
      push Not at q
      exact h1 ⟨by rw [hi]; rfl, (count3_three _).2 fun i => by rw [q i]; rfl⟩
    obtain ⟨-, hR⟩ := handleEdge_mesh depth e step s s' i hM hl hi (ho.edge htp i hi hne) hm hslow
    obtain ⟨fanA, fanB, -, -, -, D⟩ := hR.done
    refine sum_removed (zero i (by rw [hi]; exact List.mem_singleton_self _)) hR.live fun x hl1 j => ?_
    have hv := hM.vertices x hl1.1 j
    have n1 : i + 1 ≠ i := (by decide : ∀ z : Fin 3, z + 1 ≠ z) i
    have n2 : i + 2 ≠ i := (by decide : ∀ z : Fin 3, z + 2 ≠ z) i
    rw [D.vertices]
    split_ifs
    · exact place_substitute g j hv (hr _ n2).place hnew.place
    · exact place_substitute g j hv (hr _ n1).place hnew.place
    · exact placeAt_grows g hv _
  | flip =>
    rw [htp] at hm
    dsimp only at hm
    have hm' := hm
    unfold handleFlip at hm'
    obtain ⟨i, s1, q1, -⟩ := bind_run_ok.1 hm'
    obtain ⟨hi, -⟩ := singleSide_run_ok q1
    obtain ⟨-, n, k, s2, hX, hf, hk⟩ := handleFlip_mesh e s s' i hM hl hi (ho.flip htp i hi hl.2) hm
    obtain ⟨H0, H1⟩ := flip_halves hX hf
    obtain ⟨frame, -, same, rest⟩ := C26_frame hX hf
    have hnT : s2.nT = s.nT := by have := congrArg St.nT rest; exact this
    have hvert : s'.vert = s.vert := by
      have : s2.vert = s.vert := by have := congrArg St.vert rest; exact this
      rw [hk.vert, this]
    have hplace : ∀ v u, drift d s' u v = drift d s u v := fun v u => by unfold drift whereAt placeAt; rw [hvert]
    have hlive : ∀ x, Live s' x ↔ Live s x := by
      intro x
      obtain ⟨vs, ns, q⟩ := same x
      have e1 : (s'.tri x).stopsAt = (s2.tri x).stopsAt := hk.apply (fun y : St K => (y.tri x).stopsAt)
      have e2 : (s2.tri x).stopsAt = (s.tri x).stopsAt := by rw [q]
      unfold Live
      rw [hk.nT, hnT, e1, e2]
    have hln : Live s n := (facing hM.consistent hl hX.n0).1
    have hne : n ≠ e.tri := hX.ne.symm
    have filt : F.filter (Live s') = F.filter (Live s) := Finset.filter_congr fun x _ => hlive x
    have m0 : e.tri ∈ F.filter (Live s) := Finset.mem_filter.2 ⟨hS, hl⟩
    have m1 : n ∈ (F.filter (Live s)).erase e.tri := Finset.mem_erase.2 ⟨hne, Finset.mem_filter.2 ⟨hc _ _ _ hS hX.n0, hln⟩⟩
    unfold liveSum
    rw [filt, ← Finset.add_sum_erase _ _ m0, ← Finset.add_sum_erase _ _ m1, ← Finset.add_sum_erase _ (sumOf c d s e.time) m0,
      ← Finset.add_sum_erase _ (sumOf c d s e.time) m1, ← add_assoc, ← add_assoc]
    congr 1
    · rw [sumOf_turn (s := s) (t := e.tri) i, sumOf_turn (s := s) (t := n) k]
      unfold sumOf
      rw [hk.vertices, hk.vertices, H0.v0, H0.v1, H0.v2, H1.v0, H1.v1, H1.v2, hX.d1, hX.b1]
      simp only [hplace]
      linear_combination hc'.anti (drift d s e.time ((s.tri n).vertices k)) (drift d s e.time ((s.tri e.tri).vertices i)) -
        hc'.anti (drift d s e.time ((s.tri e.tri).vertices (i + 1))) (drift d s e.time ((s.tri e.tri).vertices (i + 2)))
    · refine Finset.sum_congr rfl fun x hx => ?_
      obtain ⟨x1, hx⟩ := Finset.mem_erase.1 hx
      obtain ⟨x0, hx⟩ := Finset.mem_erase.1 hx
      have := (frame x (Finset.mem_filter.1 hx).2 x0 x1).1
      unfold sumOf
      rw [hk.vertices, this, hplace, hplace, hplace]
  | split =>
    rw [htp] at hm
    dsimp only at hm
    have hn := handleSplit_nV h ht hm
    obtain ⟨-, i, p, hi, hr, hb, hA⟩ := arcs_handleSplit hP hm ha hw (hx.split htp) hx.slow
    obtain ⟨-, i', hi', hR⟩ := handleSplit_mesh depth e step s s' hM hl hm
      (fun k => ho.slow _ k le_rfl (lt_of_le_of_lt (Nat.le_succ _) hn)) (fun k => ho.slow _ k (Nat.le_succ _) hn)
    obtain rfl : i' = i := by rw [hi] at hi'; simpa using hi'.symm
    obtain ⟨_, _, fanA, fanB, -, -, -, -, -, D⟩ := hR.done
    refine sum_removed (zero i' (by rw [hi]; exact List.mem_singleton_self _)) hR.live fun x hl1 j => ?_
    have hv := hM.vertices x hl1.1 j
    rw [D.vertices]
    split_ifs
    · exact place_substitute g j hv hr.place hb.place
    · exact place_substitute g j hv hr.place hA.place
    · exact placeAt_grows g hv _

/-! ### the sides of the wavefront -/

open Classical in
/-- the sides without neighbour of the triangles of `F` that are left -/
noncomputable def rim (F : Finset TId) (s : St K) : Finset (TId × Fin 3) :=
  ((F.filter (Live s)) ×ˢ (Finset.univ : Finset (Fin 3))).filter fun a => (s.tri a.1).neighbours a.2 = none

variable {F : Finset TId} {s : St K}

theorem mem_rim {a : TId × Fin 3} : a ∈ rim F s ↔ a.1 ∈ F ∧ Live s a.1 ∧ (s.tri a.1).neighbours a.2 = none := by
  classical
  unfold rim
  rw [Finset.mem_filter, Finset.mem_product, Finset.mem_filter]
  exact ⟨fun h => ⟨h.1.1.1, h.1.1.2, h.2⟩, fun h => ⟨⟨⟨h.1, h.2.1⟩, Finset.mem_univ _⟩, h.2.2⟩⟩

theorem rim_closed (hM : Mesh s) (hc : Closed (· ∈ F) s) [DecidablePred (Live s)] : ∀ t ∈ F.filter (Live s), ∀ i n,
    (s.tri t).neighbours i = some n → n ∈ F.filter (Live s) := by
  intro t ht i n hn
  obtain ⟨h1, h2⟩ := Finset.mem_filter.1 ht
  exact Finset.mem_filter.2 ⟨hc t i n h1 hn, (facing hM.consistent h2 hn).1⟩

theorem liveSum_rim (hc' : SideSum c) (hM : Mesh s) (hc : Closed (· ∈ F) s) (u : K) : liveSum c d F s u =
    ∑ a ∈ rim F s, c (drift d s u ((s.tri a.1).vertices (a.2 + 1))) (drift d s u ((s.tri a.1).vertices (a.2 + 2))) := by
  classical
  have h := meeting_sum hM (F := F.filter (Live s)) (fun t ht => (Finset.mem_filter.1 ht).2) (rim_closed hM hc)
    (fun v w => c (drift d s u v) (drift d s u w)) fun v w => hc'.anti _ _
  have h1 : ∑ a ∈ (F.filter (Live s)) ×ˢ (Finset.univ : Finset (Fin 3)),
      c (drift d s u ((s.tri a.1).vertices (a.2 + 1))) (drift d s u ((s.tri a.1).vertices (a.2 + 2))) = liveSum c d F s u := by
    unfold liveSum
    rw [Finset.sum_product]
    refine Finset.sum_congr (by congr) fun t _ => ?_
    rw [Fin.sum_univ_three, sumOf_turn 1]
    rfl
  rw [← h1, ← Finset.sum_filter_add_sum_filter_not _ (fun a => (s.tri a.1).neighbours a.2 = none), h, add_zero]
  exact Finset.sum_congr (by unfold rim; congr) fun _ _ => rfl

/-- the sides of the wavefront make rings -/
theorem rim_telescope (hM : Mesh s) (hc : Closed (· ∈ F) s) (g : VId → K) :
    ∑ a ∈ rim F s, (g ((s.tri a.1).vertices (a.2 + 2)) - g ((s.tri a.1).vertices (a.2 + 1))) = 0 := by
  classical
  have h := meeting_sum hM (F := F.filter (Live s)) (fun t ht => (Finset.mem_filter.1 ht).2) (rim_closed hM hc)
    (fun v w => g w - g v) fun v w => by ring
  have h1 : ∑ a ∈ (F.filter (Live s)) ×ˢ (Finset.univ : Finset (Fin 3)),
      (g ((s.tri a.1).vertices (a.2 + 2)) - g ((s.tri a.1).vertices (a.2 + 1))) = 0 := by
    rw [Finset.sum_product]
    refine Finset.sum_eq_zero fun t _ => ?_
    rw [Fin.sum_univ_three]
    show g ((s.tri t).vertices 2) - g ((s.tri t).vertices 1) + (g ((s.tri t).vertices 0) - g ((s.tri t).vertices 2)) +
      (g ((s.tri t).vertices 1) - g ((s.tri t).vertices 0)) = 0
    ring
  rw [← Finset.sum_filter_add_sum_filter_not _ (fun a => (s.tri a.1).neighbours a.2 = none), h, add_zero] at h1
  rw [← h1]
  exact Finset.sum_congr (by unfold rim; congr) fun _ _ => rfl

/-- what a side of the wavefront sweeps over, in two triangles, seen by someone who moves -/
theorem trapezoid {l : Line2 K} {p q p' q' : K × K} {u u' : K} (h1 : AtDistance l u p) (h2 : AtDistance l u q)
    (h1' : AtDistance l u' p') (h2' : AtDistance l u' q') (hw : l.w.1 ^ 2 + l.w.2 ^ 2 = 1) :
    area2 (p.1 - u * d.1, p.2 - u * d.2) (q.1 - u * d.1, q.2 - u * d.2) (q'.1 - u' * d.1, q'.2 - u' * d.2) =
      (u' - u) * (1 - (l.w.1 * d.1 + l.w.2 * d.2)) * ahead l p q ∧
    area2 (p.1 - u * d.1, p.2 - u * d.2) (q'.1 - u' * d.1, q'.2 - u' * d.2) (p'.1 - u' * d.1, p'.2 - u' * d.2) =
      (u' - u) * (1 - (l.w.1 * d.1 + l.w.2 * d.2)) * ahead l p' q' := by
  have e1 := area_from (o := (q'.1 - (u' - u) * d.1, q'.2 - (u' - u) * d.2)) h1 h2 hw
  have e2 := area_from (o := (p.1 - (u - u') * d.1, p.2 - (u - u') * d.2)) h1' h2' hw
  unfold AtDistance at h1 h2'
  dsimp only at e1 e2
  have s1 : l.w.1 * (q'.1 - (u' - u) * d.1) + l.w.2 * (q'.2 - (u' - u) * d.2) + l.b - u =
      (u' - u) * (1 - (l.w.1 * d.1 + l.w.2 * d.2)) := by linear_combination h2'
  have s2 : l.w.1 * (p.1 - (u - u') * d.1) + l.w.2 * (p.2 - (u - u') * d.2) + l.b - u' =
      (u - u') * (1 - (l.w.1 * d.1 + l.w.2 * d.2)) := by linear_combination h1
  rw [s1] at e1
  rw [s2] at e2
  unfold area2 at e1 e2 ⊢
  dsimp only at e1 e2 ⊢
  exact ⟨by linear_combination e1, by linear_combination -e2⟩

/-- nothing moves faster than the wavefront -/
theorem slow_observer {l : Line2 K} (hw : l.w.1 ^ 2 + l.w.2 ^ 2 = 1) (hd : d.1 ^ 2 + d.2 ^ 2 ≤ 1) :
    0 ≤ 1 - (l.w.1 * d.1 + l.w.2 * d.2) := by
  nlinarith [sq_nonneg (l.w.1 - d.1), sq_nonneg (l.w.2 - d.2)]

/-- what is lost from one time to another -/
theorem liveSum_swept (hc' : SideSum c) (hM : Mesh s) (hc : Closed (· ∈ F) s) (u u' : K) : liveSum c d F s u - liveSum c d F s u' =
    ∑ a ∈ rim F s,
      ((c (drift d s u ((s.tri a.1).vertices (a.2 + 1))) (drift d s u ((s.tri a.1).vertices (a.2 + 2))) +
        c (drift d s u ((s.tri a.1).vertices (a.2 + 2))) (drift d s u' ((s.tri a.1).vertices (a.2 + 2))) +
        c (drift d s u' ((s.tri a.1).vertices (a.2 + 2))) (drift d s u ((s.tri a.1).vertices (a.2 + 1)))) +
      (c (drift d s u ((s.tri a.1).vertices (a.2 + 1))) (drift d s u' ((s.tri a.1).vertices (a.2 + 2))) +
        c (drift d s u' ((s.tri a.1).vertices (a.2 + 2))) (drift d s u' ((s.tri a.1).vertices (a.2 + 1))) +
        c (drift d s u' ((s.tri a.1).vertices (a.2 + 1))) (drift d s u ((s.tri a.1).vertices (a.2 + 1))))) := by
  rw [liveSum_rim hc' hM hc, liveSum_rim hc' hM hc, ← Finset.sum_sub_distrib,
    ← add_zero (∑ a ∈ rim F s, _), ← rim_telescope (F := F) hM hc (fun v => c (drift d s u v) (drift d s u' v)),
    ← Finset.sum_add_distrib]
  refine Finset.sum_congr rfl fun a ha => ?_
  linear_combination
    -hc'.anti (drift d s u ((s.tri a.1).vertices (a.2 + 1))) (drift d s u' ((s.tri a.1).vertices (a.2 + 2))) -
    hc'.anti (drift d s u' ((s.tri a.1).vertices (a.2 + 1))) (drift d s u' ((s.tri a.1).vertices (a.2 + 2))) -
    hc'.anti (drift d s u ((s.tri a.1).vertices (a.2 + 1))) (drift d s u' ((s.tri a.1).vertices (a.2 + 1)))

/-! ### general position -/

variable {dt : Dt K} {depth : ℕ} {skel s0 : St K} {n : ℕ} {now : K} {s1 : St K} {trace : List (Event K × K)}

/-- what is needed of a state -/
theorem GeneralRun.frame (h : GeneralRun dt depth skel s0 n now s trace) : Mesh s ∧
    Closed (· ∈ s0.skTriangles.toFinset) s ∧
    (∀ t ∈ s0.skTriangles.toFinset, Live s t → ∀ i, Kinetic s ((s.tri t).vertices i)) ∧
    ∀ t ∈ s0.skTriangles.toFinset, Live s t → ∀ i, (s.tri t).neighbours i = none → ∃ l, Rides (viewT s t) i l := by
  obtain ⟨G, S⟩ := C90_sharp h
  obtain ⟨R, -, -⟩ := G.ready
  obtain ⟨-, -, C⟩ := S.steady
  have T := (C84_steady S).1.standing
  refine ⟨R.mesh, fun t i n ht hn => ?_, fun t ht hl i => ?_, fun t ht hl i hn => ready_rides R h.allTrack hl hn⟩
  · exact List.mem_toFinset.2 (T.closed t i n (List.mem_toFinset.1 ht) hn)
  · exact C.kinetic t (List.mem_toFinset.1 ht) hl i

/-- the sides of the wavefront at two times before the next event -/
theorem GeneralRun.between (h : GeneralRun dt depth skel s0 n now s trace) (hi : s.immediate = []) {x x' : K} (hx : now ≤ x)
    (hxx : x ≤ x') (hq : ∀ f ∈ s.queue, x' ≤ f.time) : ∃ L : TId × Fin 3 → Line2 K,
    ∀ a ∈ rim s0.skTriangles.toFinset s, (L a).w.1 ^ 2 + (L a).w.2 ^ 2 = 1 ∧
      AtDistance (L a) x (whereAt s x ((s.tri a.1).vertices (a.2 + 1))) ∧
      AtDistance (L a) x (whereAt s x ((s.tri a.1).vertices (a.2 + 2))) ∧
      AtDistance (L a) x' (whereAt s x' ((s.tri a.1).vertices (a.2 + 1))) ∧
      AtDistance (L a) x' (whereAt s x' ((s.tri a.1).vertices (a.2 + 2))) ∧
      0 ≤ ahead (L a) (whereAt s x ((s.tri a.1).vertices (a.2 + 1))) (whereAt s x ((s.tri a.1).vertices (a.2 + 2))) ∧
      0 ≤ ahead (L a) (whereAt s x' ((s.tri a.1).vertices (a.2 + 1))) (whereAt s x' ((s.tri a.1).vertices (a.2 + 2))) ∧
      (x < x' → 0 < ahead (L a) (whereAt s x ((s.tri a.1).vertices (a.2 + 1))) (whereAt s x ((s.tri a.1).vertices (a.2 + 2)))) := by
  classical
  obtain ⟨hM, hc, hk, hr⟩ := h.frame
  let L : TId × Fin 3 → Line2 K := fun a => if q : ∃ l, Rides (viewT s a.1) a.2 l then q.choose else ⟨(0, 0), 0⟩
  have hL : ∀ a ∈ rim s0.skTriangles.toFinset s, Rides (viewT s a.1) a.2 (L a) := by
    intro a ha
    obtain ⟨m1, m2, m3⟩ := mem_rim.1 ha
    have ex := hr a.1 m1 m2 a.2 m3
    show Rides (viewT s a.1) a.2 (if q : ∃ l, Rides (viewT s a.1) a.2 l then q.choose else ⟨(0, 0), 0⟩)
    rw [dif_pos ex]
    exact ex.choose_spec
  have loc : ∀ a ∈ rim s0.skTriangles.toFinset s, ∀ u, now ≤ u → u ≤ x' →
      (L a).w.1 ^ 2 + (L a).w.2 ^ 2 = 1 ∧ AtDistance (L a) u (whereAt s u ((s.tri a.1).vertices (a.2 + 1))) ∧
      AtDistance (L a) u (whereAt s u ((s.tri a.1).vertices (a.2 + 2))) ∧
      0 ≤ ahead (L a) (whereAt s u ((s.tri a.1).vertices (a.2 + 1))) (whereAt s u ((s.tri a.1).vertices (a.2 + 2))) ∧
      (u < x' → 0 < ahead (L a) (whereAt s u ((s.tri a.1).vertices (a.2 + 1))) (whereAt s u ((s.tri a.1).vertices (a.2 + 2)))) := by
    intro a ha u hu hu'
    obtain ⟨m1, m2, m3⟩ := mem_rim.1 ha
    obtain ⟨hw, -, hd⟩ := hL a ha
    have hF := h.forward_between (general_forward h) hi hq u hu hu' a.1 (List.mem_toFinset.1 m1) m2 a.2 m3 (L a)
      (whereAt s u ((s.tri a.1).vertices (a.2 + 1))) (whereAt s u ((s.tri a.1).vertices (a.2 + 2))) (rides_rightLine (hL a ha))
      (by obtain ⟨-, k, e⟩ := hk a.1 m1 m2 (a.2 + 1); unfold whereAt placeAt; rw [e]; rfl)
      (by obtain ⟨-, k, e⟩ := hk a.1 m1 m2 (a.2 + 2); unfold whereAt placeAt; rw [e]; rfl)
    refine ⟨hw, ?_, ?_, hF, fun hlt => ?_⟩
    · rw [whereAt_corner (hk a.1 m1 m2 _)]; exact (hd u).1
    · rw [whereAt_corner (hk a.1 m1 m2 _)]; exact (hd u).2
    · have A := h.lasting hi hq (List.mem_toFinset.1 m1) m2 u hu hlt
      rw [area_front (hL a ha), ← whereAt_corner (hk a.1 m1 m2 _), ← whereAt_corner (hk a.1 m1 m2 _)] at A
      exact lt_of_le_of_ne hF fun z => by rw [← z, zero_mul] at A; exact lt_irrefl _ A
  refine ⟨L, fun a ha => ?_⟩
  obtain ⟨c1, c2, c3, c4, c5⟩ := loc a ha x hx hxx
  obtain ⟨-, d2, d3, d4, -⟩ := loc a ha x' (hx.trans hxx) le_rfl
  exact ⟨c1, c2, c3, d2, d3, c4, d4, c5⟩

/-- the area is not changed by what the loop does -/
theorem GeneralRun.conserved (hc' : SideSum c) {now' : K} {s' : St K} {e : Event K} (h : GeneralRun dt depth skel s0 (n + 1) now' s' (trace ++ [(e, now')]))
    (h1 : initEventList s0 = .ok ((), s1)) (hr : Run depth { s1 with immediate := [] } 0 n now s trace)
    (hs : loopStep depth (n + 1 : ℕ) now s = .ok (some (e, now'), s')) :
    liveSum c d s0.skTriangles.toFinset s' now' = liveSum c d s0.skTriangles.toFinset s now' := by
  have hp := h.prefix (Nat.le_succ n) h1 hr
  obtain ⟨G, S⟩ := C90_sharp hp
  obtain ⟨G', S'⟩ := C90_sharp h
  obtain ⟨St, -, C⟩ := S.steady
  obtain ⟨St', -, -⟩ := S'.steady
  have T := (C84_steady S).1.standing
  obtain ⟨R, hi, hgen⟩ := G.ready
  obtain ⟨-, -, -, c4⟩ := w_loopStep T.closed T.events hs
  obtain ⟨hM, hc, hk, -⟩ := hp.frame
  have ho := (G'.iteration h1 (Nat.lt_succ_self n) hr hs).1
  have hx := St'.exact.exact s1 h1 n (Nat.lt_succ_self n) _ _ _ _ _ _ hr hs
  have hcr := h.unblurred.sharp s1 h1 n (Nat.lt_succ_self n) _ _ _ _ _ _ hr hs
  obtain ⟨pyid, tr, -, hs0, hpre⟩ := id h.start
  obtain ⟨ts, vs, nbr, unwanted, sorted, hd⟩ := initSkeleton_ok hs0
  have w0 : Waves (InputLine dt) s0 := by rw [hpre]; exact (hd.waves h.mesh.toDtOk h.lengths).prepare true tr
  have a0 : Arcs s0 := by
    rw [hpre]; exact (hd.arcs h.mesh.toDtOk h.lengths h.angles h.spikes).prepare true tr
  have ha := execution_arcs h.angles w0 a0 St.exact
  have hw := execution_waves w0 hp.run
  have Rw : Ready (InputLine dt) s := ⟨R.mesh, R.undead, hw, R.slow⟩
  obtain ⟨s2, h2, h3⟩ := loopStep_some hs
  obtain ⟨i1, ht, -, hlt⟩ := wp_ok (i_takeEvent hi) h2
  obtain ⟨q, i, rfl⟩ : ∃ q i, s2 = { s with queue := q, immediate := i } := by
    rcases takeEvent_run now s with ⟨x, r, -, hx⟩ | ⟨x, r, -, -, hx⟩ | ⟨-, -, hx⟩ <;> rw [hx] at h2 <;> cases h2
    · exact ⟨_, _, rfl⟩
    · exact ⟨_, _, rfl⟩
  subst ht
  have hap : Live s e.tri → Happens (viewT s e.tri) e.toEvCore := fun hl => C90_happens hp hs hcr hl.2
  have Rq := Rw.queues q i
  exact sum_handleEvent hc' (s := { s with queue := q, immediate := i }) h.angles i1 hlt (List.mem_toFinset.2 c4) Rq.mesh hc
    (ha.relinked (Relinked.of_mesh rfl)) Rq.waves h3
    ⟨ho.slow, ho.edge, ho.flip, ho.three⟩ (fun z => by obtain ⟨a1, a2, a3, a4⟩ := hx z; exact ⟨a1, a2, a3, a4⟩)
    (hk e.tri (List.mem_toFinset.2 c4)) hap

/-- until the next event nothing is added -/
theorem GeneralRun.shrinks (hc' : SideSum c) (hd : d.1 ^ 2 + d.2 ^ 2 ≤ 1) (h : GeneralRun dt depth skel s0 n now s trace)
    (hi : s.immediate = []) {x x' : K} (hx : now ≤ x) (hxx : x ≤ x') (hq : ∀ f ∈ s.queue, x' ≤ f.time) :
    liveSum c d s0.skTriangles.toFinset s x' ≤ liveSum c d s0.skTriangles.toFinset s x := by
  obtain ⟨hM, hc, -⟩ := h.frame
  obtain ⟨L, e⟩ := h.between hi hx hxx hq
  rw [← sub_nonneg, liveSum_swept hc' hM hc]
  refine Finset.sum_nonneg fun a ha => ?_
  obtain ⟨e1, e2, e3, e4, e5, e6, e7, -⟩ := e a ha
  obtain ⟨t1, t2⟩ := trapezoid (d := d) e2 e3 e4 e5 e1
  have k := mul_nonneg (sub_nonneg.2 hxx) (slow_observer e1 hd)
  refine add_nonneg (hc'.nonneg _ _ _ ?_) (hc'.nonneg _ _ _ ?_)
  · exact (mul_nonneg k e6).trans_eq t1.symm
  · exact (mul_nonneg k e7).trans_eq t2.symm

/-- the area that is lost -/
theorem GeneralRun.lost (h : GeneralRun dt depth skel s0 n now s trace) (hi : s.immediate = []) {x x' : K} (hx : now ≤ x)
    (hxx : x ≤ x') (hq : ∀ f ∈ s.queue, x' ≤ f.time) : ∃ len len' : TId × Fin 3 → K,
    liveSum shoelace (0, 0) s0.skTriangles.toFinset s x - liveSum shoelace (0, 0) s0.skTriangles.toFinset s x' =
      (x' - x) * ∑ a ∈ rim s0.skTriangles.toFinset s, (len a + len' a) ∧
    ∀ a ∈ rim s0.skTriangles.toFinset s, 0 ≤ len a ∧ 0 ≤ len' a ∧
      len a ^ 2 = distSq (whereAt s x ((s.tri a.1).vertices (a.2 + 1))) (whereAt s x ((s.tri a.1).vertices (a.2 + 2))) ∧
      len' a ^ 2 = distSq (whereAt s x' ((s.tri a.1).vertices (a.2 + 1))) (whereAt s x' ((s.tri a.1).vertices (a.2 + 2))) ∧
      (x < x' → 0 < len a) := by
  obtain ⟨hM, hc, -⟩ := h.frame
  obtain ⟨L, e⟩ := h.between hi hx hxx hq
  have sq : ∀ (l : Line2 K) (p q : Pt K) (u : K), l.w.1 ^ 2 + l.w.2 ^ 2 = 1 → AtDistance l u p → AtDistance l u q →
      ahead l p q ^ 2 = distSq p q := by
    intro l p q u hw h1 h2
    unfold AtDistance at h1 h2
    unfold ahead distSq
    have hz : l.w.1 * (q.1 - p.1) + l.w.2 * (q.2 - p.2) = 0 := by linear_combination h2 - h1
    linear_combination ((q.1 - p.1) ^ 2 + (q.2 - p.2) ^ 2) * hw - (l.w.1 * (q.1 - p.1) + l.w.2 * (q.2 - p.2)) * hz
  refine ⟨fun a => ahead (L a) (whereAt s x ((s.tri a.1).vertices (a.2 + 1))) (whereAt s x ((s.tri a.1).vertices (a.2 + 2))),
    fun a => ahead (L a) (whereAt s x' ((s.tri a.1).vertices (a.2 + 1))) (whereAt s x' ((s.tri a.1).vertices (a.2 + 2))),
    ?_, fun a ha => ?_⟩
  · rw [liveSum_swept shoelace_sideSum hM hc, Finset.mul_sum]
    refine Finset.sum_congr rfl fun a ha => ?_
    obtain ⟨e1, e2, e3, e4, e5, -⟩ := e a ha
    obtain ⟨t1, t2⟩ := trapezoid (d := (0, 0)) e2 e3 e4 e5 e1
    unfold area2 at t1 t2
    unfold drift shoelace
    dsimp only at t1 t2 ⊢
    linear_combination t1 + t2
  · obtain ⟨e1, e2, e3, e4, e5, e6, e7, e8⟩ := e a ha
    exact ⟨e6, e7, sq _ _ _ _ e1 e2 e3, sq _ _ _ _ e1 e4 e5, e8⟩

/-- and it is not zero, when there is a wavefront -/
theorem GeneralRun.shrinks_area (h : GeneralRun dt depth skel s0 n now s trace) (hi : s.immediate = []) {x x' : K} (hx : now ≤ x)
    (hxx : x < x') (hq : ∀ f ∈ s.queue, x' ≤ f.time) (hrim : ∃ a, a ∈ rim s0.skTriangles.toFinset s) :
    liveSum shoelace (0, 0) s0.skTriangles.toFinset s x' < liveSum shoelace (0, 0) s0.skTriangles.toFinset s x := by
  obtain ⟨len, len', e, hl⟩ := h.lost hi hx hxx.le hq
  obtain ⟨a, ha⟩ := hrim
  rw [← sub_pos, e]
  exact mul_pos (sub_pos.2 hxx) (Finset.sum_pos (fun a ha => add_pos_of_pos_of_nonneg ((hl a ha).2.2.2.2 hxx) (hl a ha).2.1)
    ⟨a, ha⟩)

/-- from one event to the next -/
theorem GeneralRun.drop (hc' : SideSum c) (hd : d.1 ^ 2 + d.2 ^ 2 ≤ 1) {now' : K} {s' : St K} {e : Event K}
    (h : GeneralRun dt depth skel s0 (n + 1) now' s' (trace ++ [(e, now')]))
    (h1 : initEventList s0 = .ok ((), s1)) (hr : Run depth { s1 with immediate := [] } 0 n now s trace)
    (hs : loopStep depth (n + 1 : ℕ) now s = .ok (some (e, now'), s')) {x : K} (hx : now ≤ x) (hx' : x ≤ now') :
    liveSum c d s0.skTriangles.toFinset s' now' ≤ liveSum c d s0.skTriangles.toFinset s x := by
  have hp := h.prefix (Nat.le_succ n) h1 hr
  obtain ⟨G, -⟩ := C90_sharp hp
  obtain ⟨-, hI, -⟩ := G.ready
  rw [h.conserved hc' h1 hr hs]
  rcases taken_min hI hs with q | ⟨q1, q2⟩
  · obtain rfl : x = now' := le_antisymm hx' (q ▸ hx)
    exact le_rfl
  · exact hp.shrinks hc' hd q1 hx hx' q2

/-- the next state of a run -/
theorem run_next {depth : ℕ} {s0 : St K} {now0 x : K} {m : ℕ} {u : St K} {tr' : List (Event K × K)}
    (hu : Run depth s0 now0 m x u tr') : ∀ {n : ℕ} {now : K} {w : St K} {tr : List (Event K × K)},
      Run depth s0 now0 n now w tr → m < n → ∃ e z u', loopStep depth (m + 1 : ℕ) x u = .ok (some (e, z), u') := by
  intro n now w tr hr hm
  induction hr with
  | start => exact absurd hm (Nat.not_lt_zero _)
  | @step n now now' a b tr e hr hs ih =>
    by_cases c : m = n
    · subst c
      obtain ⟨rfl, rfl, -⟩ := run_unique hr hu
      exact ⟨_, _, _, hs⟩
    · exact ih (by omega)

/-- so from event to event the area does not grow -/
theorem GeneralRun.falls (hc' : SideSum c) (hd : d.1 ^ 2 + d.2 ^ 2 ≤ 1) : ∀ {n : ℕ} {now : K} {s : St K} {trace : List (Event K × K)},
    GeneralRun dt depth skel s0 n now s trace → initEventList s0 = .ok ((), s1) → ∀ {m : ℕ} {y : K} {u : St K}
    {tr' : List (Event K × K)}, m ≤ n → Run depth { s1 with immediate := [] } 0 m y u tr' →
    liveSum c d s0.skTriangles.toFinset s now ≤ liveSum c d s0.skTriangles.toFinset u y := by
  intro n
  induction n with
  | zero =>
    intro now s trace h h1 m y u tr' hm hu
    obtain ⟨-, z, hz, hr⟩ := id h.run
    rw [h1] at hz
    cases hz
    obtain rfl : m = 0 := Nat.le_zero.1 hm
    obtain ⟨rfl, rfl, -⟩ := run_unique hr hu
    exact le_rfl
  | succ n ih =>
    intro now s trace h h1 m y u tr' hm hu
    obtain ⟨-, z, hz, hr⟩ := id h.run
    rw [h1] at hz
    cases hz
    by_cases c : m = n + 1
    · subst c
      obtain ⟨rfl, rfl, -⟩ := run_unique hr hu
      exact le_rfl
    · cases hr with
      | @step _ now0 _ w _ tr0 e hr hs =>
        have hp := h.prefix (Nat.le_succ n) h1 hr
        obtain ⟨G, -⟩ := C90_sharp hp
        obtain ⟨-, hI, -⟩ := G.ready
        have hnow : now0 ≤ now := (wp_ok (i_loopStep depth (n + 1 : ℕ) hI) hs).2.2
        exact (h.drop hc' hd h1 hr hs le_rfl hnow).trans (ih hp h1 (by omega) hu)

/-! ### as the vertices tell it -/

theorem sideAt_some {x : K} {v : VId} {p q : Pt K} (hv : v ∈ s.skVertices) (h : sideAt s x v = some (p, q)) :
    OnFront s x v ∧ ∃ u, LeftAt s x v u ∧ placeAt s u x = some p ∧ placeAt s v x = some q := by
  unfold sideAt at h
  cases hk : s.vert v with
  | inf o => rw [hk] at h; cases h
  | kin k =>
    rw [hk] at h
    dsimp only at h
    split at h
    · next c =>
      obtain ⟨c1, c2⟩ := (Bool.and_eq_true _ _).mp c
      split at h
      · next u hu =>
        obtain ⟨p', e1, e2⟩ := Option.map_eq_some_iff.1 h
        cases e2
        refine ⟨⟨hv, k, hk, ?_, fun b hb => ?_⟩, u, ⟨k, hk, hu⟩, e1, by unfold placeAt; rw [hk]⟩
        · obtain ⟨a, e1, e2⟩ := Option.any_eq_true_iff_get _ _ |>.1 c1 |> fun ⟨a, b⟩ => (⟨_, (Option.some_get a).symm, b⟩ :
            ∃ a, k.startsAt = some a ∧ decide (a ≤ x) = true)
          exact ⟨a, e1, of_decide_eq_true e2⟩
        · rw [hb] at c2
          exact of_decide_eq_true c2
      · cases h
    · cases h

theorem sideAt_of {x : K} {v u : VId} {p q : Pt K} (h : OnFront s x v) (hu : LeftAt s x v u) (hp : placeAt s u x = some p)
    (hq : placeAt s v x = some q) : sideAt s x v = some (p, q) := by
  obtain ⟨-, k, hk, ⟨a, ha, hax⟩, hb⟩ := h
  obtain ⟨k', hk', hl⟩ := hu
  rw [hk] at hk'
  cases hk'
  unfold sideAt
  rw [hk]
  dsimp only
  rw [if_pos, hl]
  · dsimp only
    rw [hp]
    unfold placeAt at hq
    rw [hk] at hq
    cases hq
    rfl
  · rw [ha]
    cases e : k.stopsAt with
    | none => simpa using hax
    | some b => simpa using ⟨hax, hb b e⟩

/-- A sum over the sides of the wavefront at time `x` is one over the sides without neighbour in the last state up to `x`. -/
theorem GeneralRun.front_sum (h : GeneralRun dt depth skel s0 n now s trace) (hl : LoneEvents depth s0 n)
    (h1 : initEventList s0 = .ok ((), s1)) {m : ℕ} (hm : m ≤ n) {x y : K} {u : St K} {tr' : List (Event K × K)}
    (hu : Run depth { s1 with immediate := [] } 0 m y u tr') (hy : y ≤ x) (hS : Since (x < ·) u s) (hG : Grows u s)
    (f : VId → Pt K → Pt K → K) :
    (s.skVertices.map fun v => ((sideAt s x v).map fun e => f v e.1 e.2).getD 0).sum =
      ∑ a ∈ rim s0.skTriangles.toFinset u, f ((u.tri a.1).vertices (a.2 + 2)) (whereAt u x ((u.tri a.1).vertices (a.2 + 1)))
        (whereAt u x ((u.tri a.1).vertices (a.2 + 2))) := by
  classical
  have U := h.prefix hm h1 hu
  obtain ⟨G, -⟩ := C90_sharp U
  obtain ⟨R, hI, -⟩ := G.ready
  have L := U.lone fun z hz k hk => hl z hz k (hk.trans hm)
  obtain ⟨-, -, hP, -⟩ := L.state
  obtain ⟨-, -, hP', -⟩ := (h.lone hl).state
  have hsk : u.skTriangles = s0.skTriangles := U.run.triangles
  have hrun := (C90_exact U).2.2.2
  have hL := (C90_linked G).1
  have front := h.onFront hl h1 hm hu hy hS hG
  have ring : ∀ v ∈ u.skVertices, Running u v →
      ∃ t ∈ s0.skTriangles, ∃ i a, FrontSide u t i a v ∧ a ∈ u.skVertices ∧ Running u a ∧ Points u a v := by
    intro v hv hv'
    rw [← hsk] at hrun ⊢
    exact (front_rings R.mesh hL hP hrun hv hv').2
  have side : ∀ a ∈ rim s0.skTriangles.toFinset u, OnFront s x ((u.tri a.1).vertices (a.2 + 2)) ∧
      sideAt s x ((u.tri a.1).vertices (a.2 + 2)) = some (whereAt u x ((u.tri a.1).vertices (a.2 + 1)),
        whereAt u x ((u.tri a.1).vertices (a.2 + 2))) := by
    intro a ha
    obtain ⟨m1, m2, m3⟩ := mem_rim.1 ha
    rw [List.mem_toFinset] at m1
    have hb := hrun a.1 m1 m2 (a.2 + 2)
    have hc := hP.corners a.1 (by rw [hsk]; exact m1) m2 (a.2 + 2) hb.kinetic
    have ho := (front _).2 ⟨hc, hb⟩
    have hf : FrontSide u a.1 a.2 _ _ := ⟨m2, m3, rfl, rfl⟩
    have hp := (hL.points _ _ _ _ hf).resolve_right fun q => q.2 hb
    refine ⟨ho, sideAt_of ho (h.neighbours h1 hm hu hy hS hp).2 ?_ ?_⟩
    · obtain ⟨hlt, k, e⟩ := (hrun a.1 m1 m2 (a.2 + 1)).kinetic
      exact grows_place hG hlt (by unfold whereAt placeAt; rw [e]; rfl)
    · obtain ⟨hlt, k, e⟩ := hb.kinetic
      exact grows_place hG hlt (by unfold whereAt placeAt; rw [e]; rfl)
  rw [← List.sum_toFinset _ hP'.once]
  symm
  refine Finset.sum_bij_ne_zero (fun a _ _ => (u.tri a.1).vertices (a.2 + 2)) (fun a ha _ => ?_) (fun a ha _ b hb _ e => ?_)
    (fun v hv hne => ?_) (fun a ha _ => ?_)
  · exact List.mem_toFinset.2 (side a ha).1.1
  · obtain ⟨p1, p2, p3⟩ := mem_rim.1 ha
    obtain ⟨q1, q2, q3⟩ := mem_rim.1 hb
    rw [List.mem_toFinset] at p1 q1
    obtain ⟨t, j, b', -, -, uq⟩ := hL.behind a.1 p2 (a.2 + 2) (hrun _ p1 p2 _)
    obtain ⟨c1, c2⟩ := uq a.1 a.2 _ ⟨p2, p3, rfl, rfl⟩
    obtain ⟨d1, d2⟩ := uq b.1 b.2 _ ⟨q2, q3, rfl, e.symm⟩
    exact Prod.ext (c1.trans d1.symm) (c2.trans d2.symm)
  · rw [List.mem_toFinset] at hv
    obtain ⟨⟨p, q⟩, e⟩ : ∃ e, sideAt s x v = some e := by
      rw [← Option.isSome_iff_exists]
      by_contra c
      rw [Option.not_isSome_iff_eq_none.1 c] at hne
      exact hne rfl
    obtain ⟨a1, a2⟩ := (front v).1 (sideAt_some hv e).1
    obtain ⟨t, ht, i, a, ⟨b1, b2, b3, b4⟩, -⟩ := ring v a1 a2
    have ha : (t, i) ∈ rim s0.skTriangles.toFinset u := mem_rim.2 ⟨List.mem_toFinset.2 ht, b1, b2⟩
    refine ⟨(t, i), ha, ?_, b4⟩
    have := (side _ ha).2
    dsimp only at this ⊢
    rw [b4] at this ⊢
    rw [this] at hne
    exact hne
  · rw [(side a ha).2]
    rfl

/-- the sum over the sides of the wavefront -/
def frontSum (c : Pt K → Pt K → K) (d : Pt K) (s : St K) (x : K) : K :=
  (s.skVertices.map fun v => ((sideAt s x v).map fun e =>
    c (e.1.1 - x * d.1, e.1.2 - x * d.2) (e.2.1 - x * d.1, e.2.2 - x * d.2)).getD 0).sum

/-- the sum that the vertices tell is the sum of the triangles of the last state up to `x` -/
theorem GeneralRun.sum_at (hc' : SideSum c) (h : GeneralRun dt depth skel s0 n now s trace) (hl : LoneEvents depth s0 n)
    (h1 : initEventList s0 = .ok ((), s1)) {m : ℕ} (hm : m ≤ n) {x y : K} {u : St K} {tr' : List (Event K × K)}
    (hu : Run depth { s1 with immediate := [] } 0 m y u tr') (hy : y ≤ x) (hS : Since (x < ·) u s) (hG : Grows u s) :
    frontSum c d s x = liveSum c d s0.skTriangles.toFinset u x := by
  obtain ⟨hM, hc, -, -⟩ := (h.prefix hm h1 hu).frame
  rw [liveSum_rim hc' hM hc]
  exact h.front_sum hl h1 hm hu hy hS hG fun _ p q => c (p.1 - x * d.1, p.2 - x * d.2) (q.1 - x * d.1, q.2 - x * d.2)

theorem enclosed_sum (s : St K) (x : K) : enclosed s x = frontSum shoelace (0, 0) s x := by
  unfold enclosed frontSum
  simp only [mul_zero, sub_zero]

theorem GeneralRun.enclosed_at (h : GeneralRun dt depth skel s0 n now s trace) (hl : LoneEvents depth s0 n)
    (h1 : initEventList s0 = .ok ((), s1)) {m : ℕ} (hm : m ≤ n) {x y : K} {u : St K} {tr' : List (Event K × K)}
    (hu : Run depth { s1 with immediate := [] } 0 m y u tr') (hy : y ≤ x) (hS : Since (x < ·) u s) (hG : Grows u s) :
    enclosed s x = liveSum shoelace (0, 0) s0.skTriangles.toFinset u x :=
  (enclosed_sum s x).trans (h.sum_at shoelace_sideSum hl h1 hm hu hy hS hG)

theorem GeneralRun.moving (h : GeneralRun dt depth skel s0 n now s trace) (hl : LoneEvents depth s0 n)
    (h1 : initEventList s0 = .ok ((), s1)) {m : ℕ} (hm : m ≤ n) {x y : K} {u : St K} {tr' : List (Event K × K)}
    (hu : Run depth { s1 with immediate := [] } 0 m y u tr') (hy : y ≤ x) (hS : Since (x < ·) u s) (hG : Grows u s) :
    ((∃ v, OnFront s x v) → ∃ a, a ∈ rim s0.skTriangles.toFinset u) ∧
    ((∃ t ∈ s0.skTriangles, Live u t) → ∃ v, OnFront s x v) := by
  have U := h.prefix hm h1 hu
  obtain ⟨G, -⟩ := C90_sharp U
  obtain ⟨R, -, -⟩ := G.ready
  have L := U.lone fun z hz k hk => hl z hz k (hk.trans hm)
  obtain ⟨-, -, hP, -⟩ := L.state
  have hsk : u.skTriangles = s0.skTriangles := U.run.triangles
  have hrun := (C90_exact U).2.2.2
  have front := h.onFront hl h1 hm hu hy hS hG
  constructor
  · rintro ⟨v, hv⟩
    obtain ⟨a1, a2⟩ := (front v).1 hv
    have := (front_rings R.mesh (C90_linked G).1 hP (by rw [hsk]; exact hrun) a1 a2).2
    rw [hsk] at this
    obtain ⟨t, ht, i, a, ⟨b1, b2, -⟩, -⟩ := this
    exact ⟨(t, i), mem_rim.2 ⟨List.mem_toFinset.2 ht, b1, b2⟩⟩
  · rintro ⟨t, ht, hlt⟩
    have hr := hrun t ht hlt 0
    exact ⟨_, (front _).2 ⟨hP.corners t (by rw [hsk]; exact ht) hlt 0 hr.kinetic, hr⟩⟩

/-- the last state up to `x` -/
theorem GeneralRun.settle (h : GeneralRun dt depth skel s0 n now s trace) (h1 : initEventList s0 = .ok ((), s1)) {x : K}
    (hx : 0 ≤ x) (hset : Settled s now x) : ∃ m ≤ n, ∃ y u tr', Run depth { s1 with immediate := [] } 0 m y u tr' ∧ y ≤ x ∧
      u.immediate = [] ∧ (∀ f ∈ u.queue, x < f.time) ∧ Since (x < ·) u s ∧ Grows u s := by
  obtain ⟨-, z, hz, hr⟩ := id h.run
  rw [h1] at hz
  cases hz
  obtain ⟨-, hI0⟩ := ready_start (C90_sharp h).1.start h1
  exact settled_state hr hI0 hx hset

theorem sooner {q : List (Event K)} {x : K} (h : ∀ f ∈ q, x < f.time) : ∃ x', x < x' ∧ ∀ f ∈ q, x' ≤ f.time := by
  induction q with
  | nil => exact ⟨x + 1, lt_add_one x, nofun⟩
  | cons f r ih =>
    obtain ⟨x', h1, h2⟩ := ih fun g hg => h g (List.mem_cons_of_mem _ hg)
    refine ⟨min x' f.time, lt_min h1 (h f List.mem_cons_self), fun g hg => ?_⟩
    rcases List.mem_cons.1 hg with rfl | hg
    · exact min_le_right _ _
    · exact (min_le_left _ _).trans (h2 g hg)

/-- the two last states up to `x` and `x'` -/
theorem GeneralRun.settle_two (h : GeneralRun dt depth skel s0 n now s trace) (h1 : initEventList s0 = .ok ((), s1)) {x x' : K}
    (hx : 0 ≤ x) (hxx : x ≤ x') (hset : Settled s now x') :
    ∃ m' ≤ n, ∃ m ≤ m', ∃ y u tr' y' u' tr'', Run depth { s1 with immediate := [] } 0 m y u tr' ∧
      Run depth { s1 with immediate := [] } 0 m' y' u' tr'' ∧ y ≤ x ∧ y' ≤ x' ∧
      u.immediate = [] ∧ (∀ f ∈ u.queue, x < f.time) ∧ u'.immediate = [] ∧ (∀ f ∈ u'.queue, x' < f.time) ∧
      Since (x < ·) u s ∧ Grows u s ∧ Since (x' < ·) u' s ∧ Grows u' s := by
  obtain ⟨m', hm', y', u', tr'', hu', hy', p1, p2, hS', hG'⟩ := h.settle h1 (hx.trans hxx) hset
  have U' := h.prefix hm' h1 hu'
  have set' : Settled u' y' x := .inr ⟨p1, fun f hf => hxx.trans_lt (p2 f hf)⟩
  obtain ⟨m, hm, y, u, tr', hu, hy, q1, q2, hS, hG⟩ := U'.settle h1 hx set'
  exact ⟨m', hm', m, hm, y, u, tr', y', u', tr'', hu, hu', hy, hy', q1, q2, p1, p2,
    sincePre.trans _ _ _ hS (hS'.mono fun t q => hxx.trans_lt q), growsPre.trans _ _ _ hG hG', hS', hG'⟩

/-- the next event is later -/
theorem GeneralRun.after {m : ℕ} {y z x : K} {u u1 : St K} {tr' : List (Event K × K)} {e : Event K}
    (U : GeneralRun dt depth skel s0 m y u tr') (q1 : u.immediate = []) (q2 : ∀ f ∈ u.queue, x < f.time)
    (hs : loopStep depth (m + 1 : ℕ) y u = .ok (some (e, z), u1)) : x < z := by
  obtain ⟨G, -⟩ := C90_sharp U
  obtain ⟨-, hI, -⟩ := G.ready
  have hn := loopStep_next hs
  have ht : e.time = z := (wp_ok (i_loopStep depth (m + 1 : ℕ) hI) hs).2.1
  rw [← ht]
  rcases hn with hn | ⟨-, hn⟩
  · rw [q1] at hn; cases hn
  · exact q2 e (List.mem_of_mem_head? hn)

/-- the sum does not grow -/
theorem GeneralRun.later (hc' : SideSum c) (hd : d.1 ^ 2 + d.2 ^ 2 ≤ 1) (h : GeneralRun dt depth skel s0 n now s trace) (hl : LoneEvents depth s0 n) {x x' : K}
    (hx : 0 ≤ x) (hxx : x ≤ x') (hset : Settled s now x') : frontSum c d s x' ≤ frontSum c d s x := by
  obtain ⟨-, s1, h1, hr⟩ := id h.run
  obtain ⟨m', hm', m, hm, y, u, tr', y', u', tr'', hu, hu', hy, hy', q1, q2, p1, p2, hS, hG, hS', hG'⟩ :=
    h.settle_two h1 hx hxx hset
  have U' := h.prefix hm' h1 hu'
  have U := U'.prefix hm h1 hu
  rw [h.sum_at hc' hl h1 (hm.trans hm') hu hy hS hG, h.sum_at hc' hl h1 hm' hu' hy' hS' hG']
  rcases hm.lt_or_eq with k | rfl
  · obtain ⟨e, z, u1, hs⟩ := run_next hu hu' k
    have hr1 := hu.step hs
    have U1 := U'.prefix k h1 hr1
    calc _ ≤ _ := U'.shrinks hc' hd p1 le_rfl hy' fun f hf => (p2 f hf).le
      _ ≤ _ := U'.falls hc' hd h1 k hr1
      _ ≤ _ := U1.drop hc' hd h1 hu hs hy (U.after q1 q2 hs).le
  · obtain ⟨rfl, rfl, -⟩ := run_unique hu hu'
    exact U.shrinks hc' hd q1 hy hxx fun f hf => (p2 f hf).le

/-- the sum at time 0 -/
theorem GeneralRun.sum_zero (hc' : SideSum c) (h : GeneralRun dt depth skel s0 n now s trace) (hl : LoneEvents depth s0 n)
    (hset : Settled s now 0) : frontSum c d s 0 = ∑ t ∈ (Finset.range dt.nT).filter (fun t => dt.internal t = true),
      (c (((dt.corner t 0).map dt.pos).getD (0, 0)) (((dt.corner t 1).map dt.pos).getD (0, 0)) +
      c (((dt.corner t 1).map dt.pos).getD (0, 0)) (((dt.corner t 2).map dt.pos).getD (0, 0)) +
      c (((dt.corner t 2).map dt.pos).getD (0, 0)) (((dt.corner t 0).map dt.pos).getD (0, 0))) := by
  classical
  obtain ⟨-, s1, h1, -⟩ := id h.run
  obtain ⟨m, hm, y, u, tr', hu, hy, q1, q2, hS, hG⟩ := h.settle h1 le_rfl hset
  rw [h.sum_at hc' hl h1 hm hu hy hS hG]
  obtain ⟨⟨w1, w2⟩, con⟩ := h.zero_state h1 hm hu hy
  have F := h.fresh0
  unfold liveSum
  refine Finset.sum_congr ?_ fun t ht => ?_
  · ext t
    rw [Finset.mem_filter, List.mem_toFinset, Finset.mem_filter, Finset.mem_range, ← F.internal t]
    refine and_iff_left_of_imp fun ht => ?_
    obtain ⟨l1, l2⟩ := F.live t ht
    exact ⟨by rw [w1]; exact l1, by rw [w2]; exact l2⟩
  · rw [Finset.mem_filter, Finset.mem_range, ← F.internal t] at ht
    have key : ∀ i, whereAt u 0 ((u.tri t).vertices i) = ((dt.corner t i).map dt.pos).getD (0, 0) := by
      intro i
      obtain ⟨v, e1, e2⟩ := (con t ht i).2
      unfold whereAt
      rw [e1, e2]
      rfl
    unfold sumOf drift
    rw [key, key, key]
    simp only [zero_mul, sub_zero]

end Grassfire
