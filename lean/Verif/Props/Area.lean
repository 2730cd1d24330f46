/-
Property C95: the area inside the wavefront shrinks, from that of the input to nothing, by what the wavefront sweeps over.
-/
import Verif.Proofs.Area

set_option linter.unusedSectionVars false

namespace Grassfire

open Spec

variable {K : Type} [Field K] [LinearOrder K] [IsStrictOrderedRing K] [HasSqrt K] [SqrtUnit K] [HasTrig K]

variable {dt : Dt K} {depth : ℕ} {skel s0 : St K} {n : ℕ} {now : K} {s s1 : St K} {trace : List (Event K × K)}

/-- **C95.** In general position, at any time that the loop has gone past, the area inside the wavefront is positive as
long as there is a wavefront; afterwards it is zero. -/
theorem C95_positive (h : GeneralRun dt depth skel s0 n now s trace) (hl : LoneEvents depth s0 n) {x : K} (hx : 0 ≤ x)
    (hset : Settled s now x) :
    ((∃ v, OnFront s x v) → 0 < enclosed s x) ∧ ((∀ v, ¬ OnFront s x v) → enclosed s x = 0) := by
  classical
  obtain ⟨-, s1, h1, -⟩ := id h.run
  obtain ⟨m, hm, y, u, tr', hu, hy, q1, q2, hS, hG⟩ := h.settle h1 hx hset
  have U := h.prefix hm h1 hu
  obtain ⟨-, -, hk, -⟩ := U.frame
  rw [h.enclosed_at hl h1 hm hu hy hS hG]
  obtain ⟨mo1, mo2⟩ := h.moving hl h1 hm hu hy hS hG
  unfold liveSum
  constructor
  · intro hv
    obtain ⟨a, ha⟩ := mo1 hv
    obtain ⟨a1, a2, -⟩ := mem_rim.1 ha
    obtain ⟨x', hx', hm'⟩ := sooner q2
    refine Finset.sum_pos (fun t ht => ?_) ⟨a.1, Finset.mem_filter.2 ⟨a1, a2⟩⟩
    obtain ⟨t1, t2⟩ := Finset.mem_filter.1 ht
    rw [sumOf_shoelace, areaOf_view (hk t t1 t2)]
    exact U.lasting q1 hm' (List.mem_toFinset.1 t1) t2 x hy hx'
  · intro hno
    refine Finset.sum_eq_zero fun t ht => ?_
    obtain ⟨t1, t2⟩ := Finset.mem_filter.1 ht
    obtain ⟨v, hv⟩ := mo2 ⟨t, List.mem_toFinset.1 t1, t2⟩
    exact absurd hv (hno v)

/-- **C95.** At time 0 it is the area of the triangles inside. -/
theorem C95_zero (h : GeneralRun dt depth skel s0 n now s trace) (hl : LoneEvents depth s0 n) (hset : Settled s now 0) :
    enclosed s 0 = ∑ t ∈ (Finset.range dt.nT).filter (fun t => dt.internal t = true), dtArea dt t := by
  refine ((enclosed_sum s 0).trans (h.sum_zero shoelace_sideSum hl hset)).trans (Finset.sum_congr rfl fun t _ => ?_)
  unfold dtArea shoelace area2
  ring

/-- **C95.** Between two events, the area that is lost from time `x` to time `x'` is what the sides of the wavefront sweep
over, each at unit speed: for every side, half the sum of its lengths at both times, times `x' - x` (the areas are twice
the areas). -/
theorem C95_swept (h : GeneralRun dt depth skel s0 n now s trace) (hl : LoneEvents depth s0 n) (hi : s.immediate = [])
    {x x' : K} (hx : now ≤ x) (hxx : x ≤ x') (hq : ∀ f ∈ s.queue, x' < f.time) :
    ∃ len len' : VId → K, Lengths s x len ∧ Lengths s x' len' ∧ (∀ v, OnFront s x v ↔ OnFront s x' v) ∧
      enclosed s x - enclosed s x' =
        (x' - x) * (s.skVertices.map fun v => ((sideAt s x v).map fun _ => len v + len' v).getD 0).sum := by
  classical
  obtain ⟨-, s1, h1, hr⟩ := id h.run
  have S0 : ∀ z, Since (z < ·) s s := fun z => sincePre.refl _
  have G0 : Grows s s := growsPre.refl _
  have hx' := hx.trans hxx
  rw [h.enclosed_at hl h1 le_rfl hr hx (S0 x) G0, h.enclosed_at hl h1 le_rfl hr hx' (S0 x') G0]
  obtain ⟨len, len', e, q⟩ := h.lost hi hx hxx fun f hf => (hq f hf).le
  obtain ⟨hM, hc, hk, -⟩ := h.frame
  obtain ⟨G, -⟩ := C90_sharp h
  obtain ⟨R, -, -⟩ := G.ready
  have hL := (C90_linked G).1
  have hrun := (C90_exact h).2.2.2
  -- the side that ends at a vertex
  let φ : VId → TId × Fin 3 := fun v =>
    if c : ∃ a ∈ rim s0.skTriangles.toFinset s, (s.tri a.1).vertices (a.2 + 2) = v then c.choose else (0, 0)
  have hφ : ∀ a ∈ rim s0.skTriangles.toFinset s, φ ((s.tri a.1).vertices (a.2 + 2)) = a := by
    intro a ha
    have c : ∃ b ∈ rim s0.skTriangles.toFinset s, (s.tri b.1).vertices (b.2 + 2) = (s.tri a.1).vertices (a.2 + 2) := ⟨a, ha, rfl⟩
    show (if c : ∃ b ∈ rim s0.skTriangles.toFinset s, (s.tri b.1).vertices (b.2 + 2) = (s.tri a.1).vertices (a.2 + 2)
      then c.choose else (0, 0)) = a
    rw [dif_pos c]
    obtain ⟨hb, eb⟩ := c.choose_spec
    obtain ⟨p1, p2, p3⟩ := mem_rim.1 ha
    obtain ⟨r1, r2, r3⟩ := mem_rim.1 hb
    rw [List.mem_toFinset] at p1
    obtain ⟨t, j, b', -, -, uq⟩ := hL.behind a.1 p2 (a.2 + 2) (hrun _ p1 p2 _)
    obtain ⟨c1, c2⟩ := uq a.1 a.2 _ ⟨p2, p3, rfl, rfl⟩
    obtain ⟨d1, d2⟩ := uq _ _ _ ⟨r2, r3, rfl, eb⟩
    exact Prod.ext (d1.trans c1.symm) (d2.trans c2.symm)
  have L := h.lone hl
  obtain ⟨-, -, hP, -⟩ := L.state
  have hsk : s.skTriangles = s0.skTriangles := h.run.triangles
  have onto : ∀ z, now ≤ z → ∀ v p r, sideAt s z v = some (p, r) → v ∈ s.skVertices → ∃ a ∈ rim s0.skTriangles.toFinset s,
      (s.tri a.1).vertices (a.2 + 2) = v ∧ p = whereAt s z ((s.tri a.1).vertices (a.2 + 1)) ∧ r = whereAt s z v := by
    intro z hz v p r hs hv
    obtain ⟨o, u, o1, o2, o3⟩ := sideAt_some hv hs
    obtain ⟨a1, a2⟩ := (h.onFront hl h1 le_rfl hr hz (S0 z) G0 v).1 o
    have := (front_rings R.mesh hL hP (by rw [hsk]; exact hrun) a1 a2).2
    rw [hsk] at this
    obtain ⟨t, ht, i, a, ⟨b1, b2, b3, b4⟩, -, -, hp⟩ := this
    obtain rfl := leftAt_unique (h.neighbours h1 le_rfl hr hz (S0 z) hp).2 o1
    refine ⟨(t, i), mem_rim.2 ⟨List.mem_toFinset.2 ht, b1, b2⟩, b4, ?_, ?_⟩
    · dsimp only; rw [b3]; unfold whereAt; rw [o2]; rfl
    · unfold whereAt; rw [o3]; rfl
  refine ⟨fun v => len (φ v), fun v => len' (φ v), fun v hv p r hs => ?_, fun v hv p r hs => ?_, fun v => ?_, ?_⟩
  · obtain ⟨a, ha, rfl, rfl, rfl⟩ := onto x hx v p r hs hv
    dsimp only
    rw [hφ a ha]
    exact ⟨(q a ha).1, (q a ha).2.2.1⟩
  · obtain ⟨a, ha, rfl, rfl, rfl⟩ := onto x' hx' v p r hs hv
    dsimp only
    rw [hφ a ha]
    exact ⟨(q a ha).2.1, (q a ha).2.2.2.1⟩
  · rw [h.onFront hl h1 le_rfl hr hx (S0 x) G0, h.onFront hl h1 le_rfl hr hx' (S0 x') G0]
  · rw [e, h.front_sum hl h1 le_rfl hr hx (S0 x) G0 fun v _ _ => len (φ v) + len' (φ v)]
    congr 1
    exact Finset.sum_congr rfl fun a ha => by rw [hφ a ha]

/-- **C95.** The area inside the wavefront gets less all the time, as long as there is a wavefront. -/
theorem C95_shrinks (h : GeneralRun dt depth skel s0 n now s trace) (hl : LoneEvents depth s0 n) {x x' : K} (hx : 0 ≤ x)
    (hxx : x < x') (hset : Settled s now x') (hv : ∃ v, OnFront s x v) : enclosed s x' < enclosed s x := by
  obtain ⟨-, s1, h1, hr⟩ := id h.run
  obtain ⟨m', hm', m, hm, y, u, tr', y', u', tr'', hu, hu', hy, hy', q1, q2, p1, p2, hS, hG, hS', hG'⟩ :=
    h.settle_two h1 hx hxx.le hset
  have U' := h.prefix hm' h1 hu'
  have U := U'.prefix hm h1 hu
  have hc' := shoelace_sideSum (K := K)
  have hd : (0 : K) ^ 2 + 0 ^ 2 ≤ 1 := by norm_num
  rw [h.enclosed_at hl h1 (hm.trans hm') hu hy hS hG, h.enclosed_at hl h1 hm' hu' hy' hS' hG']
  have hrim := (h.moving hl h1 (hm.trans hm') hu hy hS hG).1 hv
  rcases hm.lt_or_eq with k | rfl
  · obtain ⟨e, z, u1, hs⟩ := run_next hu hu' k
    have hr1 := hu.step hs
    have U1 := U'.prefix k h1 hr1
    have hz := U.after q1 q2 hs
    have hn := loopStep_next hs
    calc _ ≤ _ := U'.shrinks (d := (0, 0)) hc' hd p1 le_rfl hy' fun f hf => (p2 f hf).le
      _ ≤ _ := U'.falls hc' hd h1 k hr1
      _ = _ := U1.conserved hc' h1 hu hs
      _ < _ := U.shrinks_area q1 hy hz (fun f hf => ?_) hrim
    obtain ⟨G, -⟩ := C90_sharp U
    obtain ⟨-, hI, -⟩ := G.ready
    rcases taken_min hI hs with q | ⟨-, q⟩
    · exact absurd (hy.trans_lt hz) (q ▸ lt_irrefl _)
    · exact q f hf
  · obtain ⟨rfl, rfl, -⟩ := run_unique hu hu'
    exact U.shrinks_area q1 hy hxx (fun f hf => (p2 f hf).le) hrim

/-- **C95.** What `calc_offsets` yields are these sides: a line for every vertex that is on the wavefront at the time, from
the vertex to its left neighbour. -/
theorem C95_lines (h : GeneralRun dt depth skel s0 n now s trace) (hl : LoneEvents depth s0 n) (hi : s.immediate = [])
    (hq : s.queue = []) {t : K} (ht : 0 ≤ t) {ct : ℕ} (hct : 0 < ct) :
    ∃ ls, calcOffsets s t ct = .ok ls ∧ ∀ p q x v, (∃ u, ⟨p, q, x, v, u⟩ ∈ ls) ↔
      v ∈ s.skVertices ∧ sideAt s x v = some (q, p) ∧ ∃ i < ct, x = i * t / ct := by
  obtain ⟨line, e1, e2⟩ := C43_offsets s (execution_started h.run) t ct hct
  obtain ⟨G, -⟩ := C90_sharp h
  obtain ⟨R, hI, -⟩ := G.ready
  have mem : ∀ l, l ∈ (List.range ct).flatMap (fun i => s.skVertices.filterMap (line i)) ↔
      IsOffset s l ∧ ∃ i < ct, l.time = i * t / ct := by
    intro l
    simp only [List.mem_flatMap, List.mem_range, List.mem_filterMap]
    constructor
    · rintro ⟨i, hi, v, hv, hvl⟩
      obtain ⟨a, b, -⟩ := (e2 i hi v hv l).1 hvl
      exact ⟨a, i, hi, b⟩
    · rintro ⟨a, i, hi, b⟩
      exact ⟨i, hi, l.v, a.inSkeleton, (e2 i hi _ a.inSkeleton l).2 ⟨a, b, rfl⟩⟩
  have pos : ∀ {v : VId} {k : KVertex K} (x : K), v < s.nV → s.vert v = .kin k →
      (s.vert v).positionAt (fun n => (s.node n).pos) x = .ok (pointAt k x) := by
    intro v k x hv hk
    rw [hk]
    unfold Vertex.positionAt
    dsimp only
    rw [if_pos (R.slow v k hv hk)]
    rfl
  have ring : ∀ x, 0 ≤ x → ∀ v u, OnFront s x v → LeftAt s x v u → OnFront s x u := by
    intro x hx v u hv hu
    obtain ⟨u', c1, c2, -⟩ := (C94_rings h hl hx (.inr ⟨hi, by rw [hq]; nofun⟩)).1.left v hv
    rwa [leftAt_unique hu c2]
  have hx0 : ∀ i : ℕ, (0 : K) ≤ i * t / ct := fun i =>
    div_nonneg (mul_nonneg (Nat.cast_nonneg _) ht) (Nat.cast_nonneg _)
  refine ⟨_, e1, fun p q x v => ⟨?_, ?_⟩⟩
  · rintro ⟨u, hu⟩
    obtain ⟨a, i, hi, b⟩ := (mem _).1 hu
    obtain ⟨k, k1, k2, k3, k4⟩ := a.alive
    have hv := a.inSkeleton
    dsimp only at b k1 k2 k3 k4 hv
    have o : OnFront s x v := ⟨hv, k, k1, k2, k3⟩
    have hl : LeftAt s x v u := ⟨k, k1, k4⟩
    obtain ⟨o1, ku, o2, -⟩ := ring x (by rw [b]; exact hx0 i) v u o hl
    have a1 := a.p
    have a2 := a.q
    dsimp only at a1 a2
    rw [pos x (hI.refs.skVertices v hv) k1] at a1
    rw [pos x (hI.refs.skVertices u o1) o2] at a2
    cases a1
    cases a2
    exact ⟨hv, sideAt_of o hl (by unfold placeAt; rw [o2]) (by unfold placeAt; rw [k1]), i, hi, b⟩
  · rintro ⟨hv, hs, i, hi, hx⟩
    obtain ⟨o, u, hu, o1, o2⟩ := sideAt_some hv hs
    obtain ⟨o3, -⟩ := ring x (by rw [hx]; exact hx0 i) v u o hu
    obtain ⟨-, k, k1, k2, k3⟩ := o
    obtain ⟨k', k1', k4⟩ := hu
    rw [k1] at k1'
    cases k1'
    refine ⟨u, (mem _).2 ⟨⟨hv, ⟨k, k1, k2, k3, k4⟩, ?_, ?_⟩, i, hi, hx⟩⟩
    · unfold placeAt at o2
      rw [k1] at o2
      cases o2
      exact pos x (hI.refs.skVertices v hv) k1
    · obtain ⟨ku, e3, rfl⟩ := placeAt_some o1
      exact pos x (hI.refs.skVertices u o3) e3

/-! ### the hypotheses are met -/

/-- Twice the area inside the wavefront of the pentagon: at first, before its first event, after its split, when little is
left, and in the end. -/
example : ∃ s tr, GeneralRun Sample.notchDt 100 Sample.notchSkeleton Sample.notchStart 4 (29 / 12) s tr ∧
    LoneEvents 100 Sample.notchStart 4 ∧ s.immediate = [] ∧ s.queue = [] ∧
    [enclosed s 0, enclosed s (1 / 4), enclosed s (9 / 5), enclosed s (12 / 5), enclosed s 3] =
      [20009 / 224, 74231 / 1008, 86411 / 16800, 1 / 300, 0] := by
  obtain ⟨s, tr, hs, hi, hq, h⟩ := Sample.notch_done
  have hl := Sample.notch_input.lone 4
  have hv : (stateAt 100 Sample.notchFirst 4).map (fun r => [enclosed r.2 0, enclosed r.2 (1 / 4), enclosed r.2 (9 / 5),
    enclosed r.2 (12 / 5), enclosed r.2 3]) = some [20009 / 224, 74231 / 1008, 86411 / 16800, 1 / 300, 0] := by
    decide +kernel
  rw [hs] at hv
  exact ⟨s, tr, h, hl, hi, hq, Option.some.inj hv⟩

end Grassfire
