/-
Property C106: for a convex polygon the wavefront passes a point when its distance to the nearest edge says so, and the
skeleton is where two edges are the nearest.
-/
import Verif.Props.Roof
import Verif.Props.Drawing
import Verif.Spec.Convex

set_option linter.unusedSectionVars false

namespace Grassfire

open Spec

variable {K : Type} [Field K] [LinearOrder K] [IsStrictOrderedRing K]

/-! ### geometry -/

/-- a point that a triangle is around is on the side of a line where the triangle is -/
theorem countIn_left {a b d o p q : Pt K} (h : 0 ≤ area2 a b d) (hc : countIn a b d o ≠ 0) (ha : 0 ≤ area2 p q a)
    (hb : 0 ≤ area2 p q b) (hd : 0 ≤ area2 p q d) : 0 ≤ area2 p q o := by
  have h : 0 < area2 a b d := lt_of_le_of_ne h fun e => hc (countIn_flat e.symm)
  have key : 0 ≤ area2 a b o ∧ 0 ≤ area2 b d o ∧ 0 ≤ area2 d a o := by
    refine columns (fun a b d => 0 < area2 a b d → countIn a b d o ≠ 0 → 0 ≤ area2 a b o ∧ 0 ≤ area2 b d o ∧ 0 ≤ area2 d a o) o
      ?_ ?_ ?_ ?_ ?_ a b d h hc
    · intro a b d q h c
      obtain ⟨q1, q2, q3⟩ := q (by rw [area2_turn]; exact h) (by rw [countIn_turn]; exact c)
      exact ⟨q3, q1, q2⟩
    · intro a b d ha hb hd h c
      exfalso
      apply c
      unfold countIn
      rw [crosses_before ha hb, crosses_before hb hd, crosses_before hd ha]
      rfl
    · intro a b d ha hb hd h c
      exfalso
      apply c
      unfold countIn
      rw [crosses_after ha hb, crosses_after hb hd, crosses_after hd ha]
      rfl
    · intro a b d ha hb hd h c
      rw [countIn_one ha hb hd] at c
      have r := countIn_range (o := o) h.le
      rw [countIn_one ha hb hd] at r
      have e : (o.1 - a.1) * area2 b d o = (b.1 - o.1) * area2 d a o + (d.1 - o.1) * area2 a b o := by
        unfold area2
        ring
      have k1 : 0 ≤ area2 a b o := by
        by_contra k
        rw [if_neg k] at c r
        split_ifs at c r <;> omega
      have k2 : 0 < area2 d a o := by
        rw [area2_swap]
        refine neg_pos.2 (not_le.1 fun k => ?_)
        rw [if_pos k1, if_pos k] at c
        exact c (sub_self _)
      have e' : 0 < (o.1 - a.1) * area2 b d o := by
        rw [e]
        exact add_pos_of_pos_of_nonneg (mul_pos (sub_pos.2 hb) k2) (mul_nonneg (sub_nonneg.2 hd.le) k1)
      exact ⟨k1, (pos_of_mul_pos_right e' (sub_nonneg.2 ha)).le, k2.le⟩
    · intro a b d ha hb hd h c
      rw [countIn_two ha hb hd] at c
      have r := countIn_range (o := o) h.le
      rw [countIn_two ha hb hd] at r
      have e : (a.1 - o.1) * area2 b d o = (o.1 - b.1) * area2 d a o + (o.1 - d.1) * area2 a b o := by
        unfold area2
        ring
      have k1 : 0 ≤ area2 d a o := by
        by_contra k
        rw [if_neg k] at c r
        split_ifs at c r <;> omega
      have k2 : 0 < area2 a b o := by
        rw [area2_swap]
        refine neg_pos.2 (not_le.1 fun k => ?_)
        rw [if_pos k1, if_pos k] at c
        exact c (sub_self _)
      refine ⟨k2.le, mulSign (sub_pos.2 ha) ?_, k1⟩
      rw [e]
      exact add_nonneg (mul_nonneg (sub_nonneg.2 hb) k1) (mul_nonneg (sub_nonneg.2 hd) k2.le)
  obtain ⟨k1, k2, k3⟩ := key
  have e : area2 a b d * area2 p q o = area2 b d o * area2 p q a + area2 d a o * area2 p q b + area2 a b o * area2 p q d := by
    unfold area2
    ring
  refine nonneg_of_mul_nonneg_right ?_ h
  rw [e]
  positivity

/-- twice the area of the triangle of a side of length `ahead` and a point -/
theorem area2_line {l : Line2 K} {p q o : Pt K} (hu : l.w.1 ^ 2 + l.w.2 ^ 2 = 1) (hp : AtDistance l 0 p)
    (hq : AtDistance l 0 q) : area2 p q o = ahead l p q * (l.w.1 * o.1 + l.w.2 * o.2 + l.b) := by
  rw [area2_turn, area_from hp hq hu, sub_zero]

/-! ### states -/

variable [HasSqrt K] [SqrtUnit K] [HasTrig K]

variable {dt : Dt K} {depth : ℕ} {skel s0 : St K} {n : ℕ} {now : K} {s s1 : St K} {trace : List (Event K × K)}

/-- what is inside convex input is on the left of all its edges -/
theorem GeneralRun.left_of (h : GeneralRun dt depth skel s0 n now s trace) (hl : LoneEvents depth s0 n)
    (hc : ConvexInput dt) (hset : Settled s now 0) {o : Pt K} (ho : 0 < dtWinding dt o) {p q : Pt K} (hpq : InputEdge dt p q) :
    0 ≤ area2 p q o := by
  classical
  rw [← C96_zero h hl hset] at ho
  obtain ⟨-, s1, h1, -⟩ := id h.run
  obtain ⟨m, hm, y, u, tr', hu, hy, q1, q2, hS, hG⟩ := h.settle h1 le_rfl hset
  rw [h.winding_at hl h1 hm hu hy hS hG] at ho
  obtain ⟨t, ht, hne⟩ := Finset.exists_ne_zero_of_sum_ne_zero ho.ne'
  obtain ⟨⟨w1, w2⟩, con⟩ := h.zero_state h1 hm hu hy
  obtain ⟨t1, t2⟩ := Finset.mem_filter.1 ht
  rw [List.mem_toFinset] at t1
  have U := h.prefix hm h1 hu
  obtain ⟨-, -, hk, -⟩ := U.frame
  obtain ⟨x', hx', hm'⟩ := sooner q2
  have A := (U.lasting q1 hm' t1 t2 0 hy hx').le.trans_eq (areaOf_view (hk t (List.mem_toFinset.2 t1) t2) 0).symm
  have L : ∀ i, 0 ≤ area2 p q (whereAt u 0 ((u.tri t).vertices i)) := fun i => by
    obtain ⟨v, e1, e2⟩ := (con t t1 i).2
    unfold whereAt
    rw [e2]
    obtain ⟨i1, i2⟩ := (h.fresh0.internal t).1 t1
    exact hc p q hpq t i1 i2 i v e1
  exact countIn_left A hne (L 0) (L 1) (L 2)

theorem GeneralRun.edge_nonneg (h : GeneralRun dt depth skel s0 n now s trace) (hl : LoneEvents depth s0 n)
    (hc : ConvexInput dt) (hset : Settled s now 0) {o : Pt K} (ho : 0 < dtWinding dt o) {l : Line2 K} (hE : EdgeLine dt l) :
    0 ≤ l.w.1 * o.1 + l.w.2 * o.2 + l.b := by
  obtain ⟨hu, p, q, hpq, h1, h2, h3⟩ := hE
  have := h.left_of hl hc hset ho hpq
  rw [area2_line hu h1 h2] at this
  exact mulSign h3 this

/-- around a disc inside there is `x` of room to all edges -/
theorem GeneralRun.room (h : GeneralRun dt depth skel s0 n now s trace) (hl : LoneEvents depth s0 n)
    (hc : ConvexInput dt) (hset : Settled s now 0) {x : K} (hx : 0 ≤ x) {o : Pt K}
    (ho : ∀ o', distSq o' o < x ^ 2 → 0 < dtWinding dt o') {l : Line2 K} (hE : EdgeLine dt l) :
    x ≤ l.w.1 * o.1 + l.w.2 * o.2 + l.b ∨ x = 0 := by
  rcases hx.eq_or_lt with e | x0
  · exact .inr e.symm
  refine .inl (not_lt.1 fun c => ?_)
  obtain ⟨z, z1, z2⟩ := exists_between (max_lt c x0)
  have z0 : 0 < z := (le_max_right _ _).trans_lt z1
  have zl := (le_max_left _ _).trans_lt z1
  have u := hE.1
  have := h.edge_nonneg hl hc hset (ho (o.1 - z * l.w.1, o.2 - z * l.w.2) (by
    unfold distSq
    dsimp only
    have : (o.1 - z * l.w.1 - o.1) ^ 2 + (o.2 - z * l.w.2 - o.2) ^ 2 = z ^ 2 := by linear_combination z ^ 2 * u
    rw [this]
    exact pow_lt_pow_left₀ z2 z0.le two_ne_zero)) hE
  dsimp only at this
  have e : l.w.1 * (o.1 - z * l.w.1) + l.w.2 * (o.2 - z * l.w.2) + l.b = l.w.1 * o.1 + l.w.2 * o.2 + l.b - z := by
    linear_combination - z * u
  rw [e] at this
  linarith

/-- the line that a side of the wavefront moves away from is that of an edge seen from the inside -/
theorem edgeLine_of {l : Line2 K} (ho : OnlyEdges dt) (hl : InputLine dt l) :
    EdgeLine dt l ∨ EdgeLine dt ⟨(-l.w.1, -l.w.2), -l.b⟩ := by
  obtain ⟨t, i, a, b, ht, hc, ha, hb, hu, d1, d2, hp⟩ := hl
  unfold AtDistance at d1 d2
  rcases ho t ht i a b hc ha hb with e | e
  · exact .inl ⟨hu, _, _, e, d1, d2, hp⟩
  · refine .inr ⟨by dsimp only; linarith, _, _, e, ?_, ?_, ?_⟩
    · unfold AtDistance
      dsimp only
      linarith
    · unfold AtDistance
      dsimp only
      linarith
    · unfold ahead
      dsimp only
      linarith

/-- **C106.** In general position, for convex input: the wavefront does not pass a point before the time that is its
distance to the line of the nearest edge. -/
theorem C106_at_least (h : GeneralRun dt depth skel s0 n now s trace) (hl : LoneEvents depth s0 n) (hc : ConvexInput dt)
    {x : K} (hx : 0 ≤ x) (hset : Settled s now x) {o : Pt K} (ho : 0 < winding s x o) {l : Line2 K} (hE : EdgeLine dt l) :
    x ≤ l.w.1 * o.1 + l.w.2 * o.2 + l.b := by
  rcases h.room hl hc (hset.before hx) hx (fun o' d => C96_disc h hl hx hset ho o' d.le) hE with k | rfl
  · exact k
  · exact h.edge_nonneg hl hc hset (by rw [← C96_zero h hl hset]; exact ho) hE

/-- **C106.** In general position, for a convex polygon: the wavefront passes every point inside at the time that is its
distance to the line of the nearest edge. -/
theorem C106_height (h : GeneralRun dt depth skel s0 n now s trace) (hl : LoneEvents depth s0 n) (hc : ConvexInput dt)
    (he : OnlyEdges dt) (hone : ∀ o, dtWinding dt o ≤ 1) {x' : K} (hx : 0 ≤ x') (hset : Settled s now x') {o : Pt K}
    (h0 : dtWinding dt o = 1) (hx' : winding s x' o = 0) : ∃ T, PassedAt s x' o T ∧ NearestAt dt o T := by
  obtain ⟨l, T, P, hI, hD, -⟩ := C99_roof h hl hone hx hset h0 hx'
  have low : ∀ l, EdgeLine dt l → T ≤ l.w.1 * o.1 + l.w.2 * o.2 + l.b := by
    intro l hE
    refine not_lt.1 fun c => ?_
    have z := h.edge_nonneg hl hc (hset.before hx) (by rw [h0]; exact one_pos) hE
    obtain ⟨y, y1, y2⟩ := exists_between c
    have := C106_at_least h hl hc (z.trans y1.le) (hset.before (y2.le.trans P.le)) (by
      rw [P.before y (z.trans y1.le) y2]; exact one_pos) hE
    exact absurd (this.trans_lt y1) (lt_irrefl _)
  refine ⟨T, P, ?_, low⟩
  rcases edgeLine_of he hI with k | k
  · exact ⟨l, k, hD⟩
  · refine ⟨_, k, ?_⟩
    have a := low _ k
    have b := P.nonneg
    unfold AtDistance at hD ⊢
    dsimp only at a ⊢
    linarith

/-- **C106.** So the offset curve of distance `x` bounds what is farther than `x` from all edges. -/
theorem C106_offset (h : GeneralRun dt depth skel s0 n now s trace) (hl : LoneEvents depth s0 n) (hc : ConvexInput dt)
    (he : OnlyEdges dt) (hone : ∀ o, dtWinding dt o ≤ 1) {x : K} (hx : 0 ≤ x) (hset : Settled s now x) {o : Pt K}
    (h0 : dtWinding dt o = 1) :
    ((∀ l, EdgeLine dt l → x < l.w.1 * o.1 + l.w.2 * o.2 + l.b) → winding s x o = 1) ∧
    (winding s x o = 1 → ∀ l, EdgeLine dt l → x ≤ l.w.1 * o.1 + l.w.2 * o.2 + l.b) := by
  refine ⟨fun hd => ?_, fun hw l hE => C106_at_least h hl hc hx hset (by rw [hw]; exact one_pos) hE⟩
  refine ((C96_range h hl hx hset o).2 (hone o)).resolve_left fun z => ?_
  obtain ⟨T, P, ⟨l, hE, hD⟩, -⟩ := C106_height h hl hc he hone hx hset h0 z
  have := hd l hE
  have k := P.le
  unfold AtDistance at hD
  rw [hD] at this
  exact absurd (this.trans_le k) (lt_irrefl _)

/-- **C106.** The vertices of the skeleton are, at every time, nearest to the two edges that they are between, and at the
same distance from both; the ends of their arcs included. -/
theorem C106_medial (h : GeneralRun dt depth skel s0 n now s trace) (hl : LoneEvents depth s0 n) (hc : ConvexInput dt)
    (he : OnlyEdges dt) {x : K} (hx : 0 < x) (hset : Settled s now x) {v : VId} (hv : OnFront s x v ∨ Arrives s x v) :
    ∃ k a b, s.vert v = .kin k ∧ k.ul = some a ∧ k.ur = some b ∧ EdgeLine dt (s.line a) ∧ EdgeLine dt (s.line b) ∧
      AtDistance (s.line a) x (pointAt k x) ∧ AtDistance (s.line b) x (pointAt k x) ∧ NearestAt dt (pointAt k x) x := by
  have hvk : v ∈ s.skVertices ∧ ∃ k, s.vert v = .kin k := by
    rcases hv with ⟨q, k, e, -⟩ | ⟨q, k, e, -⟩ <;> exact ⟨q, k, e⟩
  obtain ⟨hm, k, hk⟩ := hvk
  have e : placeAt s v x = some (pointAt k x) := by unfold placeAt; rw [hk]
  obtain ⟨G, S⟩ := C90_sharp h
  obtain ⟨-, hI, -⟩ := G.ready
  have hn := hI.refs.skVertices v hm
  obtain ⟨pyid, tr, -, hs0, hpre⟩ := id h.start
  obtain ⟨ts, vs, nbr, unwanted, sorted, hd⟩ := initSkeleton_ok hs0
  have w0 : Waves (InputLine dt) s0 := by rw [hpre]; exact (hd.waves h.mesh.toDtOk h.lengths).prepare true tr
  have w := execution_waves w0 h.run
  obtain ⟨a, b, ea, eb, ia, ib⟩ := w.lines v k hn hk
  obtain ⟨ta, tb⟩ := (C90_exact h).2.2.1 v k hn hk a b ea eb x
  have room : ∀ l, EdgeLine dt l → x ≤ l.w.1 * (pointAt k x).1 + l.w.2 * (pointAt k x).2 + l.b := fun l hE =>
    (h.room hl hc (hset.before hx.le) hx.le (fun o' d => C101_disc h hl hx.le hset hv e d) hE).resolve_right hx.ne'
  have edge : ∀ l, InputLine dt l → AtDistance l x (pointAt k x) → EdgeLine dt l := by
    intro l hi hd
    refine (edgeLine_of he hi).resolve_right fun c => ?_
    have := room _ c
    unfold AtDistance at hd
    dsimp only at this
    linarith
  exact ⟨k, a, b, hk, ea, eb, edge _ ia ta, edge _ ib tb, ta, tb, ⟨_, edge _ ia ta, ta⟩, room⟩

/-- **C106.** The wavefront lasts as long as a circle fits into the input: while there is a vertex on it at time `x` there is a
point at distance `x` or more from all edges, and while there is a point inside that is farther than `x` from all
edges, there is a vertex on it. -/
theorem C106_lasts (h : GeneralRun dt depth skel s0 n now s trace) (hl : LoneEvents depth s0 n) (hc : ConvexInput dt)
    (he : OnlyEdges dt) (hone : ∀ o, dtWinding dt o ≤ 1) {x : K} (hx : 0 < x) (hset : Settled s now x) :
    ((∃ v, OnFront s x v) → ∃ o, dtWinding dt o = 1 ∧ ∀ l, EdgeLine dt l → x ≤ l.w.1 * o.1 + l.w.2 * o.2 + l.b) ∧
    ((∃ o, dtWinding dt o = 1 ∧ ∀ l, EdgeLine dt l → x < l.w.1 * o.1 + l.w.2 * o.2 + l.b) → ∃ v, OnFront s x v) := by
  constructor
  · rintro ⟨v, hv⟩
    obtain ⟨k, a, b, hk, -, -, -, -, -, -, -, near⟩ := C106_medial h hl hc he hx hset (.inl hv)
    refine ⟨_, ?_, near⟩
    have h0 := C101_disc h hl hx.le hset (.inl hv) (p := pointAt k x) (o := pointAt k x)
      (by unfold placeAt; rw [hk]) (by
        have : 0 < x ^ 2 := pow_pos hx 2
        unfold distSq
        rw [sub_self, sub_self]
        linarith)
    have h1 := hone (pointAt k x)
    omega
  · rintro ⟨o, h0, far⟩
    have w := (C106_offset h hl hc he hone hx.le hset h0).1 far
    by_contra none
    push Not at none
    refine absurd w (ne_of_eq_of_ne ?_ zero_ne_one)
    unfold winding
    refine List.sum_eq_zero fun z hz => ?_
    obtain ⟨v, hv, rfl⟩ := List.mem_map.1 hz
    cases q : sideAt s x v with
    | none => rfl
    | some e =>
      exfalso
      refine none v ⟨hv, ?_⟩
      unfold sideAt at q
      split at q
      · cases q
      rename_i k hk
      split_ifs at q with c
      rw [Bool.and_eq_true] at c
      obtain ⟨c1, c2⟩ := c
      refine ⟨k, hk, ?_, fun b hb => ?_⟩
      · cases hs : k.startsAt with
        | none => rw [hs] at c1; cases c1
        | some a => rw [hs] at c1; exact ⟨a, rfl, of_decide_eq_true c1⟩
      · rw [hb] at c2
        exact of_decide_eq_true c2

/-- **C106.** The heights of the roof do not depend on the triangulation: for two triangulations of a convex polygon in general
position, the wavefronts pass a point at the same time. -/
theorem C106_same (h : GeneralRun dt depth skel s0 n now s trace) (hl : LoneEvents depth s0 n) (hc : ConvexInput dt)
    (he : OnlyEdges dt) (hone : ∀ o, dtWinding dt o ≤ 1)
    {dt' : Dt K} {depth' : ℕ} {skel' s0' : St K} {n' : ℕ} {now' : K} {s' : St K} {trace' : List (Event K × K)}
    (h' : GeneralRun dt' depth' skel' s0' n' now' s' trace') (hl' : LoneEvents depth' s0' n') (hc' : ConvexInput dt')
    (he' : OnlyEdges dt') (hone' : ∀ o, dtWinding dt' o ≤ 1) (same : ∀ p q, InputEdge dt p q ↔ InputEdge dt' p q)
    {x : K} (hx : 0 ≤ x) (hset : Settled s now x) (hset' : Settled s' now' x) {o : Pt K}
    (h0 : dtWinding dt o = 1) (h0' : dtWinding dt' o = 1) (hw : winding s x o = 0) (hw' : winding s' x o = 0) :
    ∃ T, PassedAt s x o T ∧ PassedAt s' x o T := by
  obtain ⟨T, P, ⟨l, l1, l2⟩, N⟩ := C106_height h hl hc he hone hx hset h0 hw
  obtain ⟨T', P', ⟨l', l1', l2'⟩, N'⟩ := C106_height h' hl' hc' he' hone' hx hset' h0' hw'
  have conv : ∀ l, EdgeLine dt l ↔ EdgeLine dt' l := fun l => by
    unfold EdgeLine
    simp only [same]
  have a := N l' ((conv l').2 l1')
  have b := N' l ((conv l).1 l1)
  unfold AtDistance at l2 l2'
  rw [l2'] at a
  rw [l2] at b
  obtain rfl := le_antisymm a b
  exact ⟨T, P, P'⟩

/-- **C106.** At the end: every point of a segment of the skeleton, other than the one where it begins, has the same distance
from the lines of the two edges that the segment is between, and no edge is nearer. -/
theorem C106_segments (h : GeneralRun dt depth skel s0 n now s trace) (hl : LoneEvents depth s0 n) (hc : ConvexInput dt)
    (he : OnlyEdges dt) (hi : s.immediate = []) (hq : s.queue = []) {l : List (Segment K)} (hg : segments s = .ok l)
    {g : Segment K} (hgl : g ∈ l) : ∃ v k a b, v ∈ s.skVertices ∧ s.vert v = .kin k ∧ k.ul = some a ∧ k.ur = some b ∧
      ∀ z, On g.1.1 g.1.2 z → z ≠ g.1.1 → ∃ o x, z = putBack s o ∧ NearestAt dt o x ∧
        (EdgeLine dt (s.line a) ∧ AtDistance (s.line a) x o) ∧ EdgeLine dt (s.line b) ∧ AtDistance (s.line b) x o := by
  obtain ⟨w, hw, W⟩ := h.ways hl hi hq
  rw [hg] at hw
  cases hw
  obtain ⟨v, hv, rfl⟩ := List.mem_map.1 hgl
  obtain ⟨k, a, b, w⟩ := W v hv
  obtain ⟨pyid, tr, -, hs0, hpre⟩ := id h.start
  obtain ⟨ts, vs, nbr, unwanted, sorted, hd⟩ := initSkeleton_ok hs0
  have w0 : Waves (InputLine dt) s0 := by rw [hpre]; exact (hd.waves h.mesh.toDtOk h.lengths).prepare true tr
  obtain ⟨-, hI, -⟩ := (C90_sharp h).1.ready
  obtain ⟨u1, u2, ea, eb, -⟩ := (execution_waves w0 h.run).lines v k (hI.refs.skVertices v hv) w.kinetic
  refine ⟨v, k, u1, u2, hv, w.kinetic, ea, eb, fun z hz hz1 => ?_⟩
  obtain ⟨x, x1, x2, rfl⟩ := w.place hz
  have lt : a < x := lt_of_le_of_ne x1 fun c => hz1 (by rw [w.first, c])
  have r : Arrives s x v := ⟨hv, k, w.kinetic, ⟨a, w.start, lt⟩, fun c hc => by
      rw [w.stop] at hc; cases hc; exact x2⟩
  have x0 : 0 < x := (h.starts hv w.kinetic w.start).trans_lt lt
  obtain ⟨k', a', b', q1, q2, q3, q4, q5, q6, q7, q8⟩ := C106_medial h hl hc he x0 (.inr ⟨hi, by rw [hq]; nofun⟩) (.inr r)
  rw [w.kinetic] at q1
  cases q1
  rw [ea] at q2
  cases q2
  rw [eb] at q3
  cases q3
  exact ⟨_, x, rfl, q8, ⟨q4, q6⟩, q5, q7⟩

theorem nearest_unique {o : Pt K} {T T' : K} (h : NearestAt dt o T) (h' : NearestAt dt o T') : T = T' := by
  obtain ⟨⟨l, l1, l2⟩, N⟩ := h
  obtain ⟨⟨l', l1', l2'⟩, N'⟩ := h'
  have a := N l' l1'
  have b := N' l l1
  unfold AtDistance at l2 l2'
  rw [l2'] at a
  rw [l2] at b
  exact le_antisymm a b

/-- **C106.** Conversely: a point inside that has the same distance `T` from the lines of two edges that are not parallel, and
to which no edge is nearer, is on the skeleton: it is the place of a vertex of the wavefront at time `T` (unless `T` is the
time of an event). -/
theorem C106_axis (h : GeneralRun dt depth skel s0 n now s trace) (hl : LoneEvents depth s0 n) (hc : ConvexInput dt)
    (he : OnlyEdges dt) (hone : ∀ o, dtWinding dt o ≤ 1) {x' : K} (hx : 0 ≤ x') (hset : Settled s now x') {o : Pt K}
    (h0 : dtWinding dt o = 1) (hx' : winding s x' o = 0) {T : K} (hT : 0 < T) (hN : NearestAt dt o T)
    (ne : ∀ e ∈ trace, e.2 ≠ T) {l r : Line2 K} (hEl : EdgeLine dt l) (hEr : EdgeLine dt r) (hl' : AtDistance l T o)
    (hr' : AtDistance r T o) (hcr : l.w.1 * r.w.2 - l.w.2 * r.w.1 ≠ 0) :
    ∃ v, OnFront s T v ∧ placeAt s v T = some o := by
  obtain ⟨m, T0, P, -, -, side⟩ := C99_roof h hl hone hx hset h0 hx'
  obtain ⟨T1, P1, N1⟩ := C106_height h hl hc he hone hx hset h0 hx'
  obtain rfl := C99_unique P P1
  obtain rfl := nearest_unique hN N1
  obtain ⟨v, p, q, hv, hs, ⟨z, z0, z1, hz⟩, -, -, hA⟩ := side ne
  have set := hset.before P.le
  obtain ⟨u, hu, ⟨k, hk, hleft⟩, -⟩ := (C94_rings h hl hT.le set).1.left v hv
  have pl : placeAt s u T = some p ∧ q = pointAt k T := by
    unfold sideAt at hs
    rw [hk] at hs
    dsimp only at hs
    split_ifs at hs
    rw [hleft] at hs
    dsimp only at hs
    cases hp : placeAt s u T with
    | none => rw [hp] at hs; cases hs
    | some p' => rw [hp] at hs; cases hs; exact ⟨rfl, rfl⟩
  obtain ⟨pu, rfl⟩ := pl
  have pv : placeAt s v T = some (pointAt k T) := by unfold placeAt; rw [hk]
  have far : ∀ w y, OnFront s T w → placeAt s w T = some y → ∀ l, EdgeLine dt l → T ≤ l.w.1 * y.1 + l.w.2 * y.2 + l.b := by
    intro w y hw hy
    obtain ⟨k', -, -, e, -, -, -, -, -, -, -, near⟩ := C106_medial h hl hc he hT set (.inl hw)
    unfold placeAt at hy
    rw [e] at hy
    cases hy
    exact near
  rcases z0.eq_or_lt with e | z0
  · refine ⟨u, hu, ?_⟩
    rw [pu, hz, ← e]
    simp
  rcases z1.eq_or_lt with e | z1
  · refine ⟨v, hv, ?_⟩
    rw [pv, hz, e]
    simp
  exfalso
  have flat : ∀ l, EdgeLine dt l → AtDistance l T o →
      l.w.1 * ((pointAt k T).1 - p.1) + l.w.2 * ((pointAt k T).2 - p.2) = 0 := by
    intro l hE hD
    have a := far u p hu pu l hE
    have b := far v _ hv pv l hE
    unfold AtDistance at hD
    rw [hz] at hD
    dsimp only at hD
    have e : (1 - z) * (l.w.1 * p.1 + l.w.2 * p.2 + l.b - T) +
        z * (l.w.1 * (pointAt k T).1 + l.w.2 * (pointAt k T).2 + l.b - T) = 0 := by linear_combination hD
    have f1 := mul_nonneg (sub_nonneg.2 z1.le) (sub_nonneg.2 a)
    have f2 := mul_nonneg z0.le (sub_nonneg.2 b)
    have g1 := (mul_eq_zero.1 (by linarith : (1 - z) * (l.w.1 * p.1 + l.w.2 * p.2 + l.b - T) = 0)).resolve_left
      (sub_pos.2 z1).ne'
    have g2 := (mul_eq_zero.1 (by linarith : z * (l.w.1 * (pointAt k T).1 + l.w.2 * (pointAt k T).2 + l.b - T) = 0)).resolve_left
      z0.ne'
    linear_combination g2 - g1
  have a := flat l hEl hl'
  have b := flat r hEr hr'
  have c1 : (pointAt k T).1 - p.1 = 0 :=
    (mul_eq_zero.1 (by linear_combination r.w.2 * a - l.w.2 * b :
      (l.w.1 * r.w.2 - l.w.2 * r.w.1) * ((pointAt k T).1 - p.1) = 0)).resolve_left hcr
  have c2 : (pointAt k T).2 - p.2 = 0 :=
    (mul_eq_zero.1 (by linear_combination l.w.1 * b - r.w.1 * a :
      (l.w.1 * r.w.2 - l.w.2 * r.w.1) * ((pointAt k T).2 - p.2) = 0)).resolve_left hcr
  unfold ahead at hA
  rw [c1, c2, zero_mul, zero_mul, sub_self] at hA
  exact lt_irrefl _ hA

/-- **C106.** For a convex polygon in general position, in the skeleton that `calc_skel` returns: the wavefront has passed
every point inside by the end, at the time that is its distance to the nearest edge; so the time that is returned is not less
than any of these distances. And every point of a segment, other than the one where it begins, is equally far from two edges
and from no edge less far. -/
theorem C106_calc_skel {pyid : TId → ℕ} {triangulate : List (Pt K) → Except Err (Dt K)} (ht : Triangulates triangulate)
    {points pts : List (Pt K)} {tr : Option (Transform K)} (h1 : shrinkPoints true points = .ok (pts, tr))
    (h2 : triangulate pts = .ok dt) (h3 : initSkeleton dt pyid = .ok skel)
    (h : GeneralInput dt depth skel (prepare true tr skel)) (hone : ∀ o, dtWinding dt o ≤ 1) (hc : ConvexInput dt)
    (he : OnlyEdges dt) (hs : calcSkel depth pyid triangulate points true true = .ok (now, s)) :
    (∀ o, dtWinding dt o = 1 → ∃ T ≤ now, PassedAt s now o T ∧ NearestAt dt o T) ∧
    ∃ l, segments s = .ok l ∧ ∀ g ∈ l, ∃ v k a b, v ∈ s.skVertices ∧ s.vert v = .kin k ∧ k.ul = some a ∧ k.ur = some b ∧
      ∀ z, On g.1.1 g.1.2 z → z ≠ g.1.1 → ∃ o x, z = tr.elim o (·.backward o) ∧ NearestAt dt o x ∧
        (EdgeLine dt (s.line a) ∧ AtDistance (s.line a) x o) ∧ EdgeLine dt (s.line b) ∧ AtDistance (s.line b) x o := by
  rw [C55_shrink_check depth pyid triangulate ht points true h1 h2 h3] at hs
  unfold runEvents at hs
  split at hs
  · cases hs
  rename_i u s1 q
  obtain ⟨⟨m, tr', hm, hrun⟩, hi, hq, -⟩ := eventLoop_run hs
  have R := h.run q hrun
  obtain ⟨ts, vs, nbr, unwanted, sorted, hd⟩ := initSkeleton_ok h3
  have htr0 : skel.transform = none := by rw [hd.state]; rfl
  have g : Completed depth (prepare true tr skel) now s := ⟨h.good.initial, s1, q, hs⟩
  have htr : s.transform = tr := g.grows.transform.trans (prepare_transform skel htr0 true tr)
  constructor
  · intro o h0
    have hend : loopStep depth (m + 1 : ℕ) now s = .ok (none, s) := by
      unfold loopStep
      refine bind_run_ok.2 ⟨none, s, ?_, rfl⟩
      rcases takeEvent_run now s with ⟨x, q, z, -⟩ | ⟨x, q, -, z, -⟩ | ⟨-, -, z⟩
      · rw [hi] at z; cases z
      · rw [hq] at z; cases z
      · exact z
    obtain ⟨l, T, P, -, -⟩ := C99_all R (h.lone m) hone hend h0
    have p := P now le_rfl
    have P := P (now + 1) (le_add_of_nonneg_right zero_le_one)
    obtain ⟨T', P', N⟩ := C106_height R (h.lone m) hc he hone (P.nonneg.trans P.le) (.inr ⟨hi, by rw [hq]; nofun⟩) h0
      (P.after _ (p.le.trans_lt (lt_add_one now)) le_rfl)
    obtain rfl := C99_unique P P'
    exact ⟨T, p.le, p, N⟩
  · obtain ⟨w, hw, -⟩ := R.ways (h.lone m) hi hq
    refine ⟨_, hw, fun g hg => ?_⟩
    obtain ⟨v, k, a, b, q1, q2, q3, q4, q5⟩ := C106_segments R (h.lone m) hc he hi hq hw hg
    refine ⟨v, k, a, b, q1, q2, q3, q4, fun z hz hz1 => ?_⟩
    obtain ⟨o, x, r1, r2⟩ := q5 z hz hz1
    refine ⟨o, x, r1.trans ?_, r2⟩
    unfold putBack
    rw [htr]

/-! ### the hypotheses are met -/

/-- The wedge is convex, -/
theorem Sample.small_convex : ConvexInput Sample.smallDt := by
  have h : ∀ t < Sample.smallDt.nT, Sample.smallDt.internal t = true → ∀ i : Fin 3, Sample.smallDt.constrained t i = true →
      ∀ a ∈ Sample.smallDt.corner t (i + 1), ∀ b ∈ Sample.smallDt.corner t (i + 2), ∀ u < Sample.smallDt.nT,
      Sample.smallDt.internal u = true → ∀ j : Fin 3, ∀ d ∈ Sample.smallDt.corner u j,
      0 ≤ area2 (Sample.smallDt.pos a) (Sample.smallDt.pos b) (Sample.smallDt.pos d) := by decide +kernel
  rintro p q ⟨t, ht, hi, i, a, b, hc, ha, hb, rfl, rfl⟩ u hu hui j d hd
  exact h t ht hi i hc a ha b hb u hu hui j d hd

/-- and nothing but its edges is constrained. -/
theorem Sample.small_edges : OnlyEdges Sample.smallDt := by
  have h : ∀ t < Sample.smallDt.nT, ∀ i : Fin 3, Sample.smallDt.constrained t i = true →
      ∀ a ∈ Sample.smallDt.corner t (i + 1), ∀ b ∈ Sample.smallDt.corner t (i + 2), ∃ u < Sample.smallDt.nT,
      Sample.smallDt.internal u = true ∧ ∃ j : Fin 3, Sample.smallDt.constrained u j = true ∧
        (Sample.smallDt.corner u (j + 1) = some a ∧ Sample.smallDt.corner u (j + 2) = some b ∨
          Sample.smallDt.corner u (j + 1) = some b ∧ Sample.smallDt.corner u (j + 2) = some a) := by decide +kernel
  intro t ht i a b hc ha hb
  obtain ⟨u, hu, hi, j, hj, ⟨e1, e2⟩ | ⟨e1, e2⟩⟩ := h t ht i hc a ha b hb
  · exact .inl ⟨u, hu, hi, j, a, b, hj, e1, e2, rfl, rfl⟩
  · exact .inr ⟨u, hu, hi, j, b, a, hj, e1, e2, rfl, rfl⟩

/-- No edge of the wedge is nearer to the point (-1/2, -1/2) than 1/2, -/
theorem Sample.small_far {l : Line2 ℚ} (h : EdgeLine Sample.smallDt l) : 1 / 2 ≤ l.w.1 * (-1 / 2) + l.w.2 * (-1 / 2) + l.b := by
  have k : ∀ t < Sample.smallDt.nT, Sample.smallDt.internal t = true → ∀ i : Fin 3, Sample.smallDt.constrained t i = true →
      ∀ a ∈ Sample.smallDt.corner t (i + 1), ∀ b ∈ Sample.smallDt.corner t (i + 2), ∀ w ∈ Sample.wedgeNormals,
      w.1 * (Sample.smallDt.pos a).1 + w.2 * (Sample.smallDt.pos a).2 =
        w.1 * (Sample.smallDt.pos b).1 + w.2 * (Sample.smallDt.pos b).2 →
      0 < ((Sample.smallDt.pos b).1 - (Sample.smallDt.pos a).1) * w.2 -
        ((Sample.smallDt.pos b).2 - (Sample.smallDt.pos a).2) * w.1 →
      1 / 2 ≤ w.1 * (-1 / 2) + w.2 * (-1 / 2) - (w.1 * (Sample.smallDt.pos a).1 + w.2 * (Sample.smallDt.pos a).2) := by
    decide +kernel
  obtain ⟨hu, p, q, ⟨t, ht, hi, i, a, b, hc, ha, hb, rfl, rfl⟩, d1, d2, hp⟩ := h
  have hw := Sample.small_normal ⟨t, i, a, b, ht, hc, ha, hb, hu, d1, d2, hp⟩
  unfold AtDistance at d1 d2
  have := k t ht hi i hc a ha b hb l.w hw (by linarith) hp
  linarith

/-- and one is at that distance. -/
theorem Sample.small_near : EdgeLine Sample.smallDt ⟨(0, 1), 1⟩ := by
  have k : ∃ t < Sample.smallDt.nT, Sample.smallDt.internal t = true ∧ ∃ i : Fin 3, Sample.smallDt.constrained t i = true ∧
      (Sample.smallDt.corner t (i + 1)).map Sample.smallDt.pos = some (-1, -1) ∧
      (Sample.smallDt.corner t (i + 2)).map Sample.smallDt.pos = some (1, -1) := by decide +kernel
  obtain ⟨t, ht, hi, i, hc, ha, hb⟩ := k
  obtain ⟨a, ha, ha'⟩ := Option.map_eq_some_iff.1 ha
  obtain ⟨b, hb, hb'⟩ := Option.map_eq_some_iff.1 hb
  refine ⟨by norm_num, _, _, ⟨t, ht, hi, i, a, b, hc, ha, hb, rfl, rfl⟩, ?_, ?_, ?_⟩
  · unfold AtDistance; rw [ha']; norm_num
  · unfold AtDistance; rw [hb']; norm_num
  · unfold ahead; rw [ha', hb']; norm_num

/-- So the wavefront passes the point (-1/2, -1/2) of the wedge, shrunk to the box, at time 1/2. -/
example : ∃ now s, calcSkel 100 id Sample.triangulate Sample.wedgePoints true true = .ok (now, s) ∧
    PassedAt s now (-1 / 2, -1 / 2) (1 / 2) := by
  have hok : (match calcSkel 100 id Sample.triangulate Sample.wedgePoints true true with
    | .ok (_, s) => true
    | .error _ => false) = true := by decide +kernel
  split at hok
  · rename_i now s e
    obtain ⟨T, hT, P, N⟩ := (C106_calc_skel Sample.triangulate_ok Sample.small_points Sample.small_triangulate
      Sample.smallSkeleton_ok Sample.small_input Sample.small_winding Sample.small_convex Sample.small_edges e).1
      (-1 / 2, -1 / 2) (by decide +kernel)
    obtain rfl := nearest_unique N ⟨⟨_, Sample.small_near, by unfold AtDistance; norm_num⟩, fun l hl => Sample.small_far hl⟩
    exact ⟨now, s, e, P⟩
  · cases hok

end Grassfire
