/-
Property C101: what `segments` returns is a drawing without crossings.
-/
import Verif.Proofs.Lifespan
import Verif.Props.BothOffsets
import Verif.Props.Cover
import Verif.Props.Nodes
import Verif.Props.Ending
import Verif.Spec.Drawing

set_option linter.unusedSectionVars false

namespace Grassfire

open Spec

variable {K : Type} [Field K] [LinearOrder K] [IsStrictOrderedRing K] [HasSqrt K] [SqrtUnit K] [HasTrig K]

variable {dt : Dt K} {depth : ℕ} {skel s0 : St K} {n : ℕ} {now : K} {s s1 : St K} {trace : List (Event K × K)}

/-- **C101.** In general position, where a vertex is at time `x`, the ends of its arc included, there is an open disc of
radius `x` around it inside the input. -/
theorem C101_disc (h : GeneralRun dt depth skel s0 n now s trace) (hl : LoneEvents depth s0 n) {x : K} (hx : 0 ≤ x)
    (hset : Settled s now x) {v : VId} (hv : OnFront s x v ∨ Arrives s x v) {p o : Pt K} (e : placeAt s v x = some p)
    (ho : distSq o p < x ^ 2) : 0 < dtWinding dt o := by
  obtain ⟨-, s1, h1, -⟩ := id h.run
  have front : ∀ {x : K} {p : Pt K}, 0 ≤ x → Settled s now x → OnFront s x v → placeAt s v x = some p →
      distSq o p < x ^ 2 → 0 < dtWinding dt o := by
    intro x p hx hset hv e ho
    obtain ⟨m, y, u, tr, L⟩ := h.last h1 hx hset
    obtain ⟨-, -, ep, t, ht, lt, i, hi⟩ := h.vertex_of hl h1 L hv
    rw [e] at ep
    obtain rfl := Option.some.inj ep
    have A := h.areas_at h1 L ht lt
    have cl := corner_closed A i
    rw [hi] at cl
    obtain ⟨ε, -, k1, k2⟩ := ((inward_inside A cl).and (((Tends.const (x ^ 2)).sub ((TendsP.const o).dist
      (TendsP.going _ (inward u x t (whereAt u x v))))).pos (sub_pos.2 ho))).some
    exact C96_disc h hl hx hset (lt_of_lt_of_le zero_lt_one (h.winding_ge hl h1 L ht lt k1).1) o (sub_pos.1 k2).le
  rcases hv with hv | hv
  · exact front hx hset hv e ho
  · have hp : p = whereAt s x v := by
      have := place_where e x
      rw [e] at this
      exact Option.some.inj this
    subst hp
    obtain ⟨a, ha, q⟩ := Arrives.before hv
    have T : Tends (fun ε => (x - ε) * (x - ε) - distSq o (whereAt s (x - ε) v)) (x * x - distSq o (whereAt s x v)) := by
      have k : Tends (fun ε : K => x - ε) x := by
        have := (Tends.const x).sub Tends.id
        rw [sub_zero] at this
        exact this
      exact (k.mul k).sub ((TendsP.const o).dist (where_before s x v))
    obtain ⟨ε, ε0, k1, k2⟩ := ((small_le ha).and (T.pos (by rw [← sq]; exact sub_pos.2 ho))).some
    have f := q (x - ε) (by linarith) (by linarith)
    have h0 : 0 ≤ x - ε := by
      obtain ⟨f1, kv, f2, ⟨b, f3, f4⟩, -⟩ := f
      exact (h.starts f1 f2 f3).trans f4
    exact front h0 (hset.before (by linarith)) f (place_where e _) (by rw [sq]; linarith)

/-- **C101.** In general position, when the boundary of the input winds around no point more than once: where a vertex is at
time `x`, the ends of its arc included, has a distance of at least `x` from all the edges of the input. -/
theorem C101_boundary (h : GeneralRun dt depth skel s0 n now s trace) (hl : LoneEvents depth s0 n)
    (hone : ∀ o, dtWinding dt o ≤ 1) {x : K} (hx : 0 ≤ x) (hset : Settled s now x) {v : VId}
    (hv : OnFront s x v ∨ Arrives s x v) {o p q r : Pt K} (e : placeAt s v x = some o) (hpq : InputEdge dt p q)
    (hr : On p q r) : x ^ 2 ≤ distSq r o := by
  obtain ⟨-, s1, h1, -⟩ := id h.run
  obtain ⟨w, w', ow, lw, ew', ew⟩ := (C94_zero h hl (hset.before hx) p q).2 hpq
  obtain ⟨a, p', q', -, la, ea, eq, es⟩ := front_side h hl le_rfl (hset.before hx) ow
  obtain ⟨kw, b1, b2⟩ := lw
  obtain ⟨kw', b3, b4⟩ := la
  rw [b1] at b3
  cases b3
  rw [b2] at b4
  cases b4
  rw [ew'] at ea
  rw [ew] at eq
  cases ea
  cases eq
  have front : ∀ {x : K} {o : Pt K}, 0 ≤ x → Settled s now x → OnFront s x v → placeAt s v x = some o →
      x ^ 2 ≤ distSq r o := by
    intro x o hx hset hv e
    rcases hx.lt_or_eq with hlt | rfl
    · obtain ⟨m, y, u, tr, L⟩ := h.last h1 hx hset
      obtain ⟨-, -, ep, t, ht, lt, i, hi⟩ := h.vertex_of hl h1 L hv
      rw [e] at ep
      obtain rfl := Option.some.inj ep
      have cl := corner_closed (h.areas_at h1 L ht lt) i
      rw [hi] at cl
      have := h.apart_closed hl hone h1 le_rfl hlt hset L ow.1 es hr ht lt cl
      rwa [sub_zero] at this
    · unfold distSq
      have := sq_nonneg (r.1 - o.1)
      have := sq_nonneg (r.2 - o.2)
      linarith
  rcases hv with hv | hv
  · exact front hx hset hv e
  · have hp : o = whereAt s x v := by
      have := place_where e x
      rw [e] at this
      exact Option.some.inj this
    subst hp
    obtain ⟨a, ha, q⟩ := Arrives.before hv
    have T : Tends (fun ε => distSq r (whereAt s (x - ε) v) - (x - ε) * (x - ε)) (distSq r (whereAt s x v) - x * x) := by
      have k : Tends (fun ε : K => x - ε) x := by
        have := (Tends.const x).sub Tends.id
        rw [sub_zero] at this
        exact this
      exact ((TendsP.const r).dist (where_before s x v)).sub (k.mul k)
    have := T.nonneg ((small_le ha).mono fun ε ε0 k => ?_)
    · rw [sq]
      linarith
    · have f := q (x - ε) (by linarith) (by linarith)
      have h0 : 0 ≤ x - ε := by
        obtain ⟨f1, kv, f2, ⟨b, f3, f4⟩, -⟩ := f
        exact (h.starts f1 f2 f3).trans f4
      have := front h0 (hset.before (by linarith)) f (place_where e _)
      rw [sq] at this
      linarith

theorem putBack_segment (s : St K) (p q : Pt K) (t : K) :
    putBack s (p.1 + t * (q.1 - p.1), p.2 + t * (q.2 - p.2)) =
      ((putBack s p).1 + t * ((putBack s q).1 - (putBack s p).1), (putBack s p).2 + t * ((putBack s q).2 - (putBack s p).2)) := by
  unfold putBack
  cases s.transform with
  | none => rfl
  | some tr =>
    show tr.backward _ = ((tr.backward p).1 + t * ((tr.backward q).1 - (tr.backward p).1),
      (tr.backward p).2 + t * ((tr.backward q).2 - (tr.backward p).2))
    unfold Transform.backward
    ext <;> dsimp only <;> ring

theorem putBack_injective (hs : ∀ tr, s.transform = some tr → tr.scale.1 ≠ 0 ∧ tr.scale.2 ≠ 0) :
    Function.Injective (putBack s) := by
  unfold putBack
  cases e : s.transform with
  | none => exact Function.injective_id
  | some tr =>
    obtain ⟨h1, h2⟩ := hs tr e
    intro p q hpq
    change tr.backward p = tr.backward q at hpq
    unfold Transform.backward at hpq
    obtain ⟨e1, e2⟩ := Prod.mk.inj hpq
    exact Prod.ext (mul_right_cancel₀ h1 (add_right_cancel e1)) (mul_right_cancel₀ h2 (add_right_cancel e2))

/-- `g` is the way of vertex `v` from its start to its stop -/
structure WayOf (s : St K) (v : VId) (k : KVertex K) (a b : K) (g : Segment K) : Prop where
  kinetic : s.vert v = .kin k
  start : k.startsAt = some a
  stop : k.stopsAt = some b
  takes : a < b
  first : g.1.1 = putBack s (pointAt k a)
  last : g.1.2 = putBack s (pointAt k b)

/-- At the end of a run in general position there is one segment for every vertex: its way. -/
theorem GeneralRun.ways (h : GeneralRun dt depth skel s0 n now s trace) (hl : LoneEvents depth s0 n)
    (hi : s.immediate = []) (hq : s.queue = []) :
    ∃ g : VId → Segment K, segments s = .ok (s.skVertices.map g) ∧ ∀ v ∈ s.skVertices, ∃ k a b, WayOf s v k a b (g v) := by
  classical
  have hdone : ∀ t ∈ s.skTriangles, ¬ Live s t := fun t ht hl =>
    h.finished hi hq (h.run.triangles ▸ ht) hl
  obtain ⟨R, hI, -⟩ := (C90_sharp h).1.ready
  have N := (C90_exact h).2.1
  have L := (h.lone hl).longLived
  have key : ∀ v ∈ s.skVertices, ∃ k a b x y, s.vert v = .kin k ∧ k.startNode = some a ∧ k.stopNode = some b ∧ a ≠ b ∧
      k.startsAt = some x ∧ k.stopsAt = some y ∧ x < y ∧ (s.node a).pos = pointAt k x ∧ (s.node b).pos = pointAt k y := by
    intro v hv
    have hn := hI.refs.skVertices v hv
    obtain ⟨k, hk, -⟩ := hI.numbered v hv
    obtain ⟨a, -, b, -, e1, e2, lt, -⟩ := (C88_complete (h.lone hl) hdone).1 v hv
    rw [beginOf_kin hk] at e1
    rw [endOf_kin hk] at e2
    obtain ⟨y, hy⟩ := h.all_stopped hl hi hq v hv k hk
    have A := N v k hn hk (R.slow v k hn hk)
    obtain ⟨x, a', q1, q2, -, q3⟩ := A.start
    obtain ⟨b', q4, -, q5⟩ := A.stop y hy
    rw [e1] at q2; cases q2
    rw [e2] at q4; cases q4
    exact ⟨k, a, b, x, y, hk, e1, e2, lt.ne, q1, hy, L v hv k x y hk q1 hy, q3, q5⟩
  have : Inhabited (KVertex K) := ⟨{ origin := (0, 0), velocity := (0, 0) }⟩
  choose! kv a b x y e1 e2 e3 e4 e5 e6 e7 e8 e9 using key
  refine ⟨fun v => ((putBack s (s.node (a v)).pos, putBack s (s.node (b v)).pos), ((s.node (a v)).info, (s.node (b v)).info)), ?_,
    fun v hv => ⟨kv v, x v, y v, e1 v hv, e5 v hv, e6 v hv, e7 v hv, ?_, ?_⟩⟩
  · rw [C39_segments s kv a b e1 e2 fun v hv _ => e3 v hv]
    congr 1
    rw [← List.filterMap_eq_map]
    refine List.filterMap_congr fun v hv => ?_
    rw [if_pos (by rw [e6 v hv]; simp), if_neg (e4 v hv)]
    unfold putBack
    cases s.transform <;> rfl
  · exact congrArg (putBack s) (e8 v hv)
  · exact congrArg (putBack s) (e9 v hv)

/-- a point of a segment is the place of its vertex at some time -/
theorem WayOf.place {v : VId} {k : KVertex K} {a b : K} {g : Segment K} (w : WayOf s v k a b g) {z : Pt K}
    (hz : On g.1.1 g.1.2 z) :
    ∃ x, a ≤ x ∧ x ≤ b ∧ z = putBack s (pointAt k x) := by
  obtain ⟨t, h0, h1, rfl⟩ := hz
  have q := w.takes
  refine ⟨a + t * (b - a), ?_, ?_, ?_⟩
  · have := mul_nonneg h0 (sub_nonneg.2 q.le); linarith
  · have := mul_le_of_le_one_left (sub_nonneg.2 q.le) h1; linarith
  · rw [w.first, w.last, ← putBack_segment]
    congr 1
    unfold pointAt
    ext <;> dsimp only <;> ring

/-- **C101.** In general position, when the boundary of the input winds around no point more than once: at the end
`segments` returns one line segment for every vertex of the skeleton, none is a single point, and two of them have
nothing in common but end points of both, in the coordinates of the input. -/
theorem C101_drawing (h : GeneralRun dt depth skel s0 n now s trace) (hl : LoneEvents depth s0 n)
    (hone : ∀ o, dtWinding dt o ≤ 1) (hi : s.immediate = []) (hq : s.queue = [])
    (hs : ∀ tr, s.transform = some tr → tr.scale.1 ≠ 0 ∧ tr.scale.2 ≠ 0) :
    ∃ l, segments s = .ok l ∧ l.length = s.skVertices.length ∧ PlaneDrawing (l.map (·.1)) := by
  obtain ⟨g, hg, W⟩ := h.ways hl hi hq
  have inj := putBack_injective hs
  have set : ∀ x, Settled s now x := fun x => .inr ⟨hi, by rw [hq]; nofun⟩
  have nd : s.skVertices.Nodup := by
    obtain ⟨s1, h1, hP, -⟩ := (h.lone hl).state
    exact hP.once
  have way : ∀ {v k a b x}, v ∈ s.skVertices → WayOf s v k a b (g v) → a ≤ x → x ≤ b →
      placeAt s v x = some (pointAt k x) ∧ (OnFront s x v ∨ Arrives s x v) ∧ 0 ≤ x ∧
        (¬ (OnFront s x v ∧ Arrives s x v) → x = a ∨ x = b) := by
    intro v k a b x hv w ha hb
    have f : x < b → OnFront s x v := fun q => ⟨hv, k, w.kinetic, ⟨a, w.start, ha⟩, fun c hc => by
      rw [w.stop] at hc; cases hc; exact q⟩
    have r : a < x → Arrives s x v := fun q => ⟨hv, k, w.kinetic, ⟨a, w.start, q⟩, fun c hc => by
      rw [w.stop] at hc; cases hc; exact hb⟩
    refine ⟨by unfold placeAt; rw [w.kinetic], ?_, (h.starts hv w.kinetic w.start).trans ha, fun q => ?_⟩
    · rcases hb.lt_or_eq with q | rfl
      · exact .inl (f q)
      · exact .inr (r w.takes)
    · by_contra c
      obtain ⟨c1, c2⟩ := not_or.1 c
      exact q ⟨f (lt_of_le_of_ne hb c2), r (lt_of_le_of_ne ha (Ne.symm c1))⟩
  refine ⟨_, hg, List.length_map .., ?_, ?_⟩
  · intro q hq'
    rw [List.map_map] at hq'
    obtain ⟨v, hv, rfl⟩ := List.mem_map.1 hq'
    obtain ⟨k, a, b, w⟩ := W v hv
    show (g v).1.1 ≠ (g v).1.2
    rw [w.first, w.last]
    intro e
    obtain ⟨p1, p2, p3, -⟩ := way hv w le_rfl w.takes.le
    obtain ⟨r1, r2, r3, -⟩ := way hv w w.takes.le le_rfl
    have := C100_distance h hl hone p3 r3 (set _) (set _) p2 r2 p1 r1
    rw [inj e] at this
    unfold distSq at this
    have : 0 < (a - b) ^ 2 := sq_pos_of_neg (sub_neg.2 w.takes)
    simp only [sub_self] at *
    linarith
  · rw [List.map_map, List.pairwise_map]
    refine nd.imp_of_mem fun {v v'} hv hv' hne z hz hz' => ?_
    obtain ⟨k, a, b, w⟩ := W v hv
    obtain ⟨k', a', b', w'⟩ := W v' hv'
    obtain ⟨x, x1, x2, rfl⟩ := w.place hz
    obtain ⟨x', x1', x2', e⟩ := w'.place hz'
    obtain ⟨p1, p2, p3, p4⟩ := way hv w x1 x2
    obtain ⟨r1, r2, r3, r4⟩ := way hv' w' x1' x2'
    have e := inj e
    obtain ⟨rfl, m1, m2⟩ := C100_meet h hl hone p3 r3 (set _) (set _) hne p2 r2 (by rw [p1, r1, e])
    constructor
    · rcases p4 m1 with rfl | rfl
      · exact .inl w.first.symm
      · exact .inr w.last.symm
    · rw [e]
      rcases r4 m2 with rfl | rfl
      · exact .inl w'.first.symm
      · exact .inr w'.last.symm

/-- **C101.** Under the same conditions the drawing is inside the input: a point of a segment, other than the one where it begins, is inside the boundary
of the input and on no edge. -/
theorem C101_inside (h : GeneralRun dt depth skel s0 n now s trace) (hl : LoneEvents depth s0 n)
    (hone : ∀ o, dtWinding dt o ≤ 1) (hi : s.immediate = []) (hq : s.queue = []) {l : List (Segment K)}
    (hg : segments s = .ok l) {g : Segment K} (hgl : g ∈ l) {z : Pt K} (hz : On g.1.1 g.1.2 z) (hz1 : z ≠ g.1.1) :
    ∃ o, z = putBack s o ∧ dtWinding dt o = 1 ∧ ∀ p q, InputEdge dt p q → ¬ On p q o := by
  obtain ⟨w, hw, W⟩ := h.ways hl hi hq
  rw [hg] at hw
  cases hw
  obtain ⟨v, hv, rfl⟩ := List.mem_map.1 hgl
  obtain ⟨k, a, b, w⟩ := W v hv
  obtain ⟨x, x1, x2, rfl⟩ := w.place hz
  have lt : a < x := lt_of_le_of_ne x1 fun c => hz1 (by rw [w.first, c])
  have r : Arrives s x v := ⟨hv, k, w.kinetic, ⟨a, w.start, lt⟩, fun c hc => by
      rw [w.stop] at hc; cases hc; exact x2⟩
  have x0 : 0 < x := (h.starts hv w.kinetic w.start).trans_lt lt
  have e : placeAt s v x = some (pointAt k x) := by unfold placeAt; rw [w.kinetic]
  have set : Settled s now x := .inr ⟨hi, by rw [hq]; nofun⟩
  have zero : distSq (pointAt k x) (pointAt k x) = 0 := by unfold distSq; simp
  refine ⟨_, rfl, ?_, fun p q hpq c => ?_⟩
  · have h0 := C101_disc h hl x0.le set (.inr r) e (o := pointAt k x) (by rw [zero]; positivity)
    have h1 := hone (pointAt k x)
    omega
  · have := C101_boundary h hl hone x0.le set (.inr r) e hpq c
    rw [zero] at this
    have : 0 < x ^ 2 := by positivity
    linarith

/-- the transform that `calc_skel` computes can be undone -/
theorem shrink_scale {points pts : List (Pt K)} {tr : Transform K} (h : shrinkPoints true points = .ok (pts, some tr)) :
    tr.scale.1 ≠ 0 ∧ tr.scale.2 ≠ 0 := by
  unfold shrinkPoints at h
  rw [if_pos rfl] at h
  obtain ⟨box, hb, h⟩ := bindE_ok h
  obtain ⟨qs, hm, h⟩ := bindE_ok h
  cases h
  cases points with
  | nil => cases hb
  | cons p ps =>
    have := mapE_ok hm
    cases this with
    | cons f _ =>
      rw [← not_or]
      intro c
      have := (C15_zero_scale (getTransform box) p .zeroDivisionError).2 ⟨rfl, c⟩
      rw [f] at this
      cases this

/-- **C101.** For an input in general position whose boundary winds around no point more than once, the segments of the
skeleton that `calc_skel` returns are a drawing without crossings, which is inside the input apart from the points where
segments begin. -/
theorem C101_calc_skel {pyid : TId → ℕ} {triangulate : List (Pt K) → Except Err (Dt K)} (ht : Triangulates triangulate)
    {points pts : List (Pt K)} {tr : Option (Transform K)} (h1 : shrinkPoints true points = .ok (pts, tr))
    (h2 : triangulate pts = .ok dt) (h3 : initSkeleton dt pyid = .ok skel)
    (h : GeneralInput dt depth skel (prepare true tr skel)) (hone : ∀ o, dtWinding dt o ≤ 1)
    (hc : calcSkel depth pyid triangulate points true true = .ok (now, s)) :
    ∃ l, segments s = .ok l ∧ l.length = s.skVertices.length ∧ PlaneDrawing (l.map (·.1)) ∧
      ∀ g ∈ l, ∀ z, On g.1.1 g.1.2 z → z ≠ g.1.1 → ∃ o, z = tr.elim o (·.backward o) ∧ dtWinding dt o = 1 ∧
        ∀ p q, InputEdge dt p q → ¬ On p q o := by
  rw [C55_shrink_check depth pyid triangulate ht points true h1 h2 h3] at hc
  unfold runEvents at hc
  split at hc
  · cases hc
  rename_i u s1 q
  obtain ⟨⟨m, tr', hm, hrun⟩, hi, hq, -⟩ := eventLoop_run hc
  have R := h.run q hrun
  obtain ⟨ts, vs, nbr, unwanted, sorted, hd⟩ := initSkeleton_ok h3
  have htr0 : skel.transform = none := by rw [hd.state]; rfl
  have g : Completed depth (prepare true tr skel) now s := ⟨h.good.initial, s1, q, hc⟩
  have htr : s.transform = tr := g.grows.transform.trans (prepare_transform skel htr0 true tr)
  obtain ⟨l, l1, l2, l3⟩ := C101_drawing R (h.lone m) hone hi hq fun T hT => by
    rw [htr] at hT
    subst hT
    exact shrink_scale h1
  refine ⟨l, l1, l2, l3, fun g hg z hz hz1 => ?_⟩
  obtain ⟨o, o1, o2⟩ := C101_inside R (h.lone m) hone hi hq l1 hg hz hz1
  refine ⟨o, o1.trans ?_, o2⟩
  unfold putBack
  rw [htr]

/-! ### the hypotheses are met -/

/-- The wedge does not overlap itself. -/
theorem Sample.small_winding (o : Pt ℚ) : dtWinding Sample.smallDt o ≤ 1 := by
  have e1 : (Finset.range Sample.smallDt.nT).filter (fun t => Sample.smallDt.internal t = true) = {0, 1} := by decide +kernel
  have c0 : (Finset.univ : Finset (Fin 3)).filter (fun i => Sample.smallDt.constrained 0 i = true) = {0, 2} := by decide +kernel
  have c1 : (Finset.univ : Finset (Fin 3)).filter (fun i => Sample.smallDt.constrained 1 i = true) = {0, 1} := by decide +kernel
  unfold dtWinding
  rw [e1, Finset.sum_pair (by decide), c0, c1, Finset.sum_pair (by decide), Finset.sum_pair (by decide)]
  show crosses (1, -1) (1, -1 / 2) o + crosses (-1, -1) (1, -1) o +
    (crosses (1, -1 / 2) (-1, 1) o + crosses (-1, 1) (-1, -1) o) ≤ 1
  have b1 := crosses_le (K := ℚ) (1, -1) (1, -1 / 2) o
  have b2 := crosses_le (K := ℚ) (-1, -1) (1, -1) o
  have b3 := crosses_le (K := ℚ) (1, -1 / 2) (-1, 1) o
  have b4 := crosses_le (K := ℚ) (-1, 1) (-1, -1) o
  dsimp only at b1 b2 b3 b4
  rw [if_neg (by rintro ⟨a, b⟩; linarith)] at b1 b3 b4
  split_ifs at b2 <;> omega

/-- The wedge with the corners (0,0), (3,0), (3,3/4) and (0,3): five segments, in its coordinates. -/
example : ∃ now s l, calcSkel 100 id Sample.triangulate Sample.wedgePoints true true = .ok (now, s) ∧ segments s = .ok l ∧
    l.map (·.1) = [((0, 0), (1, 1)), ((3, 0), (5 / 2, 1 / 2)), ((3, 3 / 4), (5 / 2, 1 / 2)), ((0, 3), (1, 1)), ((5 / 2, 1 / 2), (1, 1))] ∧
    PlaneDrawing (l.map (·.1)) := by
  have hok : (match calcSkel 100 id Sample.triangulate Sample.wedgePoints true true with
    | .ok (_, s) => (segments s).toOption.map (·.map (·.1))
    | .error _ => none) = some [((0, 0), (1, 1)), ((3, 0), (5 / 2, 1 / 2)), ((3, 3 / 4), (5 / 2, 1 / 2)), ((0, 3), (1, 1)), ((5 / 2, 1 / 2), (1, 1))] := by decide +kernel
  split at hok
  · rename_i now s e
    obtain ⟨l, h1, -, h2, -⟩ := C101_calc_skel Sample.triangulate_ok Sample.small_points Sample.small_triangulate
      Sample.smallSkeleton_ok Sample.small_input Sample.small_winding e
    rw [h1] at hok
    exact ⟨now, s, l, e, h1, Option.some.inj hok, h2⟩
  · cases hok

/-- The pentagon with a notch, which is split: seven segments. -/
example : ∃ s tr l, GeneralRun Sample.notchDt 100 Sample.notchSkeleton Sample.notchStart 4 (29 / 12) s tr ∧
    LoneEvents 100 Sample.notchStart 4 ∧ (∀ o, dtWinding Sample.notchDt o ≤ 1) ∧ s.immediate = [] ∧ s.queue = [] ∧
    segments s = .ok l ∧ l.length = 7 ∧ PlaneDrawing (l.map (·.1)) := by
  obtain ⟨s, tr, hs, hi, hq, h⟩ := Sample.notch_done
  have hl := Sample.notch_input.lone 4
  have hv : (stateAt 100 Sample.notchFirst 4).map (fun r => (r.2.skVertices.length, r.2.transform.isNone)) = some (7, true) := by
    decide +kernel
  rw [hs] at hv
  obtain ⟨v1, v2⟩ := Prod.mk.inj (Option.some.inj hv)
  obtain ⟨l, l1, l2, l3⟩ := C101_drawing h hl Sample.notch_winding hi hq fun T e => by
    rw [e] at v2; cases v2
  exact ⟨s, tr, l, h, hl, Sample.notch_winding, hi, hq, l1, l2.trans v1, l3⟩

end Grassfire
