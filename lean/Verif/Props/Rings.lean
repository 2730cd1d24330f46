/-
Property C94: the past of the wavefront is never rewritten, and the offset curves are closed.
-/
import Verif.Proofs.Rings
import Verif.Props.Offsets
import Verif.Props.Notch
import Verif.Props.Polygon

set_option linter.unusedSectionVars false

namespace Grassfire

open Spec

variable {K : Type} [Field K] [LinearOrder K] [IsStrictOrderedRing K] [HasSqrt K] [SqrtUnit K] [HasTrig K]

/-- **C94.** In every execution: what is done when an event is handled is done at the time of the event.  Vertices that are
made start at that time; of the others, neither the start nor what they tell about their neighbours at earlier times
changes, and if their stop time is set, it is set to the time of the event. -/
theorem C94_past {depth n : ℕ} {s0 s s' : St K} {now now' : K} {tr : List (Event K × K)} {e : Event K}
    (h : Execution depth s0 n now s tr) (hs : loopStep depth (n + 1 : ℕ) now s = .ok (some (e, now'), s')) :
    (∀ v < s.nV, SamePast s s' now' v) ∧
    ∀ v, s.nV ≤ v → v < s'.nV → ∀ k, s'.vert v = .kin k → k.startsAt = some now' := by
  obtain ⟨hI, -⟩ := execution_inv h
  obtain ⟨hI', -⟩ := execution_inv (s := s') (now := now') (n := n + 1) (tr := tr ++ [(e, now')]) (by
    obtain ⟨h0, s1, h1, hr⟩ := h
    exact ⟨h0, s1, h1, hr.step hs⟩)
  have hS := si_iteration hI hs
  refine ⟨fun v hv k hk => ?_, fun v h1 h2 k hk => ?_⟩
  · have q := hS.kept v hv
    rw [hk] at q
    cases hk' : s'.vert v with
    | inf o => rw [hk'] at q; exact q.elim
    | kin k' =>
      rw [hk'] at q
      obtain ⟨q1, q2, ⟨l, q3, q4⟩, ⟨r, q5, q6⟩⟩ := q
      obtain ⟨a1, a2⟩ := hI.hist v k hv hk
      obtain ⟨b1, b2⟩ := hI'.hist v k' (lt_of_lt_of_le hv hS.nV) hk'
      refine ⟨k', rfl, q1, q2.imp_right fun ⟨t, e1, e2⟩ => ⟨t, e1, e2.ge⟩, fun y hy => ⟨?_, ?_⟩⟩
      · exact hist_at_append a1 b1 q3 fun i hi => by rw [q4 i hi]; exact hy
      · exact hist_at_append a2 b2 q5 fun i hi => by rw [q6 i hi]; exact hy
  · obtain ⟨t, e1, e2⟩ := hS.fresh v h1 h2 k hk
    rw [e1, e2]

variable {dt : Dt K} {depth : ℕ} {skel s0 : St K} {n : ℕ} {now : K} {s s1 : St K} {trace : List (Event K × K)}

/-- where arcs end, and when, stays -/
theorem GeneralRun.stop_kept (h : GeneralRun dt depth skel s0 n now s trace) (hl : LoneEvents depth s0 n)
    (h1 : initEventList s0 = .ok ((), s1)) {m : ℕ} (hm : m ≤ n) {y : K} {u : St K} {tr' : List (Event K × K)}
    (hu : Run depth { s1 with immediate := [] } 0 m y u tr') (hG : Grows u s) {v : VId} {k k' : KVertex K}
    (hv : v ∈ u.skVertices) (hk : u.vert v = .kin k) (hk' : s.vert v = .kin k') {b : K} (hb : k.stopsAt = some b) :
    k'.stopsAt = some b := by
  have U := h.prefix hm h1 hu
  obtain ⟨G, -⟩ := C90_sharp U
  obtain ⟨R, hI, -⟩ := G.ready
  have hlt := hI.refs.skVertices v hv
  obtain ⟨G', -⟩ := C90_sharp h
  obtain ⟨R', hI', -⟩ := G'.ready
  have hlt' := lt_of_lt_of_le hlt hG.nV
  have A := (C90_exact U).2.1 v k hlt hk (R.slow v k hlt hk)
  have A' := (C90_exact h).2.1 v k' hlt' hk' (R'.slow v k' hlt' hk')
  obtain ⟨x, x1, x2, x3⟩ := A.stop b hb
  have e := (arcs_kept (h.lone hl) h1 hm hu).1 v hv x (by rw [endOf_kin hk, x1])
  rw [endOf_kin hk'] at e
  have e2 := A'.node (by rw [e]; rfl)
  obtain ⟨b', hb'⟩ := Option.isSome_iff_exists.1 e2
  obtain ⟨x', x1', x2', x3'⟩ := A'.stop b' hb'
  rw [e] at x1'
  cases x1'
  rw [hG.node x x2, x3] at x3'
  have sb := hG.vert v hlt
  rw [hk, hk'] at sb
  have sb : SameBirth k k' := sb
  obtain ⟨a, a', ha, ha', -⟩ := R.waves.lines v k hlt hk
  have t1 := (U.allTrack v k hlt hk a a' ha ha' b).1
  have t2 := (U.allTrack v k hlt hk a a' ha ha' b').1
  have : pointAt k b = pointAt k b' := by rw [x3']; unfold pointAt; rw [sb.origin, sb.velocity]
  unfold pointAt at this
  rw [this] at t1
  unfold AtDistance at t1 t2
  rw [hb', ← t2, t1]

/-- The vertices on the wavefront at time `x` are those that move in the last state up to `x`. -/
theorem GeneralRun.onFront (h : GeneralRun dt depth skel s0 n now s trace) (hl : LoneEvents depth s0 n)
    (h1 : initEventList s0 = .ok ((), s1)) {m : ℕ} (hm : m ≤ n) {x y : K} {u : St K} {tr' : List (Event K × K)}
    (hu : Run depth { s1 with immediate := [] } 0 m y u tr') (hy : y ≤ x) (hS : Since (x < ·) u s) (hG : Grows u s)
    (v : VId) : OnFront s x v ↔ v ∈ u.skVertices ∧ Running u v := by
  have U := h.prefix hm h1 hu
  obtain ⟨G, -⟩ := C90_sharp U
  obtain ⟨R, hI, -⟩ := G.ready
  obtain ⟨G', -⟩ := C90_sharp h
  obtain ⟨R', hI', -⟩ := G'.ready
  constructor
  · rintro ⟨hv, k', hk', ⟨a, ha, hax⟩, hstop⟩
    have hlt' := hI'.refs.skVertices v hv
    have hlt : v < u.nV := by
      by_contra c
      obtain ⟨t, e1, e2⟩ := hS.fresh v (Nat.le_of_not_lt c) hlt' k' hk'
      rw [ha] at e1
      cases e1
      exact absurd hax (not_le.2 e2)
    have hv' := (arcs_kept (h.lone hl) h1 hm hu).2 v hv hlt
    obtain ⟨k, hk, -⟩ := hI.numbered v hv'
    refine ⟨hv', hlt, k, hk, ?_⟩
    cases hb : k.stopsAt with
    | none => rfl
    | some b =>
      exfalso
      obtain ⟨⟨a', ha', -⟩, -, -, o, -⟩ := hI.lives v k hlt hk
      have := hstop b (h.stop_kept hl h1 hm hu hG hv' hk hk' hb)
      exact absurd ((o a' b ha' hb).2.trans hy) (not_le.2 this)
  · rintro ⟨hv, hlt, k, hk, hb⟩
    have q := hS.kept v hlt
    rw [hk] at q
    cases hk' : s.vert v with
    | inf o => rw [hk'] at q; exact q.elim
    | kin k' =>
      rw [hk'] at q
      have q : SinceK _ k k' := q
      obtain ⟨⟨a, ha, hay⟩, -⟩ := hI.lives v k hlt hk
      refine ⟨hG.skVertices.subset hv, k', hk', ⟨a, by rw [q.startsAt, ha], hay.trans hy⟩, fun b hb' => ?_⟩
      rcases q.stopsAt with e | ⟨t, e1, e2⟩
      · rw [e, hb] at hb'; cases hb'
      · rw [e1] at hb'; cases hb'; exact e2

/-- the neighbours at time `x` are those of the last state up to `x` -/
theorem GeneralRun.neighbours (h : GeneralRun dt depth skel s0 n now s trace)
    (h1 : initEventList s0 = .ok ((), s1)) {m : ℕ} (hm : m ≤ n) {x y : K} {u : St K} {tr' : List (Event K × K)}
    (hu : Run depth { s1 with immediate := [] } 0 m y u tr') (hy : y ≤ x) (hS : Since (x < ·) u s)
    {a b : VId} (hp : Points u a b) : RightAt s x a b ∧ LeftAt s x b a := by
  have U := h.prefix hm h1 hu
  obtain ⟨hI, -⟩ := execution_inv U.run
  obtain ⟨hI', -⟩ := execution_inv h.run
  obtain ⟨ka, kb, la, lb, ea, eb, ra, rb⟩ := hp
  have key : ∀ {v : VId} {k : KVertex K}, v < u.nV → u.vert v = .kin k → ∃ k', s.vert v = .kin k' ∧
      k'.left.at x = k.left.last ∧ k'.right.at x = k.right.last := by
    intro v k hv hk
    have q := hS.kept v hv
    rw [hk] at q
    cases hk' : s.vert v with
    | inf o => rw [hk'] at q; exact q.elim
    | kin k' =>
      rw [hk'] at q
      obtain ⟨-, -, ⟨l, q3, q4⟩, ⟨r, q5, q6⟩⟩ := q
      obtain ⟨a1, a2⟩ := hI.hist v k hv hk
      obtain ⟨b1, b2⟩ := hI'.hist v k' (lt_of_lt_of_le hv hS.nV) hk'
      exact ⟨k', rfl, (hist_at_append a1 b1 q3 q4).trans (hist_at_now a1 hy),
        (hist_at_append a2 b2 q5 q6).trans (hist_at_now a2 hy)⟩
  obtain ⟨ka', ea', -, ra'⟩ := key la ea
  obtain ⟨kb', eb', lb', -⟩ := key lb eb
  exact ⟨⟨ka', ea', by rw [ra']; exact Option.join_eq_some_iff.1 ra⟩, ⟨kb', eb', by rw [lb']; exact Option.join_eq_some_iff.1 rb⟩⟩

/-- The wavefront at time `x` is given by the sides without neighbour of the last state up to `x`. -/
theorem GeneralRun.wave (h : GeneralRun dt depth skel s0 n now s trace) (hl : LoneEvents depth s0 n) {x : K} (hx : 0 ≤ x)
    (hset : Settled s now x) (h1 : initEventList s0 = .ok ((), s1)) :
    ∃ m ≤ n, ∃ y w tr', Run depth { s1 with immediate := [] } 0 m y w tr' ∧ y ≤ x ∧ w.immediate = [] ∧
      (∀ f ∈ w.queue, x < f.time) ∧ Grows w s ∧ (∀ v, OnFront s x v ↔ v ∈ w.skVertices ∧ Running w v) ∧
      (∀ a b, Points w a b → RightAt s x a b ∧ LeftAt s x b a) ∧
      (∀ v, v ∈ w.skVertices → Running w v →
        (∃ t ∈ s0.skTriangles, ∃ i b, FrontSide w t i v b ∧ b ∈ w.skVertices ∧ Running w b ∧ Points w v b) ∧
        (∃ t ∈ s0.skTriangles, ∃ i a, FrontSide w t i a v ∧ a ∈ w.skVertices ∧ Running w a ∧ Points w a v)) ∧
      ∀ t ∈ s0.skTriangles, ∀ i a b, FrontSide w t i a b → b ∈ w.skVertices ∧ Running w b ∧ Points w a b := by
  obtain ⟨-, s1', h1', hr⟩ := id h.run
  rw [h1] at h1'
  cases h1'
  obtain ⟨-, hI0⟩ := ready_start (C90_sharp h).1.start h1
  obtain ⟨m, hm, y, w, tr', hw, hy, q1, q2, hS, hG⟩ := settled_state hr hI0 hx hset
  have U := h.prefix hm h1 hw
  obtain ⟨G, -⟩ := C90_sharp U
  obtain ⟨R, hI, -⟩ := G.ready
  have L := U.lone fun z hz k hk => hl z hz k (hk.trans hm)
  obtain ⟨-, -, hP, -⟩ := L.state
  have hsk : w.skTriangles = s0.skTriangles := U.run.triangles
  have hrun := (C90_exact U).2.2.2
  have hL := (C90_linked G).1
  refine ⟨m, hm, y, w, tr', hw, hy, q1, q2, hG, h.onFront hl h1 hm hw hy hS hG,
    fun a b hp => h.neighbours h1 hm hw hy hS hp, fun v hv hv' => ?_, fun t ht i a b hf => ?_⟩
  · rw [← hsk] at hrun ⊢
    exact front_rings R.mesh hL hP hrun hv hv'
  · obtain ⟨l, hn, e1, e2⟩ := id hf
    have hb := hrun t ht l (i + 2)
    have hc := hP.corners t (by rw [hsk]; exact ht) l (i + 2) hb.kinetic
    rw [e2] at hb hc
    exact ⟨hc, hb, (hL.points _ _ _ _ hf).resolve_right fun q => q.2 hb⟩

theorem leftAt_unique {x : K} {v a b : VId} (h : LeftAt s x v a) (h' : LeftAt s x v b) : a = b := by
  obtain ⟨k, e1, e2⟩ := h
  obtain ⟨k', e1', e2'⟩ := h'
  rw [e1] at e1'
  cases e1'
  rw [e2] at e2'
  cases e2'
  rfl

theorem grows_place {w : St K} (hG : Grows w s) {x : K} {v : VId} {p : Pt K} (hv : v < w.nV)
    (e : placeAt w v x = some p) : placeAt s v x = some p := by
  have q := hG.vert v hv
  unfold placeAt at e ⊢
  cases e1 : w.vert v with
  | inf o => rw [e1] at e; cases e
  | kin k =>
    rw [e1] at e q
    cases e2 : s.vert v with
    | inf o => rw [e2] at q; exact q.elim
    | kin k' =>
      rw [e2] at q
      have q : SameBirth k k' := q
      rw [← e]
      unfold pointAt
      dsimp only
      rw [q.origin, q.velocity]

/-- **C94.** In general position the wavefront at any time `x` that the loop has gone past consists of closed rings, as told
by the vertices afterwards; and of every side of these, both ends are at distance `x` of the line of the same edge of
the input, and the side runs in the direction of this edge and is not empty. -/
theorem C94_rings (h : GeneralRun dt depth skel s0 n now s trace) (hl : LoneEvents depth s0 n) {x : K} (hx : 0 ≤ x)
    (hset : Settled s now x) :
    Rings s x ∧ ∀ v u, OnFront s x v → LeftAt s x v u → ∃ l p q, InputLine dt l ∧ placeAt s u x = some p ∧
      placeAt s v x = some q ∧ AtDistance l x p ∧ AtDistance l x q ∧ 0 < ahead l p q := by
  obtain ⟨-, s1, h1, hr⟩ := id h.run
  obtain ⟨m, hm, y, w, tr', hw, hy, q1, q2, hG, front, points, ring, -⟩ := h.wave hl hx hset h1
  refine ⟨⟨fun v hv => ?_, fun v hv => ?_⟩, fun v u hv hu => ?_⟩
  · obtain ⟨a1, a2⟩ := (front v).1 hv
    obtain ⟨-, t, ht, i, a, hf, b1, b2, b3⟩ := ring v a1 a2
    obtain ⟨c1, c2⟩ := points _ _ b3
    exact ⟨a, (front a).2 ⟨b1, b2⟩, c2, c1⟩
  · obtain ⟨a1, a2⟩ := (front v).1 hv
    obtain ⟨⟨t, ht, i, b, hf, b1, b2, b3⟩, -⟩ := ring v a1 a2
    obtain ⟨c1, c2⟩ := points _ _ b3
    exact ⟨b, (front b).2 ⟨b1, b2⟩, c1, c2⟩
  · obtain ⟨a1, a2⟩ := (front v).1 hv
    obtain ⟨-, t, ht, i, a, hf, b1, b2, b3⟩ := ring v a1 a2
    obtain rfl := leftAt_unique (points _ _ b3).2 hu
    obtain ⟨hlive, hn, rfl, rfl⟩ := hf
    obtain ⟨l, p, q, c, d1, d2, d3, d4, d5, d6, d7, -⟩ := C91_inside (h.prefix hm h1 hw) q1 hy q2 ht hlive hn
    exact ⟨l, p, q, d1, grows_place hG b2.1 d2, grows_place hG a2.1 d3, d5, d6, d7⟩

theorem start_neighbours {s0 s1 : St K} (h1 : initEventList s0 = .ok ((), s1)) (x : TId) :
    (s1.tri x).neighbours = (s0.tri x).neighbours := by
  unfold initEventList at h1
  obtain ⟨_, s2, h2, hm⟩ := bind_run_ok.1 h1
  cases h2
  obtain ⟨_, s2, h2, hm⟩ := bind_run_ok.1 hm
  cases h2
  have c : Keeps (SameCore (K := K)) (forEach initEvent s0.skTriangles) := Keeps.forEach sameCorePre (fun t => c_initEvent t) _
  exact (c _ _ _ hm).apply (fun y : St K => (y.tri x).neighbours)

/-- up to time 0 nothing has happened -/
theorem GeneralRun.zero_state (h : GeneralRun dt depth skel s0 n now s trace) (h1 : initEventList s0 = .ok ((), s1)) {m : ℕ}
    (hm : m ≤ n) {y : K} {w : St K} {tr' : List (Event K × K)} (hw : Run depth { s1 with immediate := [] } 0 m y w tr')
    (hy : y ≤ 0) :
    (w.nT = s0.nT ∧ ∀ t, (w.tri t).stopsAt = (s0.tri t).stopsAt) ∧
    ∀ t ∈ s0.skTriangles, ∀ i, ((w.tri t).neighbours i = none ↔ dt.constrained t i = true) ∧
      ∃ v, dt.corner t i = some v ∧ placeAt w ((w.tri t).vertices i) 0 = some (dt.pos v) := by
  have F := h.fresh0
  obtain ⟨pyid, tr, hid, hsk, hpre⟩ := id h.start
  obtain ⟨f1, f2, f3, f4, f5, f6⟩ := start_frame h1
  have hw0 : w.vert = s0.vert ∧ w.nT = s0.nT ∧ ∀ t, (w.tri t).vertices = (s0.tri t).vertices ∧
      (w.tri t).neighbours = (s0.tri t).neighbours ∧ (w.tri t).stopsAt = (s0.tri t).stopsAt := by
    cases hw with
    | start => exact ⟨f1, f3, fun t => ⟨f4 t, start_neighbours h1 t, f5 t⟩⟩
    | @step m x _ a _ tr e hr' hs =>
      exfalso
      have c := h.unblurred.sharp s1 h1 m (Nat.lt_of_succ_le hm) x a tr e y w hr' hs
      have : (0 : K) < 1 / 10 ^ 10 := by positivity
      exact absurd (c.late.trans_le hy) (not_lt.2 this.le)
  obtain ⟨w1, w3, w2⟩ := hw0
  refine ⟨⟨w3, fun t => (w2 t).2.2⟩, fun t ht i => ?_⟩
  have hmem : t ∈ skel.skTriangles := by
    obtain ⟨l, -⟩ := F.live t ht
    refine ((C70_mesh dt pyid h.mesh skel hsk).2 t).1 ?_
    have e : skel.nT = s0.nT := by rw [hpre]; unfold prepare; cases tr <;> rfl
    exact ⟨by rw [e]; exact l, by rw [← F.tri]; exact (F.live t ht).2⟩
  obtain ⟨c1, v, c2, c3, c4⟩ := C70_constrained dt pyid h.mesh skel hsk t hmem i
  rw [← F.tri] at c1 c3 c4
  rw [← F.vert] at c3 c4
  rw [(w2 t).1, (w2 t).2.1]
  refine ⟨c1, v, c2, ?_⟩
  cases hf : dt.finite v with
  | true =>
    obtain ⟨k, e1, e2, -⟩ := c3 hf
    unfold placeAt pointAt
    rw [w1, e1]
    dsimp only
    rw [zero_mul, zero_mul, add_zero, add_zero, e2]
  | false =>
    obtain ⟨-, k, e, -⟩ := F.corners t ht i
    rw [c4 hf] at e
    cases e

/-- **C94.** At time 0 the wavefront is the boundary of the input: its sides are, between the points of the input, the
constrained sides of the triangles inside. -/
theorem C94_zero (h : GeneralRun dt depth skel s0 n now s trace) (hl : LoneEvents depth s0 n) (hset : Settled s now 0)
    (p q : Pt K) :
    (∃ v u, OnFront s 0 v ∧ LeftAt s 0 v u ∧ placeAt s u 0 = some p ∧ placeAt s v 0 = some q) ↔
    ∃ t < dt.nT, dt.internal t = true ∧ ∃ i a b, dt.constrained t i = true ∧ dt.corner t (i + 1) = some a ∧
      dt.corner t (i + 2) = some b ∧ dt.pos a = p ∧ dt.pos b = q := by
  obtain ⟨-, s1, h1, hr⟩ := id h.run
  obtain ⟨m, hm, y, w, tr', hw, hy, q1, q2, hG, front, points, ring, side⟩ := h.wave hl le_rfl hset h1
  have F := h.fresh0
  obtain ⟨⟨w3, w2⟩, con⟩ := h.zero_state h1 hm hw hy
  have inj : ∀ {v : VId} {p : Pt K}, v < w.nV → placeAt w v 0 = some p → ∀ {p'}, placeAt s v 0 = some p' → p = p' := by
    intro v p hv e p' e'
    rw [grows_place hG hv e] at e'
    exact Option.some.inj e'
  constructor
  · rintro ⟨v, u, hv, hu, hp, hq⟩
    obtain ⟨a1, a2⟩ := (front v).1 hv
    obtain ⟨-, t, ht, i, a, hf, b1, b2, b3⟩ := ring v a1 a2
    obtain rfl := leftAt_unique (points _ _ b3).2 hu
    obtain ⟨hlive, hn, rfl, rfl⟩ := hf
    obtain ⟨x, x1, x2⟩ := (con t ht (i + 1)).2
    obtain ⟨z, z1, z2⟩ := (con t ht (i + 2)).2
    obtain ⟨g1, g2⟩ := (F.internal t).1 ht
    exact ⟨t, g1, g2, i, x, z, (con t ht i).1.1 hn, x1, z1, inj b2.1 x2 hp, inj a2.1 z2 hq⟩
  · rintro ⟨t, g1, g2, i, a, b, hc, ha, hb, rfl, rfl⟩
    have ht := (F.internal t).2 ⟨g1, g2⟩
    have hf : FrontSide w t i ((w.tri t).vertices (i + 1)) ((w.tri t).vertices (i + 2)) := by
      refine ⟨⟨?_, ?_⟩, (con t ht i).1.2 hc, rfl, rfl⟩
      · rw [w3]; exact (F.live t ht).1
      · rw [w2 t]; exact (F.live t ht).2
    obtain ⟨c1, c2, c3⟩ := side t ht i _ _ hf
    obtain ⟨x, x1, x2⟩ := (con t ht (i + 1)).2
    obtain ⟨z, z1, z2⟩ := (con t ht (i + 2)).2
    rw [ha] at x1
    rw [hb] at z1
    cases x1
    cases z1
    obtain ⟨-, -, l1, -⟩ := id c3
    exact ⟨_, _, (front _).2 ⟨c1, c2⟩, (points _ _ c3).2, grows_place hG l1 x2, grows_place hG c2.1 z2⟩

/-- **C94.** When in general position all has vanished, nothing is left of the wavefront. -/
theorem C94_empty (h : GeneralRun dt depth skel s0 n now s trace) (hl : LoneEvents depth s0 n)
    (hdone : ∀ t ∈ s.skTriangles, ¬ Live s t) {x : K} (hx : now ≤ x) (v : VId) : ¬ OnFront s x v := by
  rintro ⟨hv, k, hk, ⟨a, ha, -⟩, hb⟩
  obtain ⟨hI, -⟩ := execution_inv h.run
  obtain ⟨-, -, n', -, -, e, -⟩ := (C88_complete (h.lone hl) hdone).1 v hv
  obtain ⟨-, -, both, o, -⟩ := hI.lives v k (hI.refs.skVertices v hv) hk
  rw [endOf_kin hk] at e
  obtain ⟨b, hb'⟩ := Option.isSome_iff_exists.1 (both.2 (by rw [e]; rfl))
  exact absurd ((o a b ha hb').2.trans hx) (not_le.2 (hb b hb'))

theorem execution_started {tr : List (Event K × K)} (h : Execution depth s0 n now s tr) : Started s := by
  have i := (execution_inv h).1
  refine ⟨fun v hv => ?_, fun v hv kv hk x hx u hu ku hku => ?_⟩
  · obtain ⟨kv, hk, _⟩ := i.numbered v hv
    obtain ⟨⟨a, ha, _⟩, ⟨b, _, hb⟩, _⟩ := i.lives v kv (i.refs.skVertices v hv) hk
    exact ⟨kv, hk, by rw [ha]; simp, by rw [hb]; simp⟩
  · have hun := i.refs.left v kv (i.refs.skVertices v hv) hk x hx u hu
    obtain ⟨_, ⟨b, _, hb⟩, _⟩ := i.lives u ku hun hku
    rw [hb]; simp

/-- **C94.** So what `calc_offsets` yields in general position, when the loop has come to its end, are closed rings: at each of
its times, one line begins and one line ends at every vertex that is on the wavefront, at the same point, and there are
no other lines; every line is, at the distance of the offset, parallel to an edge of the input, and not empty. -/
theorem C94_calc_offsets (h : GeneralRun dt depth skel s0 n now s trace) (hl : LoneEvents depth s0 n)
    (hi : s.immediate = []) (hq : s.queue = []) {t : K} (ht : 0 ≤ t) {ct : ℕ} (hct : 0 < ct) :
    ∃ ls, calcOffsets s t ct = .ok ls ∧ (∀ o ∈ ls, ∃ i < ct, o.time = i * t / ct) ∧ ∀ i < ct, ∀ x, x = i * t / ct →
      (∀ v, OnFront s x v → (∃! o, o ∈ ls ∧ o.time = x ∧ o.v = v) ∧ ∃! o, o ∈ ls ∧ o.time = x ∧ o.u = v) ∧
      ∀ o ∈ ls, o.time = x → OnFront s x o.v ∧ OnFront s x o.u ∧ (∀ o' ∈ ls, o'.time = x → o.u = o'.v → o.q = o'.p) ∧
        ∃ l, InputLine dt l ∧ AtDistance l x o.p ∧ AtDistance l x o.q ∧ 0 < ahead l o.q o.p := by
  obtain ⟨line, e1, e2⟩ := C43_offsets s (execution_started h.run) t ct hct
  obtain ⟨G, -⟩ := C90_sharp h
  obtain ⟨R, hI, -⟩ := G.ready
  have mem : ∀ l, l ∈ (List.range ct).flatMap (fun i => s.skVertices.filterMap (line i)) ↔
      IsOffset s l ∧ ∃ i < ct, l.time = i * t / ct := by
    intro l
    simp only [List.mem_flatMap, List.mem_range, List.mem_filterMap]
    constructor
    · rintro ⟨i, hi, v, hv, hvl⟩
      obtain ⟨a, b, -⟩ := (e2 i hi v hv l).1 hvl
      exact ⟨a, i, hi, b⟩
    · rintro ⟨a, i, hi, b⟩
      exact ⟨i, hi, l.v, a.inSkeleton, (e2 i hi _ a.inSkeleton l).2 ⟨a, b, rfl⟩⟩
  have pos : ∀ {v : VId} {k : KVertex K} (x : K), v < s.nV → s.vert v = .kin k →
      (s.vert v).positionAt (fun n => (s.node n).pos) x = .ok (pointAt k x) := by
    intro v k x hv hk
    rw [hk]
    unfold Vertex.positionAt
    dsimp only
    rw [if_pos (R.slow v k hv hk)]
    rfl
  refine ⟨_, e1, fun o ho => ((mem o).1 ho).2, fun i hict x hxi => ?_⟩
  have hx0 : 0 ≤ x := by rw [hxi]; exact div_nonneg (mul_nonneg (Nat.cast_nonneg _) ht) (Nat.cast_nonneg _)
  obtain ⟨ring, side⟩ := C94_rings h hl hx0 (.inr ⟨hi, by rw [hq]; nofun⟩)
  have memx : ∀ l, l.time = x → (l ∈ (List.range ct).flatMap (fun i => s.skVertices.filterMap (line i)) ↔ IsOffset s l) :=
    fun l hl => by rw [mem]; exact ⟨fun q => q.1, fun q => ⟨q, i, hict, by rw [hl, hxi]⟩⟩
  have make : ∀ v u, OnFront s x v → LeftAt s x v u → OnFront s x u →
      ∃ o, IsOffset s o ∧ o.time = x ∧ o.v = v ∧ o.u = u := by
    intro v u hv hu hfu
    obtain ⟨a1, k, a2, a3, a4⟩ := hv
    obtain ⟨k', b1, b2⟩ := hu
    rw [a2] at b1
    cases b1
    obtain ⟨c1, ku, c2, -⟩ := hfu
    exact ⟨⟨pointAt k x, pointAt ku x, x, v, u⟩, ⟨a1, ⟨k, a2, a3, a4, b2⟩, pos x (hI.refs.skVertices v a1) a2,
      pos x (hI.refs.skVertices u c1) c2⟩, rfl, rfl, rfl⟩
  have same : ∀ o o', IsOffset s o → IsOffset s o' → o.time = x → o'.time = x → o.v = o'.v → o = o' := by
    rintro ⟨p, q, t1, v, u⟩ ⟨p', q', t2, v', u'⟩ h1 h2 e1 e2 e3
    dsimp only at e1 e2 e3
    subst e1 e2 e3
    obtain ⟨k, a1, -, -, a2⟩ := h1.alive
    obtain ⟨k', b1, -, -, b2⟩ := h2.alive
    dsimp only at a1 a2 b1 b2
    rw [a1] at b1
    cases b1
    rw [a2] at b2
    cases b2
    have e1 := h1.p.symm.trans h2.p
    have e2 := h1.q.symm.trans h2.q
    cases e1
    cases e2
    rfl
  have ends : ∀ o, IsOffset s o → o.time = x → OnFront s x o.v ∧ LeftAt s x o.v o.u ∧ OnFront s x o.u ∧ RightAt s x o.u o.v := by
    rintro o ho rfl
    obtain ⟨k, a1, a2, a3, a4⟩ := ho.alive
    have f : OnFront s o.time o.v := ⟨ho.inSkeleton, k, a1, a2, a3⟩
    obtain ⟨u, b1, ⟨k', b2, b3⟩, b4⟩ := ring.left _ f
    rw [a1] at b2
    cases b2
    rw [a4] at b3
    cases b3
    exact ⟨f, ⟨k, a1, a4⟩, b1, b4⟩
  refine ⟨fun v hv => ⟨?_, ?_⟩, fun o ho hox => ?_⟩
  · obtain ⟨u, b1, b2, b3⟩ := ring.left v hv
    obtain ⟨o, c1, c2, c3, c4⟩ := make v u hv b2 b1
    refine ⟨o, ⟨(memx o c2).2 c1, c2, c3⟩, ?_⟩
    rintro o' ⟨d1, d2, d3⟩
    exact same o' o ((memx o' d2).1 d1) c1 d2 c2 (d3.trans c3.symm)
  · obtain ⟨w, b1, b2, b3⟩ := ring.right v hv
    obtain ⟨o, c1, c2, c3, c4⟩ := make w v b1 b3 hv
    refine ⟨o, ⟨(memx o c2).2 c1, c2, c4⟩, ?_⟩
    rintro o' ⟨d1, d2, d3⟩
    have d1' := (memx o' d2).1 d1
    obtain ⟨-, -, -, k, f1, f2⟩ := ends o' d1' d2
    obtain ⟨k', g1, g2⟩ := b2
    rw [d3, g1] at f1
    cases f1
    rw [f2] at g2
    cases g2
    exact same o' o d1' c1 d2 c2 c3.symm
  · have h1 := (memx o hox).1 ho
    obtain ⟨f1, f2, f3, f4⟩ := ends o h1 hox
    refine ⟨f1, f3, fun o' ho' hox' he => ?_, ?_⟩
    · have a := h1.q
      have b := ((memx o' hox').1 ho').p
      rw [he, hox] at a
      rw [hox', a] at b
      exact Except.ok.inj b
    · obtain ⟨l, p, q, d1, d2, d3, d4, d5, d6⟩ := side _ _ f1 f2
      have key : ∀ {v : VId} {p p' : Pt K}, v ∈ s.skVertices → placeAt s v x = some p →
          (s.vert v).positionAt (fun n => (s.node n).pos) x = .ok p' → p = p' := by
        intro v p p' hv a b
        unfold placeAt at a
        cases e : s.vert v with
        | inf o => rw [e] at a; cases a
        | kin k =>
          rw [pos x (hI.refs.skVertices v hv) e] at b
          rw [e] at a
          cases a
          cases b
          rfl
      have z1 := h1.p
      have z2 := h1.q
      rw [hox] at z1 z2
      obtain rfl := key f3.1 d2 z2
      obtain rfl := key f1.1 d3 z1
      exact ⟨l, d1, d5, d4, d6⟩

/-! ### the hypotheses are met -/

theorem Sample.notch_done : ∃ s tr, stateAt 100 Sample.notchFirst 4 = some (29 / 12, s) ∧ s.immediate = [] ∧ s.queue = [] ∧
    GeneralRun Sample.notchDt 100 Sample.notchSkeleton Sample.notchStart 4 (29 / 12) s tr := by
  obtain ⟨s, tr, hs, h⟩ := Sample.notch_run
  have hv : (stateAt 100 Sample.notchFirst 4).map (fun r => (r.2.immediate.isEmpty, r.2.queue.isEmpty)) = some (true, true) := by
    decide +kernel
  rw [hs] at hv
  obtain ⟨h1, h2⟩ := Prod.mk.inj (Option.some.inj hv)
  exact ⟨s, tr, hs, List.isEmpty_iff.1 h1, List.isEmpty_iff.1 h2, h⟩

/-- The offsets of the pentagon at the times 0 and 9/5, after its split: five lines, and two rings of three lines (the
vertices 12, 2, 4 and 11, 6, 8). -/
example : ∃ s tr ls, GeneralRun Sample.notchDt 100 Sample.notchSkeleton Sample.notchStart 4 (29 / 12) s tr ∧
    LoneEvents 100 Sample.notchStart 4 ∧ s.immediate = [] ∧ s.queue = [] ∧ calcOffsets s (18 / 5) 2 = .ok ls ∧
    ls.map (fun o => (o.time, o.u, o.v)) = [(0, 8, 0), (0, 0, 2), (0, 2, 4), (0, 4, 6), (0, 6, 8), (9 / 5, 12, 2), (9 / 5, 2, 4),
      (9 / 5, 11, 6), (9 / 5, 6, 8), (9 / 5, 8, 11), (9 / 5, 4, 12)] ∧
    Rings s (9 / 5) ∧ OnFront s (9 / 5) 12 ∧ ¬ OnFront s (9 / 5) 0 := by
  obtain ⟨s, tr, hs, hi, hq, h⟩ := Sample.notch_done
  have hl := Sample.notch_input.lone 4
  have hv : (stateAt 100 Sample.notchFirst 4).map (fun r => (calcOffsets r.2 (18 / 5) 2).toOption.map fun ls =>
      ls.map fun o => (o.time, o.u, o.v)) = some (some [(0, 8, 0), (0, 0, 2), (0, 2, 4), (0, 4, 6), (0, 6, 8), (9 / 5, 12, 2),
        (9 / 5, 2, 4), (9 / 5, 11, 6), (9 / 5, 6, 8), (9 / 5, 8, 11), (9 / 5, 4, 12)]) := by decide +kernel
  rw [hs] at hv
  obtain ⟨ls, e1, e2, e3⟩ := C94_calc_offsets h hl hi hq (t := 18 / 5) (by norm_num) (ct := 2) (by norm_num)
  have e1 : calcOffsets s (18 / 5) 2 = .ok ls := e1
  simp only [Option.map_some] at hv
  rw [e1] at hv
  have hv : ls.map (fun o => (o.time, o.u, o.v)) = _ := Option.some.inj (Option.some.inj hv)
  obtain ⟨f1, f2⟩ := e3 1 (by norm_num) (9 / 5) (by norm_num)
  refine ⟨s, tr, ls, h, hl, hi, hq, e1, hv, (C94_rings h hl (by norm_num) (.inr ⟨hi, by rw [hq]; nofun⟩)).1, ?_, fun q => ?_⟩
  · have : ((9 / 5 : ℚ), 4, 12) ∈ ls.map (fun o => (o.time, o.u, o.v)) := by rw [hv]; simp
    obtain ⟨o, ho, e⟩ := List.mem_map.1 this
    cases o
    cases e
    exact (f2 _ ho rfl).1
  · obtain ⟨⟨o, ⟨g1, g2, g3⟩, -⟩, -⟩ := f1 0 q
    have : (o.time, o.u, o.v) ∈ ls.map (fun o => (o.time, o.u, o.v)) := List.mem_map_of_mem g1
    rw [hv, g2, g3] at this
    simp at this

/-- C94_past: the split of the pentagon makes the vertices 11 and 12, which start at the time of the split. -/
example : ∃ s s' e tr, Execution 100 Sample.notchStart 1 (3 / 8) s tr ∧
    loopStep 100 (1 + 1 : ℕ) (3 / 8) s = .ok (some (e, 34 / 21), s') ∧ s.nV = 11 ∧ s'.nV = 13 := by
  have hv : (stateAt 100 Sample.notchFirst 1).bind (fun r => match loopStep 100 (1 + 1 : ℕ) r.1 r.2 with
    | .ok (some (_, x), s') => some (r.1, r.2.nV, x, s'.nV)
    | _ => none) = some (3 / 8, 11, 34 / 21, 13) := by decide +kernel
  obtain ⟨⟨x, s⟩, hs, hx⟩ := Option.bind_eq_some_iff.1 hv
  dsimp only at hx
  split at hx
  · rename_i e y s' hl
    obtain ⟨h1, h2, h3, h4⟩ := (by simpa only [Option.some.injEq, Prod.mk.injEq] using hx :
      x = 3 / 8 ∧ s.nV = 11 ∧ y = 34 / 21 ∧ s'.nV = 13)
    subst h1 h3
    obtain ⟨tr, hr⟩ := run_of_stateAt hs
    exact ⟨s, s', e, tr, ⟨Sample.initialOk_sound (by decide +kernel), _, Sample.notch_start, hr⟩, hl, h2, h4⟩
  · cases hx

end Grassfire
