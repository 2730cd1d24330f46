/-
Property C79: what `calc_skel` does with `output=True` and `pause=True`, and what the output functions write.
-/
import Verif.Spec.Picture
import Verif.Proofs.CollapseLemmas
import Verif.Props.CalcSkel
import Verif.Props.Offsets

set_option linter.unusedSectionVars false

namespace Grassfire

open Spec

variable {K : Type} [Field K] [LinearOrder K]

/-- What the output functions need: the vertices that occur are kinetic ones with start time and start node (and a
stop node exactly if they have a stop time), or infinite ones. -/
structure Drawable (s : St K) : Prop where
  vertices : ∀ v ∈ s.skVertices, v < s.nV ∧ ∃ k, s.vert v = .kin k
  starts : ∀ v k, v < s.nV → s.vert v = .kin k → (∃ a, k.startsAt = some a) ∧ (∃ n, k.startNode = some n) ∧
    (k.stopsAt.isSome ↔ k.stopNode.isSome)
  corners : ∀ t < s.nT, ∀ i, (s.tri t).vertices i < s.nV
  triangles : ∀ t ∈ s.skTriangles, t < s.nT
  left : ∀ v k, v < s.nV → s.vert v = .kin k → ∀ x ∈ k.left, ∀ u, x.ref = some u → u < s.nV
  right : ∀ v k, v < s.nV → s.vert v = .kin k → ∀ x ∈ k.right, ∀ u, x.ref = some u → u < s.nV

theorem execution_drawable [IsStrictOrderedRing K] [HasSqrt K] [HasTrig K] {depth : ℕ} {s0 : St K} {n : ℕ} {now : K}
    {s : St K} {tr : List (Event K × K)} (h : Execution depth s0 n now s tr) : Drawable s := by
  have i := (execution_inv h).1
  refine ⟨fun v hv => ?_, fun v k hv hk => ?_, i.refs.vertices, i.refs.skTriangles, i.refs.left, i.refs.right⟩
  · obtain ⟨kv, hk, _⟩ := i.numbered v hv
    exact ⟨i.refs.skVertices v hv, kv, hk⟩
  · have l := i.lives v k hv hk
    obtain ⟨a, ha, _⟩ := l.starts
    obtain ⟨n, _, hn⟩ := l.startNode
    exact ⟨⟨a, ha⟩, ⟨n, hn⟩, l.both⟩

theorem Drawable.place {s : St K} (h : Drawable s) {v : VId} (hv : v < s.nV) (T : K) :
    ∃ p, visualizeAt s v T = .ok p ∧ DrawnAt s v T p := by
  unfold visualizeAt
  cases hk : s.vert v with
  | inf o => exact ⟨o, rfl, .infinite hk⟩
  | kin k =>
    unfold Vertex.positionAt
    dsimp only
    cases hf : k.infFast with
    | false => exact ⟨_, rfl, .moving hk hf⟩
    | true =>
      obtain ⟨n, hn⟩ := (h.starts v k hv hk).2.1
      rw [hn]
      exact ⟨_, rfl, .fast hk hf hn⟩

theorem Drawable.shape {s : St K} (h : Drawable s) {t : TId} (ht : t < s.nT) (T : K) :
    ∃ g, triangleAt s t T = .ok g ∧ ∀ i, DrawnAt s ((s.tri t).vertices i) T (g i) := by
  choose p hp using fun i => h.place (h.corners t ht i) T
  unfold triangleAt list3
  dsimp only
  rw [(hp 0).1, (hp 1).1, (hp 2).1]
  refine ⟨_, rfl, fun i => ?_⟩
  match i with
  | 0 => exact (hp 0).2
  | 1 => exact (hp 1).2
  | 2 => exact (hp 2).2

/-- a loop that writes at most one row per element -/
theorem collect_rows {A B : Type} {f : A → Except Err (Option B)} {P : A → B → Prop} {c : A → Bool} {key : B → A} :
    ∀ {l : List A}, (∀ x ∈ l, if c x then ∃ r, f x = .ok (some r) ∧ P x r ∧ key r = x else f x = .ok none) →
      ∃ rows, collect f l = .ok rows ∧ rows.map key = l.filter c ∧ ∀ r ∈ rows, P (key r) r
  | [], _ => ⟨[], rfl, rfl, nofun⟩
  | x :: xs, h => by
    obtain ⟨rows, h1, h2, h3⟩ := collect_rows (l := xs) fun y hy => h y (List.mem_cons_of_mem _ hy)
    have hx := h x List.mem_cons_self
    unfold collect
    by_cases hc : c x = true
    · rw [if_pos hc] at hx
      obtain ⟨r, e1, e2, e3⟩ := hx
      rw [e1, h1]
      refine ⟨r :: rows, rfl, by rw [List.map_cons, List.filter_cons_of_pos hc, e3, h2], ?_⟩
      intro q hq
      rcases List.mem_cons.1 hq with rfl | hq
      · rw [e3]; exact e2
      · exact h3 q hq
    · rw [if_neg hc] at hx
      rw [hx, h1]
      exact ⟨rows, rfl, by rw [List.filter_cons_of_neg hc, h2], h3⟩

theorem collect_all {A B : Type} {f : A → Except Err (Option B)} {P : A → B → Prop} {key : B → A} {l : List A}
    (h : ∀ x ∈ l, ∃ r, f x = .ok (some r) ∧ P x r ∧ key r = x) :
    ∃ rows, collect f l = .ok rows ∧ rows.map key = l ∧ ∀ r ∈ rows, P (key r) r := by
  obtain ⟨rows, h1, h2, h3⟩ := collect_rows (f := f) (P := P) (key := key) (c := fun _ => true) (l := l)
    fun x hx => by rw [if_pos rfl]; exact h x hx
  exact ⟨rows, h1, by rw [h2, List.filter_true], h3⟩

section
variable [IsStrictOrderedRing K] [HasSqrt K]

theorem norm_pair (x y : K) : VectorOps.norm [x, y] = .ok (HasSqrt.sqrt (x * x + y * y)) := by
  have h : ¬ (x * x + y * y) < 0 := not_lt.2 (add_nonneg (mul_self_nonneg x) (mul_self_nonneg y))
  simp [VectorOps.norm, VectorOps.norm2, VectorOps.dot, bind, Except.bind, psqrt, h]

theorem distPt_eq (p q : Pt K) :
    distPt p q = .ok (HasSqrt.sqrt ((q.1 - p.1) * (q.1 - p.1) + (q.2 - p.2) * (q.2 - p.2))) := by
  unfold distPt VectorOps.dist VectorOps.makeVector VectorOps.sub
  exact norm_pair _ _

theorem Drawable.kin {s : St K} (h : Drawable s) {v : VId} (hv : v ∈ s.skVertices) :
    ∃ k a n, s.vert v = .kin k ∧ k.startsAt = some a ∧ k.startNode = some n ∧
      (k.stopsAt.isSome ↔ k.stopNode.isSome) ∧ stopped s v = k.stopsAt.isSome := by
  obtain ⟨hn, k, hk⟩ := h.vertices v hv
  obtain ⟨⟨a, ha⟩, ⟨n, h2⟩, h3⟩ := h.starts v k hn hk
  exact ⟨k, a, n, hk, ha, h2, h3, by unfold stopped; rw [hk]⟩

theorem Drawable.bisector {s : St K} (h : Drawable s) {v : VId} (hv : v ∈ s.skVertices) (T : K) :
    if !stopped s v then ∃ r, bisectorRow s T v = .ok (some r) ∧ (DrawnAt s v T r.2.1 ∧ ∃ k, s.vert v = .kin k ∧
      Arrow k.velocity r.2.1 r.2.2) ∧ r.1 = v else bisectorRow s T v = .ok none := by
  obtain ⟨k, a, n, hk, ha, hn, hb, hs⟩ := h.kin hv
  obtain ⟨p, hp, hd⟩ := h.place (h.vertices v hv).1 T
  rw [hs]
  unfold bisectorRow
  rw [hk]
  dsimp only
  cases hst : k.stopsAt with
  | some b => simp
  | none =>
    simp only [Option.isSome_none, Bool.not_false, if_true]
    rw [hp, norm_pair]
    simp only [bind, Except.bind]
    by_cases c : HasSqrt.sqrt (k.velocity.1 * k.velocity.1 + k.velocity.2 * k.velocity.2) = 0
    · rw [if_neg (not_not.2 c)]
      exact ⟨(v, _), rfl, ⟨hd, k, rfl, by unfold Arrow; rw [if_pos c]⟩, rfl⟩
    · rw [if_pos c]
      unfold VectorOps.unit VectorOps.div
      rw [norm_pair]
      simp only [bind, Except.bind, List.mapM_cons, List.mapM_nil, pdiv, c, if_false, pure, Except.pure,
        VectorOps.mul, VectorOps.add, List.map_cons, List.map_nil, List.length_cons, List.length_nil, ne_eq,
        not_true, List.zipWith_cons_cons, List.zipWith_nil_left]
      refine ⟨(v, _), rfl, ⟨hd, k, rfl, ?_⟩, rfl⟩
      unfold Arrow
      rw [if_neg c]
      exact ⟨by ring, by ring⟩

theorem Drawable.segment {s : St K} (h : Drawable s) {v : VId} (hv : v ∈ s.skVertices) (T : K) :
    ∃ r, segmentRow s T v = .ok (some r) ∧ ArcOf s T r ∧ r.v = v := by
  obtain ⟨k, a, n, hk, ha, hn, hb, hs⟩ := h.kin hv
  obtain ⟨p, hp, hd⟩ := h.place (h.vertices v hv).1 T
  unfold segmentRow
  rw [hk]
  dsimp only
  rw [hn]
  cases hst : k.stopNode with
  | some b =>
    dsimp only
    rw [distPt_eq]
    refine ⟨_, rfl, ⟨⟨k, n, hk, hn, rfl⟩, ?_, fun _ => ⟨k, b, hk, hst, rfl⟩, nofun, rfl⟩, rfl⟩
    dsimp only
    rw [hs, hb.2 (by rw [hst]; rfl)]
  | none =>
    dsimp only
    rw [hp]
    simp only [bind, Except.bind]
    rw [distPt_eq]
    refine ⟨_, rfl, ⟨⟨k, n, hk, hn, rfl⟩, ?_, nofun, fun _ => hd, rfl⟩, rfl⟩
    dsimp only
    rw [hs, eq_comm, Bool.eq_false_iff]
    intro q
    rw [hb, hst] at q
    cases q

theorem Drawable.vertex {s : St K} (h : Drawable s) {v : VId} (hv : v ∈ s.skVertices) (T : K) :
    if !stopped s v then ∃ r, vertexRow s T v = .ok (some r) ∧ (DrawnAt s v T r.p ∧ ∃ k, s.vert v = .kin k ∧
      r.left = (k.left.at T).join ∧ r.right = (k.right.at T).join) ∧ r.v = v else vertexRow s T v = .ok none := by
  obtain ⟨k, a, n, hk, ha, hn, hb, hs⟩ := h.kin hv
  obtain ⟨p, hp, hd⟩ := h.place (h.vertices v hv).1 T
  rw [hs]
  unfold vertexRow
  rw [hk]
  dsimp only
  cases hst : k.stopsAt with
  | some b =>
    obtain ⟨m, hm⟩ := Option.isSome_iff_exists.1 (hb.1 (by rw [hst]; rfl))
    rw [hm]
    simp
  | none =>
    have hm : k.stopNode = none := by
      cases hm : k.stopNode with
      | none => rfl
      | some m => rw [hst, hm] at hb; simp at hb
    rw [hm]
    simp only [Option.isSome_none, Bool.not_false, if_true]
    rw [hp]
    exact ⟨_, rfl, ⟨hd, k, rfl, rfl, rfl⟩, rfl⟩

theorem finiteT_iff {s : St K} {t : TId} : finiteT s t = true ↔ AllKinetic s t := by
  have h : ∀ v, (s.vert v).isKinetic = true ↔ ∃ k, s.vert v = .kin k := by
    intro v
    cases hv : s.vert v with
    | inf o => simp [Vertex.isKinetic]
    | kin k => simp [Vertex.isKinetic]
  unfold finiteT AllKinetic
  rw [Bool.and_eq_true, Bool.and_eq_true, h, h, h, Fin.forall_fin_succ, Fin.forall_fin_two, and_assoc]
  rfl

theorem queueRows_ok {s : St K} (h : Drawable s) (T : K) : ∀ (queue : List (Event K)) (i : ℕ),
    (∀ e ∈ queue, e.tri < s.nT) → ∃ rows, queueRows s T queue i = .ok rows ∧
      rows.map (fun r => (r.tri, r.time, r.tp)) = queue.map (fun e => (e.tri, e.time, e.tp)) ∧
      (∀ r ∈ rows, ∀ j, DrawnAt s ((s.tri r.tri).vertices j) T (r.poly j)) ∧
      rows.map (·.pos) = List.range' i queue.length ∧
      ∀ r ∈ rows, r.neighbours = (s.tri r.tri).neighbours ∧ (r.finite = true ↔ AllKinetic s r.tri)
  | [], _, _ => ⟨[], rfl, rfl, nofun, rfl, nofun⟩
  | e :: es, i, hq => by
    obtain ⟨g, h1, h2⟩ := h.shape (hq e List.mem_cons_self) T
    obtain ⟨rows, h3, h4, h5, h6, h7⟩ := queueRows_ok h T es (i + 1) fun e he => hq e (List.mem_cons_of_mem _ he)
    unfold queueRows
    rw [h1, h3]
    refine ⟨_, rfl, by rw [List.map_cons, List.map_cons, h4], fun r hr => ?_,
      by rw [List.map_cons, h6, List.length_cons, List.range'_succ], fun r hr => ?_⟩
    · rcases List.mem_cons.1 hr with rfl | hr
      · exact h2
      · exact h5 r hr
    · rcases List.mem_cons.1 hr with rfl | hr
      · exact ⟨rfl, finiteT_iff⟩
      · exact h7 r hr

theorem mem_frontEdges {s : St K} {ts : List TId} {t : TId} {i : Fin 3} :
    (t, i) ∈ frontEdges s ts ↔ t ∈ ts ∧ (s.tri t).stopsAt = none ∧ (s.tri t).neighbours i = none := by
  unfold frontEdges
  rw [List.mem_flatMap]
  constructor
  · rintro ⟨u, hu, h⟩
    split_ifs at h with c
    · obtain ⟨j, hj, e⟩ := List.mem_filterMap.1 h
      split_ifs at e with c2
      cases e
      exact ⟨hu, c, c2⟩
    · cases h
  · rintro ⟨h1, h2, h3⟩
    refine ⟨t, h1, ?_⟩
    rw [if_pos h2, List.mem_filterMap]
    refine ⟨i, ?_, by rw [if_pos h3]⟩
    match i with
    | 0 => simp
    | 1 => simp
    | 2 => simp

/-- `visualize` never fails in a drawable state -/
theorem visualize_ok {s : St K} (h : Drawable s) {queue : List (Event K)} (hq : ∀ e ∈ queue, e.tri < s.nT) (T : K) :
    ∃ pic, visualize queue s T = .ok pic ∧ PictureOf s queue T pic := by
  obtain ⟨ev, e1, e2, e3, e4, e5⟩ := queueRows_ok h T queue 0 hq
  obtain ⟨tr, t1, t2, t3⟩ := collect_rows (l := s.skTriangles) (c := fun t => (s.tri t).stopsAt.isNone)
    (f := fun t => match (s.tri t).stopsAt with
      | some _ => .ok none
      | none => do
        let poly ← triangleAt s t T
        .ok (some ⟨t, poly, (s.tri t).neighbours, (s.tri t).vertices, finiteT s t, (s.tri t).info,
          (s.tri t).event.map (·.time)⟩))
    (P := fun t (r : TriRow K) => (∀ i, DrawnAt s ((s.tri t).vertices i) T (r.poly i)) ∧
      r.neighbours = (s.tri t).neighbours ∧ r.vertices = (s.tri t).vertices ∧ (r.finite = true ↔ AllKinetic s t) ∧
      r.info = (s.tri t).info ∧ ∀ x, r.time = some x ↔ ∃ e, (s.tri t).event = some e ∧ e.time = x) (key := fun r => r.tri) (by
      intro t ht
      obtain ⟨g, h1, h2⟩ := h.shape (h.triangles t ht) T
      cases hs : (s.tri t).stopsAt with
      | some b => simp
      | none =>
        simp only [Option.isNone_none, if_true]
        rw [h1]
        exact ⟨_, rfl, ⟨h2, rfl, rfl, finiteT_iff, rfl, fun x => Option.map_eq_some_iff⟩, rfl⟩)
  obtain ⟨bi, b1, b2, b3⟩ := collect_rows (l := s.skVertices) (c := fun v => !stopped s v) (f := bisectorRow s T)
    (P := fun v r => DrawnAt s v T r.2.1 ∧ ∃ k, s.vert v = .kin k ∧ Arrow k.velocity r.2.1 r.2.2) (key := fun r => r.1) fun v hv => h.bisector hv T
  obtain ⟨sg, s1, s2, s3⟩ := collect_all (l := s.skVertices) (f := segmentRow s T) (key := fun r : ArcRow K => r.v)
    (P := fun _ r => ArcOf s T r) fun v hv => h.segment hv T
  obtain ⟨ve, v1, v2, v3⟩ := collect_rows (l := s.skVertices) (c := fun v => !stopped s v) (f := vertexRow s T)
    (P := fun v r => DrawnAt s v T r.p ∧ ∃ k, s.vert v = .kin k ∧ r.left = (k.left.at T).join ∧
      r.right = (k.right.at T).join) (key := fun r : VertexRow K => r.v) fun v hv => h.vertex hv T
  obtain ⟨ed, d1, d2, d3⟩ := collect_all (l := frontEdges s s.skTriangles)
    (f := fun e : TId × Fin 3 => do
      let p ← visualizeAt s ((s.tri e.1).vertices (ccw e.2)) T
      let q ← visualizeAt s ((s.tri e.1).vertices (cw e.2)) T
      .ok (some ⟨e.1, e.2, p, q⟩)) (key := fun r : EdgeRow K => (r.tri, r.side))
    (P := fun e r => DrawnAt s ((s.tri e.1).vertices (e.2 + 1)) T r.p ∧
      DrawnAt s ((s.tri e.1).vertices (e.2 + 2)) T r.q) (by
      rintro ⟨t, i⟩ he
      have ht := h.triangles t (mem_frontEdges.1 he).1
      obtain ⟨p, p1, p2⟩ := h.place (h.corners t ht (i + 1)) T
      obtain ⟨q, q1, q2⟩ := h.place (h.corners t ht (i + 2)) T
      dsimp only [ccw, cw]
      rw [p1, q1]
      exact ⟨_, rfl, ⟨p2, q2⟩, rfl⟩)
  refine ⟨⟨ev, tr, s.skNodes.map s.node, bi, sg, ve, ed⟩, ?_, ?_⟩
  · have t1' : outputTrianglesAt s s.skTriangles T = .ok tr := t1
    have d1' : outputEdgesAt s (frontEdges s s.skTriangles) T = .ok ed := d1
    unfold visualize
    rw [e1, t1', b1, s1, v1, d1']
    rfl
  · refine ⟨t2, fun r hr => (t3 r hr).1, fun r hr => (t3 r hr).2, fun t i => ?_, d3, s2, s3, v2, v3, b2, b3, rfl, e2, e3,
      by rw [e4, List.range_eq_range'], e5⟩
    rw [← mem_frontEdges, ← d2, List.mem_map]
    exact ⟨fun ⟨r, hr, h1, h2⟩ => ⟨r, hr, by rw [h1, h2]⟩, fun ⟨r, hr, e⟩ => ⟨r, hr, by cases e; exact ⟨rfl, rfl⟩⟩⟩

/-- C79: at every moment of every execution, and for every time, `visualize` writes a picture of the state without
exception: the live triangles and wavefront sides at their places, the traces of all vertices and the events that
wait. -/
theorem C79_visualize [HasTrig K] {depth : ℕ} {s0 : St K} {n : ℕ} {now : K} {s : St K} {tr : List (Event K × K)}
    (h : Execution depth s0 n now s tr) (T : K) :
    ∃ pic, visualize s.queue s T = .ok pic ∧ PictureOf s s.queue T pic :=
  visualize_ok (execution_drawable h)
    (fun e he => ((execution_inv h).1.current e (List.mem_append.2 (.inr he))).1) T

theorem Drawable.arc {s : St K} (h : Drawable s) {v : VId} (hv : v ∈ s.skVertices) (T : K) :
    ∃ r, outputArc s T v = .ok (some r) ∧ (r.finished = stopped s v ∧
      (∀ k, s.vert v = .kin k → stopped s v = true → ∃ a b, k.startNode = some a ∧ k.stopNode = some b ∧
        r.p = (s.node a).pos ∧ r.q = (s.node b).pos) ∧
      (∀ k a, s.vert v = .kin k → k.startsAt = some a → stopped s v = false →
        DrawnAt s v a r.p ∧ DrawnAt s v T r.q) ∧
      r.length = HasSqrt.sqrt ((r.q.1 - r.p.1) * (r.q.1 - r.p.1) + (r.q.2 - r.p.2) * (r.q.2 - r.p.2))) ∧ r.v = v := by
  obtain ⟨k, a, n, hk, ha, hn, hb, hs⟩ := h.kin hv
  obtain ⟨q, hq, hd⟩ := h.place (h.vertices v hv).1 T
  obtain ⟨p, hp, hc⟩ := h.place (h.vertices v hv).1 a
  rw [hs]
  unfold outputArc
  rw [hk]
  dsimp only
  cases hst : k.stopsAt with
  | some b =>
    obtain ⟨m, hm⟩ := Option.isSome_iff_exists.1 (hb.1 (by rw [hst]; rfl))
    rw [hn, hm]
    dsimp only
    rw [distPt_eq]
    refine ⟨_, rfl, ⟨rfl, ?_, fun _ _ _ _ hf => (by cases hf), rfl⟩, rfl⟩
    intro k' hk' _
    cases hk'
    exact ⟨n, m, hn, hm, rfl, rfl⟩
  | none =>
    rw [ha]
    dsimp only
    rw [hp, hq]
    simp only [bind, Except.bind]
    rw [distPt_eq]
    refine ⟨_, rfl, ⟨rfl, fun _ _ hf => (by cases hf), ?_, rfl⟩, rfl⟩
    intro k' a' hk' ha' _
    cases hk'
    rw [ha] at ha'
    cases ha'
    exact ⟨hc, hd⟩

/-- C79: `output_skel` writes one line for every vertex of a computed skeleton: from start node to stop node, or, when
the vertex never stopped, along its path from its start until `when`. -/
theorem C79_output_skel [HasTrig K] {depth : ℕ} {s0 : St K} {now : K} {s : St K} (h : Completed depth s0 now s)
    (T : K) : ∃ arcs, outputSkel s T = .ok (arcs, s.skNodes.map fun n => (s.node n).pos) ∧
      arcs.map (·.v) = s.skVertices ∧ ∀ r ∈ arcs, r.finished = stopped s r.v ∧
        (∀ k, s.vert r.v = .kin k → stopped s r.v = true → ∃ a b, k.startNode = some a ∧ k.stopNode = some b ∧
          r.p = (s.node a).pos ∧ r.q = (s.node b).pos) ∧
        (∀ k a, s.vert r.v = .kin k → k.startsAt = some a → stopped s r.v = false →
          DrawnAt s r.v a r.p ∧ DrawnAt s r.v T r.q) ∧
        r.length = HasSqrt.sqrt ((r.q.1 - r.p.1) * (r.q.1 - r.p.1) + (r.q.2 - r.p.2) * (r.q.2 - r.p.2)) := by
  obtain ⟨n, tr, _, he⟩ := completed_execution h
  have hd := execution_drawable he
  obtain ⟨rows, h1, h2, h3⟩ := collect_all (l := s.skVertices) (f := outputArc s T) (key := fun r : ArcRow K => r.v)
    (P := fun v r => r.finished = stopped s v ∧ _ ∧ _ ∧ _) fun v hv => hd.arc hv T
  refine ⟨rows, ?_, h2, h3⟩
  unfold outputSkel
  rw [h1]
  rfl

/-! ### the arguments of `calc_skel` -/

/-- one row of `output_offsets` -/
theorem outputOffset_cases {s : St K} (h : Drawable s) (left : Bool) {v : VId} (hv : v ∈ s.skVertices) (t : K) :
    (∃ k a, s.vert v = .kin k ∧ k.startsAt = some a ∧ a ≤ t ∧ k.stopsAt = none ∧
      outputOffset left s t v = .error .typeError) ∨
    (∀ k a, s.vert v = .kin k → k.startsAt = some a → a ≤ t → k.stopsAt ≠ none) ∧
      ∃ o, outputOffset left s t v = .ok o := by
  obtain ⟨k, a, n, hk, ha, hn, hb, hs⟩ := h.kin hv
  have hvn := (h.vertices v hv).1
  unfold outputOffset
  rw [hk]
  dsimp only
  rw [ha]
  dsimp only
  by_cases c : a ≤ t
  · rw [if_pos c]
    cases hst : k.stopsAt with
    | none => exact .inl ⟨k, a, rfl, ha, c, hst, rfl⟩
    | some b =>
      right
      refine ⟨fun k' a' hk' _ _ => by cases hk'; rw [hst]; nofun, ?_⟩
      dsimp only
      by_cases c2 : b > t
      · rw [if_pos c2]
        unfold offsetLine
        obtain ⟨p, hp, -⟩ := h.place hvn t
        unfold visualizeAt at hp
        rw [hk] at hp
        rw [hp]
        dsimp only
        cases hu : neighbourAt (if left = true then k.left else k.right) t with
        | none => exact ⟨none, rfl⟩
        | some u =>
          have hl : (if left = true then k.left else k.right).at t = some (some u) := by
            unfold neighbourAt at hu
            exact Option.join_eq_some_iff.1 hu
          obtain ⟨x, hx, hxr⟩ := hist_at_mem hl
          have hun : u < s.nV := by
            cases left with
            | true => exact h.left v k hvn hk x hx u hxr
            | false => exact h.right v k hvn hk x hx u hxr
          obtain ⟨q, hq, -⟩ := h.place hun t
          unfold visualizeAt at hq
          dsimp only
          rw [hq]
          exact ⟨_, rfl⟩
      · rw [if_neg c2]; exact ⟨_, rfl⟩
  · rw [if_neg c]
    exact .inr ⟨fun k' a' hk' ha' hle => by cases hk'; rw [ha] at ha'; cases ha'; exact absurd hle c, _, rfl⟩

/-- some vertex has started at `t`, and never stops -/
def Endless (s : St K) (t : K) : Prop :=
  ∃ v ∈ s.skVertices, ∃ k a, s.vert v = .kin k ∧ k.startsAt = some a ∧ a ≤ t ∧ k.stopsAt = none

theorem outputAt_cases {s : St K} (h : Drawable s) (left : Bool) : ∀ ts : List K,
    ((∃ t ∈ ts, Endless s t) ∧ outputAt left s ts = .error .typeError) ∨
    (¬ (∃ t ∈ ts, Endless s t) ∧ ∃ l, outputAt left s ts = .ok l)
  | [] => .inr ⟨fun ⟨t, ht, _⟩ => (by cases ht), [], rfl⟩
  | t :: ts => by
    unfold outputAt
    by_cases c : Endless s t
    · left
      refine ⟨⟨t, List.mem_cons_self, c⟩, ?_⟩
      obtain ⟨e, he, rfl⟩ := collect_error (f := outputOffset left s t) (P := fun e => e = .typeError)
        (l := s.skVertices) (fun x hx e he => by
          rcases outputOffset_cases h left hx t with ⟨k, a, -, -, -, -, q⟩ | ⟨-, o, q⟩
          · rw [q] at he; cases he; rfl
          · rw [q] at he; cases he) (by
          obtain ⟨v, hv, k, a, hk, ha, hle, hn⟩ := c
          rcases outputOffset_cases h left hv t with ⟨k', a', -, -, -, -, q⟩ | ⟨q, -⟩
          · exact ⟨v, hv, _, q⟩
          · exact absurd hn (q k a hk ha hle))
      rw [he]
      rfl
    · have key : ∀ v ∈ s.skVertices, ∃ o, outputOffset left s t v = .ok o := by
        intro v hv
        rcases outputOffset_cases h left hv t with ⟨k, a, h1, h2, h3, h4, -⟩ | ⟨-, q⟩
        · exact absurd ⟨v, hv, k, a, h1, h2, h3, h4⟩ c
        · exact q
      choose! o ho using key
      rw [collect_eq ho]
      rcases outputAt_cases h left ts with ⟨⟨u, hu, hc⟩, e⟩ | ⟨hc, l, e⟩
      · left
        rw [e]
        exact ⟨⟨u, List.mem_cons_of_mem _ hu, hc⟩, rfl⟩
      · right
        rw [e]
        refine ⟨?_, _, rfl⟩
        rintro ⟨u, hu, hc'⟩
        rcases List.mem_cons.1 hu with rfl | hu
        · exact c hc'
        · exact hc ⟨u, hu, hc'⟩

theorem outputOffsets_cases {s : St K} (h : Drawable s) (now : K) :
    ((∃ i < 5, Endless s ((i : ℕ) * (now / 5))) ∧ outputOffsets s now 5 = .error .typeError) ∨
    (¬ (∃ i < 5, Endless s ((i : ℕ) * (now / 5))) ∧ ∃ l, outputOffsets s now 5 = .ok l) := by
  have h5 : ((5 : ℤ) : K) ≠ 0 := by norm_num
  have hm : ∀ P : K → Prop, (∃ t ∈ (List.range (5 : ℤ).toNat).map fun i : ℕ => (i : K) * (now / ((5 : ℤ) : K)), P t) ↔
      ∃ i < 5, P ((i : ℕ) * (now / 5)) := by
    intro P
    constructor
    · rintro ⟨t, ht, hp⟩
      obtain ⟨i, hi, rfl⟩ := List.mem_map.1 ht
      exact ⟨i, List.mem_range.1 hi, by simpa using hp⟩
    · rintro ⟨i, hi, hp⟩
      exact ⟨_, List.mem_map.2 ⟨i, List.mem_range.2 hi, rfl⟩, by simpa using hp⟩
  unfold outputOffsets pdiv
  rw [if_neg h5]
  simp only [bind, Except.bind]
  rw [← hm]
  rcases outputAt_cases h true ((List.range (5 : ℤ).toNat).map fun i : ℕ => (i : K) * (now / ((5 : ℤ) : K))) with
    ⟨hc, e⟩ | ⟨hc, l, e⟩
  · exact .inl ⟨hc, by rw [e]⟩
  · right
    refine ⟨hc, ?_⟩
    rw [e]
    rcases outputAt_cases h false ((List.range (5 : ℤ).toNat).map fun i : ℕ => (i : K) * (now / ((5 : ℤ) : K))) with
      ⟨hc', -⟩ | ⟨-, l', e'⟩
    · exact absurd hc' hc
    · rw [e']; exact ⟨_, rfl⟩

variable [HasTrig K] (depth : ℕ) (pyid : TId → ℕ) (triangulate : List (Pt K) → Except Err (Dt K))
  (points : List (Pt K)) (shrink internal : Bool)

/-- `calc_skel` with `pause=False`: the events, and then the output -/
theorem calcSkelFull_eq (output : Bool) :
    calcSkelFull depth pyid triangulate points false output shrink internal =
      (calcSkel depth pyid triangulate points shrink internal >>= fun r =>
        if output then liftE (writeOutput r.1 r.2) >>= fun _ => .ok r else .ok r) := by
  unfold calcSkelFull calcSkel runEvents
  cases shrinkPoints shrink points with
  | error e => rfl
  | ok x =>
    cases htri : triangulate x.1 with
    | error e => simp only [liftE, bind, Except.bind, htri]
    | ok dt =>
      cases hini : initSkeleton dt pyid with
      | error e => simp only [liftE, bind, Except.bind, htri, hini]
      | ok skel =>
        simp only [liftE, bind, Except.bind, htri, hini]
        cases hall : allE (checkStart (prepare internal x.2 skel)) (prepare internal x.2 skel).skVertices with
        | error e => rfl
        | ok u =>
          dsimp only
          cases hev : initEventList (prepare internal x.2 skel) with
          | error e => rfl
          | ok y => rfl

/-- C79: without output `calc_skel` is what the other theorems are about. -/
theorem C79_silent : calcSkelFull depth pyid triangulate points false false shrink internal =
    calcSkel depth pyid triangulate points shrink internal := by
  rw [calcSkelFull_eq]
  cases calcSkel depth pyid triangulate points shrink internal <;> rfl

/-- C79: with `output=True` `calc_skel` fails when it would fail without; otherwise it delivers the same skeleton, or,
exactly when some vertex of the skeleton never stops and starts before the last of the five times for which offsets are
drawn, it raises a TypeError. -/
theorem C79_output (hid : Function.Injective pyid) :
    match calcSkel depth pyid triangulate points shrink internal with
    | .error f => calcSkelFull depth pyid triangulate points false true shrink internal = .error f
    | .ok (now, s) =>
      (Endless s (4 * (now / 5)) ∧
        calcSkelFull depth pyid triangulate points false true shrink internal = .error (.py .typeError)) ∨
      (¬ Endless s (4 * (now / 5)) ∧
        calcSkelFull depth pyid triangulate points false true shrink internal = .ok (now, s)) := by
  rw [calcSkelFull_eq]
  cases hr : calcSkel depth pyid triangulate points shrink internal with
  | error f => rfl
  | ok x =>
    obtain ⟨now, s⟩ := x
    dsimp only
    obtain ⟨pts, tr, dt, skel, -, -, -, hcomp⟩ := C55_completed depth pyid hid triangulate points shrink internal now s hr
    obtain ⟨n, tr', _, he⟩ := completed_execution hcomp
    have hd := execution_drawable he
    have h0 : 0 ≤ now := (C33_returned hcomp).choose_spec.choose_spec.2.2
    have hlast : (∃ i < 5, Endless s ((i : ℕ) * (now / 5))) ↔ Endless s (4 * (now / 5)) := by
      constructor
      · rintro ⟨i, hi, v, hv, k, a, h1, h2, h3, h4⟩
        refine ⟨v, hv, k, a, h1, h2, h3.trans ?_, h4⟩
        refine mul_le_mul_of_nonneg_right ?_ (div_nonneg h0 (by norm_num))
        exact_mod_cast (by omega : i ≤ 4)
      · intro h
        exact ⟨4, by norm_num, by simpa using h⟩
    have hq := outputOffsets_cases hd now
    rw [hlast] at hq
    simp only [bind, Except.bind, if_true]
    unfold writeOutput
    rcases hq with ⟨h1, h2⟩ | ⟨h1, l, h2⟩
    · left
      refine ⟨h1, ?_⟩
      rw [h2]
      rfl
    · right
      refine ⟨h1, ?_⟩
      obtain ⟨arcs, h3, -⟩ := C79_output_skel hcomp (now + 10)
      obtain ⟨pic, h4, -⟩ := visualize_ok hd (queue := []) nofun (now + 10)
      rw [h2, h3, h4]
      rfl

/-- C79: with `pause=True` `calc_skel` never delivers a skeleton; when it gets as far as the event loop it raises a
NameError there. -/
theorem C79_pause (hid : Function.Injective pyid) (output : Bool) :
    (∀ r, calcSkelFull depth pyid triangulate points true output shrink internal ≠ .ok r) ∧
    ∀ r, calcSkelFull depth pyid triangulate points false output shrink internal = .ok r →
      calcSkelFull depth pyid triangulate points true output shrink internal = .error (.py .nameError) := by
  have key : ∀ s (r : K × St K), eventLoopP true depth s ≠ .ok r := by
    intro s r
    unfold eventLoopP interactiveVisualize
    rw [if_pos rfl]
    cases visualize s.queue s 0 <;> simp [bind, Except.bind]
  refine ⟨fun r hr => ?_, fun r hr => ?_⟩
  · unfold calcSkelFull at hr
    obtain ⟨x, _, hr⟩ := bindE_ok hr
    obtain ⟨dt, _, hr⟩ := bindE_ok hr
    obtain ⟨skel, _, hr⟩ := bindE_ok hr
    obtain ⟨_, _, hr⟩ := bindE_ok hr
    obtain ⟨s1, _, hr⟩ := bindE_ok hr
    obtain ⟨q, h, hr⟩ := bindE_ok hr
    exact key _ _ h
  · unfold calcSkelFull at hr ⊢
    obtain ⟨x, h1, hr⟩ := bindE_ok hr
    obtain ⟨dt, h2, hr⟩ := bindE_ok hr
    obtain ⟨skel, h3, hr⟩ := bindE_ok hr
    obtain ⟨u, h4, hr⟩ := bindE_ok hr
    obtain ⟨s1, h5, hr⟩ := bindE_ok hr
    rw [h1]
    simp only [bind, Except.bind]
    rw [h2]
    dsimp only
    rw [h3]
    dsimp only
    rw [h4]
    dsimp only
    rw [h5]
    dsimp only
    have hi := ((C52_initial dt pyid (fun _ _ _ _ e => hid e) skel h3).1).prepare internal x.2
    have i1 : Inv (Numbered (prepare internal x.2 skel)) 0 s1.2 :=
      wp_ok (Q := fun _ s' => Inv (Numbered (prepare internal x.2 skel)) 0 s') (i_initEventList hi) h5
    have hd : Drawable s1.2 := by
      refine ⟨fun v hv => ?_, fun v k hv hk => ?_, i1.refs.vertices, i1.refs.skTriangles, i1.refs.left, i1.refs.right⟩
      · obtain ⟨kv, hk, _⟩ := i1.numbered v hv
        exact ⟨i1.refs.skVertices v hv, kv, hk⟩
      · have l := i1.lives v k hv hk
        obtain ⟨a, ha, _⟩ := l.starts
        obtain ⟨n, _, hn⟩ := l.startNode
        exact ⟨⟨a, ha⟩, ⟨n, hn⟩, l.both⟩
    obtain ⟨pic, hp, -⟩ := visualize_ok hd (queue := s1.2.queue)
      (fun e he => (i1.current e (List.mem_append.2 (.inr he))).1) 0
    unfold eventLoopP interactiveVisualize
    rw [if_pos rfl, hp]
    rfl

end

/-- C79: `output_kdt` fails as soon as the skeleton has a triangle: it asks for an attribute that triangles do not
have. -/
theorem C79_output_kdt (s : St K) (time : K) (h : s.skTriangles ≠ []) :
    outputKdt s time = .error .attributeError := by
  unfold outputKdt
  cases hs : s.skTriangles with
  | nil => exact absurd hs h
  | cons t ts => rfl

/-- C79: `output_vertices_at_T` writes one row for every vertex it is given: its place and its two neighbours. -/
theorem C79_output_vertices [IsStrictOrderedRing K] [HasSqrt K] [HasTrig K] {depth : ℕ} {s0 : St K} {n : ℕ} {now : K}
    {s : St K} {tr : List (Event K × K)} (h : Execution depth s0 n now s tr)
    {V : List VId} (hV : ∀ v ∈ V, v < s.nV) (T : K) :
    ∃ rows, outputVerticesAt s V T = .ok rows ∧ rows.map (·.v) = V ∧ ∀ r ∈ rows, DrawnAt s r.v T r.p ∧
      ∀ k, s.vert r.v = .kin k → r.left = k.leftRef ∧ r.right = k.rightRef := by
  refine collect_all (key := fun r : VertexRow K => r.v) (P := fun v r => DrawnAt s v T r.p ∧ ∀ k, s.vert v = .kin k →
    r.left = k.leftRef ∧ r.right = k.rightRef) fun v hv => ?_
  obtain ⟨p, hp, hd⟩ := (execution_drawable h).place (hV v hv) T
  rw [hp]
  simp only [bind, Except.bind]
  cases hk : s.vert v with
  | inf o => exact ⟨_, rfl, ⟨hd, nofun⟩, rfl⟩
  | kin k => exact ⟨_, rfl, ⟨hd, fun k' e => by cases e; exact ⟨rfl, rfl⟩⟩, rfl⟩

/-- C79: the second loop of `output_kdt` writes a vertex when it has started and not yet stopped (its ends included),
and raises a TypeError for a vertex that has started and never stops. -/
theorem C79_kdt_vertex [IsStrictOrderedRing K] [HasSqrt K] [HasTrig K] {depth : ℕ} {s0 : St K} {n : ℕ} {now : K}
    {s : St K} {tr : List (Event K × K)} (h : Execution depth s0 n now s tr)
    {v : VId} (hv : v ∈ s.skVertices) (T : K) :
    ∃ k a, s.vert v = .kin k ∧ k.startsAt = some a ∧
      (a ≤ T → k.stopsAt = none → outputKdtVertex s T v = .error .typeError) ∧
      (∀ b, k.stopsAt = some b → ¬ (a ≤ T ∧ T ≤ b) → outputKdtVertex s T v = .ok none) ∧
      (a ≤ T ∧ (∃ b, k.stopsAt = some b ∧ T ≤ b) ∨ T < a ∧ k.stopsAt = none →
        ∃ r, outputKdtVertex s T v = .ok (some r) ∧ r.v = v ∧ DrawnAt s v T r.p ∧ r.left = k.leftRef ∧
          r.right = k.rightRef) := by
  obtain ⟨hn, k, hk⟩ := (execution_drawable h).vertices v hv
  obtain ⟨⟨a, ha⟩, -, -⟩ := (execution_drawable h).starts v k hn hk
  obtain ⟨p, hp, hd⟩ := (execution_drawable h).place hn T
  refine ⟨k, a, hk, ha, fun h1 h2 => ?_, fun b hb hc => ?_, fun hc => ?_⟩
  · unfold outputKdtVertex
    rw [hk]
    dsimp only
    rw [ha]
    dsimp only
    rw [if_pos h1, h2]
  · unfold outputKdtVertex
    rw [hk]
    dsimp only
    rw [ha, hb]
    dsimp only
    split_ifs with c1 c2 c3
    · exact absurd ⟨c1, c2⟩ hc
    · rfl
    · cases c3
    · rfl
  · unfold outputKdtVertex
    rw [hk]
    dsimp only
    rw [ha, hp]
    dsimp only
    rcases hc with ⟨h1, b, hb, h2⟩ | ⟨h1, h2⟩
    · rw [if_pos h1, hb]
      dsimp only
      rw [if_pos h2]
      exact ⟨_, rfl, rfl, hd, rfl, rfl⟩
    · rw [if_neg (not_le.2 h1), if_pos h2]
      exact ⟨_, rfl, rfl, hd, rfl, rfl⟩

/-! ### the hypotheses are met -/

/-- `calc_skel` for the rectangle of 4 by 2, with the arguments `pause` and `output` -/
def Sample.fullOf (pause output internal : Bool) : Option Err :=
  match calcSkelFull 100 id Sample.triangulate [(0, 0), (4, 0), (4, 2), (0, 2)] pause output true internal with
  | .error (.py e) => some e
  | _ => none

/-- inside of the rectangle everything stops: output succeeds; the vertices outside never stop: it fails -/
example : (Sample.fullOf false true true, Sample.fullOf false true false) = (none, some .typeError) := by
  decide +kernel

/-- `pause=True` fails -/
example : Sample.fullOf true false true = some .nameError := by decide +kernel

/-- the traces in a picture of the rectangle -/
example : Sample.outcome Sample.complete (fun now s => (visualize s.queue s now).toOption.map fun pic =>
      pic.segments.map fun r => (r.p, r.q)) Sample.rectangle =
    some (some [((0, 0), (1, 1)), ((4, 0), (3, 1)), ((4, 2), (3, 1)), ((0, 2), (1, 1)), ((3, 1), (1, 1))]) := by
  decide +kernel

end Grassfire
