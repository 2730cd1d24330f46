/-
Property C75: the arcs of the skeleton run from node to node.
-/
import Verif.Proofs.AnchorInit
import Verif.Props.Checks
import Verif.Props.Wavefronts
import Verif.Props.Freshness

set_option linter.unusedSectionVars false

namespace Grassfire

open Spec

section

variable {K : Type} [Field K] [LinearOrder K] [IsStrictOrderedRing K] [HasSqrt K] [SqrtUnit K]

/-- **C75.** In what `init_skeleton` delivers every vertex starts in its node, at time 0. -/
theorem C75_init {dt : Dt K} {pyid : TId → ℕ} {skel : St K} (h : initSkeleton dt pyid = .ok skel) : NodeToNode skel := by
  obtain ⟨ts, vs, nbr, unwanted, sorted, hd⟩ := initSkeleton_ok h
  exact hd.nodes

variable [HasTrig K]

/-- an exact execution on what `init_skeleton` (and, if asked for, `internal_only_skeleton`) has delivered for the
triangulation `dt` -/
structure ExactRun (dt : Dt K) (depth : ℕ) (skel s : St K) : Prop where
  consistent : DtOk dt
  lengths : ExactLengths dt
  angles : ClearAngles dt
  spikes : NoSpikes skel
  run : ∃ pyid internal tr n now trace, initSkeleton dt pyid = .ok skel ∧
    ExactExecution depth (prepare internal tr skel) n now s trace

theorem ExactRun.arcs {dt : Dt K} {depth : ℕ} {skel s : St K} (h : ExactRun dt depth skel s) : Arcs s := by
  obtain ⟨hc, hx, ha, hs, pyid, internal, tr, n, now, trace, h1, h2⟩ := h
  obtain ⟨ts, vs, nbr, unwanted, sorted, hd⟩ := initSkeleton_ok h1
  exact execution_arcs ha ((hd.waves hc hx).prepare internal tr) ((hd.arcs hc hx ha hs).prepare internal tr) h2

theorem ExactRun.runsOn {dt : Dt K} {depth : ℕ} {skel s : St K} (h : ExactRun dt depth skel s) :
    RunsOn dt depth skel s := by
  obtain ⟨hc, hx, -, -, pyid, internal, tr, n, now, trace, h1, h2⟩ := h
  exact ⟨hc, hx, pyid, internal, tr, n, now, trace, h1, h2.execution⟩

/-- **C75.** At every moment of an exact execution every vertex (that is not infinitely fast) has started in its start
node, and if it has been stopped, then it is in its stop node at that time. -/
theorem C75_node_to_node {dt : Dt K} {depth : ℕ} {skel s : St K} (h : ExactRun dt depth skel s) : NodeToNode s :=
  h.arcs.nodes

/-- **C75.** And it is on both its wavefronts at every time, also when these move in the same direction. -/
theorem C75_on_wavefronts {dt : Dt K} {depth : ℕ} {skel s : St K} (h : ExactRun dt depth skel s) {v : VId}
    {k : KVertex K} (hv : v < s.nV) (hk : s.vert v = .kin k) (hi : k.infFast = false) : Tracks s k :=
  h.arcs.tracks v k hv hk hi

/-- **C75.** The nodes at the ends of an arc are equally far from the two input edges that the arc is between: the
distance of the start node is the start time, that of the stop node the stop time. -/
theorem C75_equidistant {dt : Dt K} {depth : ℕ} {skel s : St K} (h : ExactRun dt depth skel s) {v : VId}
    {k : KVertex K} (hv : v < s.nV) (hk : s.vert v = .kin k) (hi : k.infFast = false) :
    ∃ a b, k.ul = some a ∧ k.ur = some b ∧ InputLine dt (s.line a) ∧ InputLine dt (s.line b) ∧
      (∃ t n, k.startsAt = some t ∧ k.startNode = some n ∧
        AtDistance (s.line a) t (s.node n).pos ∧ AtDistance (s.line b) t (s.node n).pos) ∧
      ∀ t, k.stopsAt = some t → ∃ n, k.stopNode = some n ∧
        AtDistance (s.line a) t (s.node n).pos ∧ AtDistance (s.line b) t (s.node n).pos := by
  obtain ⟨a, b, e1, e2, e3, e4⟩ := (C58_input_lines h.runsOn).2 v k hv hk
  have ht := C75_on_wavefronts h hv hk hi a b e1 e2
  obtain ⟨⟨t, n, f1, f2, -, f4⟩, g, -⟩ := C75_node_to_node h v k hv hk hi
  refine ⟨a, b, e1, e2, e3, e4, ⟨t, n, f1, f2, by rw [f4]; exact ht t⟩, fun t' h' => ?_⟩
  obtain ⟨m, g1, -, g3⟩ := g t' h'
  exact ⟨m, g1, by rw [g3]; exact ht t'⟩

/-- **C75.** The function `at_same_location` confirms it: it returns `True` for the start node and the vertex at the
start time, and for the stop node and the vertex at the stop time. -/
theorem C75_same_location {dt : Dt K} {depth : ℕ} {skel s : St K} (h : ExactRun dt depth skel s) {v : VId}
    {k : KVertex K} (hv : v < s.nV) (hk : s.vert v = .kin k) (hi : k.infFast = false) :
    (∃ t n, k.startsAt = some t ∧ k.startNode = some n ∧
      atSameLocation [.node n, .vertex v] t s = .ok (true, s)) ∧
    ∀ t, k.stopsAt = some t → ∃ n, k.stopNode = some n ∧ atSameLocation [.node n, .vertex v] t s = .ok (true, s) := by
  have key : ∀ t n, n < s.nN → (s.node n).pos = pointAt k t → atSameLocation [.node n, .vertex v] t s = .ok (true, s) := by
    intro t n hn hp
    have h1 : (Located.node n : Located).positionAt t s = .ok (pointAt k t, s) :=
      bind_run_ok.2 ⟨s.node n, s, getN_run_ok.2 ⟨hn, rfl, rfl⟩, pure_run_ok.2 ⟨hp, rfl⟩⟩
    have h2 : (Located.vertex v : Located).positionAt t s = .ok (pointAt k t, s) := by
      refine positionAt_run_ok.2 ⟨hv, ?_, rfl⟩
      rw [hk]
      simp only [Vertex.positionAt, hi, if_true]
      rfl
    have hz : nearZero (0 : K) = true := by rw [nearZero_iff, abs_zero]; positivity
    unfold atSameLocation
    refine bind_run_ok.2 ⟨[pointAt k t, pointAt k t], s, ?_, ?_⟩
    · exact bind_run_ok.2 ⟨_, s, h1, bind_run_ok.2 ⟨[pointAt k t], s,
        bind_run_ok.2 ⟨_, s, h2, bind_run_ok.2 ⟨[], s, rfl, rfl⟩⟩, rfl⟩⟩
    · refine pure_run_ok.2 ⟨?_, rfl⟩
      simp only [List.all_cons, List.all_nil, sub_self, hz, Bool.and_self]
  obtain ⟨⟨t, n, f1, f2, f3, f4⟩, g, -⟩ := C75_node_to_node h v k hv hk hi
  refine ⟨⟨t, n, f1, f2, key t n f3 f4⟩, fun t' h' => ?_⟩
  obtain ⟨m, g1, g2, g3⟩ := g t' h'
  exact ⟨m, g1, key t' m g2 g3⟩

/-- what `segments` returns comes from the vertices of the skeleton -/
theorem segmentsLoop_mem {s : St K} : ∀ {vs : List VId} {acc out : List (Segment K)},
    segmentsLoop s vs acc = .ok out → ∀ g ∈ out, g ∈ acc ∨ ∃ v ∈ vs, segmentOf s v = .ok (some g)
  | [], acc, out, h, g, hg => by cases h; exact .inl hg
  | v :: vs, acc, out, h, g, hg => by
    unfold segmentsLoop at h
    cases hs : segmentOf s v with
    | error e => rw [hs] at h; cases h
    | ok o =>
      rw [hs] at h
      cases o with
      | none =>
        rcases segmentsLoop_mem (vs := vs) h g hg with q | ⟨w, hw, q⟩
        · exact .inl q
        · exact .inr ⟨w, List.mem_cons_of_mem _ hw, q⟩
      | some x =>
        rcases segmentsLoop_mem (vs := vs) h g hg with q | ⟨w, hw, q⟩
        · rcases List.mem_append.1 q with q | q
          · exact .inl q
          · rw [List.mem_singleton] at q
            exact .inr ⟨v, List.mem_cons_self, by rw [q]; exact hs⟩
        · exact .inr ⟨w, List.mem_cons_of_mem _ hw, q⟩

/-- **C75.** So every segment that `segments` returns is the path of a vertex of the skeleton (unless that is infinitely
fast): from where it is at its start time to where it is at its stop time, mapped back when there is a transform; when
it has not been stopped, to where it is at time 1000. -/
theorem C75_segments {dt : Dt K} {depth : ℕ} {skel s : St K} (h : ExactRun dt depth skel s) {segs : List (Segment K)}
    (hs : segments s = .ok segs) {g : Segment K} (hg : g ∈ segs) :
    ∃ v k, v ∈ s.skVertices ∧ s.vert v = .kin k ∧ (k.infFast = false → ∃ t, k.startsAt = some t ∧
      ((∃ t', k.stopsAt = some t' ∧ g.1 = ((s.transform.elim id (·.backward)) (pointAt k t),
        (s.transform.elim id (·.backward)) (pointAt k t'))) ∨
      (k.stopsAt = none ∧ g.1 = (pointAt k t, pointAt k 1000)))) := by
  rcases segmentsLoop_mem hs g hg with q | ⟨v, hv, q⟩
  · cases q
  have hn : v < s.nV := by
    obtain ⟨_, _, _, _, _, _, _, _, _, he⟩ := h.runsOn
    exact (execution_inv he).1.refs.skVertices _ hv
  unfold segmentOf at q
  split at q
  · cases q
  rename_i k hk
  refine ⟨v, k, hv, hk, fun hi => ?_⟩
  obtain ⟨⟨t, n, f1, f2, f3, f4⟩, hst, -⟩ := C75_node_to_node h v k hn hk hi
  refine ⟨t, f1, ?_⟩
  cases hx : k.stopsAt with
  | some t' =>
    obtain ⟨m, g1, g2, g3⟩ := hst t' hx
    rw [hx] at q
    simp only [f2, g1] at q
    split_ifs at q
    · cases q
    refine .inl ⟨t', rfl, ?_⟩
    cases htr : s.transform with
    | none =>
      rw [htr] at q
      simp only [Except.ok.injEq, Option.some.injEq] at q
      rw [← q, f4, g3]; rfl
    | some tr =>
      rw [htr] at q
      simp only [Except.ok.injEq, Option.some.injEq] at q
      rw [← q, f4, g3]; rfl
  | none =>
    rw [hx] at q
    simp only [f2, Vertex.positionAt, hi, if_true] at q
    refine .inr ⟨rfl, ?_⟩
    have q' := Option.some.inj (Except.ok.inj q)
    rw [← q', f4]; rfl

end

/-! ### the hypotheses are met -/

/-- the normal of length 1 to the left of a direction -/
theorem normal_unique {K : Type} [Field K] [LinearOrder K] [IsStrictOrderedRing K] {dx dy L x y : K} (hL : 0 < L)
    (h2 : L ^ 2 = dx ^ 2 + dy ^ 2) (h0 : dx * x + dy * y = 0) (h1 : x ^ 2 + y ^ 2 = 1) (hp : 0 < dx * y - dy * x) :
    (x, y) = (-dy / L, dx / L) := by
  have hc : dx * y - dy * x = L := by
    have hsq : (dx * y - dy * x) ^ 2 = L ^ 2 := by
      have : (dx * y - dy * x) ^ 2 + (dx * x + dy * y) ^ 2 = (dx ^ 2 + dy ^ 2) * (x ^ 2 + y ^ 2) := by ring
      rw [h0, h1, ← h2] at this
      linarith
    exact (pow_left_inj₀ hp.le hL.le two_ne_zero).1 hsq
  have hx : x * L ^ 2 = -dy * L := by
    rw [h2]
    linear_combination dx * h0 - dy * hc
  have hy : y * L ^ 2 = dx * L := by
    rw [h2]
    linear_combination dy * h0 + dx * hc
  have hne := hL.ne'
  refine Prod.ext ?_ ?_
  · rw [eq_div_iff hne]
    exact mul_right_cancel₀ hne (by rw [mul_assoc, ← sq]; exact hx)
  · rw [eq_div_iff hne]
    exact mul_right_cancel₀ hne (by rw [mul_assoc, ← sq]; exact hy)

namespace Sample

/-- A wedge with corners (0, 0), (3, 0), (3, 3/4) and (0, 3): triangles 0 and 1 are its interior. -/
def wedgeDt : Dt ℚ :=
  { rectangleDt with
    pos := fun v =>
      [((0 : ℚ), (0 : ℚ)), (3, 0), (3, 3 / 4), (0, 3), (-100, -100), (100, -100), (2, 100)].getD v (0, 0) }

/-- `init_skeleton` on the wedge -/
def wedgeSkeleton : St ℚ :=
  match initSkeleton wedgeDt id with
  | .ok s => s
  | .error _ => rectangle

theorem wedgeSkeleton_ok : initSkeleton wedgeDt id = .ok wedgeSkeleton := by
  have h : (match initSkeleton wedgeDt id with
    | .ok _ => true
    | .error _ => false) = true := by decide +kernel
  unfold wedgeSkeleton
  split at h
  · rename_i s hs
    rw [hs]
  · cases h

theorem wedgeDt_ok : DtOk wedgeDt := by
  have h := rectangleDt_ok
  exact ⟨h.corners, h.star_corner, h.star_nodup, fun v hv => ⟨(h.star_ok v hv).chain, (h.star_ok v hv).closed⟩⟩

/-- the normals of the sides of the wedge, to both sides -/
def wedgeNormals : List (Pt ℚ) :=
  [(0, 1), (0, -1), (1, 0), (-1, 0), (-3 / 5, -4 / 5), (3 / 5, 4 / 5)]

theorem wedge_sides : ∀ t < wedgeDt.nT, ∀ i : Fin 3, wedgeDt.constrained t i = true →
    ∀ a ∈ wedgeDt.corner t (i + 1), ∀ b ∈ wedgeDt.corner t (i + 2),
    0 < HasSqrt.sqrt (((wedgeDt.pos b).1 - (wedgeDt.pos a).1) ^ 2 + ((wedgeDt.pos b).2 - (wedgeDt.pos a).2) ^ 2) ∧
    HasSqrt.sqrt (((wedgeDt.pos b).1 - (wedgeDt.pos a).1) ^ 2 + ((wedgeDt.pos b).2 - (wedgeDt.pos a).2) ^ 2) ^ 2 =
      ((wedgeDt.pos b).1 - (wedgeDt.pos a).1) ^ 2 + ((wedgeDt.pos b).2 - (wedgeDt.pos a).2) ^ 2 ∧
    (-((wedgeDt.pos b).2 - (wedgeDt.pos a).2) /
        HasSqrt.sqrt (((wedgeDt.pos b).1 - (wedgeDt.pos a).1) ^ 2 + ((wedgeDt.pos b).2 - (wedgeDt.pos a).2) ^ 2),
      ((wedgeDt.pos b).1 - (wedgeDt.pos a).1) /
        HasSqrt.sqrt (((wedgeDt.pos b).1 - (wedgeDt.pos a).1) ^ 2 + ((wedgeDt.pos b).2 - (wedgeDt.pos a).2) ^ 2)) ∈
      wedgeNormals := by
  decide +kernel

theorem wedge_lengths : ExactLengths wedgeDt := by
  intro t i a b ht hc ha hb
  obtain ⟨h1, h2, -⟩ := wedge_sides t ht i hc a (Option.mem_def.2 ha) b (Option.mem_def.2 hb)
  exact ⟨h1.le, h2⟩

theorem wedge_normal {l : Line2 ℚ} (h : InputLine wedgeDt l) : l.w ∈ wedgeNormals := by
  obtain ⟨t, i, a, b, ht, hc, ha, hb, hu, h1, h2, hp⟩ := h
  obtain ⟨q1, q2, q3⟩ := wedge_sides t ht i hc a (Option.mem_def.2 ha) b (Option.mem_def.2 hb)
  unfold AtDistance at h1 h2
  have := normal_unique q1 q2 (by linear_combination h2 - h1) hu hp
  rw [show l.w = (l.w.1, l.w.2) from rfl, this]
  exact q3

theorem wedge_angles : ClearAngles wedgeDt := by
  intro l r hl hr
  exact (by decide +kernel : ∀ x ∈ wedgeNormals, ∀ y ∈ wedgeNormals,
    (1 / 10 ^ 10 < |x.1 * y.2 - y.1 * x.2| ∨ x = y ∨ x = (-y.1, -y.2))) _ (wedge_normal hl) _ (wedge_normal hr)

theorem wedge_spikes : NoSpikes wedgeSkeleton := by
  have h : (List.range wedgeSkeleton.nV).all (fun v => match wedgeSkeleton.vert v with
    | .kin k => match k.ul, k.ur with
      | some a, some b =>
        decide ((wedgeSkeleton.line a).w ≠ (-(wedgeSkeleton.line b).w.1, -(wedgeSkeleton.line b).w.2))
      | _, _ => true
    | .inf _ => true) = true := by decide +kernel
  intro v k a b hv hk ha hb
  have := List.all_eq_true.1 h v (List.mem_range.2 hv)
  rw [hk] at this
  simp only [ha, hb, decide_eq_true_eq] at this
  exact this

end Sample

/-- check of `Reaches` -/
def reachesCheck (s : St ℚ) (now : ℚ) (v : VId) (p : Pt ℚ) : Bool :=
  match s.vert v with
  | .inf _ => false
  | .kin k => !k.infFast && decide (p = pointAt k now) &&
    (match k.stopsAt with | none => true | some t => decide (t = now)) &&
    (match k.startsAt with | none => true | some t => decide (|t - now| ≤ 1 / 10 ^ 10 → t = now))

theorem reaches_of_check {s : St ℚ} {now : ℚ} {v : VId} {p : Pt ℚ} (h : reachesCheck s now v p = true) :
    Reaches s now v p := by
  unfold reachesCheck at h
  split at h
  · cases h
  · rename_i k hk
    simp only [Bool.and_eq_true, decide_eq_true_eq, Bool.not_eq_true'] at h
    obtain ⟨⟨⟨h1, h2⟩, h3⟩, h4⟩ := h
    refine ⟨k, hk, h1, h2, fun t ht => ?_, fun t ht => ?_⟩
    · rw [ht] at h3
      exact of_decide_eq_true h3
    · rw [ht] at h4
      exact of_decide_eq_true h4

/-- check of `Exact` -/
def exactCheck (s s' : St ℚ) (e : Event ℚ) : Bool :=
  let at' : Fin 3 → Pt ℚ := fun j => pointAt (Sample.kv s ((s.tri e.tri).vertices j)) e.time
  (List.range s'.nV).all (fun v => decide (v < s.nV) || !(Sample.kv s' v).infFast) &&
  (match e.tp with
  | .edge =>
    (match e.side with
    | [i] => decide (∀ j, j ≠ i → reachesCheck s e.time ((s.tri e.tri).vertices j) (at' (i + 1)) = true)
    | _ => true) &&
    (!(decide (e.side.length = 3) || decide (∀ j, (s.tri e.tri).neighbours j = none)) ||
      decide (∀ j, reachesCheck s e.time ((s.tri e.tri).vertices j) (at' 0) = true))
  | .flip => true
  | .split =>
    match e.side with
    | [i] => reachesCheck s e.time ((s.tri e.tri).vertices i) (at' i) &&
      (match s.vert ((s.tri e.tri).vertices (i + 2)) with
      | .inf _ => true
      | .kin k => match k.ul with
        | none => true
        | some a => decide ((s.line a).w.1 * (at' i).1 + (s.line a).w.2 * (at' i).2 + (s.line a).b = e.time))
    | _ => true)

theorem exact_of_check {s s' : St ℚ} {e : Event ℚ} (h : exactCheck s s' e = true) : Exact s s' e := by
  unfold exactCheck at h
  simp only [] at h
  rw [Bool.and_eq_true, List.all_eq_true] at h
  obtain ⟨h1, h2⟩ := h
  refine ⟨fun v k hv hv' hk => ?_, fun htp i hi => ?_, fun htp h3 => ?_, fun htp i hi => ?_⟩
  · have := h1 v (List.mem_range.2 hv')
    rw [Bool.or_eq_true, decide_eq_true_eq] at this
    rcases this with q | q
    · exact absurd hv (Nat.not_le.2 q)
    · unfold Sample.kv at q
      rw [hk] at q
      simpa using q
  · rw [htp] at h2
    simp only [hi, Bool.and_eq_true, decide_eq_true_eq] at h2
    exact ⟨_, fun j hj => reaches_of_check (h2.1 j hj)⟩
  · rw [htp] at h2
    simp only [Bool.and_eq_true] at h2
    have h4 := h2.2
    rw [Bool.or_eq_true] at h4
    rcases h4 with q | q
    · rw [Bool.not_eq_true', Bool.or_eq_false_iff, decide_eq_false_iff_not, decide_eq_false_iff_not] at q
      rcases h3 with r | r
      · exact absurd r q.1
      · exact absurd r q.2
    · exact ⟨_, fun j => reaches_of_check (of_decide_eq_true q j)⟩
  · rw [htp] at h2
    simp only [hi, Bool.and_eq_true] at h2
    refine ⟨_, reaches_of_check h2.1, fun k a hk ha => ?_⟩
    have h3 := h2.2
    rw [hk] at h3
    simp only [ha, decide_eq_true_eq] at h3
    exact h3

/-- run `n` iterations from number `m` on, checking that they are exact; the state and the time at the end -/
def exactRun (depth : ℕ) : ℕ → ℕ → ℚ → St ℚ → Option (ℚ × St ℚ)
  | 0, _, now, s => some (now, s)
  | n + 1, m, now, s =>
    match loopStep depth (m + 1 : ℕ) now s with
    | .ok (some (e, now'), s') => if exactCheck s s' e then exactRun depth n (m + 1) now' s' else none
    | _ => none

theorem exactRun_run {depth : ℕ} {s0 : St ℚ} : ∀ (n m : ℕ) {now now' : ℚ} {s s' : St ℚ} {tr : List (Event ℚ × ℚ)},
    Run depth s0 0 m now s tr →
    (∀ k < m, ∀ x u tr' e x' u', Run depth s0 0 k x u tr' →
      loopStep depth (k + 1 : ℕ) x u = .ok (some (e, x'), u') → Exact u u' e) →
    exactRun depth n m now s = some (now', s') →
    ∃ tr', Run depth s0 0 (m + n) now' s' tr' ∧ ∀ k < m + n, ∀ x u tr' e x' u', Run depth s0 0 k x u tr' →
      loopStep depth (k + 1 : ℕ) x u = .ok (some (e, x'), u') → Exact u u' e
  | 0, m, now, now', s, s', tr, hr, ho, h => by cases h; exact ⟨tr, hr, ho⟩
  | n + 1, m, now, now', s, s', tr, hr, ho, h => by
    unfold exactRun at h
    split at h
    · rename_i e x s1 hs
      split_ifs at h with hc
      obtain ⟨tr', h1, h2⟩ := exactRun_run n (m + 1) (hr.step hs) (fun k hk x u tr' e' x' u' hr' hs' => by
        rcases Nat.lt_succ_iff_lt_or_eq.1 hk with q | rfl
        · exact ho k q x u tr' e' x' u' hr' hs'
        · obtain ⟨rfl, rfl, rfl⟩ := run_unique hr hr'
          rw [hs] at hs'
          cases hs'
          exact exact_of_check hc) h
      have hmn : m + (n + 1) = m + 1 + n := by omega
      rw [hmn]
      exact ⟨tr', h1, h2⟩
    · cases h

/-- an exact execution, by evaluation -/
theorem exact_execution {depth n : ℕ} {s0 : St ℚ} (h1 : Initial s0)
    (h3 : Sample.outcome initEventList (fun _ _ => ()) s0 = some ())
    (h4 : (exactRun depth n 0 0 { Sample.after initEventList s0 with immediate := [] }).isSome = true) :
    ∃ now s tr, exactRun depth n 0 0 { Sample.after initEventList s0 with immediate := [] } = some (now, s) ∧
      ExactExecution depth s0 n now s tr := by
  obtain ⟨⟨now, s⟩, h5⟩ := Option.isSome_iff_exists.1 h4
  obtain ⟨tr, h6, h7⟩ := exactRun_run n 0 .start (fun k hk => absurd hk (Nat.not_lt_zero _)) h5
  rw [Nat.zero_add] at h6 h7
  have h3' : initEventList s0 = .ok ((), Sample.after initEventList s0) := by
    refine Sample.after_run ?_
    unfold Sample.outcome at h3 ⊢
    split at h3
    · rfl
    · cases h3
  refine ⟨now, s, tr, h5, ⟨h1, _, h3', h6⟩, fun s1 hs1 m hm x u tr' e x' u' hr hs _ => ?_⟩
  rw [h3'] at hs1
  cases hs1
  exact h7 m hm x u tr' e x' u' hr hs

/-- The hypotheses are met: the whole run on the wedge, in which a side vanishes first, and then what is left.  The
vertex that the first event creates starts at time 1/2 in the node at (5/2, 1/2). -/
example : ∃ s, ExactRun Sample.wedgeDt 100 Sample.wedgeSkeleton s ∧ ∃ v k n, s.vert v = .kin k ∧ v < s.nV ∧
    k.startsAt = some (1 / 2) ∧ k.startNode = some n ∧ k.stopsAt = some 1 ∧ (s.node n).pos = (5 / 2, 1 / 2) := by
  have hi := (C52_initial Sample.wedgeDt id (fun _ _ _ _ h => h) _ Sample.wedgeSkeleton_ok).1
  obtain ⟨now, s, tr, h, he⟩ := exact_execution (depth := 100) (n := 2) (s0 := prepare true none Sample.wedgeSkeleton)
    (C42_initial _ hi) (by decide +kernel) (by decide +kernel)
  have hv : (exactRun 100 2 0 0 { Sample.after initEventList (prepare true none Sample.wedgeSkeleton) with
      immediate := [] }).map (fun r => ((List.range r.2.nV).filterMap fun v => match r.2.vert v with
        | .kin k => match k.startNode with
          | some n => if k.startsAt = some (1 / 2) ∧ k.stopsAt = some 1 ∧ (r.2.node n).pos = (5 / 2, 1 / 2) then
              some v else none
          | none => none
        | .inf _ => none)) = some [9] := by decide +kernel
  rw [h] at hv
  simp only [Option.map_some, Option.some.injEq] at hv
  have hm := List.mem_filterMap.1 (hv.symm ▸ List.mem_cons_self : 9 ∈ _)
  obtain ⟨v, hv1, hv2⟩ := hm
  refine ⟨s, ⟨Sample.wedgeDt_ok, Sample.wedge_lengths, Sample.wedge_angles, Sample.wedge_spikes, id, true, none, 2, now,
    tr, Sample.wedgeSkeleton_ok, he⟩, v, ?_⟩
  split at hv2
  · rename_i k hk
    split at hv2
    · rename_i n hn
      split_ifs at hv2 with hc
      exact ⟨k, n, hk, List.mem_range.1 hv1, hc.1, hn, hc.2.1, hc.2.2⟩
    · cases hv2
  · cases hv2

end Grassfire
