/-
Properties C57-C60: the vertices and the wavefronts between them, from `init_skeleton` to the end of
`event_loop`.
-/
import Verif.Proofs.WavefrontInit
import Verif.Props.Offsets

set_option linter.unusedSectionVars false

namespace Grassfire

open Spec

variable {K : Type} [Field K] [LinearOrder K] [IsStrictOrderedRing K] [HasSqrt K] [SqrtUnit K] [HasTrig K]

/-- An execution on what `init_skeleton` (and, if asked for, `internal_only_skeleton`) has delivered
for the triangulation `dt`. -/
structure RunsOn (dt : Dt K) (depth : ℕ) (skel : St K) (s : St K) : Prop where
  consistent : DtOk dt
  exact : ExactLengths dt
  run : ∃ pyid internal tr n now trace, initSkeleton dt pyid = .ok skel ∧
    Execution depth (prepare internal tr skel) n now s trace

theorem RunsOn.waves {dt : Dt K} {depth : ℕ} {skel s : St K} (h : RunsOn dt depth skel s) :
    Waves (InputLine dt) s := by
  obtain ⟨hc, hx, pyid, internal, tr, n, now, trace, h1, h2⟩ := h
  obtain ⟨ts, vs, nbr, unwanted, sorted, hd⟩ := initSkeleton_ok h1
  exact execution_waves ((hd.waves hc hx).prepare internal tr) h2

/-- a complete run is such an execution -/
theorem RunsOn.completed {dt : Dt K} {depth : ℕ} {pyid : TId → ℕ} {internal : Bool} {tr : Option (Transform K)}
    {skel s : St K} {now : K} (hc : DtOk dt) (hx : ExactLengths dt) (h1 : initSkeleton dt pyid = .ok skel)
    (h2 : Completed depth (prepare internal tr skel) now s) : RunsOn dt depth skel s := by
  obtain ⟨n, trace, _, he⟩ := completed_execution h2
  exact ⟨hc, hx, pyid, internal, tr, n, now, trace, h1, he⟩

/-- C57: at every moment of every execution, every vertex that is or was the left neighbour of a
vertex has as its right wavefront the left wavefront of that vertex; and the same with left and
right exchanged. -/
theorem C57_shared {dt : Dt K} {depth : ℕ} {skel s : St K} (h : RunsOn dt depth skel s) :
    SharedWavefronts s := h.waves.shared

/-- C58: the lines that determine how a vertex moves are the lines of its wavefronts, and all of them
are lines of input edges: no event makes up a line of its own. -/
theorem C58_input_lines {dt : Dt K} {depth : ℕ} {skel s : St K} (h : RunsOn dt depth skel s) :
    OwnLines s ∧ AllLines (InputLine dt) s := ⟨h.waves.own, h.waves.lines⟩

/-- C59: a vertex that is not infinitely fast, between two wavefronts that are not parallel: at every
time `t` it is at distance `t` from the lines of both input edges. -/
theorem C59_on_wavefronts {dt : Dt K} {depth : ℕ} {skel s : St K} (h : RunsOn dt depth skel s) :
    OnWavefronts s := h.waves.motion

/-- C59: a vertex of the input between two edges in line (the one case of parallel lines in which the
position is determined exactly): at every time `t` it is at distance `t` from the line. -/
theorem C59_straight {dt : Dt K} {depth : ℕ} {skel s : St K} (h : RunsOn dt depth skel s) {v : VId} {kv : KVertex K}
    (hv : v < skel.nV) (hk : s.vert v = .kin kv) {a b : LineId} (ha : kv.ul = some a) (hb : kv.ur = some b)
    (hab : (s.line a).w = (s.line b).w) (t : K) :
    AtDistance (s.line a) t (kv.origin.1 + t * kv.velocity.1, kv.origin.2 + t * kv.velocity.2) ∧
    AtDistance (s.line b) t (kv.origin.1 + t * kv.velocity.1, kv.origin.2 + t * kv.velocity.2) := by
  obtain ⟨hc, hx, pyid, internal, tr, n, now, trace, h1, h2⟩ := h
  obtain ⟨ts, vs, nbr, unwanted, sorted, hd⟩ := initSkeleton_ok h1
  obtain ⟨s1, hi, hr⟩ := h2.run
  have g : Grows (prepare internal tr skel) s := by
    obtain ⟨now1, s2, tr1, hr1, -, hg⟩ := C37_run depth _ _ _ _ _ _ hr 0 (Nat.zero_le _)
    cases hr1
    refine growsPre.trans _ _ _ (C37_init_event_list _ _ hi) (growsPre.trans _ _ _ ?_ hg)
    exact grows_queues s1 s1.queue []
  have hnV : (prepare internal tr skel).nV = skel.nV := by unfold prepare; cases internal <;> cases tr <;> rfl
  have hline : (prepare internal tr skel).line = skel.line := by unfold prepare; cases internal <;> cases tr <;> rfl
  have hsame := g.vert v (by rw [hnV]; exact hv)
  rw [(prepare_fields skel internal tr).1, hk] at hsame
  cases hk0 : skel.vert v with
  | inf o => rw [hk0] at hsame; exact hsame.elim
  | kin k0 =>
    rw [hk0] at hsame
    have hsame : SameBirth k0 kv := hsame
    obtain ⟨p, q, l, r, e3, e4, e5, e6, e7, e8, e9, e10, e11⟩ := hd.facts hc hx hk0
    rw [g.line, hline] at hab ⊢
    rw [hsame.ul, e3] at ha
    rw [hsame.ur, e4] at hb
    cases ha
    cases hb
    rw [e5, e6] at hab ⊢
    obtain ⟨_, _, _, _, -, -, -, -, u1, -⟩ := e7
    obtain ⟨_, _, _, _, -, -, -, -, u2, -⟩ := e8
    have hbeq : l.b = r.b := by
      unfold AtDistance at e9 e10
      rw [← hab] at e10
      linear_combination e9 - e10
    have hlr : l = r := by cases l; cases r; cases hab; cases hbeq; rfl
    subst hlr
    have hvel : k0.velocity = l.w := by
      have hp := (C12_parallel l l u1 rfl).1 rfl
      unfold getBisector at e11
      rw [hp] at e11
      simp only [bind, Except.bind, Except.ok.injEq] at e11
      rw [← e11]
      unfold add2 mul2
      ext <;> dsimp only <;> ring
    rw [hsame.origin, hsame.velocity, hvel]
    unfold AtDistance at e9 ⊢
    dsimp only
    have : l.w.1 * (k0.origin.1 + t * l.w.1) + l.w.2 * (k0.origin.2 + t * l.w.2) + l.b = t := by
      linear_combination e9 + t * u1
    exact ⟨this, this⟩

/-- `kv` is not infinitely fast and between two lines that cross -/
def Regular (s : St K) (kv : KVertex K) : Prop :=
  kv.infFast = false ∧ ∀ a b, kv.ul = some a → kv.ur = some b → Cross (s.line a) (s.line b)

/-- C60: every line of an offset belongs to one input edge: there is an input edge so that both ends
of the offset line, made by the vertices `v` and `u`, are at the distance of the offset from the
line of the edge.  For each of the two ends: if the vertex is not infinitely fast and not between
two parallel wavefronts. -/
theorem C60_offset_line {dt : Dt K} {depth : ℕ} {skel s : St K} (h : RunsOn dt depth skel s)
    {o : OffsetLine K} (ho : IsOffset s o) :
    ∃ l kv ku, InputLine dt l ∧ s.vert o.v = .kin kv ∧ s.vert o.u = .kin ku ∧
      (Regular s kv → AtDistance l o.time o.p) ∧ (Regular s ku → AtDistance l o.time o.q) := by
  have w := h.waves
  obtain ⟨kv, hk, -, -, hl⟩ := ho.alive
  have hv : o.v < s.nV := by
    obtain ⟨_, _, _, _, _, _, _, _, _, he⟩ := h
    exact (execution_inv he).1.refs.skVertices _ ho.inSkeleton
  obtain ⟨x, hx, hxr⟩ := hist_at_mem hl
  obtain ⟨u, ku, f, e1, e2, e3, e4, e5⟩ := w.shared.left o.v kv hv hk x hx
  rw [hxr] at e1
  cases e1
  have hul := (w.own o.v kv hv hk).1 f e4
  have hur := (w.own o.u ku e2 e3).2 f e5
  refine ⟨s.line (s.wfLine f), kv, ku, w.linesOf o.v kv hv hk _ (.inl hul), hk, e3, ?_, ?_⟩
  · rintro ⟨hi, hc⟩
    have hp := ho.p
    rw [hk] at hp
    unfold Vertex.positionAt at hp
    dsimp only at hp
    rw [if_pos hi] at hp
    obtain ⟨_, b, -, hr, -⟩ := w.lines o.v kv hv hk
    have := (w.motion o.v kv hv hk hi hc _ b hul hr o.time).1
    rw [Except.ok.inj hp] at this
    exact this
  · rintro ⟨hi, hc⟩
    have hq := ho.q
    rw [e3] at hq
    unfold Vertex.positionAt at hq
    dsimp only at hq
    rw [if_pos hi] at hq
    obtain ⟨b, _, hr, -⟩ := w.lines o.u ku e2 e3
    have := (w.motion o.u ku e2 e3 hi hc b _ hr hur o.time).2
    rw [Except.ok.inj hq] at this
    exact this

/-- C57-C60 for `calc_skel` as a whole: for the skeleton that it returns, and for the offsets that
`calc_offsets` computes from it. -/
theorem C60_calc_skel (depth : ℕ) (pyid : TId → ℕ) (hid : Function.Injective pyid)
    (triangulate : List (Pt K) → Except Err (Dt K)) (ht : Triangulates triangulate)
    (points : List (Pt K)) (shrink internal : Bool)
    (hx : ∀ pts tr dt, shrinkPoints shrink points = .ok (pts, tr) → triangulate pts = .ok dt → ExactLengths dt)
    (now : K) (s : St K) (h : calcSkel depth pyid triangulate points shrink internal = .ok (now, s)) :
    ∃ pts tr dt, shrinkPoints shrink points = .ok (pts, tr) ∧ triangulate pts = .ok dt ∧
      SharedWavefronts s ∧ OwnLines s ∧ AllLines (InputLine dt) s ∧ OnWavefronts s ∧
      ∀ (t : K) (ct : ℕ), 0 < ct → ∃ ls, calcOffsets s t ct = .ok ls ∧ ∀ o ∈ ls,
        (∃ i < ct, o.time = i * t / ct) ∧
        ∃ l kv ku, InputLine dt l ∧ s.vert o.v = .kin kv ∧ s.vert o.u = .kin ku ∧
          (Regular s kv → AtDistance l o.time o.p) ∧ (Regular s ku → AtDistance l o.time o.q) := by
  obtain ⟨pts, tr, dt, skel, h1, h2, h3, hc⟩ := C55_completed depth pyid hid triangulate points shrink internal
    now s h
  have hr := RunsOn.completed (ht.consistent _ _ h2) (hx _ _ _ h1 h2) h3 hc
  refine ⟨pts, tr, dt, h1, h2, C57_shared hr, (C58_input_lines hr).1, (C58_input_lines hr).2, C59_on_wavefronts hr, ?_⟩
  intro t ct hct
  obtain ⟨ls, h4, h5⟩ := C43_after_loop hc t ct hct
  exact ⟨ls, h4, fun o ho => ⟨((h5 o).1 ho).2, C60_offset_line hr ((h5 o).1 ho).1⟩⟩

/-! ### the hypotheses are met -/

theorem Sample.rectangle_exact : ExactLengths Sample.rectangleDt := by
  have : ∀ t < Sample.rectangleDt.nT, ∀ i : Fin 3, Sample.rectangleDt.constrained t i = true →
      ∀ a ∈ Sample.rectangleDt.corner t (i + 1), ∀ b ∈ Sample.rectangleDt.corner t (i + 2),
    0 ≤ HasSqrt.sqrt (((Sample.rectangleDt.pos b).1 - (Sample.rectangleDt.pos a).1) ^ 2 +
        ((Sample.rectangleDt.pos b).2 - (Sample.rectangleDt.pos a).2) ^ 2) ∧
    HasSqrt.sqrt (((Sample.rectangleDt.pos b).1 - (Sample.rectangleDt.pos a).1) ^ 2 +
        ((Sample.rectangleDt.pos b).2 - (Sample.rectangleDt.pos a).2) ^ 2) ^ 2 =
      ((Sample.rectangleDt.pos b).1 - (Sample.rectangleDt.pos a).1) ^ 2 +
        ((Sample.rectangleDt.pos b).2 - (Sample.rectangleDt.pos a).2) ^ 2 := by decide +kernel
  intro t i a b ht hc ha hb
  exact this t ht i hc a (Option.mem_def.2 ha) b (Option.mem_def.2 hb)

/-- the lines of the offsets of the rectangle of 4 by 2, after a complete run: the vertices, the
distances of the two ends from the line that their vertices share, and whether both vertices are
regular -/
def Sample.offsetDistances : Option (List (List ℚ × List ℕ × Bool)) :=
  match Sample.outcome Sample.complete (fun now s => (calcOffsets s now 2).toOption.map fun ls => ls.filterMap fun o =>
    match s.vert o.v, s.vert o.u with
    | .kin kv, .kin ku =>
      match kv.ul, ku.ur, kv.ur, ku.ul with
      | some a, some b, some c, some d =>
        if a = b then
          let l := s.line a
          some ([o.time, l.w.1 * o.p.1 + l.w.2 * o.p.2 + l.b, l.w.1 * o.q.1 + l.w.2 * o.q.2 + l.b], [o.v, o.u],
            !kv.infFast && !ku.infFast &&
            decide (1 / 10 ^ 10 < |l.w.1 * (s.line c).w.2 - (s.line c).w.1 * l.w.2|) &&
            decide (1 / 10 ^ 10 < |(s.line d).w.1 * l.w.2 - l.w.1 * (s.line d).w.2|))
        else none
      | _, _, _, _ => none
    | _, _ => none) (internalOnly Sample.rectangleSkeleton) with
  | some (some l) => some l
  | _ => none

example : Sample.offsetDistances =
    some [([0, 0, 0], [0, 6], true), ([0, 0, 0], [2, 0], true), ([0, 0, 0], [4, 2], true), ([0, 0, 0], [6, 4], true),
      ([1 / 2, 1 / 2, 1 / 2], [0, 6], true), ([1 / 2, 1 / 2, 1 / 2], [2, 0], true),
      ([1 / 2, 1 / 2, 1 / 2], [4, 2], true), ([1 / 2, 1 / 2, 1 / 2], [6, 4], true)] := by
  decide +kernel

/-- The hypotheses are met: a complete run on the rectangle, which creates a vertex (number 9). -/
example : ∃ now s, RunsOn Sample.rectangleDt 100 Sample.rectangleSkeleton s ∧
    Completed 100 (prepare true none Sample.rectangleSkeleton) now s ∧ 9 ∈ s.skVertices := by
  have hi := (C52_initial Sample.rectangleDt id (fun _ _ _ _ h => h) _ Sample.rectangleSkeleton_ok).1
  obtain ⟨now, s, hc, hf⟩ := Sample.completed_of_outcome (C42_initial _ hi)
    (f := fun _ s => s.skVertices) (b := [0, 2, 4, 6, 9]) (by decide +kernel)
  exact ⟨now, s, RunsOn.completed (internal := true) (tr := none) Sample.rectangleDt_ok Sample.rectangle_exact
    Sample.rectangleSkeleton_ok hc, hc, by rw [hf]; decide⟩

end Grassfire
