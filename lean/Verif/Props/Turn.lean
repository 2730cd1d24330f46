/-
C107: a polygon that is turned by a quarter turn gets its skeleton turned by a quarter turn, number for number.
-/
import Verif.Proofs.Turn
import Verif.Proofs.TurnInit
import Verif.Props.Order
import Verif.Props.CalcSkel

set_option linter.unusedSectionVars false

namespace Grassfire

open Spec

variable {K : Type} [Field K] [LinearOrder K] [IsStrictOrderedRing K]

/-! ### the events -/

/-- **C107, the events.**  All events of a turned start are those of the start itself, with the same times, and the state
they leave is the turned one; an exception is the same exception. -/
theorem C107_run [HasSqrt K] [HasTrig K] (depth : ℕ) (s : St K) :
    runEvents depth (turnedState s) = turnedResult (runEvents depth s) := by
  unfold runEvents
  rw [tn_initEventList s]
  cases initEventList s with
  | error e => rfl
  | ok r =>
    refine (tn_eventLoop depth r.2).trans ?_
    show turnedRes _ (eventLoop depth r.2) = turnedResult (eventLoop depth r.2)
    cases eventLoop depth r.2 <;> rfl

/-! ### the segments -/

theorem backward_turned (t : Transform K) (p : Pt K) :
    (turnedTransform t).backward (turned p) = turned (t.backward p) := by
  unfold Transform.backward turnedTransform turned
  dsimp only
  rw [neg_mul, neg_add]

theorem segmentOf_turned (s : St K) (v : VId) :
    segmentOf (turnedState s) v = mapOk (Option.map turnedSegment) (segmentOf s v) := by
  obtain ⟨vert, _, _, _, node, _, _, _, _, _, _, _, _, tr, _, _⟩ := s
  unfold segmentOf turnedState
  dsimp only
  cases hv : vert v with
  | inf o => rfl
  | kin k =>
    have hp := vertex_positionAt_turned (.kin k) node 1000
    obtain ⟨o, w, l, r, sa, st, sn, en, ul, ur, wl, wr, i, f, t⟩ := k
    dsimp only [turnedVertex, turnedK] at hp ⊢
    cases st with
    | some x =>
      dsimp only
      by_cases h : sn = en
      · rw [if_pos h, if_pos h]; rfl
      · rw [if_neg h, if_neg h]
        cases sn with
        | none => rfl
        | some a =>
          cases en with
          | none => rfl
          | some b =>
            cases tr with
            | none => rfl
            | some tr =>
              dsimp only [Option.map]
              rw [backward_turned, backward_turned]
              rfl
    | none =>
      dsimp only
      cases sn with
      | none => rfl
      | some a =>
        dsimp only
        rw [hp]
        cases Vertex.positionAt (Vertex.kin _) (fun n => (node n).pos) 1000 <;> rfl

theorem segmentsLoop_turned (s : St K) (l : List VId) (acc : List (Segment K)) :
    segmentsLoop (turnedState s) l (acc.map turnedSegment) =
      mapOk (List.map turnedSegment) (segmentsLoop s l acc) := by
  induction l generalizing acc with
  | nil => rfl
  | cons v vs ih =>
    unfold segmentsLoop
    rw [segmentOf_turned]
    cases segmentOf s v with
    | error e => rfl
    | ok o =>
      cases o with
      | none => exact ih acc
      | some g =>
        have h := ih (acc ++ [g])
        rw [List.map_append] at h
        exact h

/-- **C107, the segments.**  The segments of a turned skeleton are the turned segments, in the same order and with the
same numbers at their ends. -/
theorem C107_segments (s : St K) :
    segments (turnedState s) = (segments s).map (List.map turnedSegment) := by
  refine (segmentsLoop_turned s s.skVertices []).trans ?_
  unfold segments
  cases segmentsLoop s s.skVertices [] <;> rfl

/-! ### `calc_skel` -/

/-- **C107.**  When `calc_skel` succeeds, it succeeds on the points turned by a quarter turn, provided these are
triangulated as the points themselves.  It ends at the same time; nodes and vertices are the turned ones, with the same
numbers, and the segments are the turned segments in the same order. -/
theorem C107_skeleton [HasSqrt K] [HasTrig K] {depth : ℕ} {pyid : TId → ℕ}
    {triangulate : List (Pt K) → Except Err (Dt K)}
    (turns : ∀ pts dt, triangulate pts = .ok dt → triangulate (pts.map turned) = .ok (turnedDt dt))
    {points : List (Pt K)} {shrink internal : Bool} {now : K} {r : St K}
    (h : calcSkel depth pyid triangulate points shrink internal = .ok (now, r)) :
    ∃ q, calcSkel depth pyid triangulate (points.map turned) shrink internal = .ok (now, q) ∧
      (∀ n, q.node n = turnedNode (r.node n)) ∧ (∀ v, q.vert v = turnedVertex (r.vert v)) ∧
      q.skNodes = r.skNodes ∧ q.skVertices = r.skVertices ∧
      segments q = (segments r).map (List.map turnedSegment) := by
  unfold calcSkel at h
  obtain ⟨x, h1, h⟩ := bindE_ok h
  obtain ⟨dt, h2, h⟩ := bindE_ok h
  obtain ⟨s, h3, h⟩ := bindE_ok h
  obtain ⟨_, h4, h⟩ := bindE_ok h
  obtain ⟨L, p, e⟩ := initSkeleton_turned h3
  obtain ⟨L', p', e'⟩ := prepare_turned internal x.2 s L p
  have f := prepare_fresh internal x.2 (initSkeleton_fresh h3)
  have hr : runEvents depth (turnedState (prepare internal x.2 s)) = .ok (now, turnedState r) := by
    rw [C107_run, h]
    rfl
  obtain ⟨ρ, hq⟩ := C108_run (s := turnedState (prepare internal x.2 s)) f.1 f.2 p' hr
  refine ⟨renamedState ρ L' (turnedState r), ?_, fun _ => rfl, fun _ => rfl, rfl, rfl, ?_⟩
  · unfold calcSkel
    rw [shrinkPoints_turned, liftE_ok h1]
    show (liftE (triangulate (x.1.map turned)) >>= _) = _
    rw [turns _ _ (liftE_ok h2)]
    show (initSkeleton (turnedDt dt) pyid >>= _) = _
    rw [e]
    show (liftE (allE (checkStart (prepare internal (x.2.map turnedTransform) { turnedState s with skTriangles := L }))
      (prepare internal (x.2.map turnedTransform) { turnedState s with skTriangles := L }).skVertices) >>= fun _ =>
      runEvents depth (prepare internal (x.2.map turnedTransform) { turnedState s with skTriangles := L })) = _
    rw [e']
    have hs := allE_ok_of (liftE_ok h4) fun v hv => checkStart_turned hv L'
    show (liftE (allE (checkStart { turnedState (prepare internal x.2 s) with skTriangles := L' })
      (prepare internal x.2 s).skVertices) >>= fun _ => _) = _
    rw [hs]
    exact hq
  · rw [segments_renamed, C107_segments]

/-- C107: so a polygon and its image under the half turn around the origin have skeletons that are each other's image. -/
theorem C107_half [HasSqrt K] [HasTrig K] {depth : ℕ} {pyid : TId → ℕ}
    {triangulate : List (Pt K) → Except Err (Dt K)}
    (turns : ∀ pts dt, triangulate pts = .ok dt → triangulate (pts.map turned) = .ok (turnedDt dt))
    {points : List (Pt K)} {shrink internal : Bool} {now : K} {r : St K} {l : List (Segment K)}
    (h : calcSkel depth pyid triangulate points shrink internal = .ok (now, r)) (hl : segments r = .ok l) :
    ∃ q, calcSkel depth pyid triangulate (points.map fun p => (-p.1, -p.2)) shrink internal = .ok (now, q) ∧
      segments q = .ok (l.map fun g => (((-g.1.1.1, -g.1.1.2), (-g.1.2.1, -g.1.2.2)), g.2)) := by
  obtain ⟨q, h1, -, -, -, -, e1⟩ := C107_skeleton turns h
  obtain ⟨q', h2, -, -, -, -, e2⟩ := C107_skeleton turns h1
  refine ⟨q', ?_, ?_⟩
  · rw [List.map_map] at h2
    exact h2
  · rw [e2, e1, hl]
    show Except.ok ((l.map turnedSegment).map turnedSegment) = _
    rw [List.map_map]
    rfl

/-! ### the hypotheses are met -/

/-- the place of the vertex `v`: that of the point, else twice `v` times that of the first point -/
def Sample.turningPos (v : DV) : Option (Pt ℚ) → Option (Pt ℚ) → Pt ℚ
  | some p, _ => p
  | none, some p => (2 * v * p.1, 2 * v * p.2)
  | none, none => (0, 0)

/-- a triangulation for four points that turns with the points -/
def Sample.turning (pts : List (Pt ℚ)) : Except Err (Dt ℚ) :=
  if pts.length = 4 then .ok { Sample.rectangleDt with pos := fun v => Sample.turningPos v pts[v]? pts[0]? }
  else .error .valueError

theorem Sample.turning_turns (pts : List (Pt ℚ)) (dt : Dt ℚ) (h : Sample.turning pts = .ok dt) :
    Sample.turning (pts.map turned) = .ok (turnedDt dt) := by
  unfold Sample.turning at h ⊢
  split_ifs at h with hl
  cases h
  rw [if_pos (by rw [List.length_map]; exact hl)]
  refine congrArg (fun f => Except.ok ({ Sample.rectangleDt with pos := f } : Dt ℚ)) (funext fun v => ?_)
  show _ = turned (Sample.turningPos v pts[v]? pts[0]?)
  rw [List.getElem?_map, List.getElem?_map]
  cases pts[v]? with
  | some p => rfl
  | none =>
    cases pts[0]? with
    | none => exact (by decide : ((0, 0) : Pt ℚ) = turned (0, 0))
    | some p => exact Prod.ext (mul_neg _ _) rfl

/-- the segments of a rectangle -/
def Sample.turningSkeleton (pts : List (Pt ℚ)) : Option (List (Pt ℚ × Pt ℚ)) :=
  match calcSkel 1 id Sample.turning pts true true with
  | .ok (_, s) => (segments s).toOption.map (·.map (·.1))
  | .error _ => none

/-- the theorem applies to all runs with this triangulation -/
example {points : List (Pt ℚ)} {now : ℚ} {r : St ℚ} (h : calcSkel 1 id Sample.turning points true true = .ok (now, r)) :
    ∃ q, calcSkel 1 id Sample.turning (points.map turned) true true = .ok (now, q) :=
  let ⟨q, hq, _⟩ := C107_skeleton Sample.turning_turns h
  ⟨q, hq⟩

/-- The rectangle of 4 by 2 has a skeleton of five segments, and that of the turned rectangle is the turned one. -/
example : (Sample.turningSkeleton [(0, 0), (4, 0), (4, 2), (0, 2)]).map List.length = some 5 ∧
    Sample.turningSkeleton ([(0, 0), (4, 0), (4, 2), (0, 2)].map turned) =
      (Sample.turningSkeleton [(0, 0), (4, 0), (4, 2), (0, 2)]).map
        (List.map fun g => (turned g.1, turned g.2)) := by
  constructor <;> decide +kernel

end Grassfire
