/-
C102: enlarging and shifting the input enlarges and shifts the skeleton.
-/
import Verif.Proofs.Blind
import Verif.Spec.Similar
import Verif.Props.Drawing

set_option linter.unusedSectionVars false

namespace Grassfire

open Spec

variable {K : Type} [Field K] [LinearOrder K] [IsStrictOrderedRing K]

/-! ### the box and the transform -/

theorem moved_lt_fst {a : K} (ha : 0 < a) (b p q : Pt K) :
    (moved a b p).1 < (moved a b q).1 ↔ p.1 < q.1 := by
  simp [moved, ha]

theorem moved_lt_snd {a : K} (ha : 0 < a) (b p q : Pt K) :
    (moved a b p).2 < (moved a b q).2 ↔ p.2 < q.2 := by
  simp [moved, ha]

theorem boxLoop_moved {a : K} (ha : 0 < a) (b : Pt K) (l : List (Pt K)) (ll ur : Pt K) :
    boxLoop (l.map (moved a b)) (moved a b ll) (moved a b ur) =
      (moved a b (boxLoop l ll ur).1, moved a b (boxLoop l ll ur).2) := by
  induction l generalizing ll ur with
  | nil => rfl
  | cons p ps ih =>
    obtain ⟨l1, l2⟩ := ll
    obtain ⟨u1, u2⟩ := ur
    obtain ⟨p1, p2⟩ := p
    have h1 := moved_lt_fst ha b
    have h2 := moved_lt_snd ha b
    simp only [List.map_cons, boxLoop]
    have e1 : (if (moved a b (p1, p2)).1 < (moved a b (l1, l2)).1 then
        ((moved a b (p1, p2)).1, (moved a b (l1, l2)).2) else moved a b (l1, l2)) =
        moved a b (if p1 < l1 then (p1, l2) else (l1, l2)) := by
      by_cases h : p1 < l1
      · rw [if_pos ((h1 _ _).2 h), if_pos h]; rfl
      · rw [if_neg (fun x => h ((h1 _ _).1 x)), if_neg h]
    have e2 : (if (moved a b (u1, u2)).1 < (moved a b (p1, p2)).1 then
        ((moved a b (p1, p2)).1, (moved a b (u1, u2)).2) else moved a b (u1, u2)) =
        moved a b (if u1 < p1 then (p1, u2) else (u1, u2)) := by
      by_cases h : u1 < p1
      · rw [if_pos ((h1 _ _).2 h), if_pos h]; rfl
      · rw [if_neg (fun x => h ((h1 _ _).1 x)), if_neg h]
    have e3 : ∀ c : Pt K, (if (moved a b (p1, p2)).2 < (moved a b c).2 then
        ((moved a b c).1, (moved a b (p1, p2)).2) else moved a b c) =
        moved a b (if p2 < c.2 then (c.1, p2) else c) := by
      intro c
      by_cases h : p2 < c.2
      · rw [if_pos ((h2 _ _).2 h), if_pos h]; rfl
      · rw [if_neg (fun x => h ((h2 _ _).1 x)), if_neg h]
    have e4 : ∀ c : Pt K, (if (moved a b c).2 < (moved a b (p1, p2)).2 then
        ((moved a b c).1, (moved a b (p1, p2)).2) else moved a b c) =
        moved a b (if c.2 < p2 then (c.1, p2) else c) := by
      intro c
      by_cases h : c.2 < p2
      · rw [if_pos ((h2 _ _).2 h), if_pos h]; rfl
      · rw [if_neg (fun x => h ((h2 _ _).1 x)), if_neg h]
    simp only [gt_iff_lt]
    rw [e1, e2, e3, e4]
    exact ih _ _

/-- the transform that belongs to the moved points -/
def movedTransform (a : K) (b : Pt K) (t : Transform K) : Transform K :=
  ⟨(a * t.scale.1, a * t.scale.2), moved a b t.translate⟩

theorem getTransform_moved {a : K} (ha : 0 < a) (b p q : Pt K) :
    getTransform (moved a b p, moved a b q) = movedTransform a b (getTransform (p, q)) := by
  have e : ∀ x y z : K, (a * y + z - (a * x + z)) / 2 = a * ((y - x) / 2) := fun x y z => by ring
  simp only [getTransform, movedTransform, moved, e]
  rw [← mul_max_of_nonneg _ _ ha.le]
  refine congrArg₂ Transform.mk rfl (Prod.ext ?_ ?_)
  · show (a * p.1 + b.1 + (a * q.1 + b.1)) * (1 / 2) = a * ((p.1 + q.1) * (1 / 2)) + b.1
    ring
  · show (a * p.2 + b.2 + (a * q.2 + b.2)) * (1 / 2) = a * ((p.2 + q.2) * (1 / 2)) + b.2
    ring

theorem movedTransform_backward (a : K) (b : Pt K) (t : Transform K) (q : Pt K) :
    (movedTransform a b t).backward q = moved a b (t.backward q) := by
  refine Prod.ext ?_ ?_
  · show q.1 * (a * t.scale.1) + (a * t.translate.1 + b.1) = a * (q.1 * t.scale.1 + t.translate.1) + b.1
    ring
  · show q.2 * (a * t.scale.2) + (a * t.translate.2 + b.2) = a * (q.2 * t.scale.2 + t.translate.2) + b.2
    ring

theorem movedTransform_forward {a : K} (ha : 0 < a) (b : Pt K) (t : Transform K) (p : Pt K) :
    (movedTransform a b t).forward (moved a b p) = t.forward p := by
  have e : ∀ x y z w : K, pdiv (a * x + z - (a * y + z)) (a * w) = pdiv (x - y) w := by
    intro x y z w
    unfold pdiv
    by_cases h : w = 0
    · simp [h]
    · rw [if_neg h, if_neg (mul_ne_zero ha.ne' h)]
      congr 1
      rw [show a * x + z - (a * y + z) = a * (x - y) by ring, mul_div_mul_left _ _ ha.ne']
  unfold Transform.forward
  simp only [movedTransform, moved, e]

theorem mapE_forward_moved {a : K} (ha : 0 < a) (b : Pt K) (t : Transform K) (l : List (Pt K)) :
    mapE (movedTransform a b t).forward (l.map (moved a b)) = mapE t.forward l := by
  induction l with
  | nil => rfl
  | cons p ps ih => simp only [List.map_cons, mapE, ih, movedTransform_forward ha]

theorem shrinkPoints_moved {a : K} (ha : 0 < a) (b : Pt K) (points : List (Pt K)) :
    shrinkPoints true (points.map (moved a b)) =
      (shrinkPoints true points).map fun x => (x.1, x.2.map (movedTransform a b)) := by
  cases points with
  | nil => rfl
  | cons p ps =>
    unfold shrinkPoints
    simp only [if_true, getBox, List.map_cons, boxLoop_moved ha]
    rw [← List.map_cons]
    simp only [bind, Except.bind, getTransform_moved ha, mapE_forward_moved ha]
    cases mapE (getTransform (boxLoop ps p p)).forward (p :: ps) <;> rfl

/-- C102: the points that the triangulation gets do not depend on the scale and the place of the
input, and the result is mapped back to where the input lies. -/
theorem C102_shrink {a : K} (ha : 0 < a) (b : Pt K) (points : List (Pt K)) :
    (∀ e, shrinkPoints true points = .error e → shrinkPoints true (points.map (moved a b)) = .error e) ∧
    ∀ pts tr, shrinkPoints true points = .ok (pts, tr) →
      ∃ t t', tr = some t ∧ shrinkPoints true (points.map (moved a b)) = .ok (pts, some t') ∧
        ∀ q, t'.backward q = moved a b (t.backward q) := by
  rw [shrinkPoints_moved ha]
  constructor
  · intro e h
    rw [h]; rfl
  · intro pts tr h
    rw [h]
    cases tr with
    | none =>
      exfalso
      unfold shrinkPoints at h
      simp only [if_true, bind, Except.bind] at h
      split at h
      · cases h
      · split at h
        · cases h
        · cases h
    | some t => exact ⟨t, _, rfl, rfl, movedTransform_backward a b t⟩

/-! ### the run -/

theorem runEvents_relabel [HasSqrt K] [HasTrig K] (depth : ℕ) (R : Relabel K) (s : St K) :
    runEvents depth (R.st s) = R.res (runEvents depth s) := by
  unfold runEvents
  rw [b_initEventList R s]
  cases h : initEventList s with
  | error e => rfl
  | ok r => exact b_eventLoop depth R r.2

/-- another transform -/
def otherTransform (T : Option (Transform K)) : Relabel K := ⟨fun _ => T, id, fun _ _ _ => Iff.rfl⟩

theorem calcSkel_transform [HasSqrt K] [HasTrig K] {depth : ℕ} {pyid : TId → ℕ}
    {triangulate : List (Pt K) → Except Err (Dt K)} {points : List (Pt K)} {internal : Bool} {now : K} {s : St K}
    (h : calcSkel depth pyid triangulate points true internal = .ok (now, s)) :
    ∃ t, s.transform = some t := by
  unfold calcSkel at h
  cases h1 : shrinkPoints true points with
  | error e => rw [h1] at h; cases h
  | ok x =>
    obtain ⟨pts, tr⟩ := x
    obtain ⟨t, -, rfl, -⟩ := (C102_shrink one_pos (0, 0) points).2 _ _ h1
    rw [h1] at h
    simp only [liftE, bind, Except.bind] at h
    split at h
    · cases h
    · split at h
      · cases h
      · rename_i skel h3
        split at h
        · cases h
        · unfold runEvents at h
          split at h
          · cases h
          · rename_i h5
            refine ⟨t, (growsPre.trans _ _ _ (g_initEventList _ _ _ h5) (g_eventLoop depth _ _ _ h)).transform.trans ?_⟩
            cases internal <;> rfl

theorem calcSkel_moved [HasSqrt K] [HasTrig K] {a : K} (ha : 0 < a) (b : Pt K) (depth : ℕ) (pyid : TId → ℕ)
    (triangulate : List (Pt K) → Except Err (Dt K)) (points : List (Pt K)) (internal : Bool) :
    calcSkel depth pyid triangulate (points.map (moved a b)) true internal =
      match calcSkel depth pyid triangulate points true internal with
      | .ok r => .ok (r.1, (otherTransform (r.2.transform.map (movedTransform a b))).st r.2)
      | .error e => .error e := by
  unfold calcSkel
  rw [shrinkPoints_moved ha]
  cases h1 : shrinkPoints true points with
  | error e => rfl
  | ok x =>
    obtain ⟨pts, tr⟩ := x
    simp only [Except.map, liftE, bind, Except.bind]
    cases h2 : triangulate pts with
    | error e => rfl
    | ok dt =>
      simp only []
      cases h3 : initSkeleton dt pyid with
      | error e => rfl
      | ok skel =>
        simp only []
        cases tr with
        | none =>
          exfalso
          obtain ⟨t, -, h, -⟩ := (C102_shrink ha b points).2 _ _ h1
          cases h
        | some t =>
          have e : prepare internal (some (movedTransform a b t)) skel =
              (otherTransform (some (movedTransform a b t))).st (prepare internal (some t) skel) := by
            cases internal <;> rfl
          have ht : (prepare internal (some t) skel).transform = some t := by
            cases internal <;> rfl
          simp only [Option.map_some, e]
          have ec : checkStart ((otherTransform (some (movedTransform a b t))).st (prepare internal (some t) skel)) =
              checkStart (prepare internal (some t) skel) := rfl
          rw [ec, runEvents_relabel]
          have ev : ((otherTransform (some (movedTransform a b t))).st (prepare internal (some t) skel)).skVertices =
              (prepare internal (some t) skel).skVertices := rfl
          rw [ev]
          cases allE (checkStart (prepare internal (some t) skel)) (prepare internal (some t) skel).skVertices with
          | error e => rfl
          | ok u =>
            simp only []
            cases h4 : runEvents depth (prepare internal (some t) skel) with
            | error e => rfl
            | ok r =>
              have hr : r.2.transform = some t := by
                rw [← ht]
                unfold runEvents at h4
                split at h4
                · cases h4
                · rename_i x s1 h5
                  exact ((growsPre.trans _ _ _ (g_initEventList _ _ _ h5) (g_eventLoop depth _ _ _ h4))).transform
              simp only [hr]
              rfl

/-- C102: enlarging the input `a` times and shifting it by `b` changes nothing but the transform: the
same exception is raised, or the same events happen at the same times and give the same skeleton, with
a transform that leads to the enlarged and shifted places. -/
theorem C102_calc_skel [HasSqrt K] [HasTrig K] {a : K} (ha : 0 < a) (b : Pt K) (depth : ℕ) (pyid : TId → ℕ)
    (triangulate : List (Pt K) → Except Err (Dt K)) (points : List (Pt K)) (internal : Bool) :
    (∀ e, calcSkel depth pyid triangulate points true internal = .error e →
      calcSkel depth pyid triangulate (points.map (moved a b)) true internal = .error e) ∧
    ∀ now s, calcSkel depth pyid triangulate points true internal = .ok (now, s) →
      ∃ s', calcSkel depth pyid triangulate (points.map (moved a b)) true internal = .ok (now, s') ∧
        SameButMoved a b s s' := by
  rw [calcSkel_moved ha]
  constructor
  · intro e h
    rw [h]
  · intro now s h
    rw [h]
    refine ⟨_, rfl, rfl, ?_⟩
    obtain ⟨t, ht⟩ := calcSkel_transform h
    exact ⟨t, movedTransform a b t, ht, by simp [Relabel.st, otherTransform, ht], movedTransform_backward a b t⟩

/-! ### the segments -/

theorem segmentOf_moved {a : K} {b : Pt K} {s s' : St K} (h : SameButMoved a b s s') {v : VId}
    (hv : ∀ kv, s.vert v = .kin kv → kv.stopsAt ≠ none) :
    segmentOf s' v = (segmentOf s v).map (Option.map (movedSegment a b)) := by
  obtain ⟨tr, tr', h1, h2, h3⟩ := h.moves
  have e : s' = { s with transform := some tr' } := by
    have := congrArg (fun x : St K => { x with transform := some tr' }) h.same
    refine Eq.trans ?_ this.symm
    rw [← h2]
  rw [e]
  unfold segmentOf
  cases hk : s.vert v with
  | inf o => rfl
  | kin kv =>
    simp only []
    cases hs : kv.stopsAt with
    | none => exact absurd hs (hv kv hk)
    | some t =>
      simp only []
      by_cases hn : kv.startNode = kv.stopNode
      · rw [if_pos hn, if_pos hn]; rfl
      · rw [if_neg hn, if_neg hn]
        cases kv.startNode with
        | none => rfl
        | some n =>
          cases kv.stopNode with
          | none => rfl
          | some m => simp only [h1, h3]; rfl

theorem segmentsLoop_moved {a : K} {b : Pt K} {s s' : St K} (h : SameButMoved a b s s') (vs : List VId)
    (hv : ∀ v ∈ vs, ∀ kv, s.vert v = .kin kv → kv.stopsAt ≠ none) (l : List (Segment K)) :
    segmentsLoop s' vs (l.map (movedSegment a b)) = (segmentsLoop s vs l).map (List.map (movedSegment a b)) := by
  induction vs generalizing l with
  | nil => rfl
  | cons v vs ih =>
    simp only [segmentsLoop]
    rw [segmentOf_moved h (hv v (List.mem_cons_self ..))]
    cases segmentOf s v with
    | error e => rfl
    | ok o =>
      cases o with
      | none => exact ih (fun w hw => hv w (List.mem_cons_of_mem _ hw)) l
      | some g =>
        have := ih (fun w hw => hv w (List.mem_cons_of_mem _ hw)) (l ++ [g])
        rw [List.map_append] at this
        exact this

/-- C102: the segments of the enlarged and shifted input are the enlarged and shifted segments, when
all vertices have stopped. -/
theorem C102_segments {a : K} {b : Pt K} {s s' : St K} (h : SameButMoved a b s s')
    (hv : ∀ v ∈ s.skVertices, ∀ kv, s.vert v = .kin kv → kv.stopsAt ≠ none) :
    segments s' = (segments s).map (List.map (movedSegment a b)) := by
  have e : s'.skVertices = s.skVertices := (congrArg St.skVertices h.same).symm
  unfold segments
  rw [e]
  exact segmentsLoop_moved h _ hv []

/-- C102: for an input in general position the skeleton of the enlarged and shifted input is the
enlarged and shifted skeleton. -/
theorem C102_general [HasSqrt K] [SqrtUnit K] [HasTrig K] {a : K} (ha : 0 < a) (b : Pt K) {depth : ℕ} {pyid : TId → ℕ}
    {triangulate : List (Pt K) → Except Err (Dt K)} (ht : Triangulates triangulate)
    {points pts : List (Pt K)} {tr : Option (Transform K)} (h1 : shrinkPoints true points = .ok (pts, tr))
    {dt : Dt K} (h2 : triangulate pts = .ok dt) {skel : St K} (h3 : initSkeleton dt pyid = .ok skel)
    (h : GeneralInput dt depth skel (prepare true tr skel)) {now : K} {s : St K}
    (hc : calcSkel depth pyid triangulate points true true = .ok (now, s)) :
    ∃ s' l, segments s = .ok l ∧
      calcSkel depth pyid triangulate (points.map (moved a b)) true true = .ok (now, s') ∧
      segments s' = .ok (l.map (movedSegment a b)) := by
  obtain ⟨s', e1, e2⟩ := (C102_calc_skel ha b depth pyid triangulate points true).2 now s hc
  rw [C55_shrink_check depth pyid triangulate ht points true h1 h2 h3] at hc
  unfold runEvents at hc
  split at hc
  · cases hc
  rename_i u s1 q
  obtain ⟨⟨m, tr', hm, hrun⟩, hi, hq, -⟩ := eventLoop_run hc
  have R := h.run q hrun
  have g : Completed depth (prepare true tr skel) now s := ⟨h.good.initial, s1, q, hc⟩
  obtain ⟨-, -, -, -, l, hl, -⟩ := C39_after_loop g
  have hs := C102_segments e2 fun v hv kv hk => by
    obtain ⟨y, hy⟩ := R.all_stopped (h.lone m) hi hq v hv kv hk
    rw [hy]; nofun
  rw [hl] at hs
  exact ⟨s', l, hl, e1, hs⟩

/-! ### the hypotheses are met -/

/-- The wedge, eight times as large and shifted: the five segments are as well. -/
example : ∃ now s, calcSkel 100 id Sample.triangulate (Sample.wedgePoints.map (moved 8 (5, -7))) true true = .ok (now, s) ∧
    (segments s).toOption.map (·.map (·.1)) = some [((5, -7), (13, 1)), ((29, -7), (25, -3)), ((29, -1), (25, -3)),
      ((5, 17), (13, 1)), ((25, -3), (13, 1))] := by
  have hok : (match calcSkel 100 id Sample.triangulate Sample.wedgePoints true true with
    | .ok (_, s) => (segments s).toOption.map (·.map (·.1))
    | .error _ => none) = some [((0, 0), (1, 1)), ((3, 0), (5 / 2, 1 / 2)), ((3, 3 / 4), (5 / 2, 1 / 2)), ((0, 3), (1, 1)), ((5 / 2, 1 / 2), (1, 1))] := by decide +kernel
  split at hok
  · rename_i now s e
    obtain ⟨s', l, h1, h2, h3⟩ := C102_general (a := 8) (by norm_num) (5, -7) Sample.triangulate_ok Sample.small_points
      Sample.small_triangulate Sample.smallSkeleton_ok Sample.small_input e
    rw [h1] at hok
    refine ⟨now, s', h2, ?_⟩
    rw [h3]
    have hl : l.map (·.1) = _ := Option.some.inj hok
    have : (l.map (movedSegment 8 (5, -7))).map (·.1) =
        (l.map (·.1)).map fun g => (moved (8 : ℚ) (5, -7) g.1, moved (8 : ℚ) (5, -7) g.2) := by
      rw [List.map_map, List.map_map]; rfl
    show some ((l.map (movedSegment 8 (5, -7))).map (·.1)) = _
    rw [this, hl]
    decide +kernel
  · cases hok

/-- points without extent raise the same exception wherever they are -/
example : shrinkPoints true [((1 : ℚ), (1 : ℚ)), (1, 1)] = .error .zeroDivisionError ∧
    shrinkPoints true ([((1 : ℚ), (1 : ℚ)), (1, 1)].map (moved 3 (2, 2))) = .error .zeroDivisionError := by
  have h : shrinkPoints true [((1 : ℚ), (1 : ℚ)), (1, 1)] = .error .zeroDivisionError := by decide +kernel
  exact ⟨h, (C102_shrink (by norm_num) _ _).1 _ h⟩

/-- C102 needs that all vertices have stopped: with the exterior, the rectangle and the rectangle that is
twice as large have the same segment outside, from (-1,-1/2) to (-1001,-2001/2). -/
theorem C102_exterior_violated :
    (∃ l, Sample.skeletonOf false = some l ∧ ((-1, -1 / 2), (-1001, -2001 / 2)) ∈ l) ∧
    (match calcSkel 100 id Sample.triangulate ([(0, 0), (4, 0), (4, 2), (0, 2)].map (moved (2 : ℚ) (0, 0))) true false with
      | .ok (_, s) => ((segments s).toOption.map (·.map (·.1))).any fun l =>
        decide (((-1, -1 / 2), (-1001, -2001 / 2)) ∈ l)
      | .error _ => false) = true :=
  ⟨C40_calc_skel_violated, by decide +kernel⟩

end Grassfire
