/-
C40: for an input in general position all segments are in the coordinates of the input.
-/
import Verif.Props.Similar

set_option linter.unusedSectionVars false

namespace Grassfire

open Spec

variable {K : Type} [Field K] [LinearOrder K] [IsStrictOrderedRing K]

/-- what `calc_skel` triangulates are the points of the input seen through a transform that is undone by its `backward` -/
theorem shrink_undone {points pts : List (Pt K)} {tr : Option (Transform K)}
    (h : shrinkPoints true points = .ok (pts, tr)) :
    ∃ t, tr = some t ∧ pts.length = points.length ∧
      ∀ (i : ℕ) (p : Pt K), points[i]? = some p → ∃ q, pts[i]? = some q ∧ t.backward q = p := by
  unfold shrinkPoints at h
  rw [if_pos rfl] at h
  obtain ⟨b, h1, h⟩ := bindE_ok h
  obtain ⟨l, h2, h⟩ := bindE_ok h
  cases h
  have hg := mapE_getElem h2
  refine ⟨_, rfl, hg.1, fun i p hp => ?_⟩
  obtain ⟨q, e1, e2⟩ := hg.2 i p hp
  refine ⟨q, e1, ?_⟩
  by_cases z : (getTransform b).scale.1 = 0 ∨ (getTransform b).scale.2 = 0
  · rw [(C15_zero_scale _ p .zeroDivisionError).2 ⟨rfl, z⟩] at e2
    cases e2
  · rw [not_or] at z
    obtain ⟨⟨q', a1, a2⟩, -⟩ := C15_round_trip (getTransform b) z.1 z.2 p
    rw [e2] at a1
    cases a1
    exact a2

/-- C40: for an input in general position (with shrink and without exterior, as `calc_skel` does by default) every end of
every segment is mapped back, by the transform that leads each point that was triangulated back to the point of the input. -/
theorem C40_general [HasSqrt K] [SqrtUnit K] [HasTrig K] {depth : ℕ} {pyid : TId → ℕ}
    {triangulate : List (Pt K) → Except Err (Dt K)} (ht : Triangulates triangulate)
    {points pts : List (Pt K)} {tr : Option (Transform K)} (h1 : shrinkPoints true points = .ok (pts, tr))
    {dt : Dt K} (h2 : triangulate pts = .ok dt) {skel : St K} (h3 : initSkeleton dt pyid = .ok skel)
    (h : GeneralInput dt depth skel (prepare true tr skel)) {now : K} {s : St K}
    (hc : calcSkel depth pyid triangulate points true true = .ok (now, s)) :
    ∃ (t : Transform K) (raw : List (Segment K)), segments { s with transform := none } = .ok raw ∧
      segments s = .ok (raw.map fun g => ((t.backward g.1.1, t.backward g.1.2), g.2)) ∧
      ∀ (i : ℕ) (p : Pt K), points[i]? = some p → ∃ q, pts[i]? = some q ∧ t.backward q = p := by
  obtain ⟨t, rfl, -, hb⟩ := shrink_undone h1
  rw [C55_shrink_check depth pyid triangulate ht points true h1 h2 h3] at hc
  unfold runEvents at hc
  split at hc
  · cases hc
  rename_i u s1 q
  obtain ⟨⟨m, tr', hm, hrun⟩, hi, hq, -⟩ := eventLoop_run hc
  have R := h.run q hrun
  have g : Completed depth (prepare true (some t) skel) now s := ⟨h.good.initial, s1, q, hc⟩
  have htr : s.transform = some t :=
    (growsPre.trans _ _ _ (g_initEventList _ _ _ q) (g_eventLoop depth _ _ _ hc)).transform
  obtain ⟨kv, a, b, hall, -⟩ := C39_after_loop g
  have hs : ∀ v ∈ s.skVertices, (kv v).stopsAt ≠ none := fun v hv => by
    obtain ⟨y, hy⟩ := R.all_stopped (h.lone m) hi hq v hv (kv v) (hall v hv).1
    rw [hy]; nofun
  obtain ⟨raw, e1, e2⟩ := C40_mapped_back_partial s t htr kv a b (fun v hv => (hall v hv).1) (fun v hv => (hall v hv).2.1) hs
    fun v hv => (hall v hv).2.2 (hs v hv)
  exact ⟨t, raw, e1, e2, hb⟩

/-! ### the hypotheses are met -/

/-- the wedge: its skeleton exists, and so all its segments are mapped back -/
example : ∃ (now : ℚ) (s : St ℚ) (t : Transform ℚ) (raw : List (Segment ℚ)), calcSkel 100 id Sample.triangulate Sample.wedgePoints true true = .ok (now, s) ∧
    segments { s with transform := none } = .ok raw ∧
    segments s = .ok (raw.map fun g => ((t.backward g.1.1, t.backward g.1.2), g.2)) := by
  have hok : (match calcSkel 100 id Sample.triangulate Sample.wedgePoints true true with
    | .ok _ => true
    | .error _ => false) = true := by decide +kernel
  split at hok
  · rename_i r e
    obtain ⟨now, s⟩ := r
    obtain ⟨t, raw, h1, h2, -⟩ := C40_general Sample.triangulate_ok Sample.small_points
      Sample.small_triangulate Sample.smallSkeleton_ok Sample.small_input e
    exact ⟨now, s, t, raw, e, h1, h2⟩
  · cases hok

end Grassfire
