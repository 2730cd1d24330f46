/-
C103: of the ids of the triangles only the order has influence on the skeleton; and it has.
-/
import Verif.Spec.Ids
import Verif.Props.Similar

set_option linter.unusedSectionVars false

namespace Grassfire

open Spec

variable {K : Type} [Field K] [LinearOrder K]

/-- other ids, in the same order, in the place of `p` -/
noncomputable def otherIds {p q : TId → ℕ} (h : SameOrder p q) : Relabel K :=
  open Classical in
  { transform := id
    pyid := fun r => if r = p then q else r
    order := fun r a b => by
      by_cases e : r = p
      · subst e
        rw [if_pos rfl]
        exact (h a b).symm
      · rw [if_neg e] }

theorem otherIds_st {p q : TId → ℕ} (h : SameOrder p q) {s : St K} (hs : s.pyid = p) :
    (otherIds h).st s = { s with pyid := q } := by
  unfold Relabel.st otherIds
  simp only [hs, if_true]
  rfl

theorem finishSkeleton_ids (dt : Dt K) (p q : TId → ℕ) (ts : List (TriStart K))
    (vs : List (KVertex K × List DEdge)) (kvs : List (KVertex K)) :
    finishSkeleton dt q ts vs kvs =
      (finishSkeleton dt p ts vs kvs).map fun s => { s with pyid := q } := by
  unfold finishSkeleton
  simp only [bind, Except.bind]
  repeat' split
  all_goals rfl

theorem initSkeleton_ids [HasSqrt K] (dt : Dt K) (p q : TId → ℕ) :
    initSkeleton dt q = (initSkeleton dt p).map fun s => { s with pyid := q } := by
  unfold initSkeleton
  simp only [bind, Except.bind]
  repeat' split
  all_goals first
    | rfl
    | exact finishSkeleton_ids _ _ _ _ _ _

theorem initSkeleton_pyid [HasSqrt K] {dt : Dt K} {p : TId → ℕ} {s : St K} (h : initSkeleton dt p = .ok s) :
    s.pyid = p := by
  have e := initSkeleton_ids dt p p
  rw [h] at e
  exact congrArg St.pyid (Except.ok.inj e)

theorem prepare_ids (internal : Bool) (tr : Option (Transform K)) (s : St K) (q : TId → ℕ) :
    prepare internal tr { s with pyid := q } = { prepare internal tr s with pyid := q } := by
  cases internal <;> cases tr <;> rfl

theorem prepare_pyid (internal : Bool) (tr : Option (Transform K)) (s : St K) :
    (prepare internal tr s).pyid = s.pyid := by
  cases internal <;> cases tr <;> rfl

variable [IsStrictOrderedRing K] [HasSqrt K] [HasTrig K]

theorem runEvents_pyid {depth : ℕ} {s : St K} {r : K × St K} (h : runEvents depth s = .ok r) :
    r.2.pyid = s.pyid := by
  unfold runEvents at h
  split at h
  · cases h
  · rename_i h5
    exact (growsPre.trans _ _ _ (g_initEventList _ _ _ h5) (g_eventLoop depth _ _ _ h)).pyid

/-- C103: numbering the triangles differently, in the same order, changes nothing: the same exception is
raised, or the last event is at the same time and the skeleton is the same but for the numbers. -/
theorem C103_same_order {p q : TId → ℕ} (h : SameOrder p q) (depth : ℕ)
    (triangulate : List (Pt K) → Except Err (Dt K)) (points : List (Pt K)) (shrink internal : Bool) :
    calcSkel depth q triangulate points shrink internal =
      (calcSkel depth p triangulate points shrink internal).map fun r => (r.1, { r.2 with pyid := q }) := by
  unfold calcSkel
  simp only [bind, Except.bind]
  cases liftE (shrinkPoints shrink points) with
  | error e => rfl
  | ok x =>
    simp only []
    cases liftE (triangulate x.1) with
    | error e => rfl
    | ok dt =>
      simp only [initSkeleton_ids dt p q]
      cases h3 : initSkeleton dt p with
      | error e => rfl
      | ok skel =>
        have hp : (prepare internal x.2 skel).pyid = p := (prepare_pyid internal x.2 skel).trans (initSkeleton_pyid h3)
        simp only [Except.map, prepare_ids]
        have ec : checkStart { prepare internal x.2 skel with pyid := q } = checkStart (prepare internal x.2 skel) := rfl
        simp only [ec]
        cases liftE (allE (checkStart (prepare internal x.2 skel)) (prepare internal x.2 skel).skVertices) with
        | error e => rfl
        | ok u =>
          simp only []
          rw [← otherIds_st h hp, runEvents_relabel]
          cases h4 : runEvents depth (prepare internal x.2 skel) with
          | error e => rfl
          | ok r =>
            have hr := (runEvents_pyid h4).trans hp
            simp only [Relabel.res, otherIds_st h hr]

/-- C103: so the segments are the same, in the same order. -/
theorem C103_segments {p q : TId → ℕ} (h : SameOrder p q) {depth : ℕ}
    {triangulate : List (Pt K) → Except Err (Dt K)} {points : List (Pt K)} {shrink internal : Bool} {now : K} {s : St K}
    (hc : calcSkel depth p triangulate points shrink internal = .ok (now, s)) :
    ∃ s', calcSkel depth q triangulate points shrink internal = .ok (now, s') ∧ segments s' = segments s := by
  rw [C103_same_order h, hc]
  refine ⟨_, rfl, ?_⟩
  have e1 : ∀ v, segmentOf { s with pyid := q } v = segmentOf s v := fun _ => rfl
  have e2 : ∀ vs l, segmentsLoop { s with pyid := q } vs l = segmentsLoop s vs l := by
    intro vs
    induction vs with
    | nil => intro l; rfl
    | cons v vs ih => intro l; simp only [segmentsLoop, e1, ih]
  exact e2 _ _

/-! ### the hypotheses are met, and the order matters -/

/-- the skeleton of the rectangle 4 by 2, when python numbers the triangles as `p` says -/
def Sample.skeletonWith (p : TId → ℕ) : Option (List (Pt ℚ × Pt ℚ)) :=
  match calcSkel 100 p Sample.triangulate [(0, 0), (4, 0), (4, 2), (0, 2)] true true with
  | .ok (_, s) => (segments s).toOption.map (·.map (·.1))
  | .error _ => none

/-- Addresses instead of 0, 1, 2, …: the same list of segments. -/
example : Sample.skeletonWith (fun t => 140234 + 56 * t) =
    some [((0, 0), 1, 1), ((4, 0), 3, 1), ((4, 2), 3, 1), ((0, 2), 1, 1), ((3, 1), 1, 1)] := by
  have h := Sample.skeletonOf_internal
  unfold Sample.skeletonOf at h
  unfold Sample.skeletonWith
  have ho : SameOrder id (fun t => 140234 + 56 * t) := fun a b => by simp only [id]; omega
  split at h
  · rename_i now s e
    obtain ⟨s', e1, e2⟩ := C103_segments ho e
    rw [e1]
    show (segments s').toOption.map (·.map (·.1)) = _
    rw [e2]
    exact h
  · cases h

/-- C103: with the triangles in the opposite order in memory the ridge of the rectangle runs in the opposite
direction.  So the same program can return different lists for the same input in two runs. -/
theorem C103_order_matters :
    Sample.skeletonWith (fun t => t) =
      some [((0, 0), 1, 1), ((4, 0), 3, 1), ((4, 2), 3, 1), ((0, 2), 1, 1), ((3, 1), 1, 1)] ∧
    Sample.skeletonWith (fun t => 100 - t) =
      some [((0, 0), 1, 1), ((4, 0), 3, 1), ((4, 2), 3, 1), ((0, 2), 1, 1), ((1, 1), 3, 1)] := by
  constructor <;> decide +kernel

end Grassfire
