/-
C109: the labels of the points of the input are passed on to the segments, and have no other influence.
-/
import Verif.Proofs.Label
import Verif.Props.CalcSkel

set_option linter.unusedSectionVars false

namespace Grassfire

open Spec

variable {K : Type} [Field K] [LinearOrder K] [IsStrictOrderedRing K]

/-! ### the events -/

/-- C109, the events: with other labels the events are the same, and so is what they leave but for the labels. -/
theorem C109_run [HasSqrt K] [HasTrig K] (depth : ℕ) (L : Labelling) (s : St K) :
    runEvents depth (labelledState L s) = labelledResult L (runEvents depth s) := by
  unfold runEvents
  rw [ul_initEventList L s]
  cases initEventList s with
  | error e => rfl
  | ok r => exact ul_eventLoop depth L r.2

/-! ### the start -/

theorem initTri_labelled [HasSqrt K] (L : Labelling) (dt : Dt K) : initTri (labelledDt L dt) = initTri dt := rfl

theorem splitLoop_labelled (L : Labelling) (dt : Dt K) (es g : List DEdge) :
    splitLoop (labelledDt L dt) es g = splitLoop dt es g := by
  induction es generalizing g with
  | nil => rfl
  | cons e es ih =>
    unfold splitLoop
    rw [ih, ih]
    rfl

theorem vertexGroups_labelled (L : Labelling) (dt : Dt K) (v : DV) :
    vertexGroups (labelledDt L dt) v = vertexGroups dt v := by
  have h : splitStar (labelledDt L dt) v = splitStar dt v := by
    unfold splitStar
    rw [splitLoop_labelled]
    rfl
  unfold vertexGroups
  rw [h]
  rfl

theorem makeGroup_labelled [HasSqrt K] (L : Labelling) (dt : Dt K) (ts : List (TriStart K)) (v : DV) (ct : ℕ)
    (gs : List (List DEdge)) : makeGroup (labelledDt L dt) ts v ct gs = makeGroup dt ts v ct gs := by
  induction gs generalizing ct with
  | nil => rfl
  | cons g gs ih =>
    unfold makeGroup
    rw [ih]
    rfl

theorem makeVertices_labelled [HasSqrt K] (L : Labelling) (dt : Dt K) (ts : List (TriStart K)) (ct : ℕ) (vs : List DV) :
    makeVertices (labelledDt L dt) ts ct vs = makeVertices dt ts ct vs := by
  induction vs generalizing ct with
  | nil => rfl
  | cons v vs ih =>
    unfold makeVertices
    rw [vertexGroups_labelled]
    cases vertexGroups dt v with
    | error e => rfl
    | ok g =>
      show (makeGroup _ _ _ _ _ >>= _) = (makeGroup _ _ _ _ _ >>= _)
      rw [makeGroup_labelled]
      cases makeGroup dt ts v ct g with
      | error e => rfl
      | ok a =>
        show (makeVertices _ _ _ _ >>= _) = (makeVertices _ _ _ _ >>= _)
        rw [ih]

theorem finishSkeleton_labelled (L : Labelling) (dt : Dt K) (pyid : TId → ℕ) (ts : List (TriStart K))
    (vs : List (KVertex K × List DEdge)) (kvs : List (KVertex K)) :
    finishSkeleton (labelledDt L dt) pyid ts vs kvs =
      (finishSkeleton dt pyid ts vs kvs).map (labelledState L) := by
  have hb : ∀ {α β : Type} (m : Except Fault α) (f g : α → Except Fault β) (k : β → β),
      (∀ a, f a = (g a).map k) → (m >>= f) = (m >>= g).map k := by
    intro α β m f g k h
    cases m with
    | error e => rfl
    | ok a => exact h a
  unfold finishSkeleton
  refine hb _ _ _ _ fun _ => hb _ _ _ _ fun _ => hb _ _ _ _ fun _ => hb _ _ _ _ fun _ => hb _ _ _ _ fun _ =>
    hb _ _ _ _ fun _ => hb _ _ _ _ fun keys => ?_
  by_cases hc : (((List.range dt.nT).filter fun t => t ∉ unwantedOf ts).all fun t =>
      sides.all fun i => (kref dt vs t i).isSome) = true
  · refine (if_pos hc).trans ?_
    dsimp only
    rw [if_pos hc]
    rfl
  · refine (if_neg hc).trans ?_
    dsimp only
    rw [if_neg hc]
    rfl

theorem initSkeleton_labelled [HasSqrt K] (L : Labelling) (dt : Dt K) (pyid : TId → ℕ) :
    initSkeleton (labelledDt L dt) pyid = (initSkeleton dt pyid).map (labelledState L) := by
  unfold initSkeleton
  rw [initTri_labelled, show (labelledDt L dt).nT = dt.nT from rfl]
  cases mapE (initTri dt) (List.range dt.nT) with
  | error e => rfl
  | ok ts =>
    show (liftE (makeVertices _ _ _ _) >>= _) = Except.map _ (liftE (makeVertices _ _ _ _) >>= _)
    rw [makeVertices_labelled]
    show (liftE (makeVertices dt ts 0 (List.range dt.nV)) >>= _) =
      Except.map _ (liftE (makeVertices dt ts 0 (List.range dt.nV)) >>= _)
    cases makeVertices dt ts 0 (List.range dt.nV) with
    | error e => rfl
    | ok vs =>
      show (liftE (allE _ _) >>= _) = Except.map _ (liftE (allE _ _) >>= _)
      cases allE (checkLink (vs.map (linkVertex vs))) (vs.map (linkVertex vs)) with
      | error e => rfl
      | ok _ => exact finishSkeleton_labelled L dt pyid ts vs _

/-! ### `calc_skel` -/

/-- **C109.**  When the points have other labels, `calc_skel` raises the same exception, or it ends at the same time with
the same skeleton, but for the labels of the nodes, which are the new ones. -/
theorem C109_calc_skel [HasSqrt K] [HasTrig K] (L : Labelling) (depth : ℕ) (pyid : TId → ℕ)
    (triangulate : List (Pt K) → Except Err (Dt K)) (points : List (Pt K)) (shrink internal : Bool) :
    calcSkel depth pyid (fun pts => (triangulate pts).map (labelledDt L)) points shrink internal =
      labelledResult L (calcSkel depth pyid triangulate points shrink internal) := by
  unfold calcSkel
  cases shrinkPoints shrink points with
  | error e => rfl
  | ok x =>
    show (liftE ((triangulate x.1).map (labelledDt L)) >>= _) = labelledResult L (liftE (triangulate x.1) >>= _)
    cases triangulate x.1 with
    | error e => rfl
    | ok dt =>
      show (initSkeleton (labelledDt L dt) pyid >>= _) = labelledResult L (initSkeleton dt pyid >>= _)
      rw [initSkeleton_labelled]
      cases initSkeleton dt pyid with
      | error e => rfl
      | ok s =>
        have e : prepare internal x.2 (labelledState L s) = labelledState L (prepare internal x.2 s) := by
          cases internal <;> cases x.2 <;> rfl
        show (liftE (allE (checkStart (prepare internal x.2 (labelledState L s)))
            (prepare internal x.2 (labelledState L s)).skVertices) >>= fun _ =>
            runEvents depth (prepare internal x.2 (labelledState L s))) =
          labelledResult L (liftE (allE (checkStart (prepare internal x.2 s)) (prepare internal x.2 s).skVertices) >>=
            fun _ => runEvents depth (prepare internal x.2 s))
        rw [e]
        show (liftE (allE (checkStart (prepare internal x.2 s)) (prepare internal x.2 s).skVertices) >>= _) = _
        cases allE (checkStart (prepare internal x.2 s)) (prepare internal x.2 s).skVertices with
        | error e => rfl
        | ok _ => exact C109_run depth L _

theorem segmentOf_labelled (L : Labelling) (s : St K) (v : VId) :
    segmentOf (labelledState L s) v = (segmentOf s v).map (Option.map (labelledSegment L)) := by
  unfold segmentOf
  show (match s.vert v with
    | .inf _ => _
    | .kin kv => _) = _
  cases s.vert v with
  | inf o => rfl
  | kin k =>
    dsimp only
    cases k.stopsAt with
    | some x =>
      dsimp only
      by_cases h : k.startNode = k.stopNode
      · rw [if_pos h, if_pos h]; rfl
      · rw [if_neg h, if_neg h]
        cases k.startNode with
        | none => rfl
        | some a =>
          cases k.stopNode with
          | none => rfl
          | some b =>
            show (match s.transform with
              | some tr => _
              | none => _) = _
            cases s.transform <;> rfl
    | none =>
      dsimp only
      cases k.startNode with
      | none => rfl
      | some a =>
        show (Vertex.positionAt (Vertex.kin k) (fun n => (s.node n).pos) 1000 >>= _) =
          Except.map _ (Vertex.positionAt (Vertex.kin k) (fun n => (s.node n).pos) 1000 >>= _)
        cases Vertex.positionAt (Vertex.kin k) (fun n => (s.node n).pos) 1000 with
        | error e => rfl
        | ok p =>
          show Except.ok (some (((s.node a).pos, p), (L.f (s.node a).info, none))) =
            Except.ok (some (((s.node a).pos, p), (L.f (s.node a).info, L.f none)))
          rw [L.none]

/-- C109, the segments: they have the same ends, with the new labels. -/
theorem C109_segments (L : Labelling) (s : St K) :
    segments (labelledState L s) = (segments s).map (List.map (labelledSegment L)) := by
  have h : ∀ l acc, segmentsLoop (labelledState L s) l (acc.map (labelledSegment L)) =
      (segmentsLoop s l acc).map (List.map (labelledSegment L)) := by
    intro l
    induction l with
    | nil => exact fun _ => rfl
    | cons v vs ih =>
      intro acc
      unfold segmentsLoop
      rw [segmentOf_labelled]
      cases segmentOf s v with
      | error x => rfl
      | ok o =>
        cases o with
        | none => exact ih acc
        | some g =>
          have k := ih (acc ++ [g])
          rw [List.map_append] at k
          exact k
  exact h s.skVertices []

/-- the triangulation of points that all have another label: the point `v` has the label `v` -/
def numbered (dt : Dt K) : Dt K := { dt with info := some }

/-- C109: so any two labellings of the same points give the same skeleton but for the labels: both come from the skeleton
in which each point of the input is labelled with its own number. -/
theorem C109_any [HasSqrt K] [HasTrig K] (labels : DV → Option ℕ) (depth : ℕ) (pyid : TId → ℕ)
    (triangulate : List (Pt K) → Except Err (Dt K)) (points : List (Pt K)) (shrink internal : Bool) :
    calcSkel depth pyid (fun pts => (triangulate pts).map fun dt => { dt with info := labels }) points shrink internal =
      labelledResult ⟨fun o => o.bind labels, rfl⟩
        (calcSkel depth pyid (fun pts => (triangulate pts).map numbered) points shrink internal) := by
  rw [← C109_calc_skel]
  congr 1
  funext pts
  cases triangulate pts <;> rfl

/-! ### the hypotheses are met -/

/-- the labels at the ends of the segments of the rectangle of 4 by 2 when its corners have labels -/
def Sample.labelsOf (labels : DV → Option ℕ) : Option (List (Option ℕ × Option ℕ)) :=
  match calcSkel 1 id (fun pts => (Sample.triangulate pts).map fun dt => { dt with info := labels })
      [(0, 0), (4, 0), (4, 2), (0, 2)] true true with
  | .ok (_, s) => (segments s).toOption.map (·.map (·.2))
  | .error _ => none

/-- the labels of the corners arrive at the segments; the nodes inside have none -/
example : Sample.labelsOf (fun v => some (v + 10)) =
    (Sample.labelsOf some).map (List.map fun g => (g.1.map (· + 10), g.2.map (· + 10))) ∧
    (Sample.labelsOf some).map (·.take 4) = some [(some 0, none), (some 1, none), (some 2, none), (some 3, none)] := by
  constructor <;> decide +kernel

end Grassfire
