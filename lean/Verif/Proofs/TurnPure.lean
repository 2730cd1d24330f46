/-
What the computations with numbers give after a quarter turn (lemmas for C107).
-/
import Verif.Spec.Turn
import Verif.Events.Loop
import Verif.Proofs.CalcLemmas

set_option linter.unusedSectionVars false

namespace Grassfire

open Spec

variable {K : Type} [Field K] [LinearOrder K] [IsStrictOrderedRing K]

/-! ### vectors and lines -/

theorem turned_inj {p q : Pt K} : turned p = turned q ↔ p = q := by
  unfold turned
  rw [Prod.mk.injEq, neg_inj, Prod.ext_iff]
  exact and_comm

theorem turned_zero {p : Pt K} : turned p = (0, 0) ↔ p = (0, 0) := by
  unfold turned
  rw [Prod.mk.injEq, neg_eq_zero, Prod.ext_iff]
  exact and_comm

theorem turnedLine_inj {l r : Line2 K} : turnedLine l = turnedLine r ↔ l = r := by
  obtain ⟨w, b⟩ := l
  obtain ⟨w', b'⟩ := r
  unfold turnedLine
  rw [Line2.mk.injEq, Line2.mk.injEq, turned_inj]

theorem dot2_turned (a b : Pt K) : dot2 (turned a) (turned b) = dot2 a b := by
  unfold dot2 turned; ring

theorem add2_turned (a b : Pt K) : add2 (turned a) (turned b) = turned (add2 a b) := by
  unfold add2 turned; dsimp only; rw [neg_add]

theorem sub2_turned (a b : Pt K) : sub2 (turned a) (turned b) = turned (sub2 a b) := by
  unfold sub2 turned; dsimp only; rw [neg_sub_neg, neg_sub]

theorem mul2_turned (a : Pt K) (c : K) : mul2 (turned a) c = turned (mul2 a c) := by
  unfold mul2 turned; dsimp only; rw [neg_mul]

theorem norm2d_turned [HasSqrt K] (a : Pt K) : norm2d (turned a) = norm2d a := by
  unfold norm2d normSq2; rw [dot2_turned]

/-- the result of a pure computation turned -/
def mapOk {α β : Type} (f : α → β) : Except Err α → Except Err β
  | .ok a => .ok (f a)
  | .error e => .error e

theorem pdiv_neg (a c : K) : pdiv (-a) c = mapOk (-·) (pdiv a c) := by
  unfold pdiv
  split
  · rfl
  · simp only [mapOk, neg_div]

theorem div2_turned (a : Pt K) (c : K) : div2 (turned a) c = mapOk turned (div2 a c) := by
  unfold div2 turned
  dsimp only
  rw [pdiv_neg]
  unfold pdiv
  split <;> rfl

theorem make_turned [HasSqrt K] (w : Pt K) (b : K) : Line2.make (turned w) b = mapOk turnedLine (Line2.make w b) := by
  unfold Line2.make unit2
  dsimp only
  rw [norm2d_turned, div2_turned]
  cases pdiv b (norm2d w) with
  | error e => rfl
  | ok x =>
    cases div2 w (norm2d w) with
    | error e => rfl
    | ok y => rfl

theorem translated_turned [HasSqrt K] (l : Line2 K) (v : Pt K) :
    (turnedLine l).translated (turned v) = mapOk turnedLine (l.translated v) := by
  unfold Line2.translated
  dsimp only [turnedLine]
  rw [dot2_turned, make_turned]
  split <;> rfl

theorem atTime_turned [HasSqrt K] (l : Line2 K) (now : K) :
    (turnedLine l).atTime now = mapOk turnedLine (l.atTime now) := by
  unfold Line2.atTime
  split
  · rfl
  · rw [← translated_turned, ← mul2_turned]
    rfl

/-- what two lines have in common, turned -/
def turnedLLI : LLI K → LLI K
  | .noIntersection => .noIntersection
  | .point p => .point (turned p)
  | .line l => .line (turnedLine l)

theorem lineLineIntersect_turned (l r : Line2 K) :
    lineLineIntersect (turnedLine l) (turnedLine r) = mapOk turnedLLI (lineLineIntersect l r) := by
  obtain ⟨⟨a1, b1⟩, c1⟩ := l
  obtain ⟨⟨a2, b2⟩, c2⟩ := r
  unfold lineLineIntersect turnedLine turned
  dsimp only
  have e1 : -b1 * a2 - -b2 * a1 = a1 * b2 - a2 * b1 := by ring
  have e2 : -b1 * c2 - -b2 * c1 = -(b1 * c2 - b2 * c1) := by ring
  have e3 : a1 * c2 - a2 * c1 = -(a2 * c1 - a1 * c2) := by ring
  have e4 : -b2 * c1 - -b1 * c2 = b1 * c2 - b2 * c1 := by ring
  rw [e1]
  by_cases h : nearZero (a1 * b2 - a2 * b1) = true
  · rw [if_pos h, if_pos h, e2, nearZero_neg, Bool.and_comm]
    split <;> rfl
  · rw [if_neg h, if_neg h, e3, e4, pdiv_neg]
    unfold pdiv
    split <;> rfl

theorem getBisector_turned [HasSqrt K] (l r : Line2 K) :
    getBisector (turnedLine l) (turnedLine r) = mapOk turned (getBisector l r) := by
  have hl : (turnedLine l).translated (turnedLine l).w = mapOk turnedLine (l.translated l.w) := translated_turned l l.w
  have hr : (turnedLine r).translated (turnedLine r).w = mapOk turnedLine (r.translated r.w) := translated_turned r r.w
  unfold getBisector
  rw [lineLineIntersect_turned, hl, hr]
  cases lineLineIntersect l r with
  | error e => rfl
  | ok x =>
    cases x with
    | noIntersection => exact congrArg _ (add2_turned _ _)
    | line x =>
      show Except.ok _ = Except.ok _
      rw [← add2_turned, ← mul2_turned, ← mul2_turned]
      rfl
    | point p =>
      cases l.translated l.w with
      | error e => rfl
      | ok l' =>
        cases r.translated r.w with
        | error e => rfl
        | ok r' =>
          show (lineLineIntersect (turnedLine l') (turnedLine r') >>= _) = mapOk turned (lineLineIntersect l' r' >>= _)
          rw [lineLineIntersect_turned]
          cases lineLineIntersect l' r' with
          | error e => rfl
          | ok y =>
            cases y with
            | noIntersection => rfl
            | line _ => rfl
            | point q => exact congrArg _ (sub2_turned _ _)

theorem getIntersectionAtT_turned [HasSqrt K] (l r : Line2 K) (t : K) :
    getIntersectionAtT (turnedLine l) (turnedLine r) t = mapOk turned (getIntersectionAtT l r t) := by
  unfold getIntersectionAtT
  rw [atTime_turned, atTime_turned]
  cases l.atTime t with
  | error e => rfl
  | ok l' =>
    cases r.atTime t with
    | error e => rfl
    | ok r' =>
      show (lineLineIntersect (turnedLine l') (turnedLine r') >>= _) = mapOk turned (lineLineIntersect l' r' >>= _)
      rw [lineLineIntersect_turned]
      cases lineLineIntersect l' r' with
      | error e => rfl
      | ok y => cases y <;> rfl

theorem averagePos_turned (l : List (Pt K)) : averagePos (l.map turned) = mapOk turned (averagePos l) := by
  have e1 : ((l.map turned).map (·.1)).sum = -(l.map (·.2)).sum := by
    induction l with
    | nil => simp
    | cons x xs ih => simp only [List.map_cons, List.sum_cons, ih]; unfold turned; dsimp only; ring
  have e2 : (l.map turned).map (·.2) = l.map (·.1) := by
    rw [List.map_map]; rfl
  unfold averagePos
  rw [e1, e2, List.length_map]
  dsimp only
  rw [pdiv_neg]
  unfold pdiv
  split <;> rfl

/-- velocity and place of a new vertex, turned -/
theorem newMotion_turned [HasSqrt K] [HasTrig K] (l r : Line2 K) (now : K) (p : Pt K) :
    newMotion (turnedLine l) (turnedLine r) now (turned p) =
      mapOk (fun m => (turned m.1, m.2.map turned)) (newMotion l r now p) := by
  have hl : (turnedLine l).translated (turnedLine l).w = mapOk turnedLine (l.translated l.w) := translated_turned l l.w
  have hr : (turnedLine r).translated (turnedLine r).w = mapOk turnedLine (r.translated r.w) := translated_turned r r.w
  have hd : add2 (turnedLine l).w (turnedLine r).w = turned (add2 l.w r.w) := add2_turned _ _
  have ho : dot2 (turnedLine l).w (turnedLine r).w = dot2 l.w r.w := dot2_turned _ _
  have hz : (nearZero (turned (add2 l.w r.w)).1 && nearZero (turned (add2 l.w r.w)).2) =
      (nearZero (add2 l.w r.w).1 && nearZero (add2 l.w r.w).2) := by
    unfold turned
    dsimp only
    rw [nearZero_neg, Bool.and_comm]
  have z : turned ((0, 0) : Pt K) = (0, 0) := turned_zero.2 rfl
  unfold newMotion
  rw [lineLineIntersect_turned, hl, hr, hd, ho]
  dsimp only
  rw [hz]
  split
  · exact congrArg (fun q => Except.ok (q, none)) z.symm
  cases lineLineIntersect l r with
  | error e => rfl
  | ok x =>
    cases x with
    | noIntersection => exact congrArg (fun q => Except.ok (q, none)) z.symm
    | line x =>
      show Except.ok _ = Except.ok _
      rw [show (turnedLine l).w = turned l.w from rfl, mul2_turned, mul2_turned, add2_turned]
      rfl
    | point q =>
      cases l.translated l.w with
      | error e => rfl
      | ok l' =>
        cases r.translated r.w with
        | error e => rfl
        | ok r' =>
          show (lineLineIntersect (turnedLine l') (turnedLine r') >>= _) = mapOk _ (lineLineIntersect l' r' >>= _)
          rw [lineLineIntersect_turned]
          cases lineLineIntersect l' r' with
          | error e => rfl
          | ok y =>
            cases y with
            | noIntersection => rfl
            | line _ => rfl
            | point q' =>
              show Except.ok _ = Except.ok _
              rw [sub2_turned]; rfl

theorem orient2d_turned (a b c : Pt K) : orient2d (turned a) (turned b) (turned c) = orient2d a b c := by
  unfold orient2d turned; ring

/-! ### collapse.py -/

/-- what collapse.py sees of a vertex, turned -/
def turnedView (v : VView K) : VView K :=
  { v with origin := turned v.origin, velocity := turned v.velocity, startPos := v.startPos.map turned,
           ul := v.ul.map turnedLine, ur := v.ur.map turnedLine }

/-- what collapse.py sees of a triangle, turned -/
def turnedTView (t : TView K) : TView K := { t with v := fun i => turnedView (t.v i) }

theorem view_positionAt_turned (v : VView K) (x : K) : (turnedView v).positionAt x = mapOk turned (v.positionAt x) := by
  obtain ⟨k, o, w, f, p, ul, ur⟩ := v
  cases k
  · rfl
  cases f
  · show Except.ok (-o.2 + x * -w.2, o.1 + x * w.1) = Except.ok (-(o.2 + x * w.2), o.1 + x * w.1)
    rw [mul_neg, neg_add]
  · cases p <;> rfl

theorem distance2At_turned (v o : VView K) (x : K) : (turnedView v).distance2At (turnedView o) x = v.distance2At o x := by
  unfold VView.distance2At
  rw [view_positionAt_turned, view_positionAt_turned]
  cases v.positionAt x with
  | error e => rfl
  | ok p =>
    cases o.positionAt x with
    | error e => rfl
    | ok q =>
      show Except.ok _ = Except.ok _
      congr 1
      ring

theorem vertexCrashTime_turned (o d a : VView K) :
    vertexCrashTime (turnedView o) (turnedView d) (turnedView a) = vertexCrashTime o d a := by
  unfold vertexCrashTime
  dsimp only [turnedView]
  rw [sub2_turned]
  cases o.ur with
  | none => rfl
  | some ur =>
    cases d.ul with
    | none => rfl
    | some ul =>
      simp only [Option.map_some, ne_eq, turnedLine_inj]
      rw [show (turnedLine ur).w = turned ur.w from rfl, dot2_turned, dot2_turned]

theorem collapseTimeEdge_turned (a b : VView K) : collapseTimeEdge (turnedView a) (turnedView b) = collapseTimeEdge a b := by
  unfold collapseTimeEdge
  dsimp only [turnedView]
  rw [sub2_turned, sub2_turned, dot2_turned, dot2_turned]

theorem areaCoeff_turned (a b c : VView K) :
    areaCollapseTimeCoeff (turnedView a) (turnedView b) (turnedView c) = areaCollapseTimeCoeff a b c := by
  unfold areaCollapseTimeCoeff
  dsimp only [turnedView, turned]
  refine Prod.ext ?_ (Prod.ext ?_ ?_) <;> dsimp only <;> ring

theorem areaTimes_turned [HasSqrt K] (a b c : VView K) :
    areaCollapseTimes (turnedView a) (turnedView b) (turnedView c) = areaCollapseTimes a b c := by
  unfold areaCollapseTimes
  rw [areaCoeff_turned]

theorem dists2_turned (t : TView K) (x : K) : (turnedTView t).dists2 x = t.dists2 x := by
  unfold TView.dists2
  dsimp only [turnedTView]
  simp only [distance2At_turned]

theorem dists_turned [HasSqrt K] (t : TView K) (x : K) : (turnedTView t).dists x = t.dists x := by
  unfold TView.dists
  rw [dists2_turned]

theorem type_turned (t : TView K) : (turnedTView t).type = t.type := rfl

theorem computeEvent0_turned [HasSqrt K] (t : TView K) (now : K) (sv : Sieve) :
    computeEvent0 (turnedTView t) now sv = computeEvent0 t now sv := by
  unfold computeEvent0 degenerateNow0 flipLongest edgeCollapse0
  simp only [dists_turned, dists2_turned, type_turned]
  simp only [turnedTView, distance2At_turned, collapseTimeEdge_turned, areaTimes_turned]
  rfl

theorem computeEvent1_turned [HasSqrt K] (t : TView K) (now : K) (sv : Sieve) :
    computeEvent1 (turnedTView t) now sv = computeEvent1 t now sv := by
  unfold computeEvent1 crashNow1 case1A case1B case1D
  simp only [dists_turned, dists2_turned, type_turned]
  simp only [turnedTView, distance2At_turned, collapseTimeEdge_turned, areaTimes_turned, vertexCrashTime_turned,
    areaCoeff_turned]
  rfl

theorem computeEvent2_turned [HasSqrt K] (t : TView K) (now : K) (sv : Sieve) :
    computeEvent2 (turnedTView t) now sv = computeEvent2 t now sv := by
  unfold computeEvent2
  simp only [dists_turned, type_turned]
  simp only [turnedTView, collapseTimeEdge_turned, areaTimes_turned]
  rfl

theorem computeEvent3_turned [HasSqrt K] (t : TView K) (now : K) (sv : Sieve) :
    computeEvent3 (turnedTView t) now sv = computeEvent3 t now sv := by
  unfold computeEvent3
  simp only [type_turned]
  simp only [turnedTView, distance2At_turned, collapseTimeEdge_turned, areaTimes_turned]
  rfl

theorem computeEventInf_turned [HasSqrt K] (t : TView K) (now : K) (sv : Sieve) :
    computeEventInf (turnedTView t) now sv = computeEventInf t now sv := by
  have h : infIdx (turnedTView t) = infIdx t := rfl
  unfold computeEventInf
  simp only [h, type_turned]
  simp only [turnedTView, distance2At_turned, collapseTimeEdge_turned, areaTimes_turned]
  rfl

theorem list3_turned (f g : Fin 3 → Except Err (Pt K)) (h : ∀ i, g i = mapOk turned (f i)) :
    (list3 g).isOk = (list3 f).isOk ∧ ∀ e, list3 g = .error e ↔ list3 f = .error e := by
  unfold list3
  rw [h, h, h]
  cases f 0 with
  | error e => exact ⟨rfl, fun _ => Iff.rfl⟩
  | ok a =>
    cases f 1 with
    | error e => exact ⟨rfl, fun _ => Iff.rfl⟩
    | ok b =>
      cases f 2 with
      | error e => exact ⟨rfl, fun _ => Iff.rfl⟩
      | ok c => exact ⟨rfl, fun _ => ⟨nofun, nofun⟩⟩

theorem computeCollapse_turned [HasSqrt K] (t : TView K) (now : K) (sv : Sieve) :
    computeCollapse (turnedTView t) now sv = computeCollapse t now sv := by
  have hf : computeFinite (turnedTView t) now sv = computeFinite t now sv := by
    unfold computeFinite
    rw [computeEvent0_turned, computeEvent1_turned, computeEvent2_turned, computeEvent3_turned]
    rfl
  have hs : (turnedTView t).stopped = t.stopped := rfl
  have hi : (turnedTView t).isFinite = t.isFinite := rfl
  unfold computeCollapse
  rw [hf, hs, hi, computeEventInf_turned]
  split
  · rfl
  split
  · cases computeFinite t now sv with
    | error e => rfl
    | ok e =>
      cases e with
      | some e => rfl
      | none =>
        obtain ⟨h1, h2⟩ := list3_turned (fun i => (t.v i).positionAt (now + 10))
          (fun i => ((turnedTView t).v i).positionAt (now + 10)) fun i => view_positionAt_turned _ _
        show (list3 (fun i => ((turnedTView t).v i).positionAt (now + 10)) >>= fun _ => Except.ok none) =
          (list3 (fun i => (t.v i).positionAt (now + 10)) >>= fun _ => Except.ok none)
        cases hq : list3 (fun i => (t.v i).positionAt (now + 10)) with
        | error e => rw [(h2 e).2 hq]
        | ok x =>
          rw [hq] at h1
          cases hp : list3 (fun i => ((turnedTView t).v i).positionAt (now + 10)) with
          | error e => rw [hp] at h1; cases h1
          | ok y => rfl
  · rfl

theorem newEdgeCollapse_turned [HasSqrt K] (t : TView K) (x : K) :
    newEdgeCollapse (turnedTView t) x = newEdgeCollapse t x := by
  unfold newEdgeCollapse
  rw [dists_turned]
  rfl

theorem viewOf_turned (s : St K) (v : VId) : viewOf (turnedState s) v = turnedView (viewOf s v) := by
  unfold viewOf turnedState
  dsimp only
  cases s.vert v with
  | kin k =>
    dsimp only [turnedVertex, turnedK, turnedView]
    simp only [Option.map_map]
    rfl
  | inf o =>
    dsimp only [turnedVertex, turnedView]
    rw [turned_zero.2 rfl]
    rfl

end Grassfire
