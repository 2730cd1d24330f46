/-
C77: no triangle is ever turned over in steady executions.
-/
import Verif.Proofs.UprightRun
import Verif.Props.Anchors
import Verif.Props.Orientation

set_option linter.unusedSectionVars false

namespace Grassfire

open Spec

variable {K : Type} [Field K] [LinearOrder K] [IsStrictOrderedRing K] [HasSqrt K] [SqrtUnit K] [HasTrig K]

/-- a steady execution on what `init_skeleton` (and, if asked for, `internal_only_skeleton`) has delivered for the
triangulation `dt`; `s0` is the state at its beginning -/
structure SteadyRun (dt : Dt K) (depth : ℕ) (skel s0 : St K) (n : ℕ) (now : K) (s : St K) : Prop where
  consistent : DtOk dt
  lengths : ExactLengths dt
  angles : ClearAngles dt
  spikes : NoSpikes skel
  start : ∃ pyid internal tr, initSkeleton dt pyid = .ok skel ∧ s0 = prepare internal tr skel
  run : ∃ trace, SteadyExecution depth s0 n now s trace

theorem SteadyRun.standing {dt : Dt K} {depth : ℕ} {skel s0 : St K} {n : ℕ} {now : K} {s : St K}
    (h : SteadyRun dt depth skel s0 n now s) : Standing (· ∈ s0.skTriangles) n now s := by
  obtain ⟨hc, hx, ha, hs, ⟨pyid, internal, tr, h1, rfl⟩, trace, h2⟩ := h
  obtain ⟨ts, vs, nbr, unwanted, sorted, hd⟩ := initSkeleton_ok h1
  exact steady_standing ha ((hd.waves hc hx).prepare internal tr) ((hd.arcs hc hx ha hs).prepare internal tr) h2

/-- **C77.** At every moment of a steady execution the triangles of the skeleton that have not been stopped are not turned
over: their corners are in counter-clockwise order or in line. -/
theorem C77_upright {dt : Dt K} {depth : ℕ} {skel s0 : St K} {n : ℕ} {now : K} {s : St K}
    (h : SteadyRun dt depth skel s0 n now s) : Upright (· ∈ s0.skTriangles) s now :=
  h.standing.upright

/-- the corners of a triangle without infinite corner are not infinitely fast -/
theorem SteadyRun.mobile {dt : Dt K} {depth : ℕ} {skel s0 : St K} {n : ℕ} {now : K} {s : St K}
    (h : SteadyRun dt depth skel s0 n now s) {t : TId} (hl : Live s t) {k : Fin 3 → KVertex K}
    (hk : ∀ i, s.vert ((s.tri t).vertices i) = .kin (k i)) : Mobile s t := by
  obtain ⟨-, -, -, -, -, trace, h2⟩ := id h
  obtain ⟨-, hM, -⟩ := ordinary_inv h2.ordinary
  exact fun i => ⟨k i, hk i, h.standing.slow _ _ (hM.vertices t hl.1 i) (hk i)⟩

/-- **C77.** Nor are they at any time until the next event.  Before it their corners are in counter-clockwise order,
except for those of triangles whose corners are always in line. -/
theorem C77_between {dt : Dt K} {depth : ℕ} {skel s0 : St K} {n : ℕ} {now now' : K} {s s' : St K} {e : Event K}
    (h : SteadyRun dt depth skel s0 n now s) (hm : loopStep depth (n + 1 : ℕ) now s = .ok (some (e, now'), s'))
    (u : K) (hu : now ≤ u) (hu' : u ≤ now') :
    Upright (· ∈ s0.skTriangles) s u ∧ (u < now' → ∀ t ∈ s0.skTriangles, Live s t → StrictlyAt s t u) := by
  obtain ⟨-, -, -, -, -, trace, h2⟩ := id h
  have key : ∀ t ∈ s0.skTriangles, Live s t → ∀ ka kb kc, s.vert ((s.tri t).vertices 0) = .kin ka →
      s.vert ((s.tri t).vertices 1) = .kin kb → s.vert ((s.tri t).vertices 2) = .kin kc →
      0 ≤ area2 (pointAt ka u) (pointAt kb u) (pointAt kc u) ∧
      (u < now' → 0 < area2 (pointAt ka u) (pointAt kb u) (pointAt kc u) ∨
        ∀ x, area2 (pointAt ka x) (pointAt kb x) (pointAt kc x) = 0) := by
    intro t ht hl ka kb kc ha hb hc
    have hk : Mobile s t := h.mobile (k := ![ka, kb, kc]) hl fun i => by fin_cases i <;> assumption
    have := standing_between h2 h.standing hm ht hl hk u hu hu'
    unfold areaAt at this
    simp only [corner_place ha, corner_place hb, corner_place hc] at this
    exact this
  constructor
  · intro t ht hl a b c ha hb hc
    obtain ⟨ka, q1, rfl⟩ := placeAt_some ha
    obtain ⟨kb, q2, rfl⟩ := placeAt_some hb
    obtain ⟨kc, q3, rfl⟩ := placeAt_some hc
    exact (key t ht hl ka kb kc q1 q2 q3).1
  · intro hlt t ht hl ka kb kc ha hb hc
    exact (key t ht hl ka kb kc ha hb hc).2 hlt

/-- **C77.** So `check_active_triangles_orientation`, were it called at any time of the loop, would not find a triangle
without infinite corner to complain about. -/
theorem C77_check {dt : Dt K} {depth : ℕ} {skel s0 : St K} {n : ℕ} {now : K} {s : St K}
    (h : SteadyRun dt depth skel s0 n now s) (ts : List TId)
    (hts : ∀ t ∈ ts, t < s.nT ∧ t ∈ s0.skTriangles ∧ ∀ i, Kinetic s ((s.tri t).vertices i)) :
    checkOrientation ts now s = .ok ((), s) := by
  refine (C74_orientation ts now s fun t ht => (hts t ht).1).2 fun t ht hl => ?_
  obtain ⟨-, h2, h3⟩ := hts t ht
  choose k hk using fun i => (h3 i).2
  have hm := h.mobile hl hk
  obtain ⟨-, -, -, -, -, trace, hr⟩ := id h
  obtain ⟨-, hM, -⟩ := ordinary_inv hr.ordinary
  refine ⟨fun i => pointAt (k i) now, fun i => ⟨hM.vertices t hl.1 i, .inr ⟨k i, hk i, fun _ => rfl, fun q => ?_⟩⟩, fun _ => ?_,
    fun q => absurd h3 q⟩
  · obtain ⟨k', h5, h6⟩ := hm i
    rw [hk i] at h5
    cases h5
    rw [h6] at q
    cases q
  · have := C77_upright h t h2 hl (pointAt (k 0) now) (pointAt (k 1) now) (pointAt (k 2) now)
      (by unfold placeAt; rw [hk 0]) (by unfold placeAt; rw [hk 1]) (by unfold placeAt; rw [hk 2])
    have tol : (0 : K) < 1 / 10 ^ 10 := by positivity
    have e : area2 (pointAt (k 0) now) (pointAt (k 1) now) (pointAt (k 2) now) =
        leftTurn (pointAt (k 0) now) (pointAt (k 1) now) (pointAt (k 2) now) := by
      unfold area2 leftTurn
      ring
    rw [← e]
    linarith

/-! ### the hypotheses are met -/

/-- check of `ClearMotion`, for triangles with a wavefront edge -/
def clearCheck (T : TView ℚ) : Bool :=
  let o : Fin 3 → Pt ℚ := fun i => ((T.v (i + 1)).origin.1 - (T.v (i + 2)).origin.1,
    (T.v (i + 1)).origin.2 - (T.v (i + 2)).origin.2)
  let d : Fin 3 → Pt ℚ := fun i => ((T.v (i + 1)).velocity.1 - (T.v (i + 2)).velocity.1,
    (T.v (i + 1)).velocity.2 - (T.v (i + 2)).velocity.2)
  let q : Fin 3 → ℚ := fun i => (d i).1 * (d i).1 + (d i).2 * (d i).2
  let x : Fin 3 → ℚ := fun i => -((o i).1 * (d i).1 + (o i).2 * (d i).2) / q i
  decide (∃ i, T.noNeighbour i = true) &&
  decide (∀ i, T.noNeighbour i = true → q i ≠ 0 ∧ 1 / 10 ^ 10 < distSq (T.v (i + 1)).velocity (T.v (i + 2)).velocity ∧
    (o i).1 * (o i).1 + (o i).2 * (o i).2 ≠ 0 ∧
    (∀ j, T.noNeighbour j = true → x i < x j → 1 / 10 ^ 7 * |(x j + x i) / 2| < x j - x i) ∧
    (match (T.v (i + 1)).ur with
    | none => false
    | some l => decide (l.w.1 ^ 2 + l.w.2 ^ 2 = 1 ∧
      (∀ j, j ≠ i → l.w.1 * (T.v j).origin.1 + l.w.2 * (T.v j).origin.2 + l.b = 0 ∧
        l.w.1 * (T.v j).velocity.1 + l.w.2 * (T.v j).velocity.2 = 1) ∧
      (1 / 10 ^ 10 < |1 - dot2 (T.v i).velocity l.w| ∨ dot2 (T.v i).velocity l.w = 1))) = true)

theorem clear_of_check {T : TView ℚ} (h : clearCheck T = true) : ClearMotion T := by
  unfold clearCheck at h
  simp only [Bool.and_eq_true, decide_eq_true_eq] at h
  obtain ⟨⟨i0, hi0⟩, h⟩ := h
  have hno : ¬ ∀ j, T.noNeighbour j = false := fun q => by rw [q i0] at hi0; cases hi0
  have ne1 : ∀ i : Fin 3, i + 1 ≠ i ∧ i + 2 ≠ i := by decide
  have hl : ∀ i, T.noNeighbour i = true → ∃ l, (T.v (i + 1)).ur = some l ∧ l.w.1 ^ 2 + l.w.2 ^ 2 = 1 ∧
      (∀ j, j ≠ i → l.w.1 * (T.v j).origin.1 + l.w.2 * (T.v j).origin.2 + l.b = 0 ∧
        l.w.1 * (T.v j).velocity.1 + l.w.2 * (T.v j).velocity.2 = 1) ∧
      (1 / 10 ^ 10 < |1 - dot2 (T.v i).velocity l.w| ∨ dot2 (T.v i).velocity l.w = 1) := by
    intro i hi
    have := (h i hi).2.2.2.2
    split at this
    · cases this
    · rename_i l hl
      exact ⟨l, hl, of_decide_eq_true this⟩
  have hx : ∀ i, T.noNeighbour i = true → ∀ x, cornerAt T (i + 1) x = cornerAt T (i + 2) x →
      x = -(((T.v (i + 1)).origin.1 - (T.v (i + 2)).origin.1) * ((T.v (i + 1)).velocity.1 - (T.v (i + 2)).velocity.1) +
        ((T.v (i + 1)).origin.2 - (T.v (i + 2)).origin.2) * ((T.v (i + 1)).velocity.2 - (T.v (i + 2)).velocity.2)) /
        (((T.v (i + 1)).velocity.1 - (T.v (i + 2)).velocity.1) * ((T.v (i + 1)).velocity.1 - (T.v (i + 2)).velocity.1) +
          ((T.v (i + 1)).velocity.2 - (T.v (i + 2)).velocity.2) *
            ((T.v (i + 1)).velocity.2 - (T.v (i + 2)).velocity.2)) := by
    intro i hi x hc
    have h1 := congrArg Prod.fst hc
    have h2 := congrArg Prod.snd hc
    unfold cornerAt move at h1 h2
    dsimp only at h1 h2
    rw [eq_div_iff (h i hi).1]
    linear_combination ((T.v (i + 1)).velocity.1 - (T.v (i + 2)).velocity.1) * h1 +
      ((T.v (i + 1)).velocity.2 - (T.v (i + 2)).velocity.2) * h2
  refine ⟨fun i hi => ?_, fun i hi => .inl (h i hi).2.1, fun i l hi hr => ?_, fun _ i j x y hi hj h1 h2 hlt => ?_,
    fun hall i hc => ?_, fun q => absurd q hno, fun q => absurd q hno, fun q => absurd q hno⟩
  · obtain ⟨l, h1, h2, h3, -⟩ := hl i hi
    refine ⟨l, h2, h1, fun u => ?_⟩
    have a := h3 _ (ne1 i).1
    have b := h3 _ (ne1 i).2
    unfold AtDistance cornerAt move
    dsimp only
    constructor
    · linear_combination a.1 + u * a.2
    · linear_combination b.1 + u * b.2
  · obtain ⟨l', h1, -, -, h4⟩ := hl i ((hi i).2 rfl)
    have := hr.line
    rw [h1] at this
    cases this
    exact h4
  · rw [hx i hi x h1, hx j hj y h2] at hlt ⊢
    exact (h i hi).2.2.2.1 j hj hlt
  · have h1 := congrArg Prod.fst hc
    have h2 := congrArg Prod.snd hc
    unfold cornerAt move at h1 h2
    dsimp only at h1 h2
    refine (h i (hall i)).2.2.1 ?_
    linear_combination ((T.v (i + 1)).origin.1 - (T.v (i + 2)).origin.1) * h1 +
      ((T.v (i + 1)).origin.2 - (T.v (i + 2)).origin.2) * h2

/-- the state and the time after `m` iterations -/
def stateAt (depth : ℕ) (s1 : St ℚ) : ℕ → Option (ℚ × St ℚ)
  | 0 => some (0, s1)
  | m + 1 => match stateAt depth s1 m with
    | none => none
    | some (x, u) => match loopStep depth (m + 1 : ℕ) x u with
      | .ok (some (_, x'), u') => some (x', u')
      | _ => none

theorem stateAt_run {depth : ℕ} {s1 : St ℚ} {m : ℕ} {x : ℚ} {u : St ℚ} {tr : List (Event ℚ × ℚ)}
    (h : Run depth s1 0 m x u tr) : stateAt depth s1 m = some (x, u) := by
  induction h with
  | start => rfl
  | step hr hs ih =>
    unfold stateAt
    rw [ih]
    dsimp only
    rw [hs]

/-- check of `SteadyExecution.clear` -/
def clearState (S : List TId) (u : St ℚ) : Bool :=
  S.all fun t => (u.tri t).stopsAt.isSome || ((u.tri t).event.isSome && clearCheck (viewT u t))

theorem clear_of_state {W : Prop} {S : List TId} {u : St ℚ} (h : clearState S u = true) {t : TId} (ht : t ∈ S) (hl : Live u t) :
    ClearTriangle W u t := by
  have := List.all_eq_true.1 h t ht
  rw [Bool.or_eq_true, Bool.and_eq_true, hl.2] at this
  rcases this with q | ⟨q1, q2⟩
  · cases q
  · intro nb hnb
    rcases hnb with q | ⟨-, q, -⟩
    · obtain rfl : nb = (viewT u t).noNeighbour := funext q
      exact clear_of_check q2
    · rw [q] at q1; cases q1

/-- check of `SteadyExecution.start` -/
def startCheck (s0 : St ℚ) : Bool :=
  s0.skTriangles.all fun t =>
    let f := areaAt (viewT s0 t)
    decide (|(f 1 - f (-1)) / 2| * (1 / 10 ^ 10) + |(f 1 + f (-1)) / 2 - f 0| * (1 / 10 ^ 10) < f 0)

theorem start_of_check {s0 : St ℚ} (h : startCheck s0 = true) : ∀ t ∈ s0.skTriangles, Live s0 t → ∀ x : ℚ, 0 ≤ x →
    x ≤ 1 / 10 ^ 10 → ∀ a b c, placeAt s0 ((s0.tri t).vertices 0) x = some a →
    placeAt s0 ((s0.tri t).vertices 1) x = some b → placeAt s0 ((s0.tri t).vertices 2) x = some c → 0 < area2 a b c := by
  intro t ht _ x h0 h1 a b c ha hb hc
  have := of_decide_eq_true (List.all_eq_true.1 h t ht)
  obtain ⟨ka, q1, rfl⟩ := placeAt_some ha
  obtain ⟨kb, q2, rfl⟩ := placeAt_some hb
  obtain ⟨kc, q3, rfl⟩ := placeAt_some hc
  have e : area2 (pointAt ka x) (pointAt kb x) (pointAt kc x) = areaAt (viewT s0 t) x := by
    unfold areaAt
    rw [corner_place q1, corner_place q2, corner_place q3]
  rw [e]
  generalize hB : (areaAt (viewT s0 t) 1 - areaAt (viewT s0 t) (-1)) / 2 = B at this
  generalize hA : (areaAt (viewT s0 t) 1 + areaAt (viewT s0 t) (-1)) / 2 - areaAt (viewT s0 t) 0 = A at this
  have hq : areaAt (viewT s0 t) x = A * x ^ 2 + B * x + areaAt (viewT s0 t) 0 := by
    rw [← hA, ← hB]
    unfold areaAt area2 cornerAt move
    ring
  have hb1 : -(|B| * (1 / 10 ^ 10)) ≤ B * x := by
    have k1 := neg_abs_le B
    have k2 := abs_nonneg B
    have k3 : -(|B| * x) ≤ B * x := by nlinarith
    have k4 : |B| * x ≤ |B| * (1 / 10 ^ 10) := mul_le_mul_of_nonneg_left h1 k2
    linarith
  have ha1 : -(|A| * (1 / 10 ^ 10)) ≤ A * x ^ 2 := by
    have k1 := neg_abs_le A
    have k2 := abs_nonneg A
    have k0 : x ^ 2 ≤ 1 / 10 ^ 10 := by nlinarith
    have k3 : -(|A| * x ^ 2) ≤ A * x ^ 2 := by nlinarith [sq_nonneg x]
    have k4 : |A| * x ^ 2 ≤ |A| * (1 / 10 ^ 10) := mul_le_mul_of_nonneg_left k0 k2
    linarith
  rw [hq]
  linarith

/-- check of `SteadyExecution.events`, for executions without flip events -/
def eventCheck (depth : ℕ) (s1 : St ℚ) (m : ℕ) : Bool :=
  match stateAt depth s1 m with
  | none => true
  | some (x, u) => match loopStep depth (m + 1 : ℕ) x u with
    | .ok (some (e, x'), _) => decide (e.tp ≠ .flip) && decide (1 / 10 ^ 10 < x')
    | _ => true

/-- a steady execution, by evaluation -/
theorem steady_execution {depth n : ℕ} {s0 : St ℚ} (h1 : Sample.initialOk s0 = true) (h2 : meshCheck s0 = true)
    (h3 : Sample.outcome initEventList (fun _ _ => ()) s0 = some ())
    (h4 : (ordinaryRun depth n 0 0 { Sample.after initEventList s0 with immediate := [] }).isSome = true)
    (h5 : (exactRun depth n 0 0 { Sample.after initEventList s0 with immediate := [] }).isSome = true)
    (h6 : s0.skTriangles.all (fun t => decide (∀ i, ∀ n ∈ (s0.tri t).neighbours i, n ∈ s0.skTriangles)) = true)
    (h7 : (List.range s0.nV).all (fun v => !(Sample.kv s0 v).infFast) = true)
    (h8 : startCheck s0 = true)
    (h9 : (List.range (n + 1)).all (fun m =>
      ((stateAt depth { Sample.after initEventList s0 with immediate := [] } m).map
        fun r => clearState s0.skTriangles r.2).getD true) = true)
    (h10 : (List.range n).all (eventCheck depth { Sample.after initEventList s0 with immediate := [] }) = true) :
    ∃ now s tr, ordinaryRun depth n 0 0 { Sample.after initEventList s0 with immediate := [] } = some (now, s) ∧
      SteadyExecution depth s0 n now s tr := by
  have h3' : initEventList s0 = .ok ((), Sample.after initEventList s0) := by
    refine Sample.after_run ?_
    unfold Sample.outcome at h3 ⊢
    split at h3
    · rfl
    · cases h3
  obtain ⟨now, s, tr, r, ho⟩ := ordinary_execution h1 h2 h3 h4
  obtain ⟨now', s', tr', -, he⟩ := exact_execution (Sample.initialOk_sound h1) h3 h5
  obtain ⟨-, -, s1, q1, q2, -⟩ := id ho
  obtain ⟨⟨-, s1', q1', q2'⟩, -⟩ := id he
  rw [h3'] at q1 q1'
  cases q1
  cases q1'
  obtain ⟨rfl, rfl, rfl⟩ := run_unique q2 q2'
  refine ⟨now, s, tr, r, ho, he, fun t i m ht hm =>
    of_decide_eq_true (List.all_eq_true.1 h6 t ht) i m (Option.mem_def.2 hm), fun v k hv hk => ?_, start_of_check h8, ?_, ?_⟩
  · have := List.all_eq_true.1 h7 v (List.mem_range.2 hv)
    unfold Sample.kv at this
    rw [hk] at this
    simpa using this
  · intro s1 hs1 m hm x u tr'' hr _ t ht hl _
    rw [h3'] at hs1
    cases hs1
    have := List.all_eq_true.1 h9 m (List.mem_range.2 (Nat.lt_succ_of_le hm))
    rw [stateAt_run hr] at this
    exact clear_of_state this ht hl
  · intro s1 hs1 m hm x u tr'' e x' u' hr hs
    rw [h3'] at hs1
    cases hs1
    have := List.all_eq_true.1 h10 m (List.mem_range.2 hm)
    unfold eventCheck at this
    rw [stateAt_run hr] at this
    dsimp only at this
    rw [hs] at this
    simp only [Bool.and_eq_true, decide_eq_true_eq] at this
    exact ⟨fun _ hf => absurd hf this.1, this.2⟩

/-- The whole run on the wedge is steady: a side vanishes first, and then what is left. -/
theorem wedge_steady : ∃ now s tr, ordinaryRun 100 2 0 0
      { Sample.after initEventList (prepare true none Sample.wedgeSkeleton) with immediate := [] } = some (now, s) ∧
    SteadyExecution 100 (prepare true none Sample.wedgeSkeleton) 2 now s tr :=
  steady_execution (by decide +kernel) (by decide +kernel) (by decide +kernel) (by decide +kernel) (by decide +kernel)
    (by decide +kernel) (by decide +kernel) (by decide +kernel) (by decide +kernel) (by decide +kernel)

theorem wedge_steady_run {n : ℕ} {now : ℚ} {s : St ℚ} {tr : List (Event ℚ × ℚ)}
    (h : SteadyExecution 100 (prepare true none Sample.wedgeSkeleton) n now s tr) :
    SteadyRun Sample.wedgeDt 100 Sample.wedgeSkeleton (prepare true none Sample.wedgeSkeleton) n now s :=
  ⟨Sample.wedgeDt_ok, Sample.wedge_lengths, Sample.wedge_angles, Sample.wedge_spikes,
    ⟨id, true, none, Sample.wedgeSkeleton_ok, rfl⟩, tr, h⟩

example : ∃ now s, SteadyRun Sample.wedgeDt 100 Sample.wedgeSkeleton (prepare true none Sample.wedgeSkeleton) 2 now s := by
  obtain ⟨now, s, tr, -, h⟩ := wedge_steady
  exact ⟨now, s, wedge_steady_run h⟩

/-- So is its beginning: after the first event, at time 1/2, a triangle without infinite corner is left, and there is
another event, at time 1. -/
example : ∃ s, SteadyRun Sample.wedgeDt 100 Sample.wedgeSkeleton (prepare true none Sample.wedgeSkeleton) 1 (1 / 2) s ∧
    (∃ t ∈ (prepare true none Sample.wedgeSkeleton).skTriangles, Live s t ∧ ∀ i, Kinetic s ((s.tri t).vertices i)) ∧
    ∃ e s', loopStep 100 (1 + 1 : ℕ) (1 / 2) s = .ok (some (e, 1), s') := by
  obtain ⟨now, s, tr, r, h⟩ := steady_execution (depth := 100) (n := 1) (s0 := prepare true none Sample.wedgeSkeleton)
    (by decide +kernel) (by decide +kernel) (by decide +kernel) (by decide +kernel) (by decide +kernel)
    (by decide +kernel) (by decide +kernel) (by decide +kernel) (by decide +kernel) (by decide +kernel)
  have hv : (ordinaryRun 100 1 0 0 { Sample.after initEventList (prepare true none Sample.wedgeSkeleton) with
      immediate := [] }).map (fun r => (r.1, ((prepare true none Sample.wedgeSkeleton).skTriangles.any fun t =>
        decide (t < r.2.nT) && (r.2.tri t).stopsAt.isNone && decide (∀ i, (r.2.tri t).vertices i < r.2.nV ∧
          (r.2.vert ((r.2.tri t).vertices i)).isKinetic = true)), match loopStep 100 (1 + 1 : ℕ) r.1 r.2 with
        | .ok (some (_, x), _) => some x
        | _ => none)) = some (1 / 2, true, some 1) := by decide +kernel
  rw [r] at hv
  simp only [Option.map_some, Option.some.injEq, Prod.mk.injEq, List.any_eq_true, Bool.and_eq_true, decide_eq_true_eq,
    Option.isNone_iff_eq_none] at hv
  obtain ⟨rfl, ⟨t, h1, ⟨h2, h3⟩, h4⟩, h5⟩ := hv
  refine ⟨s, wedge_steady_run h, ⟨t, h1, ⟨h2, h3⟩, fun i => (kinetic_iff s _).1 (h4 i)⟩, ?_⟩
  split at h5
  · rename_i e x s' hs
    cases h5
    exact ⟨e, s', hs⟩
  · cases h5

end Grassfire
