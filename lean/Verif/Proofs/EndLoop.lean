/-
The event loop in general position: the checks at the start, and the ways in which it may end (lemmas for C92).
-/
import Verif.Proofs.FlatRun
import Verif.Props.Inward

set_option linter.unusedSectionVars false

namespace Grassfire

open Spec

variable {K : Type} [Field K] [LinearOrder K] [IsStrictOrderedRing K] [HasSqrt K] [SqrtUnit K] [HasTrig K]

theorem generic_loop (depth fuel : ℕ) {s0 s1 : St K} (h : GoodStart s0) (h1 : initEventList s0 = .ok ((), s1))
    (hg : ∀ m < fuel, ∀ x u tr e, Run depth { s1 with immediate := [] } 0 m x u tr → NextEvent u e → Live u e.tri →
      Generic u e) :
    ∃ n now s tr, n ≤ fuel ∧ Run depth { s1 with immediate := [] } 0 n now s tr ∧
      (s.immediate = [] ∧ s.queue = [] ∧ loop depth fuel 0 0 { s1 with immediate := [] } = .ok (now, s) ∨
        loop depth fuel 0 0 { s1 with immediate := [] } = .error (.py .valueError) ∧ (n = fuel ∨ Unclear s)) := by
  obtain ⟨R0, hI0⟩ := ready_start h h1
  have key : ∀ k ≤ fuel, ∀ n now s tr, n + k = fuel → Run depth { s1 with immediate := [] } 0 n now s tr →
      ∃ n now s tr, n ≤ fuel ∧ Run depth { s1 with immediate := [] } 0 n now s tr ∧
      (s.immediate = [] ∧ s.queue = [] ∧ loop depth fuel 0 0 { s1 with immediate := [] } = .ok (now, s) ∨
        loop depth fuel 0 0 { s1 with immediate := [] } = .error (.py .valueError) ∧ (n = fuel ∨ Unclear s)) := by
    intro k
    induction k with
    | zero =>
      intro _ n now s tr hn hr
      obtain rfl : n = fuel := hn
      refine ⟨n, now, s, tr, le_rfl, hr, ?_⟩
      have e := run_loop hr 0
      rw [Nat.add_zero] at e
      rw [e]
      rcases takeEvent_next now s with ⟨-, q1, q2⟩ | ⟨e, -, -, -, q, -⟩
      · exact .inl ⟨q1, q2, loop_done 0 _ _ q1 q2⟩
      · refine .inr ⟨?_, .inl rfl⟩
        unfold loop
        rw [if_neg]
        rw [Bool.and_eq_true, List.isEmpty_iff, List.isEmpty_iff]
        rintro ⟨q1, q2⟩
        rcases q with q | ⟨-, q⟩
        · rw [q1] at q; cases q
        · rw [q2] at q; cases q
    | succ k ih =>
      intro hk n now s tr hn hr
      have hlt : n < fuel := by omega
      have R := ready_run hr R0 fun m hm x u tr' e r1 r2 r3 => hg m (hm.trans hlt) x u tr' e r1 r2 r3
      have hI := (run_inv hr hI0).1
      have e := run_loop hr (k + 1)
      rw [hn] at e
      cases q : loopStep depth (n + 1 : ℕ) now s with
      | error f =>
        obtain ⟨rfl, z⟩ := loopStep_progress R hI (fun e r1 r2 => hg n hlt now s tr e hr r1 r2) q
        refine ⟨n, now, s, tr, hlt.le, hr, .inr ⟨?_, .inr z⟩⟩
        rw [e]
        unfold loop
        rw [bind_run]
        have : ((n : ℤ) + 1) = ((n + 1 : ℕ) : ℤ) := by push_cast; rfl
        rw [this, q]
      | ok y =>
        obtain ⟨o, s'⟩ := y
        cases o with
        | none =>
          obtain ⟨rfl, q1, q2⟩ := loopStep_none q
          refine ⟨n, now, s', tr, hlt.le, hr, .inl ⟨q1, q2, ?_⟩⟩
          rw [e]
          exact loop_done _ _ _ q1 q2
        | some z =>
          obtain ⟨e, x'⟩ := z
          exact ih (by omega) (n + 1) x' s' _ (by omega) (hr.step q)
  exact key fuel le_rfl 0 0 _ [] (Nat.zero_add _) .start

/-- the two checks at the start of `event_loop` -/
theorem eventLoop_checked (depth : ℕ) {s1 : St K} (hts : ∀ t ∈ s1.skTriangles, t < s1.nT)
    (hleft : ∀ t ∈ s1.skTriangles, ∀ i a b, FrontSide s1 t i a b → KeepsLeft s1 0 a b)
    (hturn : ∀ t ∈ s1.skTriangles, Live s1 t → Turns s1 0 t) :
    eventLoop depth s1 = (do
      let now ← loop depth 50000 0 0
      let ts ← skelTriangles
      checkAllStopped ts
      pure now : M K K) { s1 with immediate := [] } := by
  have c1 : checkBisectors s1.skTriangles 0 { s1 with immediate := [] } = .ok ((), { s1 with immediate := [] }) := by
    refine (C74_bisectors s1.skTriangles 0 { s1 with immediate := [] } hts).2 fun t ht i a b q => ?_
    exact hleft t ht i a b q
  have c2 : checkOrientation s1.skTriangles 0 { s1 with immediate := [] } = .ok ((), { s1 with immediate := [] }) :=
    (C74_orientation s1.skTriangles 0 { s1 with immediate := [] } hts).2 fun t ht q => hturn t ht q
  unfold eventLoop
  rw [bind_run]
  show (do
    let ts ← skelTriangles
    checkBisectors ts 0
    checkOrientation ts 0
    let now ← loop depth 50000 0 0
    let ts ← skelTriangles
    checkAllStopped ts
    pure now : M K K) { s1 with immediate := [] } = _
  rw [bind_run]
  show (do
    checkBisectors s1.skTriangles 0
    checkOrientation s1.skTriangles 0
    let now ← loop depth 50000 0 0
    let ts ← skelTriangles
    checkAllStopped ts
    pure now : M K K) { s1 with immediate := [] } = _
  rw [bind_run, c1]
  dsimp only
  rw [bind_run, c2]

/-- the check at the end of `event_loop` -/
theorem checkAllStopped_ok {N : Prop} {now : K} {s : St K} (hI : Inv N now s) (h : ∀ t ∈ s.skTriangles, ¬ Live s t) :
    checkAllStopped s.skTriangles s = .ok ((), s) := by
  obtain ⟨l, hm⟩ := mapEach_leftOver_ok s.skTriangles fun t ht =>
    ⟨hI.refs.skTriangles t ht, hI.refs.vertices t (hI.refs.skTriangles t ht)⟩
  unfold checkAllStopped
  rw [bind_run, hm]
  dsimp only
  obtain ⟨-, rfl⟩ := mapEach_leftOver hm
  rw [if_neg]
  · rfl
  · simp only [List.any_map, List.any_eq_true, Function.comp, id, Bool.and_eq_true]
    rintro ⟨t, ht, -, f⟩
    exact h t ht ⟨hI.refs.skTriangles t ht, Option.isNone_iff_eq_none.1 f⟩

variable {dt : Dt K} {depth : ℕ} {skel s0 : St K} {s : St K} {now : K} {n : ℕ} {trace : List (Event K × K)}

/-- in general position, vertices do not move out of the polygon -/
theorem GeneralRun.keepsLeft (h : GeneralRun dt depth skel s0 n now s trace) {t : TId} (ht : t ∈ s0.skTriangles)
    {i : Fin 3} {a b : VId} (hf : FrontSide s t i a b) : KeepsLeft s now a b := by
  obtain ⟨hl, hn, rfl, rfl⟩ := hf
  obtain ⟨G, S⟩ := C90_sharp h
  obtain ⟨-, -, C⟩ := S.steady
  obtain ⟨R, -, -⟩ := G.ready
  obtain ⟨l, hr⟩ := ready_rides R h.allTrack hl hn
  obtain ⟨b1, k1, q1⟩ := C.kinetic t ht hl (i + 1)
  obtain ⟨b2, k2, q2⟩ := C.kinetic t ht hl (i + 2)
  have F := general_forward h t ht hl i hn l (pointAt k1 now) (pointAt k2 now) (rides_rightLine hr)
    (by unfold placeAt; rw [q1]) (by unfold placeAt; rw [q2])
  have z1 := R.slow _ k1 b1 q1
  have z2 := R.slow _ k2 b2 q2
  refine ⟨pointAt k1 now, pointAt k2 now, k2.velocity, ⟨b1, .inr ⟨k1, q1, fun _ => rfl, fun z => ?_⟩⟩,
    ⟨b2, .inr ⟨k2, q2, fun _ => rfl, fun z => ?_⟩⟩, ?_, ?_⟩
  · rw [z1] at z; cases z
  · rw [z2] at z; cases z
  · unfold Moves; rw [q2]
  obtain ⟨hw, -, hd⟩ := hr
  obtain ⟨d1, d2⟩ := hd now
  obtain ⟨-, d3⟩ := hd (now + 1)
  rw [corner_place q1] at d1
  rw [corner_place q2] at d2 d3
  have e : leftTurn (pointAt k1 now) (pointAt k2 now)
      ((pointAt k2 now).1 + k2.velocity.1, (pointAt k2 now).2 + k2.velocity.2) =
      ahead l (pointAt k1 now) (pointAt k2 now) := by
    have d4 : l.w.1 * k2.velocity.1 + l.w.2 * k2.velocity.2 = 1 := by
      unfold AtDistance pointAt at d2 d3
      dsimp only at d2 d3
      linear_combination d3 - d2
    unfold AtDistance at d1 d2
    generalize pointAt k1 now = p at *
    generalize pointAt k2 now = q at *
    unfold leftTurn ahead
    dsimp only
    have hz : l.w.1 * (q.1 - p.1) + l.w.2 * (q.2 - p.2) = 0 := by linear_combination d2 - d1
    linear_combination (-((q.1 - p.1) * k2.velocity.2 - (q.2 - p.2) * k2.velocity.1)) * hw +
      (l.w.1 * k2.velocity.2 - l.w.2 * k2.velocity.1) * hz + ((q.1 - p.1) * l.w.2 - (q.2 - p.2) * l.w.1) * d4
  rw [e]
  exact le_trans (by rw [neg_nonpos]; positivity) F

/-- in general position, triangles are not turned round -/
theorem GeneralRun.turns (h : GeneralRun dt depth skel s0 n now s trace) {t : TId} (ht : t ∈ s0.skTriangles)
    (hl : Live s t) : Turns s now t := by
  obtain ⟨G, S⟩ := C90_sharp h
  obtain ⟨-, -, C⟩ := S.steady
  obtain ⟨R, -, -⟩ := G.ready
  have T := (C84_steady S).1.standing
  have hk := C.kinetic t ht hl
  choose hb k hk' using hk
  refine ⟨fun i => pointAt (k i) now, fun i => ⟨hb i, .inr ⟨k i, hk' i, fun _ => rfl, fun z => ?_⟩⟩, fun _ => ?_, fun q => ?_⟩
  · rw [R.slow _ _ (hb i) (hk' i)] at z
    cases z
  · have := T.upright t ht hl _ _ _ (show _ = some (pointAt (k 0) now) by unfold placeAt; rw [hk' 0])
      (show _ = some (pointAt (k 1) now) by unfold placeAt; rw [hk' 1])
      (show _ = some (pointAt (k 2) now) by unfold placeAt; rw [hk' 2])
    exact le_trans (by rw [neg_nonpos]; positivity) this
  · exact absurd (fun i => ⟨hb i, k i, hk' i⟩) q

end Grassfire
