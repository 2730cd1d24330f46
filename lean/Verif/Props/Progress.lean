/-
Property C87: in general position the event loop does not raise exceptions.
-/
import Verif.Proofs.GenericCheck
import Verif.Props.Checks
import Verif.Props.InitMesh
import Verif.Props.Sharp

set_option linter.unusedSectionVars false

namespace Grassfire

open Spec

variable {K : Type} [Field K] [LinearOrder K] [IsStrictOrderedRing K] [HasSqrt K] [SqrtUnit K] [HasTrig K]

theorem Spec.GenericExecution.ready {depth n : ℕ} {s0 s : St K} {now : K} {tr : List (Event K × K)}
    (h : GenericExecution depth s0 n now s tr) :
    Ready (fun l => l.w.1 ^ 2 + l.w.2 ^ 2 = 1) s ∧ Inv (Numbered s0) now s ∧
      ∀ e, NextEvent s e → Live s e.tri → Generic s e := by
  obtain ⟨hs, s1, h1, hr, hg⟩ := h
  obtain ⟨R, hI⟩ := ready_start hs h1
  exact ⟨ready_run hr R fun m hm x u tr' e => hg m hm.le x u tr' e, (run_inv hr hI).1, fun e => hg n le_rfl _ _ _ e hr⟩

/-- **C87.** In general position, the next iteration of the event loop is completed; or it raises a ValueError, because it
is ambiguous what happens to one of the triangles that the event changes.  No assertion fails, nothing that is not there is
used, nothing is divided by zero. -/
theorem C87_progress {depth n : ℕ} {s0 s : St K} {now : K} {tr : List (Event K × K)}
    (h : GenericExecution depth s0 n now s tr) :
    (∃ r s', loopStep depth (n + 1 : ℕ) now s = .ok (r, s')) ∨
    loopStep depth (n + 1 : ℕ) now s = .error (.py .valueError) ∧
      ∃ e T, NextEvent s e ∧ Live s e.tri ∧ Renewed s e T ∧ Followable T ∧ Ambiguous T e.time := by
  obtain ⟨R, hI, hg⟩ := h.ready
  cases q : loopStep depth (n + 1 : ℕ) now s with
  | ok x => exact .inl ⟨x.1, x.2, rfl⟩
  | error f =>
    obtain ⟨rfl, z⟩ := loopStep_progress R hI hg q
    exact .inr ⟨rfl, z⟩

/-- **C87.** In general position no vertex is ever infinitely fast: the special treatment of parallel wavefronts is not
needed.  The triangles stay joined properly, and the wavefront edges shared by the vertices at their ends. -/
theorem C87_keeps {depth n : ℕ} {s0 s : St K} {now : K} {tr : List (Event K × K)}
    (h : GenericExecution depth s0 n now s tr) :
    Mesh s ∧ (∀ t i a b, FrontSide s t i a b → Points s a b) ∧ SharedWavefronts s ∧
      ∀ v k, v < s.nV → s.vert v = .kin k → k.infFast = false := by
  obtain ⟨R, -, -⟩ := h.ready
  refine ⟨R.mesh, ?_, R.waves.shared, R.slow⟩
  rintro t i a b ⟨hl, hn, rfl, rfl⟩
  exact R.undead.points R.mesh hl hn

/-- **C87.** `init_event_list` succeeds, unless it is ambiguous what happens to one of the triangles. -/
theorem C87_start {s : St K} (h : GoodStart s) :
    (∃ s', initEventList s = .ok ((), s')) ∨
    initEventList s = .error (.py .valueError) ∧ ∃ t ∈ s.skTriangles, Ambiguous (viewT s t) 0 := by
  have hw := i_initEventList h.initial
  cases q : initEventList s with
  | ok x => exact .inl ⟨x.2, rfl⟩
  | error f =>
    unfold wp at hw
    rw [q] at hw
    cases f with
    | py err =>
      have := safe_initEventList (E := fun e => e = .valueError ∧ ∃ t ∈ s.skTriangles, Ambiguous (viewT s t) 0) h.ready
        h.initial.refs.skTriangles (fun t ht ha => ⟨rfl, t, ht, ha⟩) err q
      obtain ⟨rfl, z⟩ := this
      exact .inr ⟨rfl, z⟩
    | _ => cases hw

/-- **C87.** What `init_skeleton` delivers (also after `internal_only_skeleton`) is a good start. -/
theorem C87_init_skeleton (dt : Dt K) (pyid : TId → ℕ) (hid : ∀ t u, t < dt.nT → u < dt.nT → pyid t = pyid u → t = u)
    (hm : DtMesh dt) (ho : DtOk dt) (hx : ExactLengths dt) (s : St K) (h : initSkeleton dt pyid = .ok s) (internal : Bool)
    (tr : Option (Transform K)) : GoodStart (prepare internal tr s) := by
  obtain ⟨ts, vs, nbr, unwanted, sorted, hd⟩ := initSkeleton_ok h
  have w := (hd.waves ho hx).prepare internal tr
  refine ⟨(C52_initial dt pyid hid s h).1.prepare internal tr, ?_, prepare_linked (C70_linked dt pyid hm s h) internal tr,
    w.shared, w.own, fun v k hv hk => ?_, w.motion, fun v k _ hk => ?_⟩
  · have := (C70_mesh dt pyid hm s h).1
    refine mesh_congr ?_ ?_ ?_ this <;> unfold prepare <;> cases internal <;> cases tr <;> rfl
  · obtain ⟨a, b, h1, h2, ⟨_, _, _, _, -, -, -, -, h3, -⟩, ⟨_, _, _, _, -, -, -, -, h4, -⟩⟩ := w.lines v k hv hk
    exact ⟨a, b, h1, h2, h3, h4⟩
  · rw [(prepare_fields s internal tr).1] at hk
    exact initSkeleton_slow h hk

/-- **C87.** When all events are as in general position and unambiguous, the loop handles all events, if the number of
iterations is sufficient; if not, the guard raises a ValueError. -/
theorem C87_loop (depth fuel : ℕ) {s0 s1 : St K} (h : GoodStart s0) (h1 : initEventList s0 = .ok ((), s1))
    (hg : ∀ m < fuel, ∀ x u tr e, Run depth { s1 with immediate := [] } 0 m x u tr → NextEvent u e → Live u e.tri →
      Generic u e ∧ Unambiguous u e) :
    ∃ n now s tr, n ≤ fuel ∧ Run depth { s1 with immediate := [] } 0 n now s tr ∧
      (s.immediate = [] ∧ s.queue = [] ∧ loop depth fuel 0 0 { s1 with immediate := [] } = .ok (now, s) ∨
        n = fuel ∧ (∃ e, NextEvent s e) ∧ loop depth fuel 0 0 { s1 with immediate := [] } = .error (.py .valueError)) := by
  obtain ⟨R0, hI0⟩ := ready_start h h1
  have key : ∀ k ≤ fuel, ∀ n now s tr, n + k = fuel → Run depth { s1 with immediate := [] } 0 n now s tr →
      ∃ n now s tr, n ≤ fuel ∧ Run depth { s1 with immediate := [] } 0 n now s tr ∧
      (s.immediate = [] ∧ s.queue = [] ∧ loop depth fuel 0 0 { s1 with immediate := [] } = .ok (now, s) ∨
        n = fuel ∧ (∃ e, NextEvent s e) ∧ loop depth fuel 0 0 { s1 with immediate := [] } = .error (.py .valueError)) := by
    intro k
    induction k with
    | zero =>
      intro _ n now s tr hn hr
      obtain rfl : n = fuel := hn
      refine ⟨n, now, s, tr, le_rfl, hr, ?_⟩
      have e := run_loop hr 0
      rw [Nat.add_zero] at e
      rw [e]
      rcases takeEvent_next now s with ⟨-, q1, q2⟩ | ⟨e, -, -, -, q, -⟩
      · exact .inl ⟨q1, q2, loop_done 0 _ _ q1 q2⟩
      · refine .inr ⟨rfl, ⟨e, q⟩, ?_⟩
        unfold loop
        rw [if_neg]
        rw [Bool.and_eq_true, List.isEmpty_iff, List.isEmpty_iff]
        rintro ⟨q1, q2⟩
        rcases q with q | ⟨-, q⟩
        · rw [q1] at q; cases q
        · rw [q2] at q; cases q
    | succ k ih =>
      intro hk n now s tr hn hr
      have hlt : n < fuel := by omega
      have R := ready_run hr R0 fun m hm x u tr' e r1 r2 r3 => (hg m (hm.trans hlt) x u tr' e r1 r2 r3).1
      have hI := (run_inv hr hI0).1
      cases q : loopStep depth (n + 1 : ℕ) now s with
      | error f =>
        obtain ⟨-, e, T, z1, z2, z3, z4, z5⟩ := loopStep_progress R hI
          (fun e r1 r2 => (hg n hlt now s tr e hr r1 r2).1) q
        exact absurd z5 ((hg n hlt now s tr e hr z1 z2).2 T z3 z4)
      | ok y =>
        obtain ⟨o, s'⟩ := y
        cases o with
        | none =>
          obtain ⟨rfl, q1, q2⟩ := loopStep_none q
          refine ⟨n, now, s', tr, hlt.le, hr, .inl ⟨q1, q2, ?_⟩⟩
          have e := run_loop hr (k + 1)
          rw [hn] at e
          rw [e]
          exact loop_done _ _ _ q1 q2
        | some z =>
          obtain ⟨e, x'⟩ := z
          exact ih (by omega) (n + 1) x' s' _ (by omega) (hr.step q)
  exact key fuel le_rfl 0 0 _ [] (Nat.zero_add _) .start

theorem mapEach_leftOver_ok {s : St K} (ts : List TId) (h : ∀ t ∈ ts, t < s.nT ∧ ∀ i, (s.tri t).vertices i < s.nV) :
    ∃ l, mapEach leftOver ts s = .ok (l, s) := by
  induction ts with
  | nil => exact ⟨[], rfl⟩
  | cons t ts ih =>
    obtain ⟨l, hl⟩ := ih fun t ht => h t (List.mem_cons_of_mem _ ht)
    obtain ⟨ht, hv⟩ := h t List.mem_cons_self
    have : ∃ b, leftOver t s = .ok (b, s) := ⟨_, bind_run_ok.2 ⟨_, s, getT_run_ok.2 ⟨ht, rfl, rfl⟩, bind_run_ok.2
      ⟨_, s, getV_run_ok.2 ⟨hv 0, rfl, rfl⟩, bind_run_ok.2 ⟨_, s, getV_run_ok.2 ⟨hv 1, rfl, rfl⟩, bind_run_ok.2
      ⟨_, s, getV_run_ok.2 ⟨hv 2, rfl, rfl⟩, rfl⟩⟩⟩⟩⟩
    obtain ⟨b, hb⟩ := this
    exact ⟨b :: l, bind_run_ok.2 ⟨b, s, hb, bind_run_ok.2 ⟨l, s, hl, rfl⟩⟩⟩

/-- **C87.** `event_loop` on a good start that passes its first two checks (see C74), when all events are as in general
position and unambiguous: it returns; or it raises a ValueError, after 50000 iterations or since at the end an internal
triangle has not been stopped. -/
theorem C87_event_loop (depth : ℕ) {s0 s1 : St K} (h : GoodStart s0) (h1 : initEventList s0 = .ok ((), s1))
    (hleft : ∀ t ∈ s1.skTriangles, ∀ i a b, FrontSide s1 t i a b → KeepsLeft s1 0 a b)
    (hturn : ∀ t ∈ s1.skTriangles, Live s1 t → Turns s1 0 t)
    (hg : ∀ m < 50000, ∀ x u tr e, Run depth { s1 with immediate := [] } 0 m x u tr → NextEvent u e → Live u e.tri →
      Generic u e ∧ Unambiguous u e) :
    ∃ n now s tr, n ≤ 50000 ∧ Run depth { s1 with immediate := [] } 0 n now s tr ∧
      (s.immediate = [] ∧ s.queue = [] ∧ eventLoop depth s1 = .ok (now, s) ∨
        eventLoop depth s1 = .error (.py .valueError) ∧
          (n = 50000 ∧ (∃ e, NextEvent s e) ∨
            ∃ t ∈ s.skTriangles, Live s t ∧ ∀ i, (s.vert ((s.tri t).vertices i)).internal = true)) := by
  obtain ⟨R0, hI0⟩ := ready_start h h1
  obtain ⟨n, now, s, tr, hn, hr, hloop⟩ := C87_loop depth 50000 h h1 hg
  refine ⟨n, now, s, tr, hn, hr, ?_⟩
  have hts : ∀ t ∈ s1.skTriangles, t < s1.nT := fun t ht => hI0.refs.skTriangles t ht
  have c1 : checkBisectors s1.skTriangles 0 { s1 with immediate := [] } = .ok ((), { s1 with immediate := [] }) := by
    refine (C74_bisectors s1.skTriangles 0 { s1 with immediate := [] } hts).2 fun t ht i a b q => ?_
    exact hleft t ht i a b q
  have c2 : checkOrientation s1.skTriangles 0 { s1 with immediate := [] } = .ok ((), { s1 with immediate := [] }) :=
    (C74_orientation s1.skTriangles 0 { s1 with immediate := [] } hts).2 fun t ht q => hturn t ht q
  have e : eventLoop depth s1 = (do
      let now ← loop depth 50000 0 0
      let ts ← skelTriangles
      checkAllStopped ts
      pure now : M K K) { s1 with immediate := [] } := by
    unfold eventLoop
    rw [bind_run]
    show (do
      let ts ← skelTriangles
      checkBisectors ts 0
      checkOrientation ts 0
      let now ← loop depth 50000 0 0
      let ts ← skelTriangles
      checkAllStopped ts
      pure now : M K K) { s1 with immediate := [] } = _
    rw [bind_run]
    show (do
      checkBisectors s1.skTriangles 0
      checkOrientation s1.skTriangles 0
      let now ← loop depth 50000 0 0
      let ts ← skelTriangles
      checkAllStopped ts
      pure now : M K K) { s1 with immediate := [] } = _
    rw [bind_run, c1]
    dsimp only
    rw [bind_run, c2]
  rw [e, bind_run]
  rcases hloop with ⟨q1, q2, q3⟩ | ⟨rfl, q2, q3⟩
  · rw [q3]
    dsimp only
    rw [bind_run]
    show (s.immediate = [] ∧ s.queue = [] ∧ (do
      checkAllStopped s.skTriangles
      pure now : M K K) s = _ ∨ (do
      checkAllStopped s.skTriangles
      pure now : M K K) s = _ ∧ _)
    rw [bind_run]
    have hI := (run_inv hr hI0).1
    have hw := i_checkAllStopped hI hI.refs.skTriangles
    unfold wp at hw
    cases c : checkAllStopped s.skTriangles s with
    | ok x =>
      rw [c] at hw
      dsimp only at hw ⊢
      rw [hw]
      exact .inl ⟨q1, q2, rfl⟩
    | error f =>
      obtain ⟨l, hm⟩ := mapEach_leftOver_ok s.skTriangles fun t ht =>
        ⟨hI.refs.skTriangles t ht, hI.refs.vertices t (hI.refs.skTriangles t ht)⟩
      unfold checkAllStopped at c
      rw [bind_run, hm] at c
      dsimp only at c
      obtain ⟨-, rfl⟩ := mapEach_leftOver hm
      split_ifs at c with hc
      · cases c
        refine .inr ⟨rfl, .inr ?_⟩
        simp only [List.any_map, List.any_eq_true, Function.comp, id, Bool.and_eq_true] at hc
        obtain ⟨t, ht, ⟨⟨a, b⟩, d⟩, f⟩ := hc
        refine ⟨t, ht, ⟨hI.refs.skTriangles t ht, Option.isNone_iff_eq_none.1 f⟩, fun i => ?_⟩
        fin_cases i
        · exact a
        · exact b
        · exact d
      · cases c
  · rw [q3]
    exact .inr ⟨rfl, .inl ⟨rfl, q2⟩⟩

/-! ### the hypotheses are met -/

theorem generic_execution {depth n : ℕ} {s0 : St ℚ} {now : ℚ} {s : St ℚ} {tr : List (Event ℚ × ℚ)} (h1 : goodCheck s0 = true)
    (h2 : Execution depth s0 n now s tr)
    (h3 : genericRun genericCheck depth n 0 0 { Sample.after initEventList s0 with immediate := [] } = true) :
    GenericExecution depth s0 n now s tr := by
  obtain ⟨-, s1, q1, q2⟩ := h2
  refine ⟨good_of_check h1, s1, q1, q2, fun m hm x u tr' e hr he hl => generic_of_check ?_⟩
  have e1 : Sample.after initEventList s0 = s1 := by unfold Sample.after; rw [q1]
  rw [e1] at h3
  exact genericRun_run n 0 .start h3 m (Nat.zero_le _) (by omega) x u tr' e hr he hl

theorem next_of_run {depth n : ℕ} {s0 : St ℚ} {now : ℚ} {s : St ℚ}
    (h : ordinaryRun depth n 0 0 { Sample.after initEventList s0 with immediate := [] } = some (now, s))
    (h' : ((ordinaryRun depth n 0 0 { Sample.after initEventList s0 with immediate := [] }).bind
      fun r => nextOf r.2).isSome = true) : ∃ e, NextEvent s e := by
  rw [h, Option.bind_some] at h'
  obtain ⟨e, he⟩ := Option.isSome_iff_exists.1 h'
  refine ⟨e, ?_⟩
  unfold nextOf at he
  split at he
  · next q => exact .inl (by rw [q]; exact he)
  · next q => exact .inr ⟨q, he⟩

theorem generic_sample {n : ℕ} {s0 : St ℚ} (h1 : Sample.initialOk s0 = true) (h2 : meshCheck s0 = true)
    (h3 : Sample.outcome initEventList (fun _ _ => ()) s0 = some ())
    (h4 : (ordinaryRun 100 n 0 0 { Sample.after initEventList s0 with immediate := [] }).isSome = true)
    (h5 : goodCheck s0 = true)
    (h6 : genericRun genericCheck 100 n 0 0 { Sample.after initEventList s0 with immediate := [] } = true)
    (h7 : ((ordinaryRun 100 n 0 0 { Sample.after initEventList s0 with immediate := [] }).bind
      fun r => nextOf r.2).isSome = true) :
    ∃ now s tr, GenericExecution 100 s0 n now s tr ∧ ∃ e, NextEvent s e := by
  obtain ⟨now, s, tr, q, -, -, s1, r1, r2, -⟩ := ordinary_execution h1 h2 h3 h4
  exact ⟨now, s, tr, generic_execution h5 ⟨Sample.initialOk_sound h1, s1, r1, r2⟩ h6, next_of_run q h7⟩

/-- The first event of the trapezoid and of the polygon with a notch is as in general position, and so is the second,
which is yet to be handled. -/
example : ∃ now s tr, GenericExecution 100 Sample.trapezoid 1 now s tr ∧ ∃ e, NextEvent s e :=
  generic_sample (by decide +kernel) (by decide +kernel) (by decide +kernel) (by decide +kernel) (by decide +kernel)
    (by decide +kernel) (by decide +kernel)
example : ∃ now s tr, GenericExecution 100 Sample.notched 1 now s tr ∧ ∃ e, NextEvent s e :=
  generic_sample (by decide +kernel) (by decide +kernel) (by decide +kernel) (by decide +kernel) (by decide +kernel)
    (by decide +kernel) (by decide +kernel)

/-- The whole run of the trapezoid (an edge event, and the collapse of what is left) and that of the polygon with a notch
(a split event and the collapse of the two parts) are as `C87_event_loop` asks for. -/
theorem unambiguous_run {depth n : ℕ} {s0 s1 : St ℚ} (h1 : initEventList s0 = .ok ((), s1))
    (h3 : genericRun (fun s e => genericCheck s e && unambiguousCheck s e) depth n 0 0
      { Sample.after initEventList s0 with immediate := [] } = true) :
    ∀ m < n, ∀ x u tr e, Run depth { s1 with immediate := [] } 0 m x u tr → NextEvent u e → Live u e.tri →
      Generic u e ∧ Unambiguous u e := by
  intro m hm x u tr e hr he hl
  have e1 : Sample.after initEventList s0 = s1 := by unfold Sample.after; rw [h1]
  rw [e1] at h3
  have := genericRun_run n 0 .start h3 m (Nat.zero_le _) (by omega) x u tr e hr he hl
  rw [Bool.and_eq_true] at this
  exact ⟨generic_of_check this.1, unambiguous_of_check this.2⟩

example : ∃ s1, GoodStart Sample.trapezoid ∧ initEventList Sample.trapezoid = .ok ((), s1) ∧ ∀ m < 50000, ∀ x u tr e,
    Run 100 { s1 with immediate := [] } 0 m x u tr → NextEvent u e → Live u e.tri → Generic u e ∧ Unambiguous u e :=
  have h : initEventList Sample.trapezoid = .ok ((), Sample.after initEventList Sample.trapezoid) :=
    Sample.after_run (by decide +kernel)
  ⟨_, good_of_check (by decide +kernel), h, unambiguous_run h (by decide +kernel)⟩
example : ∃ s1, GoodStart Sample.notched ∧ initEventList Sample.notched = .ok ((), s1) ∧ ∀ m < 50000, ∀ x u tr e,
    Run 100 { s1 with immediate := [] } 0 m x u tr → NextEvent u e → Live u e.tri → Generic u e ∧ Unambiguous u e :=
  have h : initEventList Sample.notched = .ok ((), Sample.after initEventList Sample.notched) :=
    Sample.after_run (by decide +kernel)
  ⟨_, good_of_check (by decide +kernel), h, unambiguous_run h (by decide +kernel)⟩

end Grassfire
