/-
The loop of `event_loop` and its executions.
-/
import Verif.Proofs.Wp
import Verif.Spec.Execution

set_option linter.unusedSectionVars false

namespace Grassfire

open Spec

variable {K : Type} [Field K] [LinearOrder K] [HasSqrt K] [HasTrig K]

theorem takeEvent_run (now : K) (s : St K) :
    (∃ e rest, s.immediate = e :: rest ∧
      takeEvent now s = .ok (some (e, now), { s with immediate := rest })) ∨
    (∃ e rest, s.immediate = [] ∧ s.queue = e :: rest ∧
      takeEvent now s = .ok (some (e, e.time), { s with queue := rest })) ∨
    (s.immediate = [] ∧ s.queue = [] ∧ takeEvent now s = .ok (none, s)) := by
  unfold takeEvent
  cases hi : s.immediate with
  | cons e rest => exact .inl ⟨e, rest, rfl, rfl⟩
  | nil =>
    cases hq : s.queue with
    | cons e rest => exact .inr (.inl ⟨e, rest, rfl, rfl, rfl⟩)
    | nil => exact .inr (.inr ⟨rfl, rfl, rfl⟩)

theorem loopStep_some {depth : ℕ} {step : ℤ} {now now' : K} {s s' : St K} {e : Event K}
    (h : loopStep depth step now s = .ok (some (e, now'), s')) :
    ∃ s1, takeEvent now s = .ok (some (e, now'), s1) ∧
      handleEvent depth e step s1 = .ok ((), s') := by
  unfold loopStep at h
  obtain ⟨a, s1, h1, h2⟩ := bind_run_ok.1 h
  cases a with
  | none => exact absurd (pure_run_ok.1 h2).1 (by simp)
  | some x =>
    obtain ⟨u, s2, h3, h4⟩ := bind_run_ok.1 h2
    obtain ⟨h5, rfl⟩ := pure_run_ok.1 h4
    cases h5
    exact ⟨s1, h1, h3⟩

theorem loopStep_none {depth : ℕ} {step : ℤ} {now : K} {s s' : St K}
    (h : loopStep depth step now s = .ok (none, s')) :
    s' = s ∧ s.immediate = [] ∧ s.queue = [] := by
  unfold loopStep at h
  obtain ⟨a, s1, h1, h2⟩ := bind_run_ok.1 h
  cases a with
  | some x =>
    obtain ⟨u, s2, h3, h4⟩ := bind_run_ok.1 h2
    exact absurd (pure_run_ok.1 h4).1 (by simp)
  | none =>
    obtain ⟨_, rfl⟩ := pure_run_ok.1 h2
    rcases takeEvent_run now s with ⟨e, r, _, h⟩ | ⟨e, r, _, _, h⟩ | ⟨hi, hq, h⟩
    · rw [h] at h1; simp at h1
    · rw [h] at h1; simp at h1
    · rw [h] at h1
      simp only [Except.ok.injEq, Prod.mk.injEq, true_and] at h1
      exact ⟨h1.symm, hi, hq⟩

/-- A successful loop is an execution that ends with nothing pending. -/
theorem loop_run {depth : ℕ} {s0 : St K} {now0 : K} (fuel : ℕ) :
    ∀ {n : ℕ} {now now' : K} {s s' : St K} {tr : List (Event K × K)},
      Run depth s0 now0 n now s tr → loop depth fuel (n : ℤ) now s = .ok (now', s') →
      ∃ n' tr', n' ≤ n + fuel ∧ Run depth s0 now0 n' now' s' tr' ∧
        s'.immediate = [] ∧ s'.queue = [] := by
  induction fuel with
  | zero =>
    intro n now now' s s' tr hr h
    simp only [loop] at h
    split_ifs at h with hp
    simp only [Except.ok.injEq, Prod.mk.injEq] at h
    obtain ⟨rfl, rfl⟩ := h
    simp only [Bool.and_eq_true, List.isEmpty_iff] at hp
    exact ⟨n, tr, le_rfl, hr, hp⟩
  | succ fuel ih =>
    intro n now now' s s' tr hr h
    simp only [loop] at h
    obtain ⟨a, s1, h1, h2⟩ := bind_run_ok.1 h
    cases a with
    | none =>
      obtain ⟨rfl, rfl⟩ := pure_run_ok.1 h2
      obtain ⟨rfl, hi, hq⟩ := loopStep_none h1
      exact ⟨n, tr, by omega, hr, hi, hq⟩
    | some x =>
      obtain ⟨e, now1⟩ := x
      have hr' : Run depth s0 now0 (n + 1) now1 s1 (tr ++ [(e, now1)]) :=
        hr.step (by push_cast; exact h1)
      obtain ⟨n', tr', hn, hrest⟩ := ih hr' (by push_cast; exact h2)
      exact ⟨n', tr', by omega, hrest⟩

/-- Conversely an execution of less than the allowed number of iterations that ends with nothing
pending is a successful loop. -/
theorem run_loop {depth : ℕ} {s0 : St K} {now0 : K} {n : ℕ} {now : K} {s : St K}
    {tr : List (Event K × K)} (hr : Run depth s0 now0 n now s tr) :
    ∀ fuel, loop depth (n + fuel) 0 now0 s0 = loop depth fuel (n : ℤ) now s := by
  induction hr with
  | start => intro fuel; simp
  | @step n now now' s s' tr e hr hs ih =>
    intro fuel
    rw [show n + 1 + fuel = n + (fuel + 1) by omega, ih (fuel + 1)]
    simp only [loop]
    rw [bind_run]
    push_cast at hs ⊢
    rw [hs]

/-- a finished loop -/
theorem loop_done {depth : ℕ} (fuel : ℕ) (step : ℤ) (now : K) {s : St K} (hi : s.immediate = [])
    (hq : s.queue = []) : loop depth fuel step now s = .ok (now, s) := by
  cases fuel with
  | zero => simp [loop, hi, hq]
  | succ fuel =>
    simp only [loop]
    rw [bind_run]
    have : loopStep depth (step + 1) now s = .ok (none, s) := by
      unfold loopStep
      rw [bind_run]
      simp only [takeEvent, hi, hq]
      rfl
    rw [this]
    rfl


theorem forEach_same {α : Type} {f : α → M K Unit} (hf : ∀ x s a s', f x s = .ok (a, s') → s = s')
    (l : List α) {s s' : St K} {a : Unit} (h : forEach f l s = .ok (a, s')) : s = s' := by
  induction l generalizing s with
  | nil => exact (pure_run_ok.1 h).2
  | cons x xs ih =>
    obtain ⟨_, s1, h1, h2⟩ := bind_run_ok.1 h
    rw [hf _ _ _ _ h1]
    exact ih h2

theorem mapEach_same {α β : Type} {f : α → M K β} (hf : ∀ x s a s', f x s = .ok (a, s') → s = s')
    (l : List α) {s s' : St K} {a : List β} (h : mapEach f l s = .ok (a, s')) : s = s' := by
  induction l generalizing s s' a with
  | nil => exact (pure_run_ok.1 h).2
  | cons x xs ih =>
    obtain ⟨_, s1, h1, h2⟩ := bind_run_ok.1 h
    obtain ⟨_, s2, h3, h4⟩ := bind_run_ok.1 h2
    rw [hf _ _ _ _ h1, ih h3]
    exact (pure_run_ok.1 h4).2

theorem checkBisectorDirection_same {t : TId} {i : Fin 3} {now : K} {s s' : St K} {a : Unit}
    (h : checkBisectorDirection t i now s = .ok (a, s')) : s = s' := by
  unfold checkBisectorDirection at h
  obtain ⟨_, _, h1, h⟩ := bind_run_ok.1 h
  obtain ⟨_, _, rfl⟩ := getT_run_ok.1 h1
  obtain ⟨_, _, h1, h⟩ := bind_run_ok.1 h
  obtain ⟨_, _, rfl⟩ := positionAt_run_ok.1 h1
  obtain ⟨_, _, h1, h⟩ := bind_run_ok.1 h
  unfold velocityOf at h1
  obtain ⟨_, _, h2, h1⟩ := bind_run_ok.1 h1
  obtain ⟨_, _, rfl⟩ := getV_run_ok.1 h2
  obtain ⟨_, rfl⟩ := pure_run_ok.1 h1
  obtain ⟨_, _, h1, h⟩ := bind_run_ok.1 h
  obtain ⟨_, _, rfl⟩ := positionAt_run_ok.1 h1
  exact (assertM_run_ok.1 h).2

theorem checkBisectors_same {ts : List TId} {now : K} {s s' : St K} {a : Unit}
    (h : checkBisectors ts now s = .ok (a, s')) : s = s' := by
  unfold checkBisectors at h
  refine forEach_same (fun t s a s' h => ?_) _ h
  obtain ⟨_, _, h1, h⟩ := bind_run_ok.1 h
  obtain ⟨_, _, rfl⟩ := getT_run_ok.1 h1
  split_ifs at h
  · refine forEach_same (fun i s a s' h => ?_) _ h
    split_ifs at h
    · exact checkBisectorDirection_same h
    · exact (pure_run_ok.1 h).2
  · exact (pure_run_ok.1 h).2

theorem checkOrientation_same {ts : List TId} {now : K} {s s' : St K} {a : Unit}
    (h : checkOrientation ts now s = .ok (a, s')) : s = s' := by
  unfold checkOrientation at h
  refine forEach_same (fun t s a s' h => ?_) _ h
  obtain ⟨_, _, h1, h⟩ := bind_run_ok.1 h
  obtain ⟨_, _, rfl⟩ := getT_run_ok.1 h1
  split_ifs at h
  · obtain ⟨_, _, h1, h⟩ := bind_run_ok.1 h
    obtain ⟨_, _, rfl⟩ := positionAt_run_ok.1 h1
    obtain ⟨_, _, h1, h⟩ := bind_run_ok.1 h
    obtain ⟨_, _, rfl⟩ := positionAt_run_ok.1 h1
    obtain ⟨_, _, h1, h⟩ := bind_run_ok.1 h
    obtain ⟨_, _, rfl⟩ := positionAt_run_ok.1 h1
    obtain ⟨_, _, h1, h⟩ := bind_run_ok.1 h
    obtain ⟨_, _, rfl⟩ := getV_run_ok.1 h1
    obtain ⟨_, _, h1, h⟩ := bind_run_ok.1 h
    obtain ⟨_, _, rfl⟩ := getV_run_ok.1 h1
    obtain ⟨_, _, h1, h⟩ := bind_run_ok.1 h
    obtain ⟨_, _, rfl⟩ := getV_run_ok.1 h1
    split_ifs at h
    · exact (assertM_run_ok.1 h).2
    · exact (assertM_run_ok.1 h).2
  · exact (pure_run_ok.1 h).2

theorem leftOver_run {t : TId} {s s' : St K} {b : Bool} (h : leftOver t s = .ok (b, s')) :
    s = s' ∧ t < s.nT ∧
      b = ((s.vert ((s.tri t).vertices 0)).internal && (s.vert ((s.tri t).vertices 1)).internal &&
        (s.vert ((s.tri t).vertices 2)).internal && (s.tri t).stopsAt.isNone) := by
  unfold leftOver at h
  obtain ⟨_, _, h1, h⟩ := bind_run_ok.1 h
  obtain ⟨ht, rfl, rfl⟩ := getT_run_ok.1 h1
  obtain ⟨_, _, h1, h⟩ := bind_run_ok.1 h
  obtain ⟨_, rfl, rfl⟩ := getV_run_ok.1 h1
  obtain ⟨_, _, h1, h⟩ := bind_run_ok.1 h
  obtain ⟨_, rfl, rfl⟩ := getV_run_ok.1 h1
  obtain ⟨_, _, h1, h⟩ := bind_run_ok.1 h
  obtain ⟨_, rfl, rfl⟩ := getV_run_ok.1 h1
  obtain ⟨rfl, rfl⟩ := pure_run_ok.1 h
  exact ⟨rfl, ht, rfl⟩

theorem mapEach_leftOver {ts : List TId} {s s' : St K} {l : List Bool}
    (h : mapEach leftOver ts s = .ok (l, s')) :
    s = s' ∧ l = ts.map fun t =>
      ((s.vert ((s.tri t).vertices 0)).internal && (s.vert ((s.tri t).vertices 1)).internal &&
        (s.vert ((s.tri t).vertices 2)).internal && (s.tri t).stopsAt.isNone) := by
  induction ts generalizing l s' with
  | nil =>
    obtain ⟨rfl, rfl⟩ := pure_run_ok.1 h
    exact ⟨rfl, rfl⟩
  | cons t ts ih =>
    obtain ⟨b, s1, h1, h⟩ := bind_run_ok.1 h
    obtain ⟨rfl, _, rfl⟩ := leftOver_run h1
    obtain ⟨l', s2, h2, h⟩ := bind_run_ok.1 h
    obtain ⟨rfl, rfl⟩ := ih h2
    obtain ⟨rfl, rfl⟩ := pure_run_ok.1 h
    exact ⟨rfl, rfl⟩

theorem checkAllStopped_run {ts : List TId} {s s' : St K} {a : Unit}
    (h : checkAllStopped ts s = .ok (a, s')) :
    s = s' ∧ ∀ t ∈ ts, (s.vert ((s.tri t).vertices 0)).internal = true →
      (s.vert ((s.tri t).vertices 1)).internal = true →
      (s.vert ((s.tri t).vertices 2)).internal = true → (s.tri t).stopsAt.isSome := by
  unfold checkAllStopped at h
  obtain ⟨l, s1, h1, h⟩ := bind_run_ok.1 h
  obtain ⟨rfl, rfl⟩ := mapEach_leftOver h1
  split_ifs at h with hc
  · exact (raise_run_ok.1 h).elim
  · refine ⟨(pure_run_ok.1 h).2, fun t ht h0 h1 h2 => ?_⟩
    simp only [List.any_map, List.any_eq_true, not_exists, not_and] at hc
    have := hc t ht
    simp only [Function.comp, id, h0, h1, h2, Bool.true_and] at this
    cases hs : (s.tri t).stopsAt <;> simp_all

/-- what a successful call of `event_loop` has done -/
theorem eventLoop_run {depth : ℕ} {s s' : St K} {now : K}
    (h : eventLoop depth s = .ok (now, s')) :
    (∃ n tr, n ≤ 50000 ∧ Run depth { s with immediate := [] } 0 n now s' tr) ∧
    s'.immediate = [] ∧ s'.queue = [] ∧
    ∀ t ∈ s'.skTriangles, (s'.vert ((s'.tri t).vertices 0)).internal = true →
      (s'.vert ((s'.tri t).vertices 1)).internal = true →
      (s'.vert ((s'.tri t).vertices 2)).internal = true → (s'.tri t).stopsAt.isSome := by
  unfold eventLoop at h
  obtain ⟨_, s1, h1, h⟩ := bind_run_ok.1 h
  simp only [clearImmediate, Except.ok.injEq, Prod.mk.injEq, true_and] at h1
  subst h1
  obtain ⟨ts, s2, h1, h⟩ := bind_run_ok.1 h
  simp only [skelTriangles, Except.ok.injEq, Prod.mk.injEq] at h1
  obtain ⟨rfl, rfl⟩ := h1
  obtain ⟨_, s3, h1, h⟩ := bind_run_ok.1 h
  obtain rfl := checkBisectors_same h1
  obtain ⟨_, s4, h1, h⟩ := bind_run_ok.1 h
  obtain rfl := checkOrientation_same h1
  obtain ⟨now', s5, h1, h⟩ := bind_run_ok.1 h
  obtain ⟨n, tr, hn, hr, hi, hq⟩ := loop_run 50000 (n := 0) Run.start (by exact_mod_cast h1)
  obtain ⟨ts, s6, h1, h⟩ := bind_run_ok.1 h
  simp only [skelTriangles, Except.ok.injEq, Prod.mk.injEq] at h1
  obtain ⟨rfl, rfl⟩ := h1
  obtain ⟨_, s7, h1, h⟩ := bind_run_ok.1 h
  obtain ⟨rfl, hall⟩ := checkAllStopped_run h1
  obtain ⟨rfl, rfl⟩ := pure_run_ok.1 h
  exact ⟨⟨n, tr, by omega, hr⟩, hi, hq, hall⟩

end Grassfire
