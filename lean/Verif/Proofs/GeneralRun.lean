/-
Executions in general position are ordinary and plain (lemmas for C90).
-/
import Verif.Proofs.RideRun
import Verif.Proofs.SharpExact
import Verif.Props.Progress
import Verif.Spec.General

set_option linter.unusedSectionVars false

namespace Grassfire

open Spec

variable {K : Type} [Field K] [LinearOrder K] [IsStrictOrderedRing K] [HasSqrt K]

variable {s s' : St K} {P : Line2 K → Prop}

theorem Spec.ClearTimes.motion {T : TView K} (h : ClearTimes T) (hr : ∀ i, T.noNeighbour i = true → ∃ l, Rides T i l) :
    ClearMotion T :=
  ⟨hr, h.side, h.apex, h.apart, h.zero, h.coeffs, h.near, h.roots⟩

theorem Spec.CrispStep.step {e : Event K} {x x' : K} (h : CrispStep s e x x')
    (hp : (s.tri e.tri).stopsAt = none → Plain s e) : SharpStep s e x x' :=
  ⟨h.sharp, h.tiny, h.three, fun _ => hp, h.gaps, h.late⟩

variable [SqrtUnit K] [HasTrig K]

theorem generic_ordinary {e : Event K} (R' : Ready P s') (ht : e.tri < s.nT) (hg : Live s e.tri → Generic s e) :
    Ordinary s s' e := by
  refine ⟨fun v k _ hv hk => R'.slow v k hv hk, fun htp i hi hj => ?_, fun htp i hi hs => ?_, fun htp h3 hs i n hn => ?_⟩
  · by_cases hs : (s.tri e.tri).stopsAt = none
    · rcases (hg ⟨ht, hs⟩).edge htp with ⟨h3, -⟩ | ⟨i', hi', -, hc⟩
      · rw [hi] at h3; cases h3
      · obtain rfl : i' = i := by rw [hi] at hi'; simpa using hi'.symm
        exact (hc.resolve_left fun q => hj.elim fun j hj => hj (q j)).2.1
    · intro x hx hc _ _
      rcases Relation.ReflTransGen.cases_head hc with q | ⟨y, hy, -⟩
      · exact .inl q.symm
      · exact absurd hy.1.2 hs
  · obtain ⟨i', hi', -, hp⟩ := (hg ⟨ht, hs⟩).flip htp
    obtain rfl : i' = i := by rw [hi] at hi'; simpa using hi'.symm
    exact hp
  · rcases (hg ⟨ht, hs⟩).edge htp with ⟨-, q⟩ | ⟨i', hi', -⟩
    · rw [q] at hn; cases hn
    · rw [hi'] at h3; cases h3

theorem generic_tidy {e : Event K} (G : Generic s e) (htp : e.tp = .edge) {i : Fin 3} (hi : e.side = [i])
    (hj : ∃ j, (s.tri e.tri).neighbours j ≠ none) : (s.tri e.tri).neighbours i = none := by
  rcases G.edge htp with ⟨h3, -⟩ | ⟨i', hi', -, hc⟩
  · rw [hi] at h3; cases h3
  · obtain rfl : i' = i := by rw [hi] at hi'; simpa using hi'.symm
    exact (hc.resolve_left fun q => hj.elim fun j hj => hj (q j)).1

theorem generic_plain {e : Event K} (R : Ready P s) (hl : Live s e.tri) (G : Generic s e) : Plain s e := by
  refine ⟨fun htp i hi hj => ?_, fun htp i => ?_, fun htp h3 i => ?_⟩
  · obtain ⟨k1, k2, b1, b2, h1, h2, -⟩ := R.undead.points R.mesh hl (generic_tidy G htp hi hj)
    exact .inl ⟨R.undead.running R.mesh hl ⟨b1, k1, h1⟩, R.undead.running R.mesh hl ⟨b2, k2, h2⟩⟩
  · obtain ⟨j, -, hn, -, -, hk, -⟩ := G.split htp
    obtain ⟨k1, k2, b1, b2, h1, h2, -⟩ := R.undead.points R.mesh hl hn
    refine R.undead.running R.mesh hl ?_
    rcases fin3_cases j i with rfl | rfl | rfl
    · exact hk
    · exact ⟨b1, k1, h1⟩
    · exact ⟨b2, k2, h2⟩
  · rcases G.edge htp with ⟨-, q⟩ | ⟨i', hi', -⟩
    · exact .inr (.inl ⟨q _, q _⟩)
    · rw [hi'] at h3; cases h3

/-- the event that is handled is the next one -/
theorem loopStep_next {depth : ℕ} {step : ℤ} {now now' : K} {e : Event K}
    (h : loopStep depth step now s = .ok (some (e, now'), s')) : NextEvent s e := by
  obtain ⟨s1, h1, -⟩ := loopStep_some h
  rcases takeEvent_next now s with ⟨q, -, -⟩ | ⟨f, x, q, i, hn, ht⟩
  · rw [q] at h1; cases h1
  · rw [ht] at h1
    cases h1
    exact hn

theorem nextEvent_bound {N : Prop} {now : K} (h : Inv N now s) {e : Event K} (hn : NextEvent s e) : e.tri < s.nT := by
  have hp : e ∈ pending s := by
    unfold pending
    rcases hn with q | ⟨-, q⟩
    · exact List.mem_append_left _ (List.mem_of_head? q)
    · exact List.mem_append_right _ (List.mem_of_head? q)
  exact (h.current e hp).1

/-- the beginning of an execution in general position is one -/
theorem Spec.GenericExecution.prefix {depth : ℕ} {s0 : St K} {n : ℕ} {now : K} {s : St K} {tr : List (Event K × K)}
    (h : GenericExecution depth s0 n now s tr) {m : ℕ} (hm : m ≤ n) {s1 : St K} (h1 : initEventList s0 = .ok ((), s1))
    {x : K} {u : St K} {tr' : List (Event K × K)} (hr : Run depth { s1 with immediate := [] } 0 m x u tr') :
    GenericExecution depth s0 m x u tr' := by
  obtain ⟨hs, s1', h1', -, hg⟩ := h
  obtain rfl : s1' = s1 := by rw [h1] at h1'; cases h1'; rfl
  exact ⟨hs, s1', h1, hr, fun k hk => hg k (hk.trans hm)⟩

/-- an iteration of an execution in general position -/
theorem Spec.GenericExecution.iteration {depth : ℕ} {s0 : St K} {n : ℕ} {now : K} {s : St K} {tr : List (Event K × K)}
    (h : GenericExecution depth s0 n now s tr) {s1 : St K} (h1 : initEventList s0 = .ok ((), s1)) {m : ℕ} (hm : m < n)
    {x x' : K} {u u' : St K} {tr' : List (Event K × K)} {e : Event K}
    (hr : Run depth { s1 with immediate := [] } 0 m x u tr')
    (hs : loopStep depth (m + 1 : ℕ) x u = .ok (some (e, x'), u')) :
    Ordinary u u' e ∧ ((u.tri e.tri).stopsAt = none → Generic u e ∧ Plain u e) := by
  obtain ⟨R, hI, hg⟩ := (h.prefix hm.le h1 hr).ready
  obtain ⟨R', -, -⟩ := (h.prefix hm h1 (hr.step hs)).ready
  have hn := loopStep_next hs
  have ht := nextEvent_bound hI hn
  exact ⟨generic_ordinary R' ht (hg e hn), fun q => ⟨hg e hn ⟨ht, q⟩, generic_plain R ⟨ht, q⟩ (hg e hn ⟨ht, q⟩)⟩⟩

/-- in general position, vertices stay on their wavefronts if they do so at the start -/
theorem Spec.GenericExecution.tracks {depth : ℕ} {s0 : St K} {n : ℕ} {now : K} {s : St K} {tr : List (Event K × K)}
    (h : GenericExecution depth s0 n now s tr) (ha : AllTrack s0) : AllTrack s := by
  obtain ⟨hs, s1, h1, hr, hg⟩ := h
  obtain ⟨R, hI⟩ := ready_start hs h1
  obtain ⟨f1, f2, -⟩ := start_frame h1
  have hline : s1.line = s0.line := by
    unfold initEventList at h1
    obtain ⟨_, s2, h2, hm⟩ := bind_run_ok.1 h1
    cases h2
    obtain ⟨_, s2, h2, hm⟩ := bind_run_ok.1 hm
    cases h2
    have g : Keeps (Grows (K := K)) (forEach initEvent s0.skTriangles) := Keeps.forEach growsPre (fun t => g_initEvent t) _
    exact (g _ _ _ hm).line
  refine track_run hr R (fun v k hv hk => ?_) fun m hm x u tr' e => hg m hm.le x u tr' e
  dsimp only at hv hk
  rw [f1] at hk
  rw [f2] at hv
  intro a b h1 h2 t
  dsimp only
  rw [hline]
  exact ha v k hv hk a b h1 h2 t

end Grassfire
