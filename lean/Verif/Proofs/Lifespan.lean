/-
For C101: in general position no vertex stops when it starts.
-/
import Verif.Proofs.Rings
import Verif.Proofs.GeneralRun
import Verif.Props.Cubic

set_option linter.unusedSectionVars false

namespace Grassfire

open Spec

variable {K : Type} [Field K] [LinearOrder K] [IsStrictOrderedRing K] [HasSqrt K] [SqrtUnit K] [HasTrig K]
variable {s s' : St K} {P : Line2 K → Prop} {N : Prop}

/-- the vertices of the skeleton that have stopped have done so after their start -/
def LongLived (s : St K) : Prop :=
  ∀ v ∈ s.skVertices, ∀ k a b, s.vert v = .kin k → k.startsAt = some a → k.stopsAt = some b → a < b

theorem longLived_untouched {now now' : K} (hI : Inv N now s) (hI' : Inv N now' s') (hle : now ≤ now')
    (hS : Since (· = now') s s') (hL : LongLived s) (hU : Untouched s s') : LongLived s' := by
  intro v hv k' a b hk' ha hb
  rw [hU.vertices] at hv
  have hn := hI.refs.skVertices v hv
  obtain ⟨k, hk, -⟩ := hI.numbered v hv
  have q := hS.kept v hn
  rw [hk, hk'] at q
  have l := hI.lives v k hn hk
  have l' := hI'.lives v k' (hn.trans_le hS.nV) hk'
  have e := hU.sameEnd v hv
  rw [endOf_kin hk, endOf_kin hk'] at e
  have st : k.stopsAt.isSome := by
    rw [l.both, ← e, ← l'.both, hb]; rfl
  obtain ⟨b0, hb0⟩ := Option.isSome_iff_exists.1 st
  rw [q.startsAt] at ha
  have lt := hL v hv k a b0 hk ha hb0
  rcases q.stopsAt with r | ⟨t, r, rfl⟩
  · rw [hb, hb0] at r
    cases r
    exact lt
  · rw [hb] at r
    cases r
    exact lt.trans_le ((l.order a b0 ha hb0).2.trans hle)

theorem longLived_junction {now now' : K} {t : TId} {gone made : List VId} (hI : Inv N now s) (hI' : Inv N now' s')
    (hle : now ≤ now') (hS : Since (· = now') s s') (hL : LongLived s) (hJ : Junction s s' t gone made)
    (hR : Recast s s' t gone made)
    (hag : ∀ i k u, s.vert ((s.tri t).vertices i) = .kin k → k.startsAt = some u → 1 / 10 ^ 10 < |u - now'|) :
    LongLived s' := by
  intro v hv k' a b hk' ha hb
  rw [hJ.vertices, List.mem_append] at hv
  rcases hv with hv | hv
  · have hn := hI.refs.skVertices v hv
    obtain ⟨k, hk, -⟩ := hI.numbered v hv
    have q := hS.kept v hn
    rw [hk, hk'] at q
    have l := hI.lives v k hn hk
    have l' := hI'.lives v k' (hn.trans_le hS.nV) hk'
    rw [q.startsAt] at ha
    have hanow : a ≤ now := by
      obtain ⟨a', e1, e2⟩ := l.starts
      rw [ha] at e1
      cases e1
      exact e2
    rcases q.stopsAt with r | ⟨x, r, rfl⟩
    · rw [hb] at r
      exact hL v hv k a b hk ha r.symm
    · rw [hb] at r
      cases r
      by_cases hg : v ∈ gone
      · obtain ⟨i, rfl⟩ := hR.corners v hg
        refine lt_of_le_of_ne (hanow.trans hle) ?_
        rintro rfl
        have := hag i k a hk ha
        rw [sub_self, abs_zero] at this
        exact absurd this (not_lt.2 (by positivity))
      · have e := hJ.sameEnd v hv hg
        rw [endOf_kin hk, endOf_kin hk'] at e
        have st : k.stopsAt.isSome := by
          rw [l.both, ← e, ← l'.both, hb]; rfl
        obtain ⟨b0, hb0⟩ := Option.isSome_iff_exists.1 st
        exact (hL v hv k a b0 hk ha hb0).trans_le ((l.order a b0 ha hb0).2.trans hle)
  · obtain ⟨-, f⟩ := hJ.fresh v hv
    rw [endOf_kin hk'] at f
    have hn : v < s'.nV := hI'.refs.skVertices v (by rw [hJ.vertices]; exact List.mem_append_right _ hv)
    have := (hI'.lives v k' hn hk').both
    rw [f, hb] at this
    simp at this

theorem longLived_run {depth : ℕ} {s0 : St K} {now0 : K} {n : ℕ} {now : K} {s : St K} {tr : List (Event K × K)}
    (hr : Run depth s0 now0 n now s tr) (R : Ready P s0) (hI : Inv N now0 s0) (hP : Populated s0)
    (hp : ∀ e ∈ pending s0, e.tri ∈ s0.skTriangles) (hC : Counted s0 s0) (hL : LongLived s0)
    (hg : ∀ m < n, ∀ x u tr' e, Run depth s0 now0 m x u tr' → NextEvent u e → Live u e.tri → Generic u e ∧ Alone u e) :
    LongLived s := by
  induction hr with
  | start => exact hL
  | @step n now now' s s' tr e hr hs ih =>
    have ih := ih fun m hm => hg m (Nat.lt_succ_of_lt hm)
    obtain ⟨p1, p2, -⟩ := cubic_run hr R hI hP hp hC fun m hm => hg m (Nat.lt_succ_of_lt hm)
    have R1 := ready_run hr R fun m hm x u tr' e a b c => (hg m (Nat.lt_succ_of_lt hm) x u tr' e a b c).1
    have I1 := (run_inv hr hI).1
    obtain ⟨I2, ht, hle⟩ := wp_ok (i_loopStep depth (n + 1 : ℕ) I1) hs
    have hS := si_iteration I1 hs
    have hn := loopStep_next hs
    obtain ⟨-, -, -, c4, c5, c6⟩ := cubic_loopStep R1 I1 p1 p2 (fun f => hg n (Nat.lt_succ_self n) _ _ _ f hr) hs
    by_cases hl : Live s e.tri
    · by_cases hf : e.tp = .flip
      · exact longLived_untouched I1 I2 hle hS ih (c5 hl hf).1
      · obtain ⟨x, y, hJ, hR⟩ := c6 hl hf
        refine longLived_junction I1 I2 hle hS ih hJ hR ?_
        have := (hg n (Nat.lt_succ_self n) _ _ _ e hr hn hl).2.aged hf
        rw [ht] at this
        exact this
    · exact longLived_untouched I1 I2 hle hS ih (c4 hl).1

/-- In general position every arc that has ended took some time. -/
theorem Spec.LoneExecution.longLived {depth n : ℕ} {s0 s : St K} {now : K} {tr : List (Event K × K)}
    (h : LoneExecution depth s0 n now s tr) : LongLived s := by
  obtain ⟨⟨hs, s1, h1, hr, hg⟩, hp, ha⟩ := h
  obtain ⟨R, hI⟩ := ready_start hs h1
  obtain ⟨c1, c2, c3, -, -, e3, -⟩ := cubic_start hs.initial hp h1
  refine longLived_run hr R hI c1 c2 c3 ?_ fun m hm x u tr' e q1 q2 q3 =>
    ⟨hg m hm.le x u tr' e q1 q2 q3, ha s1 h1 m hm.le x u tr' e q1 q2 q3⟩
  intro v hv k a b hk _ hb
  obtain ⟨f1, -⟩ := start_frame h1
  have hv : v ∈ s0.skVertices := e3 ▸ hv
  have hk : s0.vert v = .kin k := f1 ▸ hk
  have := (hs.initial.lives v k (hs.initial.refs.skVertices v hv) hk).2.2
  rw [hb] at this
  simp at this

end Grassfire
