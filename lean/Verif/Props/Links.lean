/-
Property C69: the vertices and the triangles agree about the wavefront.
-/
import Verif.Proofs.LinkRun
import Verif.Proofs.LinkCheck
import Verif.Events.Check

set_option linter.unusedSectionVars false

namespace Grassfire

open Spec

variable {K : Type} [Field K] [LinearOrder K] [IsStrictOrderedRing K] [HasSqrt K] [SqrtUnit K] [HasTrig K]

/-- C69: in all states of a plain execution the links of the vertices and the sides of the triangles tell the same.
(The full claim is for all executions.  Not covered are iterations in which parallel wavefronts meet, those that meet two
sides with the same ends, and those that concern a vertex that has been stopped before, except at a side that the triangle
has in common with one that has vanished with all its sides.) -/
theorem C69_linked_partial (depth n : ℕ) (s0 s : St K) (now : K) (tr : List (Event K × K))
    (h : PlainExecution depth s0 n now s tr) : Linked s :=
  linked_of_fits (plain_fits h).1 (plain_fits h).2

theorem forEach_const {α : Type} {f : α → M K Unit} {l : List α} {s : St K} (h : ∀ x ∈ l, f x s = .ok ((), s)) :
    forEach f l s = .ok ((), s) := by
  induction l with
  | nil => rfl
  | cons x l ih =>
    exact bind_run_ok.2 ⟨(), s, h x List.mem_cons_self, ih fun y hy => h y (List.mem_cons_of_mem _ hy)⟩

/-- the triangles of the skeleton are those of the start -/
theorem ordinary_triangles {depth n : ℕ} {s0 s : St K} {now : K} {tr : List (Event K × K)}
    (h : OrdinaryExecution depth s0 n now s tr) : ∀ t ∈ s.skTriangles, t < s.nT :=
  (ordinary_inv h).1.refs.skTriangles

/-- C69: `check_active_triangles` (events/check.py:55-64) never fails in ordinary executions. -/
theorem C69_check_active_triangles_partial (depth n : ℕ) (s0 s : St K) (now : K) (tr : List (Event K × K))
    (h : OrdinaryExecution depth s0 n now s tr) : checkActiveTriangles s.skTriangles s = .ok ((), s) := by
  have hM := (ordinary_inv h).2.1
  refine forEach_const fun t ht => ?_
  have hlt := ordinary_triangles h t ht
  refine bind_run_ok.2 ⟨s.tri t, s, getT_run_ok.2 ⟨hlt, rfl, rfl⟩, ?_⟩
  by_cases hst : (s.tri t).stopsAt.isNone = true
  · rw [if_pos hst]
    refine forEach_const fun i _ => ?_
    unfold neighbourActive
    cases hn : (s.tri t).neighbours i with
    | none => rfl
    | some u =>
      have hu := (mesh_symmetric s hM t u ⟨hlt, Option.isNone_iff_eq_none.1 hst⟩).1 i hn
      exact bind_run_ok.2 ⟨s.tri u, s, getT_run_ok.2 ⟨hu.1, rfl, rfl⟩, assertM_run_ok.2
        ⟨Option.isNone_iff_eq_none.2 hu.2, rfl⟩⟩
  · rw [if_neg hst]; rfl

/-- C69: when no side without neighbour has two stopped ends, `check_wavefront_links` (events/check.py:45-53) and
`check_kinetic_vertices` (events/check.py:68-77) do not fail in plain executions. -/
theorem C69_check_wavefront_partial (depth n : ℕ) (s0 s : St K) (now : K) (tr : List (Event K × K))
    (h : PlainExecution depth s0 n now s tr) (hd : ∀ t i a b, FrontSide s t i a b → Running s a ∨ Running s b) :
    checkWavefrontLinks s.skTriangles s = .ok ((), s) ∧ checkKineticVertices s.skTriangles s = .ok ((), s) := by
  have hM := (ordinary_inv h.ordinary).2.1
  have hL := C69_linked_partial depth n s0 s now tr h
  constructor
  · refine forEach_const fun t ht => ?_
    have hlt := ordinary_triangles h.ordinary t ht
    refine bind_run_ok.2 ⟨s.tri t, s, getT_run_ok.2 ⟨hlt, rfl, rfl⟩, ?_⟩
    by_cases hst : (s.tri t).stopsAt.isNone = true
    · rw [if_pos hst]
      refine forEach_const fun i _ => ?_
      by_cases hn : ((s.tri t).neighbours i).isNone = true
      · rw [if_pos hn]
        have fs : FrontSide s t i _ _ := ⟨⟨hlt, Option.isNone_iff_eq_none.1 hst⟩, Option.isNone_iff_eq_none.1 hn, rfl, rfl⟩
        obtain ⟨ka, kb, h1, h2, h3, h4, h5, h6⟩ := (hL.points _ _ _ _ fs).resolve_right fun q =>
          (hd _ _ _ _ fs).elim q.1 q.2
        unfold pointToEachOther
        refine bind_run_ok.2 ⟨s.tri t, s, getT_run_ok.2 ⟨hlt, rfl, rfl⟩, ?_⟩
        refine bind_run_ok.2 ⟨kb, s, getK_run_ok.2 ⟨h2, h4, rfl⟩, ?_⟩
        refine bind_run_ok.2 ⟨(), s, assertM_run_ok.2 ⟨h6, rfl⟩, ?_⟩
        refine bind_run_ok.2 ⟨ka, s, getK_run_ok.2 ⟨h1, h3, rfl⟩, ?_⟩
        exact assertM_run_ok.2 ⟨h5, rfl⟩
      · rw [if_neg hn]; rfl
    · rw [if_neg hst]; rfl
  · refine forEach_const fun t ht => ?_
    have hlt := ordinary_triangles h.ordinary t ht
    refine bind_run_ok.2 ⟨s.tri t, s, getT_run_ok.2 ⟨hlt, rfl, rfl⟩, ?_⟩
    by_cases hst : (s.tri t).stopsAt.isNone = true
    · rw [if_pos hst]
      refine forEach_const fun i _ => ?_
      have hl : Live s t := ⟨hlt, Option.isNone_iff_eq_none.1 hst⟩
      have hv := hM.vertices t hlt i
      unfold vertexActive
      refine bind_run_ok.2 ⟨_, s, getV_run_ok.2 ⟨hv, rfl, rfl⟩, ?_⟩
      cases hx : s.vert ((s.tri t).vertices i) with
      | inf o => rfl
      | kin k =>
        refine assertM_run_ok.2 ⟨?_, rfl⟩
        by_contra q
        have hnr : ¬ Running s ((s.tri t).vertices i) := by
          rintro ⟨-, k', e1, e2⟩
          rw [hx] at e1
          injection e1 with e1
          subst e1
          exact q (Option.isNone_iff_eq_none.2 e2)
        obtain ⟨u, j, a, b, fs, h1, h2, -⟩ := hL.stopped t hl i ⟨hv, k, hx⟩ hnr
        exact (hd u j a b fs).elim h1 h2
    · rw [if_neg hst]; rfl

/-! ### the hypotheses are met -/

/-- Complete runs of the examples are plain: an edge event and the collapse of what is left; a split event and the
collapse of the two parts; two triangles that vanish one after the other in the same point. -/
example : ∃ now s tr, PlainExecution 100 Sample.trapezoid 2 now s tr := by
  obtain ⟨now, s, tr, -, h⟩ := plain_execution (depth := 100) (n := 2) (s0 := Sample.trapezoid) (by decide +kernel)
    (by decide +kernel) (by decide +kernel) (by decide +kernel) (by decide +kernel) (by decide +kernel)
  exact ⟨now, s, tr, h⟩
example : ∃ now s tr, PlainExecution 100 Sample.notched 3 now s tr := by
  obtain ⟨now, s, tr, -, h⟩ := plain_execution (depth := 100) (n := 3) (s0 := Sample.notched) (by decide +kernel)
    (by decide +kernel) (by decide +kernel) (by decide +kernel) (by decide +kernel) (by decide +kernel)
  exact ⟨now, s, tr, h⟩
example : ∃ now s tr, PlainExecution 100 Sample.square 2 now s tr := by
  obtain ⟨now, s, tr, -, h⟩ := plain_execution (depth := 100) (n := 2) (s0 := Sample.square) (by decide +kernel)
    (by decide +kernel) (by decide +kernel) (by decide +kernel) (by decide +kernel) (by decide +kernel)
  exact ⟨now, s, tr, h⟩

/-- After the split event of the notched polygon all sides without neighbour have running ends. -/
example : ∃ now s tr, PlainExecution 100 Sample.notched 1 now s tr ∧ Live s 1 ∧
    checkWavefrontLinks s.skTriangles s = .ok ((), s) := by
  obtain ⟨now, s, tr, hs, h⟩ := plain_execution (depth := 100) (n := 1) (s0 := Sample.notched) (by decide +kernel)
    (by decide +kernel) (by decide +kernel) (by decide +kernel) (by decide +kernel) (by decide +kernel)
  have key : ∀ y, ordinaryRun 100 1 0 0 { Sample.after initEventList Sample.notched with immediate := [] } = some y →
      Live y.2 1 ∧ ∀ t < y.2.nT, ∀ i : Fin 3, Live y.2 t → (y.2.tri t).neighbours i = none →
        Running y.2 ((y.2.tri t).vertices (i + 1)) := by
    have q : (match ordinaryRun 100 1 0 0 { Sample.after initEventList Sample.notched with immediate := [] } with
      | none => true
      | some y => decide (Live y.2 1 ∧ ∀ t < y.2.nT, ∀ i : Fin 3, Live y.2 t → (y.2.tri t).neighbours i = none →
        Running y.2 ((y.2.tri t).vertices (i + 1)))) = true := by decide +kernel
    intro y hy
    rw [hy] at q
    exact of_decide_eq_true q
  obtain ⟨k1, k2⟩ := key _ hs
  refine ⟨now, s, tr, h, k1, (C69_check_wavefront_partial 100 1 _ s now tr h ?_).1⟩
  rintro t i a b ⟨pt, hi, rfl, rfl⟩
  exact .inl (k2 t pt.1 i pt hi)

end Grassfire
