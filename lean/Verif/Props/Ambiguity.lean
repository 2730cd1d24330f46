/-
C86: when collapse.py raises.
-/
import Verif.Proofs.CollapseTotal
import Verif.Props.Meetings

set_option linter.unusedSectionVars false

namespace Grassfire

open Spec

variable {K : Type} [Field K] [LinearOrder K] [IsStrictOrderedRing K] [HasSqrt K]

/-- C86: `compute_collapse_time` raises only when it is ambiguous what happens to the triangle, and then a ValueError. -/
theorem C86_raises (T : TView K) (now : K) (sv : Sieve) (e : Err) (h : Followable T)
    (he : computeCollapse T now sv = .error e) : e = .valueError ∧ Ambiguous T now :=
  computeCollapse_error h he

/-- three corners of which two pairs are close are close -/
theorem third_side (T : TView K) {x r : K} {i j : Fin 3} (hij : i ≠ j) (hi : lengthSq T i x ≤ r)
    (hj : lengthSq T j x ≤ r) (k : Fin 3) : lengthSq T k x ≤ 4 * r := by
  have nn : ∀ i, 0 ≤ lengthSq T i x := fun i => lengthSq_nonneg T i x
  have tri : ∀ a : Fin 3, lengthSq T a x ≤ 2 * lengthSq T (a + 1) x + 2 * lengthSq T (a + 2) x := by
    intro a
    have e1 : a + 1 + 1 = a + 2 := (by decide : ∀ x : Fin 3, x + 1 + 1 = x + 2) a
    have e2 : a + 1 + 2 = a := (by decide : ∀ x : Fin 3, x + 1 + 2 = x) a
    have e3 : a + 2 + 1 = a := (by decide : ∀ x : Fin 3, x + 2 + 1 = x) a
    have e4 : a + 2 + 2 = a + 1 := (by decide : ∀ x : Fin 3, x + 2 + 2 = x + 1) a
    unfold lengthSq
    rw [e1, e2, e3, e4]
    unfold distSq
    generalize cornerAt T a x = p
    generalize cornerAt T (a + 1) x = q
    generalize cornerAt T (a + 2) x = s
    nlinarith [sq_nonneg (q.1 - p.1 - (p.1 - s.1)), sq_nonneg (q.2 - p.2 - (p.2 - s.2))]
  rcases (by decide : ∀ i j k : Fin 3, i ≠ j → k = i ∨ k = j ∨ (i = k + 1 ∧ j = k + 2) ∨ (i = k + 2 ∧ j = k + 1))
    i j k hij with q | q | ⟨q, s⟩ | ⟨q, s⟩
  · rw [q]; linarith [nn i]
  · rw [q]; linarith [nn j]
  · have := tri k; rw [← q, ← s] at this; linarith
  · have := tri k; rw [← q, ← s] at this; linarith

/-- C86: it is ambiguous what happens to a triangle without wavefront edge only if its three corners gather, within
2e-5 of each other, now or later. -/
theorem C86_gather [SqrtLaws K] (T : TView K) (now : K) (h : Ambiguous0 T now) :
    ∃ x, now ≤ x ∧ ∀ i, lengthSq T i x ≤ (2 / 10 ^ 5) ^ 2 := by
  have root : ∀ i x, HasSqrt.sqrt (lengthSq T i x) ≤ 1 / 10 ^ 10 → lengthSq T i x ≤ 1 / 10 ^ 10 := by
    intro i x hi
    have n := SqrtLaws.sqrt_nonneg _ (lengthSq_nonneg T i x)
    have m := SqrtLaws.sqrt_mul_self _ (lengthSq_nonneg T i x)
    rw [← m]
    generalize HasSqrt.sqrt (lengthSq T i x) = s at hi n m
    have : s * s ≤ 1 / 10 ^ 10 * (1 / 10 ^ 10) := mul_le_mul hi hi n (by positivity)
    refine this.trans ?_
    norm_num
  rcases h.sides with hs | ⟨x, hx, ⟨i, hi⟩, -, hj⟩
  · exact ⟨now, le_rfl, fun i => (root i now (hs i)).trans (by norm_num)⟩
  · obtain ⟨j, hji, hj⟩ := hj i (root i x hi)
    exact ⟨x, hx, fun k => (third_side T hji.symm (root i x hi) hj k).trans (by norm_num)⟩

/-- C86: when the tolerances do not misjudge the motion of the triangle, `compute_collapse_time` raises only for
triangles without wavefront edge of which the three corners gather. -/
theorem C86_clear [SqrtLaws K] (T : TView K) (now : K) (sv : Sieve) (e : Err) (h : Followable T) (hc : ClearMotion T)
    (hs : Solvable T) (h0 : 0 ≤ now) (he : computeCollapse T now sv = .error e) :
    e = .valueError ∧ (∀ i, T.noNeighbour i = false) ∧ ∃ x, now ≤ x ∧ ∀ i, lengthSq T i x ≤ (2 / 10 ^ 5) ^ 2 := by
  obtain ⟨hv, ha⟩ := computeCollapse_error h he
  refine ⟨hv, ?_⟩
  rcases ha.which with a | a
  · exact ⟨a.inner, C86_gather T now a⟩
  · exfalso
    obtain ⟨k, hk⟩ := a.two
    have h2 : T.type = 2 := by
      unfold TView.type count3
      have n : ∀ j, j ≠ k → T.noNeighbour j = true := fun j hj => by
        by_contra q
        exact hj ((hk j).1 (by simpa using q))
      have nk : T.noNeighbour k = false := (hk k).2 rfl
      fin_cases k
      · have p := n 1 (by decide); have q := n 2 (by decide); simp at nk; simp [nk, p, q]
      · have p := n 0 (by decide); have q := n 2 (by decide); simp at nk; simp [nk, p, q]
      · have p := n 0 (by decide); have q := n 1 (by decide); simp at nk; simp [nk, p, q]
    have z : HasSqrt.sqrt (0 : K) = 0 := by
      have := SqrtLaws.sqrt_mul_self (0 : K) le_rfl
      exact mul_self_eq_zero.1 this
    have hf : T.isFinite = true := by
      unfold TView.isFinite
      rw [ha.finite 0, ha.finite 1, ha.finite 2]; rfl
    unfold computeCollapse at he
    rw [if_neg (by rw [ha.running]; simp), if_pos hf] at he
    rcases bind_error_iff.1 he with he | ⟨ev, _, he⟩
    · unfold computeFinite at he
      rw [if_neg (by omega), if_neg (by omega), if_pos h2] at he
      exact absurd he (computeEvent2_clear h h2 hc hs z (fun y hy => SqrtLaws.sqrt_nonneg y hy) h0)
    · split at he
      · cases he
      · rcases bind_error_iff.1 he with he | ⟨_, _, he⟩
        · refine absurd he (list3_error fun i => ⟨_, C17_position _ (h.uniform i) _⟩)
        · cases he

/-! ### examples -/

/-- a triangle without wavefront edge of which the three corners meet at time 1 -/
def exGather : TView ℚ := exT (exV 1 0 (-1) 0) (exV 0 1 0 (-1)) (exV (-1) (-1) 1 1) false false false

-- seen from time 0 it is an edge event of all sides; when the time has come it is too late
example : computeCollapse exGather 0 .gte = .ok (some ⟨1, [0, 1, 2], .edge, 0⟩) ∧
    computeCollapse exGather 1 .gt = .error .valueError := by decide +kernel

theorem exGather_followable : Followable exGather where
  slow i := by fin_cases i <;> rfl
  still i hi := by fin_cases i <;> exact absurd hi (by decide)
  front i hi := by fin_cases i <;> exact absurd hi (by decide)

example : Ambiguous exGather 1 := (C86_raises exGather 1 .gt .valueError exGather_followable (by decide +kernel)).2

-- triangles with wavefront edges that can be followed, and of which the motion is clear
example : Followable exTwoSides ∧ ClearMotion exTwoSides ∧ Solvable exTwoSides := by
  refine ⟨⟨fun i => by fin_cases i <;> rfl, fun i hi => ?_, fun i hi => ?_⟩, clear_of_check (by decide +kernel),
    solvable_of_check (by decide +kernel)⟩
  · fin_cases i <;> exact absurd hi (by decide)
  · fin_cases i
    · exact ⟨rfl, rfl, _, rfl, rfl⟩
    · exact absurd hi (by decide)
    · exact ⟨rfl, rfl, _, rfl, rfl⟩

-- a triangle without wavefront edge for which all hypotheses of C86_clear hold
example : Followable rZero ∧ ClearMotion rZero ∧ Solvable rZero :=
  ⟨⟨fun i => by fin_cases i <;> rfl, fun i hi => by fin_cases i <;> exact absurd hi (by simp [rZero, rV]),
    fun i hi => by fin_cases i <;> exact absurd hi (by simp [rZero])⟩, rZero_clear, rZero_solvable⟩

end Grassfire
