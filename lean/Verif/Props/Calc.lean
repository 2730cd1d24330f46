/-
Properties C01, C02, C05, C06 and C46: the tolerance predicates and the
clustering functions of calc.py.
-/
import Verif.Proofs.CalcLemmas
import Mathlib.Algebra.Order.Chebyshev

namespace Grassfire

variable {K : Type} [Field K] [LinearOrder K] [IsStrictOrderedRing K]

/-! ### C01 -/

/-- C01: `near_zero(v)` never raises and is true iff `|v| <= 1e-10`. -/
theorem C01_near_zero (v : K) :
    (nearZeroE v = .ok true ↔ |v| ≤ 1 / 10 ^ 10) ∧
    (nearZeroE v = .ok false ↔ 1 / 10 ^ 10 < |v|) ∧
    nearZeroE v = .ok (nearZero v) := by
  rw [nearZero_eq, nearZeroE_eq]
  simp

example : nearZeroE (1 / 10 ^ 10 : ℚ) = .ok true :=
  (C01_near_zero _).1.mpr (by norm_num)
example : nearZeroE (-2 / 10 ^ 10 : ℚ) = .ok false :=
  (C01_near_zero _).2.1.mpr (by norm_num [abs_of_pos])

/-! ### C02 -/

/-- C02: `is_close` raises only ValueError, and does so exactly for an unknown
method or a negative tolerance. -/
theorem C02_is_close_raises (a b r t : K) (m : CloseMethod) (e : Err) :
    isClose a b r t m = .error e ↔ e = .valueError ∧ (m = .other ∨ r < 0 ∨ t < 0) := by
  unfold isClose
  by_cases hm : m = .other
  · simp [hm, eq_comm]
  · rw [if_neg hm]
    by_cases ht : r < 0 ∨ t < 0
    · simp [ht, eq_comm]
    · rw [if_neg ht]
      by_cases hab : a = b
      · simp [hm, ht, hab]
      · rw [if_neg hab]
        cases m <;> simp_all

/-- C02: reflexivity, for all four methods. -/
theorem C02_is_close_refl (a r t : K) (m : CloseMethod) (hm : m ≠ .other)
    (hr : 0 ≤ r) (ht : 0 ≤ t) : isClose a a r t m = .ok true := by
  unfold isClose
  rw [if_neg hm, if_neg (by rintro (h | h) <;> linarith), if_pos rfl]

/-- C02: symmetry, for the methods 'weak', 'strong' and 'average' (and also
when the call raises). -/
theorem C02_is_close_symm (a b r t : K) (m : CloseMethod) (hm : m ≠ .asymmetric) :
    isClose a b r t m = isClose b a r t m := by
  unfold isClose
  by_cases ho : m = .other
  · simp [ho]
  by_cases ht : r < 0 ∨ t < 0
  · simp [ht]
  by_cases hab : a = b
  · simp [hab]
  have hba : ¬ b = a := fun h => hab h.symm
  rw [if_neg ho, if_neg ho, if_neg ht, if_neg ht, if_neg hab, if_neg hba, abs_sub_comm b a]
  cases m with
  | asymmetric => exact absurd rfl hm
  | strong => simp [Bool.and_comm]
  | weak => simp [Bool.or_comm]
  | average => simp [add_comm]
  | other => rfl

/-- C02: whatever method accepts two values, 'weak' accepts them as well. -/
theorem C02_weak_is_weakest (a b r t : K) (m : CloseMethod)
    (h : isClose a b r t m = .ok true) : isClose a b r t .weak = .ok true := by
  unfold isClose at h ⊢
  by_cases ho : m = .other
  · simp [ho] at h
  rw [if_neg ho] at h
  rw [if_neg (by decide)]
  by_cases ht : r < 0 ∨ t < 0
  · simp [ht] at h
  rw [if_neg ht] at h ⊢
  by_cases hab : a = b
  · simp [hab]
  rw [if_neg hab] at h ⊢
  cases m with
  | asymmetric => simp at h ⊢; tauto
  | strong => simp at h ⊢; tauto
  | weak => exact h
  | average =>
    simp only [Except.ok.injEq, Bool.or_eq_true, decide_eq_true_eq] at h ⊢
    rcases h with h | h
    · left
      rw [show r * (a + b) * (1 / 2) = (r * a + r * b) / 2 by ring] at h
      by_contra hc
      push Not at hc
      have h1 := abs_add_le (r * a) (r * b)
      rw [abs_div, abs_of_pos (by norm_num : (0 : K) < 2)] at h
      linarith
    · right; exact h
  | other => simp at ho

/-- C02: 'asymmetric' is indeed not symmetric. -/
theorem C02_asymmetric_not_symmetric :
    isClose (1 : ℚ) 2 (1 / 2) 0 .asymmetric = .ok true ∧
    isClose (2 : ℚ) 1 (1 / 2) 0 .asymmetric = .ok false := by
  constructor <;> decide +kernel

/-- C02: `all_close` is False for an empty iterator and otherwise tells whether
all later items are strongly close to the first. -/
theorem C02_all_close (first : K) (rest : List K) (absTol relTol : K)
    (ha : 0 ≤ absTol) (hr : 0 ≤ relTol) :
    allClose ([] : List K) absTol relTol = .ok false ∧
    (allClose (first :: rest) absTol relTol = .ok true ↔
      ∀ x ∈ rest, |x - first| ≤ absTol ∨
        (|x - first| ≤ relTol * |x| ∧ |x - first| ≤ relTol * |first|)) := by
  refine ⟨rfl, ?_⟩
  change allClose.go absTol relTol first rest = .ok true ↔ _
  induction rest with
  | nil => simp [allClose.go]
  | cons x rest ih =>
    unfold allClose.go
    have hE : isClose first x relTol absTol .strong = .ok (decide
        (|x - first| ≤ absTol ∨ (|x - first| ≤ relTol * |x| ∧ |x - first| ≤ relTol * |first|))) := by
      unfold isClose
      rw [if_neg (by decide), if_neg (by rintro (h | h) <;> linarith)]
      split_ifs with h
      · subst h; simp [ha]
      · simp only [abs_mul, abs_of_nonneg hr, Bool.decide_or, Bool.decide_and]
        rw [Bool.or_comm]
    rw [hE]
    simp only [bind, Except.bind, List.forall_mem_cons]
    by_cases hc : |x - first| ≤ absTol ∨ (|x - first| ≤ relTol * |x| ∧ |x - first| ≤ relTol * |first|)
    · simp only [hc, decide_true, if_true, true_and]
      exact ih
    · simp [hc]

example : allClose [(1 : ℚ), 1 + 1 / 10 ^ 10, 1] 0 (1 / 10 ^ 9) = .ok true :=
  ((C02_all_close _ _ _ _ (by norm_num) (by norm_num)).2).mpr (by
    intro x hx
    simp only [List.mem_cons, List.not_mem_nil, or_false] at hx
    rcases hx with rfl | rfl <;> norm_num [abs_of_pos])

/-! ### C05 -/

/-- C05 (partial): for a list with at least one time, `get_unique_times`
returns a strictly ascending selection of the input times, it starts with the
minimum, every input time is represented by an output time that is not larger
and close to it, and neighbouring output times are not close.

What is missing from the documented statement: "close" is *relative* (1e-7
times the average of the two values), not absolute -- see
`C05_absolute_tolerance_violated` -- and the list must contain a time -- see
`C05_no_times_raises`. -/
theorem C05_get_unique_times_partial (times : List (Option K)) (hne : ∃ x, some x ∈ times) :
    ∃ out, getUniqueTimes times = .ok out ∧
      out.Pairwise (· < ·) ∧
      (∀ x ∈ out, some x ∈ times) ∧
      (∃ m, out.head? = some m ∧ ∀ x, some x ∈ times → m ≤ x) ∧
      (∀ x, some x ∈ times → ∃ o ∈ out, o ≤ x ∧ x - o ≤ 1 / 10 ^ 7 * |(x + o) / 2|) ∧
      out.IsChain (fun a b => 1 / 10 ^ 7 * |(a + b) / 2| < b - a) := by
  have hmem : ∀ x, x ∈ pySorted (times.filterMap id) ↔ some x ∈ times := by
    intro x; rw [mem_pySorted]; simp
  have hs := pySorted_pairwise (times.filterMap id)
  unfold getUniqueTimes allCloseClusters
  rw [if_pos rfl]
  cases hl : pySorted (times.filterMap id) with
  | nil =>
    obtain ⟨x, hx⟩ := hne
    rw [← hmem, hl] at hx
    simp at hx
  | cons first it =>
    rw [hl] at hs hmem
    obtain ⟨post, e, h1, h2, h3, h4⟩ :=
      clustersLoop_spec (1 / 10 ^ 7 : K) (by positivity) it first [] hs
    refine ⟨first :: post, by simpa using e, h1, ?_, ⟨first, rfl, ?_⟩, ?_, h4⟩
    · intro x hx
      rw [← hmem]
      rcases List.mem_cons.mp hx with rfl | hx
      · simp
      · simp [h2 x hx]
    · intro x hx
      rw [← hmem] at hx
      rcases List.mem_cons.mp hx with rfl | hx
      · exact le_refl _
      · exact (List.pairwise_cons.mp hs).1 x hx
    · intro x hx
      rw [← hmem] at hx
      obtain ⟨o, ho, h, h'⟩ := h3 x hx
      exact ⟨o, ho, h, (le_abs_self _).trans h'⟩

example : ∃ x : ℚ, some x ∈ [none, some 3, some 1] := ⟨3, by simp⟩

/-- C05: the absolute tolerance 1e-7 of the signature (calc.py:22) is not
honoured: two times that are 1e-8 apart are both kept, because calc.py:30
passes `abs_tol` as `rel_tol` and vice versa. -/
theorem C05_absolute_tolerance_violated :
    getUniqueTimes [some (0 : ℚ), some (1 / 10 ^ 8)] = .ok [0, 1 / 10 ^ 8] ∧
    (1 / 10 ^ 8 : ℚ) - 0 ≤ 1 / 10 ^ 7 := by
  constructor
  · decide +kernel
  · norm_num

omit [IsStrictOrderedRing K] in
/-- C05: without any time the function does not return an empty list but raises
StopIteration (python 3's `filter` object is truthy). -/
theorem C05_no_times_raises (times : List (Option K)) (h : ∀ x, some x ∉ times) :
    getUniqueTimes times = .error .stopIteration := by
  have : times.filterMap id = [] := by
    rw [List.filterMap_eq_nil_iff]
    intro a ha
    cases a with
    | none => rfl
    | some x => exact absurd ha (h x)
  unfold getUniqueTimes allCloseClusters
  rw [this]
  rfl

example : getUniqueTimes ([none, none] : List (Option ℚ)) = .error .stopIteration :=
  C05_no_times_raises _ (by simp)

/-! ### C06 -/

/-- Specification: both coordinates of the two points are within 1e-10. -/
def NearPts (p q : Pt K) : Prop := |p.1 - q.1| ≤ 1 / 10 ^ 10 ∧ |p.2 - q.2| ≤ 1 / 10 ^ 10

/-- C06: `groupby_cluster` partitions `0..n-1` in order into non-empty groups of
points near the first point of the group, and the first points of successive
groups are not near each other; only the empty list raises (StopIteration). -/
theorem C06_groupby_cluster (L : List (Pt K)) :
    (L = [] → groupbyCluster L = .error .stopIteration) ∧
    (L ≠ [] → ∃ out, groupbyCluster L = .ok out ∧
      out.flatten = List.range L.length ∧
      (∀ c ∈ out, c ≠ []) ∧
      (∀ c ∈ out, ∃ p, L[c.headD 0]? = some p ∧ ∀ i ∈ c, ∃ q, L[i]? = some q ∧ NearPts p q) ∧
      out.IsChain (fun c d => ∃ p q, L[c.headD 0]? = some p ∧ L[d.headD 0]? = some q ∧
        ¬ NearPts p q)) := by
  constructor
  · rintro rfl; rfl
  · intro hne
    cases L with
    | nil => exact absurd rfl hne
    | cons p it =>
      obtain ⟨out, e, h⟩ := groupbyLoop_spec (p :: it) NearPts (fun _ _ => Iff.rfl) it [p] p [] 0 []
        rfl rfl (by simp) rfl (by
          intro i hi
          simp only [List.mem_singleton] at hi
          subst hi
          exact ⟨p, rfl, by simp [NearPts]⟩) (by simp) (by simp)
      refine ⟨out, ?_, h⟩
      unfold groupbyCluster
      rw [← e]
      rfl

example : groupbyCluster [((0 : ℚ), (0 : ℚ)), (0, 0), (1, 1), (1, 1), (2, 2)]
    = .ok [[0, 1], [2, 3], [4]] := by
  decide +kernel

end Grassfire
