/-
Helper lemmas about the model of calc.py.
-/
import Verif.Calc
import Mathlib.Tactic.Linarith
import Mathlib.Tactic.Ring
import Mathlib.Tactic.Positivity
import Mathlib.Tactic.NormNum
import Mathlib.Data.List.Sort

namespace Grassfire

variable {K : Type} [Field K] [LinearOrder K] [IsStrictOrderedRing K]

theorem nearZeroE_eq (v : K) : nearZeroE v = .ok (decide (|v| ≤ 1 / 10 ^ 10)) := by
  have h12 : (0 : K) < 1 / 10 ^ 12 := by positivity
  have h10 : (0 : K) < 1 / 10 ^ 10 := by positivity
  unfold nearZeroE isClose
  rw [if_neg (by decide), if_neg (by rintro (h | h) <;> linarith)]
  by_cases hv : v = 0
  · subst hv; simp
  · rw [if_neg hv]
    have h1 : ¬ (|0 - v| ≤ |(1 / 10 ^ 12 : K) * 0|) := by
      simp [hv]
    have h2 : ¬ (|0 - v| ≤ |(1 / 10 ^ 12 : K) * v|) := by
      rw [zero_sub, abs_neg, abs_mul, abs_of_pos h12]
      have : 0 < |v| := abs_pos.mpr hv
      have h3 : (1 / 10 ^ 12 : K) < 1 := by
        rw [div_lt_one (by positivity)]; norm_num
      nlinarith
    simp only [h1, h2, decide_false, Bool.false_or]
    rw [zero_sub, abs_neg]

theorem nearZero_eq (v : K) : nearZero v = decide (|v| ≤ 1 / 10 ^ 10) := by
  unfold nearZero; rw [nearZeroE_eq]

theorem nearZero_iff (v : K) : nearZero v = true ↔ |v| ≤ 1 / 10 ^ 10 := by
  rw [nearZero_eq]; simp

theorem nearZero_false_iff (v : K) : nearZero v = false ↔ 1 / 10 ^ 10 < |v| := by
  rw [nearZero_eq]; simp

theorem nearZero_zero : nearZero (0 : K) = true := by
  rw [nearZero_iff]; simp

theorem nearZero_neg (v : K) : nearZero (-v) = nearZero v := by
  rw [nearZero_eq, nearZero_eq, abs_neg]

end Grassfire

namespace Grassfire

section Sorting
variable {α : Type} [LinearOrder α]

theorem insertSorted_perm (a : α) (l : List α) : (insertSorted a l).Perm (a :: l) := by
  induction l with
  | nil => exact List.Perm.refl _
  | cons b l ih =>
    unfold insertSorted
    split_ifs
    · exact List.Perm.refl _
    · exact (List.Perm.cons b ih).trans (List.Perm.swap a b l)

theorem pySorted_perm (l : List α) : (pySorted l).Perm l := by
  induction l with
  | nil => exact List.Perm.refl _
  | cons a l ih => exact (insertSorted_perm a _).trans (ih.cons a)

theorem insertSorted_pairwise (a : α) (l : List α) (h : l.Pairwise (· ≤ ·)) :
    (insertSorted a l).Pairwise (· ≤ ·) := by
  induction l with
  | nil => simp [insertSorted]
  | cons b l ih =>
    unfold insertSorted
    have hb := List.pairwise_cons.mp h
    split_ifs with hab
    · refine List.pairwise_cons.mpr ⟨?_, h⟩
      intro c hc
      rcases List.mem_cons.mp hc with rfl | hc
      · exact hab
      · exact hab.trans (hb.1 c hc)
    · refine List.pairwise_cons.mpr ⟨?_, ih hb.2⟩
      intro c hc
      rcases List.mem_cons.mp ((insertSorted_perm a l).mem_iff.mp hc) with rfl | hc
      · exact le_of_lt (not_le.mp hab)
      · exact hb.1 c hc

theorem pySorted_pairwise (l : List α) : (pySorted l).Pairwise (· ≤ ·) := by
  induction l with
  | nil => simp [pySorted]
  | cons a l ih => exact insertSorted_pairwise a _ ih

theorem mem_pySorted (a : α) (l : List α) : a ∈ pySorted l ↔ a ∈ l :=
  (pySorted_perm l).mem_iff

end Sorting

end Grassfire

namespace Grassfire

variable {K : Type} [Field K] [LinearOrder K] [IsStrictOrderedRing K]

theorem isClose_average (a b absTol relTol : K) (h1 : 0 ≤ relTol) (h2 : 0 ≤ absTol) :
    isClose a b relTol absTol .average =
      .ok (decide (a = b ∨ |b - a| ≤ |relTol * (a + b) * (1 / 2)| ∨ |b - a| ≤ absTol)) := by
  unfold isClose
  rw [if_neg (by decide), if_neg (by rintro (h | h) <;> linarith)]
  split_ifs with h
  · simp [h]
  · simp [h, Bool.decide_or]

/-- loop invariant of `clustersLoop` -/
theorem clustersLoop_spec (tol : K) (ht : 0 ≤ tol) (it : List K) :
    ∀ (first : K) (pre : List K),
      (first :: it).Pairwise (· ≤ ·) →
      ∃ post, clustersLoop tol 0 first (pre ++ [first]) it = .ok (pre ++ first :: post) ∧
        (first :: post).Pairwise (· < ·) ∧
        (∀ x ∈ post, x ∈ it) ∧
        (∀ x ∈ first :: it, ∃ o ∈ first :: post, o ≤ x ∧ |x - o| ≤ tol * |(x + o) / 2|) ∧
        (first :: post).IsChain (fun a b => tol * |(a + b) / 2| < b - a) := by
  induction it with
  | nil =>
    intro first pre _
    refine ⟨[], rfl, by simp, by simp, ?_, by simp⟩
    intro x hx
    have : x = first := by simpa using hx
    subst this
    refine ⟨x, by simp, le_refl _, ?_⟩
    simp only [sub_self, abs_zero]
    positivity
  | cons v it ih =>
    intro first pre hs
    have hs' := List.pairwise_cons.mp hs
    have hs'' := List.pairwise_cons.mp hs'.2
    have hfv : first ≤ v := hs'.1 v (by simp)
    unfold clustersLoop
    rw [isClose_average _ _ _ _ ht (le_refl _)]
    by_cases hc : first = v ∨ |v - first| ≤ |tol * (first + v) * (1 / 2)| ∨ |v - first| ≤ 0
    · have hclose : |v - first| ≤ tol * |(v + first) / 2| := by
        rcases hc with h | h | h
        · rw [h, sub_self, abs_zero]; positivity
        · refine h.trans (le_of_eq ?_)
          rw [show tol * (first + v) * (1 / 2) = tol * ((v + first) / 2) by ring, abs_mul,
            abs_of_nonneg ht]
        · exact h.trans (by positivity)
      simp only [hc, decide_true, bind, Except.bind, if_true]
      obtain ⟨post, e, h1, h2, h3, h4⟩ := ih first pre
        (List.pairwise_cons.mpr ⟨fun x hx => hs'.1 x (by simp [hx]), hs''.2⟩)
      refine ⟨post, e, h1, fun x hx => by simp [h2 x hx], ?_, h4⟩
      intro x hx
      rcases List.mem_cons.mp hx with rfl | hx
      · exact h3 x (by simp)
      · rcases List.mem_cons.mp hx with rfl | hx
        · exact ⟨first, by simp, hfv, hclose⟩
        · exact h3 x (by simp [hx])
    · simp only [hc, decide_false, bind, Except.bind]
      push Not at hc
      obtain ⟨post, e, h1, h2, h3, h4⟩ := ih v (pre ++ [first]) hs'.2
      have hlt : first < v := lt_of_le_of_ne hfv hc.1
      refine ⟨v :: post, by simpa using e, ?_, ?_, ?_, ?_⟩
      · refine List.pairwise_cons.mpr ⟨?_, h1⟩
        intro x hx
        rcases List.mem_cons.mp hx with rfl | hx
        · exact hlt
        · exact hlt.trans ((List.pairwise_cons.mp h1).1 x hx)
      · intro x hx
        rcases List.mem_cons.mp hx with rfl | hx
        · simp
        · simp [h2 x hx]
      · intro x hx
        rcases List.mem_cons.mp hx with rfl | hx
        · refine ⟨x, by simp, le_refl _, ?_⟩
          rw [sub_self, abs_zero]; positivity
        · obtain ⟨o, ho, h⟩ := h3 x hx
          exact ⟨o, List.mem_cons_of_mem _ ho, h⟩
      · refine List.IsChain.cons_cons ?_ h4
        have := hc.2.1
        rw [show tol * (first + v) * (1 / 2) = tol * ((first + v) / 2) by ring, abs_mul,
            abs_of_nonneg ht, abs_of_nonneg (by linarith : 0 ≤ v - first)] at this
        exact this

/-- loop invariant of `groupbyLoop` -/
theorem groupbyLoop_spec (L : List (Pt K)) (near : Pt K → Pt K → Prop)
    (hnear : ∀ p q, near p q ↔ |p.1 - q.1| ≤ 1 / 10 ^ 10 ∧ |p.2 - q.2| ≤ 1 / 10 ^ 10)
    (it : List (Pt K)) :
    ∀ (pre : List (Pt K)) (prev : Pt K) (clusters : List (List ℕ)) (f : ℕ) (cl : List ℕ),
      L = pre ++ it → clusters.flatten ++ f :: cl = List.range pre.length →
      (∀ c ∈ clusters, c ≠ []) → L[f]? = some prev →
      (∀ i ∈ f :: cl, ∃ q, L[i]? = some q ∧ near prev q) →
      (∀ c ∈ clusters, ∃ p, (L[c.headD 0]? = some p) ∧
          ∀ i ∈ c, ∃ q, L[i]? = some q ∧ near p q) →
      (clusters ++ [f :: cl]).IsChain (fun c d => ∃ p q, L[c.headD 0]? = some p ∧
          L[d.headD 0]? = some q ∧ ¬ near p q) →
      ∃ out, groupbyLoop it prev clusters (f :: cl) pre.length = out ∧
        out.flatten = List.range L.length ∧ (∀ c ∈ out, c ≠ []) ∧
        (∀ c ∈ out, ∃ p, (L[c.headD 0]? = some p) ∧ ∀ i ∈ c, ∃ q, L[i]? = some q ∧ near p q) ∧
        out.IsChain (fun c d => ∃ p q, L[c.headD 0]? = some p ∧
          L[d.headD 0]? = some q ∧ ¬ near p q) := by
  induction it with
  | nil =>
    intro pre prev clusters f cl hL hfl hne hf hcl hcs hch
    refine ⟨clusters ++ [f :: cl], by simp [groupbyLoop], ?_, ?_, ?_, hch⟩
    · rw [hL]; simpa using hfl
    · intro c hc
      rcases List.mem_append.mp hc with hc | hc
      · exact hne c hc
      · simp at hc; simp [hc]
    · intro c hc
      rcases List.mem_append.mp hc with hc | hc
      · exact hcs c hc
      · simp only [List.mem_singleton] at hc
        subst hc
        exact ⟨prev, by simpa using hf, hcl⟩
  | cons item it ih =>
    intro pre prev clusters f cl hL hfl hne hf hcl hcs hch
    have hitem : L[pre.length]? = some item := by rw [hL]; simp
    have hL' : L = (pre ++ [item]) ++ it := by rw [hL]; simp
    have hlen : (pre ++ [item]).length = pre.length + 1 := by simp
    unfold groupbyLoop
    split_ifs with hc
    · rw [Bool.and_eq_true, nearZero_iff, nearZero_iff] at hc
      have := ih (pre ++ [item]) prev clusters f (cl ++ [pre.length]) hL' ?_ hne hf ?_ hcs ?_
      · rw [hlen] at this; exact this
      · rw [hlen, List.range_succ, ← hfl]; simp
      · intro i hi
        rw [← List.cons_append, List.mem_append] at hi
        rcases hi with hi | hi
        · exact hcl i hi
        · simp only [List.mem_singleton] at hi
          subst hi
          exact ⟨item, hitem, (hnear _ _).mpr hc⟩
      · rw [List.isChain_append] at hch ⊢
        refine ⟨hch.1, by simp, ?_⟩
        intro x hx y hy
        simp only [List.head?_cons, Option.mem_def, Option.some.injEq] at hy
        subst hy
        exact hch.2.2 x hx (f :: cl) (by simp)
    · rw [Bool.and_eq_true, nearZero_iff, nearZero_iff] at hc
      have := ih (pre ++ [item]) item (clusters ++ [f :: cl]) pre.length [] hL' ?_ ?_ hitem ?_ ?_ ?_
      · rw [hlen] at this; exact this
      · rw [hlen, List.range_succ, ← hfl]; simp
      · intro c hc
        rcases List.mem_append.mp hc with hc | hc
        · exact hne c hc
        · simp at hc; simp [hc]
      · intro i hi
        simp only [List.mem_singleton] at hi
        subst hi
        exact ⟨item, hitem, (hnear _ _).mpr (by simp)⟩
      · intro c hc
        rcases List.mem_append.mp hc with hc | hc
        · exact hcs c hc
        · simp only [List.mem_singleton] at hc
          subst hc
          exact ⟨prev, by simpa using hf, hcl⟩
      · rw [List.isChain_append]
        refine ⟨hch, by simp, ?_⟩
        intro x hx y hy
        simp only [List.head?_cons, Option.mem_def, Option.some.injEq] at hy
        subst hy
        simp at hx
        subst hx
        exact ⟨prev, item, by simpa using hf, by simpa using hitem,
          fun h => hc ((hnear _ _).mp h)⟩

end Grassfire
