/-
Lemmas on the sieves and the small helpers of collapse.py.
-/
import Verif.Collapse
import Verif.Proofs.CalcLemmas
import Mathlib.Tactic.Linarith
import Mathlib.Tactic.Ring
import Mathlib.Tactic.FieldSimp
import Mathlib.Tactic.FinCases

set_option linter.unusedSectionVars false

namespace Grassfire

/-! ### Except -/

theorem bind_ok_iff {α β : Type} {x : Except Err α} {f : α → Except Err β} {b : β} :
    (x >>= f) = .ok b ↔ ∃ a, x = .ok a ∧ f a = .ok b := by
  cases x with
  | error e => simp [bind, Except.bind]
  | ok a => simp [bind, Except.bind]

theorem passert_ok_iff {c : Bool} {u : Unit} : passert c = .ok u ↔ c = true := by
  unfold passert
  cases c
  · constructor <;> intro e <;> cases e
  · exact ⟨fun _ => rfl, fun _ => rfl⟩

/-! ### sieves -/

section Find
variable {α : Type} [LinearOrder α]

theorem getElem?_takeWhile_length (p : α → Bool) (L : List α) :
    L[(L.takeWhile p).length]? = L.find? fun a => !p a := by
  induction L with
  | nil => rfl
  | cons a L ih =>
    by_cases h : p a = true
    · simp [h, ih]
    · simp [h]

theorem find_sorted_some (p : α → Bool) (L : List α) (hs : L.Pairwise (· ≤ ·)) (t : α)
    (h : L.find? p = some t) : t ∈ L ∧ p t = true ∧ ∀ u ∈ L, p u = true → t ≤ u := by
  induction L with
  | nil => simp at h
  | cons a L ih =>
    rw [List.pairwise_cons] at hs
    by_cases hp : p a = true
    · simp only [List.find?_cons_of_pos hp, Option.some.injEq] at h
      subst h
      refine ⟨by simp, hp, ?_⟩
      intro u hu _
      rcases List.mem_cons.mp hu with rfl | hu
      · exact le_refl _
      · exact hs.1 u hu
    · rw [List.find?_cons_of_neg hp] at h
      obtain ⟨h1, h2, h3⟩ := ih hs.2 h
      refine ⟨by simp [h1], h2, ?_⟩
      intro u hu hpu
      rcases List.mem_cons.mp hu with rfl | hu
      · exact absurd hpu hp
      · exact h3 u hu hpu

theorem findGte_eq (a : List (Option α)) (x : α) :
    findGte a x = (pySorted (a.filterMap id)).find? fun v => !decide (v < x) := by
  unfold findGte bisectLeft
  simp only
  rw [getElem?_takeWhile_length]
  split_ifs with h
  · rfl
  · rw [not_not] at h
    rw [← getElem?_takeWhile_length, h]
    simp

theorem findGte_some (a : List (Option α)) (x t : α) (h : findGte a x = some t) :
    some t ∈ a ∧ x ≤ t ∧ ∀ u, some u ∈ a → x ≤ u → t ≤ u := by
  rw [findGte_eq] at h
  obtain ⟨h1, h2, h3⟩ := find_sorted_some _ _ (pySorted_pairwise _) t h
  rw [mem_pySorted] at h1
  refine ⟨by simpa using h1, by simpa using h2, ?_⟩
  intro u hu hxu
  exact h3 u (by rw [mem_pySorted]; simpa using hu) (by simpa using hxu)

theorem findGte_none (a : List (Option α)) (x : α) (h : findGte a x = none) :
    ∀ u, some u ∈ a → u < x := by
  rw [findGte_eq, List.find?_eq_none] at h
  intro u hu
  have := h u (by rw [mem_pySorted]; simpa using hu)
  simpa using this

end Find

variable {K : Type} [Field K] [LinearOrder K] [IsStrictOrderedRing K]

theorem findGt_eq (a : List (Option K)) (x : K) :
    findGt a x = (pySorted ((a.filterMap id).filter fun v => !(nearZero (v - x)))).find?
      fun v => !decide (v ≤ x) := by
  unfold findGt bisectRight
  simp only
  rw [getElem?_takeWhile_length]
  split_ifs with h
  · rfl
  · rw [not_not] at h
    rw [← getElem?_takeWhile_length, h]
    rw [List.getElem?_eq_none]
    rw [(pySorted_perm _).length_eq]

theorem findGt_some (a : List (Option K)) (x t : K) (h : findGt a x = some t) :
    some t ∈ a ∧ x < t ∧ 1 / 10 ^ 10 < |t - x| ∧
      ∀ u, some u ∈ a → x < u → 1 / 10 ^ 10 < |u - x| → t ≤ u := by
  rw [findGt_eq] at h
  obtain ⟨h1, h2, h3⟩ := find_sorted_some _ _ (pySorted_pairwise _) t h
  rw [mem_pySorted, List.mem_filter] at h1
  refine ⟨by simpa using h1.1, by simpa using h2, ?_, ?_⟩
  · have := h1.2
    simp only [Bool.not_eq_true'] at this
    exact (nearZero_false_iff _).mp this
  intro u hu hxu hn
  apply h3 u
  · rw [mem_pySorted, List.mem_filter]
    refine ⟨by simpa using hu, ?_⟩
    simp only [Bool.not_eq_true']
    exact (nearZero_false_iff _).mpr hn
  · simpa using hxu

theorem findGt_none (a : List (Option K)) (x : K) (h : findGt a x = none) :
    ∀ u, some u ∈ a → x < u → |u - x| ≤ 1 / 10 ^ 10 := by
  rw [findGt_eq, List.find?_eq_none] at h
  intro u hu hxu
  by_contra hn
  rw [not_le] at hn
  have := h u (by
    rw [mem_pySorted, List.mem_filter]
    refine ⟨by simpa using hu, ?_⟩
    simp only [Bool.not_eq_true']
    exact (nearZero_false_iff _).mpr hn)
  simp only [Bool.not_eq_true', decide_eq_false_iff_not, not_le] at this
  exact this hxu

/-- both sieves return a member of the list that is not before `now` -/
theorem sieve_some (s : Sieve) (a : List (Option K)) (x t : K) (h : s.apply a x = some t) :
    some t ∈ a ∧ x ≤ t := by
  cases s with
  | gte => exact ⟨(findGte_some a x t h).1, (findGte_some a x t h).2.1⟩
  | gt => exact ⟨(findGt_some a x t h).1, (findGt_some a x t h).2.1.le⟩

/-! ### lists of three -/

theorem list3_ok {α : Type} {f : Fin 3 → Except Err α} {g : Fin 3 → α}
    (h : list3 f = .ok g) : ∀ i, f i = .ok (g i) := by
  unfold list3 at h
  simp only [bind_ok_iff, Except.ok.injEq] at h
  obtain ⟨x0, h0, x1, h1, x2, h2, rfl⟩ := h
  intro i
  fin_cases i
  · exact h0
  · exact h1
  · exact h2

theorem indexE_ok {α : Type} [DecidableEq α] {f : Fin 3 → α} {x : α} {i : Fin 3}
    (h : indexE f x = .ok i) : f i = x ∧ ∀ j, j < i → f j ≠ x := by
  unfold indexE index3 at h
  by_cases h0 : f 0 = x
  · simp only [h0, if_true, Except.ok.injEq] at h
    subst h
    exact ⟨h0, fun j hj => absurd hj (by simp)⟩
  · by_cases h1 : f 1 = x
    · simp only [h0, h1, if_true, if_false, Except.ok.injEq] at h
      subst h
      refine ⟨h1, ?_⟩
      intro j hj
      have : j = 0 := by omega
      subst this; exact h0
    · by_cases h2 : f 2 = x
      · simp only [h0, h1, h2, if_true, if_false, Except.ok.injEq] at h
        subst h
        refine ⟨h2, ?_⟩
        intro j hj
        have : j = 0 ∨ j = 1 := by omega
        rcases this with rfl | rfl
        · exact h0
        · exact h1
      · simp only [h0, h1, h2, if_false] at h
        cases h

theorem le_max3 (f : Fin 3 → K) (i : Fin 3) : f i ≤ max3 f := by
  unfold max3
  fin_cases i
  · exact (le_max_left _ _).trans (le_max_left _ _)
  · exact (le_max_right _ _).trans (le_max_left _ _)
  · exact le_max_right _ _

theorem max3_mem (f : Fin 3 → K) : ∃ i, f i = max3 f := by
  unfold max3
  rcases max_choice (max (f 0) (f 1)) (f 2) with h | h
  · rcases max_choice (f 0) (f 1) with h' | h'
    · exact ⟨0, by rw [h, h']⟩
    · exact ⟨1, by rw [h, h']⟩
  · exact ⟨2, by rw [h]⟩

theorem min3_le (f : Fin 3 → K) (i : Fin 3) : min3 f ≤ f i := by
  unfold min3
  fin_cases i
  · exact (min_le_left _ _).trans (min_le_left _ _)
  · exact (min_le_left _ _).trans (min_le_right _ _)
  · exact min_le_right _ _

theorem min3_mem (f : Fin 3 → K) : ∃ i, f i = min3 f := by
  unfold min3
  rcases min_choice (min (f 0) (f 1)) (f 2) with h | h
  · rcases min_choice (f 0) (f 1) with h' | h'
    · exact ⟨0, by rw [h, h']⟩
    · exact ⟨1, by rw [h, h']⟩
  · exact ⟨2, by rw [h]⟩

theorem mem_where3 (p : Fin 3 → Bool) (i : Fin 3) : i ∈ where3 p ↔ p i = true := by
  unfold where3
  rw [List.mem_filter]
  refine ⟨fun h => h.2, fun h => ⟨?_, h⟩⟩
  fin_cases i <;> simp

theorem where3_nodup (p : Fin 3 → Bool) : (where3 p).Nodup :=
  List.Nodup.filter _ (by decide)

theorem where3_sublist (p : Fin 3 → Bool) : (where3 p).Sublist [0, 1, 2] := List.filter_sublist

end Grassfire
