/-
Property C31: the order of the events.
-/
import Verif.Queue
import Mathlib.Tactic.Linarith
import Mathlib.Tactic.SplitIfs

set_option linter.unusedSectionVars false

namespace Grassfire

variable {K : Type} [LinearOrder K]

/-- Specification: earlier first; at equal times the triangle with more wavefront sides first;
then the smaller identity. -/
def Before (pyid : TId → ℕ) (a b : Event K) : Prop :=
  a.time < b.time ∨ a.time = b.time ∧
    (b.triTp < a.triTp ∨ a.triTp = b.triTp ∧ pyid a.tri < pyid b.tri)

/-- C31: the comparison is negative exactly when the first event comes before the second, positive
exactly when it comes after. -/
theorem C31_compare_iff (pyid : TId → ℕ) (a b : Event K) :
    (compareEvents pyid a b = -1 ↔ Before pyid a b) ∧
    (compareEvents pyid a b = 1 ↔ Before pyid b a) ∧
    (compareEvents pyid a b = -1 ∨ compareEvents pyid a b = 0 ∨ compareEvents pyid a b = 1) := by
  unfold compareEvents Before
  rcases lt_trichotomy a.time b.time with h | h | h
  · simp [h, h.not_gt, h.ne, h.ne']
  · rcases lt_trichotomy a.triTp b.triTp with g | g | g
    · simp [h, g, g.not_gt, g.ne, g.ne']
    · rcases lt_trichotomy (pyid a.tri) (pyid b.tri) with f | f | f
      · simp [h, g, f, f.not_gt]
      · simp [h, g, f]
      · simp [h, g, f, f.not_gt]
    · simp [h, g, g.not_gt, g.ne, g.ne']
  · simp [h, h.not_gt, h.ne, h.ne']

/-- C31: an event compares equal to itself. -/
theorem C31_refl (pyid : TId → ℕ) (a : Event K) : compareEvents pyid a a = 0 := by
  simp [compareEvents]

/-- C31: exchanging the arguments changes the sign. -/
theorem C31_antisymm (pyid : TId → ℕ) (a b : Event K) :
    compareEvents pyid b a = -compareEvents pyid a b := by
  unfold compareEvents
  rcases lt_trichotomy a.time b.time with h | h | h
  · simp [h, h.not_gt]
  · rcases lt_trichotomy a.triTp b.triTp with g | g | g
    · simp [h, g, g.not_gt]
    · rcases lt_trichotomy (pyid a.tri) (pyid b.tri) with f | f | f
      · simp [h, g, f, f.not_gt]
      · simp [h, g, f]
      · simp [h, g, f, f.not_gt]
    · simp [h, g, g.not_gt]
  · simp [h, h.not_gt]

/-- C31: the comparison is transitive. -/
theorem C31_trans (pyid : TId → ℕ) (a b c : Event K) (h1 : compareEvents pyid a b = -1)
    (h2 : compareEvents pyid b c = -1) : compareEvents pyid a c = -1 := by
  rw [(C31_compare_iff pyid _ _).1] at *
  unfold Before at *
  rcases h1 with h1 | ⟨e1, h1⟩
  · rcases h2 with h2 | ⟨e2, -⟩
    · exact .inl (h1.trans h2)
    · exact .inl (e2 ▸ h1)
  · rcases h2 with h2 | ⟨e2, h2⟩
    · exact .inl (e1 ▸ h2)
    · refine .inr ⟨e1.trans e2, ?_⟩
      omega

/-- C31: equality under the comparison is respected: events that compare equal are
interchangeable. -/
theorem C31_equal_congr (pyid : TId → ℕ) (a b c : Event K) (h : compareEvents pyid a b = 0) :
    compareEvents pyid a c = compareEvents pyid b c := by
  have e : a.time = b.time ∧ a.triTp = b.triTp ∧ pyid a.tri = pyid b.tri := by
    unfold compareEvents at h
    rcases lt_trichotomy a.time b.time with h1 | h1 | h1
    · simp [h1] at h
    · rcases lt_trichotomy a.triTp b.triTp with g | g | g
      · simp [h1, g, g.not_gt] at h
      · rcases lt_trichotomy (pyid a.tri) (pyid b.tri) with f | f | f
        · simp [h1, g, f] at h
        · exact ⟨h1, g, f⟩
        · simp [h1, g, f, f.not_gt] at h
      · simp [h1, g] at h
    · simp [h1, h1.not_gt] at h
  unfold compareEvents
  rw [e.1, e.2.1, e.2.2]

/-- C31: events compare equal exactly when time, type and triangle agree (python's `id` is
injective on live objects). -/
theorem C31_zero_iff (pyid : TId → ℕ) (a b : Event K)
    (inj : pyid a.tri = pyid b.tri → a.tri = b.tri) :
    compareEvents pyid a b = 0 ↔ a.time = b.time ∧ a.triTp = b.triTp ∧ a.tri = b.tri := by
  unfold compareEvents
  rcases lt_trichotomy a.time b.time with h | h | h
  · simp [h, h.ne]
  · rcases lt_trichotomy a.triTp b.triTp with g | g | g
    · simp [h, g, g.not_gt, g.ne]
    · rcases lt_trichotomy (pyid a.tri) (pyid b.tri) with f | f | f
      · simp only [h, g, f, lt_self_iff_false, if_false, if_true, gt_iff_lt]
        simp only [Int.reduceNeg, neg_eq_zero, one_ne_zero, true_and, false_iff]
        intro e; rw [e] at f; exact lt_irrefl _ f
      · simp [h, g, inj f]
      · simp only [h, g, f, f.not_gt, lt_self_iff_false, if_false, if_true]
        simp only [one_ne_zero, true_and, false_iff]
        intro e; rw [e] at f; exact lt_irrefl _ f
    · simp [h, g, g.ne']
  · simp [h, h.ne', h.not_gt]

/-- C31: the earlier event comes first, whatever the types and triangles. -/
theorem C31_earlier_first (pyid : TId → ℕ) (a b : Event K) (h : a.time < b.time) :
    compareEvents pyid a b = -1 := (C31_compare_iff pyid a b).1.2 (.inl h)

/-- C31: at equal times the triangle with more wavefront sides comes first. -/
theorem C31_more_wavefront_first (pyid : TId → ℕ) (a b : Event K) (h : a.time = b.time)
    (g : b.triTp < a.triTp) : compareEvents pyid a b = -1 :=
  (C31_compare_iff pyid a b).1.2 (.inr ⟨h, .inl g⟩)

/-- The queue is ordered. -/
def Ordered (pyid : TId → ℕ) (q : List (Event K)) : Prop :=
  q.Pairwise fun a b => compareEvents pyid a b = -1

theorem mem_queueInsert (pyid : TId → ℕ) (e x : Event K) (q : List (Event K)) :
    x ∈ queueInsert pyid e q ↔ x = e ∨ x ∈ q := by
  induction q with
  | nil => simp [queueInsert]
  | cons y q ih =>
    unfold queueInsert
    split_ifs
    · simp
    · simp only [List.mem_cons, ih]; tauto

/-- C31: `add` puts the event at its place: the queue stays ordered, contains the new event and
the old ones and nothing else. -/
theorem C31_add_ordered (pyid : TId → ℕ) (e : Event K) (q : List (Event K))
    (ord : Ordered pyid q) (new : ∀ x ∈ q, compareEvents pyid e x ≠ 0) :
    Ordered pyid (queueInsert pyid e q) ∧ (queueInsert pyid e q).Perm (e :: q) := by
  induction q with
  | nil => simp [queueInsert, Ordered]
  | cons y q ih =>
    have ord' := List.pairwise_cons.1 ord
    unfold queueInsert
    split_ifs with h
    · refine ⟨List.pairwise_cons.2 ⟨?_, ord⟩, List.Perm.refl _⟩
      have hy : compareEvents pyid e y = -1 := by
        rcases (C31_compare_iff pyid e y).2.2 with g | g | g <;> omega
      intro x hx
      rcases List.mem_cons.1 hx with rfl | hx
      · exact hy
      · exact C31_trans pyid _ _ _ hy (ord'.1 x hx)
    · obtain ⟨i1, i2⟩ := ih ord'.2 (fun x hx => new x (List.mem_cons_of_mem _ hx))
      have hy : compareEvents pyid y e = -1 := by
        rw [C31_antisymm]
        rcases (C31_compare_iff pyid e y).2.2 with g | g | g
        · omega
        · exact absurd g (new y List.mem_cons_self)
        · rw [g]
      refine ⟨List.pairwise_cons.2 ⟨?_, i1⟩, ?_⟩
      · intro x hx
        rcases (mem_queueInsert pyid e x q).1 hx with rfl | hx
        · exact hy
        · exact ord'.1 x hx
      · exact (List.Perm.cons y i2).trans (List.Perm.swap e y q)

/-- C31: hence the first event of an ordered queue is due before (or together with) every
other. -/
theorem C31_first_is_earliest (pyid : TId → ℕ) (e : Event K) (q : List (Event K))
    (ord : Ordered pyid (e :: q)) : ∀ x ∈ q, e.time ≤ x.time := by
  intro x hx
  rcases ((C31_compare_iff pyid e x).1.1 ((List.pairwise_cons.1 ord).1 x hx)) with h | ⟨h, -⟩
  · exact h.le
  · exact h.le

/-- two events for the examples: same time, different triangles -/
def exE (time : ℚ) (triTp : ℕ) (tri : TId) : Event ℚ :=
  { time := time, side := [0], tp := .edge, triTp := triTp, eid := tri, tri := tri }

example : compareEvents id (exE 2 1 0) (exE 2 1 1) = -1 := by decide +kernel
example : compareEvents id (exE 2 1 0) (exE 2 2 1) = 1 := by decide +kernel
example : compareEvents id (exE 1 0 5) (exE 2 2 1) = -1 := by decide +kernel
example : Ordered id [exE 1 0 5, exE 2 2 1, exE 2 1 0] := by unfold Ordered; decide +kernel
example : queueInsert id (exE 2 1 3) [exE 1 0 5, exE 2 2 1, exE 2 1 0, exE 2 1 4] =
    [exE 1 0 5, exE 2 2 1, exE 2 1 0, exE 2 1 3, exE 2 1 4] := by decide +kernel

end Grassfire
