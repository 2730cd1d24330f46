/-
Lemmas on `boxLoop` (transform.py).
-/
import Verif.Transform

namespace Grassfire

/-- helper: the loop keeps the box tight -/
theorem boxLoop_spec {α : Type} [LinearOrder α] (it : List (α × α)) :
    ∀ (seen : List (α × α)) (ll ur : α × α),
      (∃ p ∈ seen, p.1 = ll.1) → (∃ p ∈ seen, p.2 = ll.2) →
      (∃ p ∈ seen, p.1 = ur.1) → (∃ p ∈ seen, p.2 = ur.2) →
      (∀ p ∈ seen, ll.1 ≤ p.1 ∧ ll.2 ≤ p.2 ∧ p.1 ≤ ur.1 ∧ p.2 ≤ ur.2) →
      let b := boxLoop it ll ur
      (∃ p ∈ seen ++ it, p.1 = b.1.1) ∧ (∃ p ∈ seen ++ it, p.2 = b.1.2) ∧
      (∃ p ∈ seen ++ it, p.1 = b.2.1) ∧ (∃ p ∈ seen ++ it, p.2 = b.2.2) ∧
      ∀ p ∈ seen ++ it, b.1.1 ≤ p.1 ∧ b.1.2 ≤ p.2 ∧ p.1 ≤ b.2.1 ∧ p.2 ≤ b.2.2 := by
  induction it with
  | nil =>
    intro seen ll ur h1 h2 h3 h4 h5
    simpa [boxLoop] using ⟨by simpa using h1, by simpa using h2, by simpa using h3,
      by simpa using h4, by simpa using h5⟩
  | cons pt it ih =>
    intro seen ll ur h1 h2 h3 h4 h5
    obtain ⟨x, y⟩ := pt
    obtain ⟨lx, ly⟩ := ll
    obtain ⟨ux, uy⟩ := ur
    have e : boxLoop ((x, y) :: it) (lx, ly) (ux, uy) =
        boxLoop it (if x < lx then x else lx, if y < ly then y else ly)
          (if x > ux then x else ux, if y > uy then y else uy) := by
      have e1 : ∀ (P Q : Prop) [Decidable P] [Decidable Q] (a b c d : α),
          (if Q then ((if P then (a, c) else (b, c)).1, d) else (if P then (a, c) else (b, c))) =
          ((if P then a else b), (if Q then d else c)) := by
        intro P Q _ _ a b c d
        by_cases hP : P <;> by_cases hQ : Q <;> simp only [hP, hQ, if_true, if_false]
      have e2 : ∀ (P : Prop) [Decidable P] (a b c : α),
          (if P then (a, c) else (b, c)).2 = c := by
        intro P _ a b c
        by_cases hP : P <;> simp only [hP, if_true, if_false]
      simp only [boxLoop, e2, e1]
    rw [e]
    have := ih (seen ++ [(x, y)])
      (if x < lx then x else lx, if y < ly then y else ly)
      (if x > ux then x else ux, if y > uy then y else uy) ?_ ?_ ?_ ?_ ?_
    · simpa using this
    · obtain ⟨p, hp, hp'⟩ := h1
      dsimp only
      split_ifs
      · exact ⟨(x, y), by simp, rfl⟩
      · exact ⟨p, by simp [hp], hp'⟩
    · obtain ⟨p, hp, hp'⟩ := h2
      dsimp only
      split_ifs
      · exact ⟨(x, y), by simp, rfl⟩
      · exact ⟨p, by simp [hp], hp'⟩
    · obtain ⟨p, hp, hp'⟩ := h3
      dsimp only
      split_ifs
      · exact ⟨(x, y), by simp, rfl⟩
      · exact ⟨p, by simp [hp], hp'⟩
    · obtain ⟨p, hp, hp'⟩ := h4
      dsimp only
      split_ifs
      · exact ⟨(x, y), by simp, rfl⟩
      · exact ⟨p, by simp [hp], hp'⟩
    · intro p hp
      rcases List.mem_append.mp hp with hp | hp
      · obtain ⟨a, b, c, d⟩ := h5 p hp
        simp only at a b c d ⊢
        refine ⟨?_, ?_, ?_, ?_⟩
        · split_ifs with h
          · exact h.le.trans a
          · exact a
        · split_ifs with h
          · exact h.le.trans b
          · exact b
        · split_ifs with h
          · exact c.trans h.le
          · exact c
        · split_ifs with h
          · exact d.trans h.le
          · exact d
      · simp only [List.mem_singleton] at hp
        subst hp
        simp only
        refine ⟨?_, ?_, ?_, ?_⟩
        · split_ifs with h
          · exact le_refl _
          · exact not_lt.mp h
        · split_ifs with h
          · exact le_refl _
          · exact not_lt.mp h
        · split_ifs with h
          · exact le_refl _
          · exact not_lt.mp h
        · split_ifs with h
          · exact le_refl _
          · exact not_lt.mp h

end Grassfire
