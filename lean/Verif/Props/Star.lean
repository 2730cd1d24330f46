/-
Property C41: `split_star` divides the star of a vertex exactly at the constrained edges.
-/
import Verif.Proofs.StarLemmas

set_option linter.unusedSectionVars false

namespace Grassfire

open Spec

variable {K : Type} [Field K] [LinearOrder K] {dt : Dt K}

/-- the outcome of `split_star`, as far as it does not depend on the star being consistent -/
theorem splitStar_ok {v : DV} {gs : List (List DEdge)} (h : splitStar dt v = .ok gs) :
    (gs = splitLoop dt (dt.star v) [] ∧ gs.length ≤ 1) ∨
    (1 < (splitLoop dt (dt.star v) []).length ∧
      mergeEnds dt (splitLoop dt (dt.star v) []) = .ok gs ∧ ∀ g ∈ gs, checkGroup dt g = .ok ()) := by
  unfold splitStar at h
  dsimp only at h
  split_ifs at h with hl
  · cases h; exact Or.inl ⟨rfl, hl⟩
  · cases hm : mergeEnds dt (splitLoop dt (dt.star v) []) with
    | error e => rw [hm] at h; cases h
    | ok g2 =>
      rw [hm] at h
      change (allE (checkGroup dt) g2 >>= fun _ => Except.ok g2) = _ at h
      cases ha : allE (checkGroup dt) g2 with
      | error e => rw [ha] at h; cases h
      | ok u =>
        rw [ha] at h
        cases h
        exact Or.inr ⟨by omega, rfl, allE_ok ha⟩

/-- C41: for every star and every pattern of constraints: the groups that `split_star` returns are
non-empty, and together, in their order, they are the star, possibly starting at another
triangle: nothing is lost, nothing is duplicated, the order is kept. -/
theorem C41_rotation (dt : Dt K) (v : DV) (gs : List (List DEdge)) (h : splitStar dt v = .ok gs) :
    gs.flatten ~r dt.star v ∧ ∀ g ∈ gs, g ≠ [] := by
  rcases splitStar_ok h with ⟨rfl, _⟩ | ⟨h2, hm, _⟩
  · exact ⟨by rw [splitLoop_flatten]; exact List.IsRotated.refl _, splitLoop_nonempty _ _⟩
  · have := mergeEnds_flatten hm h2 (splitLoop_nonempty _ _)
    rw [splitLoop_flatten] at this
    exact this

/-- C41: for a geometrically consistent star no assertion fires; when there is more than one
constrained edge at the vertex, every group lies between two constrained edges and contains none
inside. -/
theorem C41_groups (dt : Dt K) (v : DV) (hs : StarOk dt (dt.star v)) :
    ∃ gs, splitStar dt v = .ok gs ∧ (1 < gs.length → ∀ g ∈ gs, GroupOk dt g) := by
  have h1 := splitLoop_flatten (dt := dt) (dt.star v) []
  have h2 := splitLoop_nonempty (dt := dt) (dt.star v) []
  have h3 := splitLoop_inside (dt := dt) (dt.star v) [] (by simp)
  have h4 := splitLoop_last (dt := dt) (dt.star v) []
  unfold splitStar
  dsimp only
  split_ifs with hl
  · exact ⟨_, rfl, fun h => by omega⟩
  · obtain ⟨gs, hg, hok⟩ := mergeEnds_groups hs h1 h2 h3 h4 (by omega)
    rw [hg]
    refine ⟨gs, ?_, fun _ => hok⟩
    change (allE (checkGroup dt) gs >>= fun _ => Except.ok gs) = _
    rw [allE_of fun g hg => checkGroup_ok (hok g hg)]
    rfl

/-- C41: there are as many groups as constrained edges at the vertex, but one when there is
none. -/
theorem C41_count (dt : Dt K) (v : DV) (hs : StarOk dt (dt.star v)) (hne : dt.star v ≠ [])
    (gs : List (List DEdge)) (h : splitStar dt v = .ok gs) :
    gs.length = max 1 ((dt.star v).countP fun e => dt.constrained e.1 (ccw e.2)) := by
  have hc := splitLoop_count (dt := dt) (dt.star v) []
  obtain ⟨l, hl⟩ : ∃ l, (dt.star v).getLast? = some l := ⟨_, List.getLast?_eq_some_getLast hne⟩
  rw [List.nil_append, hl] at hc
  simp only [Option.any_some, ne_eq, not_true_eq_false, and_false, or_false] at hc
  have hpos : dt.constrained l.1 (ccw l.2) = true →
      0 < (dt.star v).countP fun e => dt.constrained e.1 (ccw e.2) := fun hx =>
    List.countP_pos_iff.2 ⟨l, List.mem_of_getLast? hl, hx⟩
  rcases splitStar_ok h with ⟨rfl, h1⟩ | ⟨h2, hm, _⟩
  · rw [hc] at h1 ⊢
    by_cases hx : dt.constrained l.1 (ccw l.2)
    · have := hpos hx
      simp only [hx, Bool.not_true, Bool.false_eq_true, if_false] at h1 ⊢
      omega
    · simp only [hx, Bool.not_false, if_true] at h1 ⊢
      omega
  · obtain ⟨e, g, rest, he, hlen⟩ := mergeEnds_length hm h2
    have hhead : (dt.star v).head? = some e := by
      have := splitLoop_flatten (dt := dt) (dt.star v) []
      rw [he] at this
      rw [← List.nil_append (dt.star v), ← this]; rfl
    have hiff : dt.constrained l.1 (ccw l.2) = dt.constrained e.1 (cw e.2) := by
      have := hs.closed l hl e hhead
      unfold Ahead Behind at this
      exact Bool.eq_iff_iff.2 this
    rw [hlen, hc, ← hiff]
    rw [hc] at h2
    cases hx : dt.constrained l.1 (ccw l.2) with
    | true =>
      have := hpos hx
      simp only [hx, Bool.not_true, Bool.false_eq_true, if_false, if_true] at h2 ⊢
      omega
    | false =>
      simp only [hx, Bool.not_false, if_true, Bool.false_eq_true, if_false] at h2 ⊢
      omega

/-! ### the hypotheses are met -/

/-- four triangles around vertex 0, two of the four edges are constrained, the star begins in
the middle of a group -/
def starSample : Dt ℚ where
  nV := 5
  nT := 4
  pos := fun v => (v, 0)
  info := fun _ => none
  finite := fun _ => true
  corner := fun t i => if i = 0 then some 0 else if i = 1 then some (t + 1) else some ((t + 1) % 4 + 1)
  neighbour := fun t i => if i = 1 then some ((t + 1) % 4) else if i = 2 then some ((t + 3) % 4) else none
  constrained := fun t i => decide ((t = 0 ∧ i = 1) ∨ (t = 1 ∧ i = 2) ∨ (t = 2 ∧ i = 1) ∨ (t = 3 ∧ i = 2))
  star := fun _ => [(0, 0), (1, 0), (2, 0), (3, 0)]
  internal := fun _ => true

example : StarOk starSample (starSample.star 0) := by
  constructor
  · simp only [starSample, Ahead, Behind, ccw, cw]
    simp [List.isChain_cons_cons]
  · simp [starSample, Ahead, Behind, ccw, cw]

example : splitStar starSample 0 = .ok [[(3, 0), (0, 0)], [(1, 0), (2, 0)]] := by decide +kernel

end Grassfire
