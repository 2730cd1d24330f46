/-
Lemmas on the left/right histories and on `segments`.
-/
import Verif.Primitives
import Verif.Proofs.CollapseLemmas

set_option linter.unusedSectionVars false

namespace Grassfire

section Hist
variable {K R : Type}

/-- the history that results from a list of assignments -/
def mkHist : List (K × R) → Hist K R
  | [] => []
  | [(t, r)] => [⟨t, none, r⟩]
  | (t, r) :: (t', r') :: rest => ⟨t, some t', r⟩ :: mkHist ((t', r') :: rest)

theorem mkHist_ne_nil (x : K × R) (xs : List (K × R)) : mkHist (x :: xs) ≠ [] := by
  cases xs <;> simp [mkHist]

theorem hist_set_cons (x : HistItem K R) (h : Hist K R) (hne : h ≠ []) (r : R) (t : K) :
    Hist.set (x :: h) r t = x :: Hist.set h r t := by
  obtain ⟨y, ys, rfl⟩ := List.exists_cons_of_ne_nil hne
  unfold Hist.set
  simp only [List.getLast?_cons_cons]
  cases hl : (y :: ys).getLast? with
  | none => simp at hl
  | some l => simp

theorem mkHist_snoc (as : List (K × R)) (r : R) (t : K) :
    Hist.set (mkHist as) r t = mkHist (as ++ [(t, r)]) := by
  induction as with
  | nil => rfl
  | cons x xs ih =>
    cases xs with
    | nil => rfl
    | cons y ys =>
      obtain ⟨tx, rx⟩ := x
      obtain ⟨ty, ry⟩ := y
      rw [mkHist, hist_set_cons _ _ (mkHist_ne_nil _ _), ih]
      rfl

theorem foldl_set (as : List (K × R)) :
    as.foldl (fun h a => Hist.set h a.2 a.1) [] = mkHist as := by
  have : ∀ (bs : List (K × R)) (as : List (K × R)),
      bs.foldl (fun h a => Hist.set h a.2 a.1) (mkHist as) = mkHist (as ++ bs) := by
    intro bs
    induction bs with
    | nil => intro as; simp
    | cons b bs ih =>
      intro as
      rw [List.foldl_cons, mkHist_snoc, ih]
      simp
  simpa [mkHist] using this as []

variable [LinearOrder K]

theorem mkHist_at (as : List (K × R)) (hs : as.Pairwise fun a b => a.1 ≤ b.1) (t : K) :
    (mkHist as).at t = ((as.filter fun a => decide (a.1 ≤ t)).getLast?).map (·.2) := by
  induction as with
  | nil => rfl
  | cons x xs ih =>
    obtain ⟨tx, rx⟩ := x
    cases xs with
    | nil =>
      by_cases h : tx ≤ t <;> simp [mkHist, Hist.at, h]
    | cons y ys =>
      obtain ⟨ty, ry⟩ := y
      have ih' := ih (List.Pairwise.of_cons hs)
      have hxy : tx ≤ ty := (List.pairwise_cons.mp hs).1 (ty, ry) (by simp)
      by_cases hy : ty ≤ t
      · have hx : tx ≤ t := hxy.trans hy
        have e1 : (mkHist ((tx, rx) :: (ty, ry) :: ys)).at t = (mkHist ((ty, ry) :: ys)).at t := by
          simp only [mkHist, Hist.at]
          rw [List.find?_cons_of_neg]
          simp [hy]
        rw [e1, ih']
        simp only [List.filter_cons, hx, hy, decide_true, if_true, List.getLast?_cons_cons]
      · have hno : ∀ a ∈ (ty, ry) :: ys, ¬ a.1 ≤ t := by
          intro a ha hat
          rcases List.mem_cons.mp ha with rfl | ha
          · exact hy hat
          · have := (List.pairwise_cons.mp (List.Pairwise.of_cons hs)).1 a ha
            exact hy (this.trans hat)
        have e2 : ((ty, ry) :: ys).filter (fun a => decide (a.1 ≤ t)) = [] := by
          rw [List.filter_eq_nil_iff]
          intro a ha
          simpa using hno a ha
        rw [e2] at ih'
        rw [List.filter_cons, e2]
        by_cases hx : tx ≤ t
        · have : t < ty := not_le.mp hy
          simp [mkHist, Hist.at, hx, this]
        · have e1 : (mkHist ((tx, rx) :: (ty, ry) :: ys)).at t = (mkHist ((ty, ry) :: ys)).at t := by
            simp only [mkHist, Hist.at]
            rw [List.find?_cons_of_neg]
            simp [hx]
          rw [e1, ih']
          simp [hx]

theorem mkHist_last (as : List (K × R)) : (mkHist as).last = as.getLast?.map (·.2) := by
  induction as with
  | nil => rfl
  | cons x xs ih =>
    cases xs with
    | nil => rfl
    | cons y ys =>
      obtain ⟨tx, rx⟩ := x
      obtain ⟨ty, ry⟩ := y
      rw [List.getLast?_cons_cons, ← ih, mkHist]
      unfold Hist.last
      obtain ⟨z, zs, hz⟩ := List.exists_cons_of_ne_nil (mkHist_ne_nil (ty, ry) ys)
      rw [hz, List.getLast?_cons_cons]

end Hist

section Segments
variable {K : Type} [Field K] [LinearOrder K]

theorem segmentsLoop_eq (s : St K) (f : VId → Option (Segment K)) (vs : List VId)
    (h : ∀ v ∈ vs, segmentOf s v = .ok (f v)) (acc : List (Segment K)) :
    segmentsLoop s vs acc = .ok (acc ++ vs.filterMap f) := by
  induction vs generalizing acc with
  | nil => simp [segmentsLoop]
  | cons v vs ih =>
    have hv := h v (by simp)
    have hvs := ih (fun w hw => h w (List.mem_cons_of_mem _ hw))
    unfold segmentsLoop
    rw [hv]
    simp only [bind, Except.bind]
    cases hf : f v with
    | none => simp only [hvs, List.filterMap_cons, hf]
    | some x =>
      simp only [hvs, List.filterMap_cons, hf, List.append_assoc, List.singleton_append]

end Segments

end Grassfire
