/-
Progress of the event loop (lemmas for C87): the triangles around a vertex.
-/
import Verif.Proofs.Safe
import Verif.Proofs.LinkRun

set_option linter.unusedSectionVars false

namespace Grassfire

open Spec

variable {K : Type} [Field K] [LinearOrder K]

/-- no wavefront side is between stopped vertices -/
def Undead (s : St K) : Prop := FitsD (fun _ => True) (fun _ _ => False) s

variable {s : St K}

theorem Undead.running (h : Undead s) (hM : Mesh s) {t : TId} (hl : Live s t) {i : Fin 3}
    (hk : Kinetic s ((s.tri t).vertices i)) : Running s ((s.tri t).vertices i) := by
  by_contra hr
  obtain ⟨_, _, _, _, _, hD, _⟩ := stopped_side hM h hl hk hr
  exact hD

theorem Undead.points (h : Undead s) (hM : Mesh s) {t : TId} (hl : Live s t) {i : Fin 3}
    (hn : (s.tri t).neighbours i = none) : Points s ((s.tri t).vertices (i + 1)) ((s.tri t).vertices (i + 2)) := by
  have hL := linked_of_fits hM h.fits
  refine (hL.points t i _ _ ⟨hl, hn, rfl, rfl⟩).resolve_right fun q => q.1 ?_
  exact h.running hM hl (hL.kinetic t i _ _ ⟨hl, hn, rfl, rfl⟩).1

/-- walks around a vertex come to an end, by a measure that gets smaller -/
theorem walk_of_measure (hM : Mesh s) {dir : Dir} (μ : TId → Fin 3 → ℕ) {v : VId}
    (hμ : ∀ t i n j, Live s t → (s.tri t).vertices i = v → (s.tri t).neighbours (dir.fn i) = some n → Live s n →
      (s.tri n).vertices j = v → μ n j < μ t i) : ∀ m t i, Live s t → (s.tri t).vertices i = v → μ t i = m →
      ∃ l, FanWalk dir v s.tri ((s.tri t).neighbours (dir.fn i)) l ∧ l.Nodup ∧
        ∀ x ∈ l, Live s x ∧ ∃ j, (s.tri x).vertices j = v ∧ μ x j < m := by
  have hC := hM.consistent
  intro m
  induction m using Nat.strong_induction_on with
  | _ m ih =>
    intro t i pt hi hm
    cases hn : (s.tri t).neighbours (dir.fn i) with
    | none => exact ⟨[], .stop, List.nodup_nil, nofun⟩
    | some u =>
      obtain ⟨pu, j, hj, -⟩ := turn hC dir pt hi hn
      have hlt := hμ t i u j pt hi hn pu hj
      rw [hm] at hlt
      obtain ⟨l, hw, hnd, hl⟩ := ih _ hlt u j pu hj rfl
      refine ⟨u :: l, .step hj hw, List.nodup_cons.2 ⟨fun hu => ?_, hnd⟩, fun x hx => ?_⟩
      · obtain ⟨-, k, hk, q⟩ := hl u hu
        obtain rfl := (hC u pu).2.1 (hk.trans hj.symm)
        exact lt_irrefl _ q
      · rcases List.mem_cons.1 hx with rfl | hx
        · exact ⟨pu, j, hj, hlt⟩
        · obtain ⟨q1, k, q2, q3⟩ := hl x hx
          exact ⟨q1, k, q2, q3.trans hlt⟩

/-- the triangles around a vertex on one side of a triangle -/
theorem Undead.walk (h : Undead s) (hM : Mesh s) (dir : Dir) {t : TId} (hl : Live s t) {i : Fin 3} {v : VId}
    (hi : (s.tri t).vertices i = v) (hk : Kinetic s v) :
    ∃ l, FanWalk dir v s.tri ((s.tri t).neighbours (dir.fn i)) l ∧ l.Nodup ∧ t ∉ l ∧
      (∀ x ∈ l, Live s x ∧ ∃ k, (s.tri x).vertices k = v ∧ ∃ y, (s.tri x).neighbours (dir.rev.fn k) = some y) ∧
      ∃ x k, (x = t ∨ x ∈ l) ∧ Live s x ∧ (s.tri x).vertices k = v ∧ (s.tri x).neighbours (dir.fn k) = none := by
  obtain ⟨c, r, F, -⟩ := h
  have hC := hM.consistent
  have main : ∃ l, FanWalk dir v s.tri ((s.tri t).neighbours (dir.fn i)) l ∧ l.Nodup ∧ t ∉ l := by
    cases dir with
    | cw =>
      obtain ⟨l, hw, hnd, q⟩ := walk_of_measure hM (dir := .cw) r (v := v) (fun t i n j pt hi hn pn hj =>
        (F.next t pt i n j hn (hj.trans hi.symm) (by rw [hi]; exact hk)).2) _ t i hl hi rfl
      refine ⟨l, hw, hnd, fun ht => ?_⟩
      obtain ⟨-, k, hk, q⟩ := q t ht
      obtain rfl := (hC t hl).2.1 (hk.trans hi.symm)
      exact lt_irrefl _ q
    | ccw =>
      have bound : ∀ x, Live s x → ∀ i, r x i ≤ ∑ y ∈ Finset.range s.nT, (r y 0 + r y 1 + r y 2) := by
        intro x px i
        refine (le_sum3 (r x) i).trans ?_
        exact Finset.single_le_sum (f := fun y => r y 0 + r y 1 + r y 2) (fun _ _ => Nat.zero_le _)
          (Finset.mem_range.2 (hC x px).1)
      generalize ∑ y ∈ Finset.range s.nT, (r y 0 + r y 1 + r y 2) = B at bound
      obtain ⟨l, hw, hnd, q⟩ := walk_of_measure hM (dir := .ccw) (fun t i => B - r t i) (v := v)
        (fun t i n j pt hi hn pn hj => by
          obtain ⟨_, j', hj', hb⟩ := Grassfire.turn hC .ccw pt hi hn
          obtain rfl := (hC n pn).2.1 (hj'.trans hj.symm)
          change (s.tri n).neighbours (j' + 2) = some t at hb
          have h1 := (F.next n pn j' t i hb (hi.trans hj.symm) (by rw [hj]; exact hk)).2
          have h2 := bound n pn j'

          omega) _ t i hl hi rfl
      refine ⟨l, hw, hnd, fun ht => ?_⟩
      obtain ⟨-, k, hk, q⟩ := q t ht
      obtain rfl := (hC t hl).2.1 (hk.trans hi.symm)
      exact lt_irrefl _ q
  obtain ⟨l, hw, hnd, ht⟩ := main
  obtain ⟨q1, x, k, q2, q3, q4, -, q5⟩ := F.walk hC hw hk hl hi rfl
  exact ⟨l, hw, hnd, ht, fun x hx => ⟨(q1 x hx).1, (q1 x hx).2.imp fun k z => ⟨z.1, z.2.2⟩⟩, x, k, q2, q3, q4, q5⟩

/-! ### lines -/

/-- the line of the side from `a` to `b` is told by both, seen as by collapse.py -/
def SideView (A B : VView K) : Prop := A.kinetic = true ∧ B.kinetic = true ∧ ∃ l, A.ur = some l ∧ B.ul = some l

theorem sideView_of_points {P : Line2 K → Prop} (w : Waves P s) {a b : VId} (h : Points s a b) :
    SideView (viewOf s a) (viewOf s b) := by
  obtain ⟨ka, kb, ha, hb, hka, hkb, hr, -⟩ := h
  obtain ⟨-, ku, f, h1, h2, h3⟩ := w.rightRef ha hka hr
  rw [hkb] at h1
  injection h1 with h1
  subst h1
  have q1 := (w.own a ka ha hka).2 f h2
  have q2 := (w.own b kb hb hkb).1 f h3
  unfold viewOf
  rw [hka, hkb]
  refine ⟨rfl, rfl, s.line (s.wfLine f), ?_, ?_⟩
  · dsimp only; rw [q1]; rfl
  · dsimp only; rw [q2]; rfl

variable [IsStrictOrderedRing K] [HasSqrt K]

/-- a triangle counter-clockwise around `v`, in which `w` is put in the place of `v` -/
theorem follow_ccw {s1 : St K} {v w : VId} {x : TId} {k : Fin 3} (hk : (s.tri x).vertices k = v)
    (hinj : Function.Injective (s.tri x).vertices)
    (hv : (s1.tri x).vertices = (s.tri x).vertices)
    (hview : ∀ i, (s.tri x).vertices i ≠ v → viewOf s1 ((s.tri x).vertices i) = viewOf s ((s.tri x).vertices i))
    (hslow : ∀ i, (viewOf s ((s.tri x).vertices i)).infFast = false)
    (hold : ∀ i, (s.tri x).neighbours i = none →
      SideView (viewOf s ((s.tri x).vertices (i + 1))) (viewOf s ((s.tri x).vertices (i + 2))))
    (hnew : (viewOf s1 w).kinetic = true ∧ (viewOf s1 w).infFast = false ∧ (viewOf s1 w).ul = (viewOf s v).ul)
    (hstart : (s.tri x).neighbours (k + 2) ≠ none)
    (hn : ∀ i, (s1.tri x).neighbours i = none → (s.tri x).neighbours i = none ∨
      i = k + 2 ∧ SideView (viewOf s1 w) (viewOf s ((s.tri x).vertices (k + 1)))) :
    Followable (viewSub s1 v w x) := by
  have hsub : ∀ i, (viewSub s1 v w x).v i = if i = k then viewOf s1 w else viewOf s ((s.tri x).vertices i) := by
    intro i
    unfold viewSub substitute
    dsimp only
    rw [hv]
    by_cases hi : i = k
    · subst hi; rw [if_pos hk, if_pos rfl]
    · have : (s.tri x).vertices i ≠ v := fun q => hi (hinj (q.trans hk.symm))
      rw [if_neg this, if_neg hi, hview i this]
  refine ⟨fun i => ?_, fun i hi => ?_, fun i hi => ?_⟩
  · rw [hsub]
    split
    · exact hnew.2.1
    · exact hslow i
  · rw [hsub] at hi ⊢
    split at hi
    · rw [hnew.1] at hi; cases hi
    · rename_i h
      rw [if_neg h]
      unfold viewOf at hi ⊢
      split at hi
      · cases hi
      · rfl
  · have hi' : (s1.tri x).neighbours i = none := by
      unfold viewSub at hi
      exact Option.isNone_iff_eq_none.1 hi
    rw [hsub, hsub]
    show SideView _ _
    rcases hn i hi' with h | ⟨rfl, h⟩
    · have h1 : i + 1 ≠ k := by
        rintro rfl
        rw [fin3_add_1_2] at hstart
        exact hstart h
      rw [if_neg h1]
      have := hold i h
      split
      · rename_i h2
        rw [h2, hk] at this
        obtain ⟨q1, q2, l, q3, q4⟩ := this
        exact ⟨q1, hnew.1, l, q3, by rw [hnew.2.2]; exact q4⟩
      · exact this
    · rw [if_pos (fin3_add_2_1 k), fin3_add_2_2, if_neg (fin3_ne_1 k).symm]
      exact h

/-- a triangle clockwise around `v`, in which `w` is put in the place of `v` -/
theorem follow_cw {s1 : St K} {v w : VId} {x : TId} {k : Fin 3} (hk : (s.tri x).vertices k = v)
    (hinj : Function.Injective (s.tri x).vertices)
    (hv : (s1.tri x).vertices = (s.tri x).vertices)
    (hview : ∀ i, (s.tri x).vertices i ≠ v → viewOf s1 ((s.tri x).vertices i) = viewOf s ((s.tri x).vertices i))
    (hslow : ∀ i, (viewOf s ((s.tri x).vertices i)).infFast = false)
    (hold : ∀ i, (s.tri x).neighbours i = none →
      SideView (viewOf s ((s.tri x).vertices (i + 1))) (viewOf s ((s.tri x).vertices (i + 2))))
    (hnew : (viewOf s1 w).kinetic = true ∧ (viewOf s1 w).infFast = false ∧ (viewOf s1 w).ur = (viewOf s v).ur)
    (hstart : (s.tri x).neighbours (k + 1) ≠ none)
    (hn : ∀ i, (s1.tri x).neighbours i = none → (s.tri x).neighbours i = none ∨
      i = k + 1 ∧ SideView (viewOf s ((s.tri x).vertices (k + 2))) (viewOf s1 w)) :
    Followable (viewSub s1 v w x) := by
  have hsub : ∀ i, (viewSub s1 v w x).v i = if i = k then viewOf s1 w else viewOf s ((s.tri x).vertices i) := by
    intro i
    unfold viewSub substitute
    dsimp only
    rw [hv]
    by_cases hi : i = k
    · subst hi; rw [if_pos hk, if_pos rfl]
    · have : (s.tri x).vertices i ≠ v := fun q => hi (hinj (q.trans hk.symm))
      rw [if_neg this, if_neg hi, hview i this]
  refine ⟨fun i => ?_, fun i hi => ?_, fun i hi => ?_⟩
  · rw [hsub]
    split
    · exact hnew.2.1
    · exact hslow i
  · rw [hsub] at hi ⊢
    split at hi
    · rw [hnew.1] at hi; cases hi
    · rename_i h
      rw [if_neg h]
      unfold viewOf at hi ⊢
      split at hi
      · cases hi
      · rfl
  · have hi' : (s1.tri x).neighbours i = none := by
      unfold viewSub at hi
      exact Option.isNone_iff_eq_none.1 hi
    rw [hsub, hsub]
    show SideView _ _
    rcases hn i hi' with h | ⟨rfl, h⟩
    · have h1 : i + 2 ≠ k := by
        rintro rfl
        rw [fin3_add_2_1] at hstart
        exact hstart h
      rw [if_neg h1]
      have := hold i h
      split
      · rename_i h2
        rw [h2, hk] at this
        obtain ⟨q1, q2, l, q3, q4⟩ := this
        exact ⟨hnew.1, q2, l, by rw [hnew.2.2]; exact q3, q4⟩
      · exact this
    · rw [if_pos (fin3_add_1_2 k), fin3_add_1_1, if_neg (fin3_ne_2 k).symm]
      exact h

end Grassfire
