/-
The area left is bounded by the wavefront edges, so it does not outlast the wavefronts (lemmas for C91).
-/
import Mathlib.Algebra.BigOperators.Group.Finset.Basic
import Mathlib.Algebra.BigOperators.Ring.Finset
import Mathlib.Algebra.Order.BigOperators.Group.Finset
import Mathlib.Data.Fintype.Prod
import Verif.Proofs.InwardRun

set_option linter.unusedSectionVars false

namespace Grassfire

open Spec

variable {K : Type} [Field K] [LinearOrder K] [IsStrictOrderedRing K]

variable {s s' : St K}

/-- two sides that face each other -/
structure SidesMeet (s : St K) (a b : TId × Fin 3) : Prop where
  there : (s.tri a.1).neighbours a.2 = some b.1
  back : (s.tri b.1).neighbours b.2 = some a.1
  first : (s.tri b.1).vertices (b.2 + 1) = (s.tri a.1).vertices (a.2 + 2)
  second : (s.tri b.1).vertices (b.2 + 2) = (s.tri a.1).vertices (a.2 + 1)

theorem SidesMeet.symm {a b : TId × Fin 3} (h : SidesMeet s a b) : SidesMeet s b a :=
  ⟨h.back, h.there, h.second.symm, h.first.symm⟩

theorem SidesMeet.unique (hM : Mesh s) {a b c : TId × Fin 3} (h : SidesMeet s a b) (h' : SidesMeet s a c) (hl : Live s b.1) :
    b = c := by
  have e1 : b.1 = c.1 := by have := h.there; rw [h'.there] at this; exact (Option.some.inj this).symm
  refine Prod.ext e1 ?_
  have e2 := h.first.trans h'.first.symm
  rw [← e1] at e2
  exact add_right_cancel (hM.distinct _ hl.1 e2)

theorem meeting_sum (hM : Mesh s) {F : Finset TId} (hF : ∀ t ∈ F, Live s t)
    (hC : ∀ t ∈ F, ∀ i n, (s.tri t).neighbours i = some n → n ∈ F) (f : VId → VId → K) (hf : ∀ v w, f v w + f w v = 0) :
    ∑ a ∈ (F ×ˢ (Finset.univ : Finset (Fin 3))).filter (fun a => (s.tri a.1).neighbours a.2 ≠ none),
      f ((s.tri a.1).vertices (a.2 + 1)) ((s.tri a.1).vertices (a.2 + 2)) = 0 := by
  have ex : ∀ a ∈ (F ×ˢ (Finset.univ : Finset (Fin 3))).filter (fun a => (s.tri a.1).neighbours a.2 ≠ none),
      ∃ b, SidesMeet s a b := by
    rintro ⟨t, i⟩ ha
    obtain ⟨h1, h2⟩ := Finset.mem_filter.1 ha
    have ht := (Finset.mem_product.1 h1).1
    obtain ⟨n, hn⟩ := Option.ne_none_iff_exists'.1 h2
    obtain ⟨-, j, j1, j2, j3⟩ := facing hM.consistent (hF _ ht) hn
    exact ⟨(n, j), hn, j1, j2, j3⟩
  have mem : ∀ a ∈ (F ×ˢ (Finset.univ : Finset (Fin 3))).filter (fun a => (s.tri a.1).neighbours a.2 ≠ none),
      ∀ b, SidesMeet s a b →
        b ∈ (F ×ˢ (Finset.univ : Finset (Fin 3))).filter (fun a => (s.tri a.1).neighbours a.2 ≠ none) := by
    intro a ha b hb
    obtain ⟨h1, -⟩ := Finset.mem_filter.1 ha
    have ht := (Finset.mem_product.1 h1).1
    exact Finset.mem_filter.2 ⟨Finset.mem_product.2 ⟨hC _ ht _ _ hb.there, Finset.mem_univ _⟩, by rw [hb.back]; nofun⟩
  refine Finset.sum_involution (fun a ha => (ex a ha).choose) ?_ ?_ ?_ ?_
  · intro a ha
    have h := (ex a ha).choose_spec
    rw [h.first, h.second]
    exact hf _ _
  · intro a ha _ he
    have h := (ex a ha).choose_spec
    rw [he] at h
    have hl := hF _ (Finset.mem_product.1 (Finset.mem_filter.1 ha).1).1
    have := add_left_cancel (hM.distinct _ hl.1 h.first)
    revert this
    decide
  · intro a ha
    exact mem a ha _ (ex a ha).choose_spec
  · intro a ha
    have h := (ex a ha).choose_spec
    have h' := (ex _ (mem a ha _ h)).choose_spec
    have hl := hF _ (Finset.mem_product.1 (Finset.mem_filter.1 ha).1).1
    exact (SidesMeet.unique hM h.symm h' hl).symm

/-- the area of triangles that are complete up to their wavefront sides, seen from a point -/
theorem area_sum (hM : Mesh s) {F : Finset TId} (hF : ∀ t ∈ F, Live s t)
    (hC : ∀ t ∈ F, ∀ i n, (s.tri t).neighbours i = some n → n ∈ F) (P : VId → K × K) (o : K × K) :
    ∑ t ∈ F, area2 (P ((s.tri t).vertices 0)) (P ((s.tri t).vertices 1)) (P ((s.tri t).vertices 2)) =
      ∑ a ∈ (F ×ˢ (Finset.univ : Finset (Fin 3))).filter (fun a => (s.tri a.1).neighbours a.2 = none),
        area2 o (P ((s.tri a.1).vertices (a.2 + 1))) (P ((s.tri a.1).vertices (a.2 + 2))) := by
  have h0 := meeting_sum hM hF hC (fun v w => area2 o (P v) (P w)) fun v w => by unfold area2; ring
  have h1 : ∑ a ∈ F ×ˢ (Finset.univ : Finset (Fin 3)),
      area2 o (P ((s.tri a.1).vertices (a.2 + 1))) (P ((s.tri a.1).vertices (a.2 + 2))) =
      ∑ t ∈ F, area2 (P ((s.tri t).vertices 0)) (P ((s.tri t).vertices 1)) (P ((s.tri t).vertices 2)) := by
    rw [Finset.sum_product]
    refine Finset.sum_congr rfl fun t _ => ?_
    rw [Fin.sum_univ_three]
    show area2 o (P ((s.tri t).vertices 1)) (P ((s.tri t).vertices 2)) +
      area2 o (P ((s.tri t).vertices 2)) (P ((s.tri t).vertices 0)) +
      area2 o (P ((s.tri t).vertices 0)) (P ((s.tri t).vertices 1)) = _
    unfold area2
    ring
  rw [← h1, ← Finset.sum_filter_add_sum_filter_not _ (fun a => (s.tri a.1).neighbours a.2 = none)]
  rw [h0, add_zero]

/-- the triangle between a point and a wavefront edge -/
theorem area_from {l : Line2 K} {p q o : K × K} {u : K} (h1 : AtDistance l u p) (h2 : AtDistance l u q)
    (hw : l.w.1 ^ 2 + l.w.2 ^ 2 = 1) : area2 o p q = ahead l p q * (l.w.1 * o.1 + l.w.2 * o.2 + l.b - u) := by
  unfold AtDistance at h1 h2
  unfold area2 ahead
  have hz : l.w.1 * (q.1 - p.1) + l.w.2 * (q.2 - p.2) = 0 := by linear_combination h2 - h1
  linear_combination (-((q.1 - p.1) * (o.2 - p.2) - (q.2 - p.2) * (o.1 - p.1))) * hw +
    (l.w.1 * (o.2 - p.2) - l.w.2 * (o.1 - p.1)) * hz - ((q.1 - p.1) * l.w.2 - (q.2 - p.2) * l.w.1) * h1

variable [HasSqrt K] [SqrtUnit K] [HasTrig K] {dt : Dt K} {depth : ℕ} {skel s0 : St K} {n : ℕ} {now : K}
  {trace : List (Event K × K)}

/-- as long as there are triangles, no point has been passed by all the wavefronts -/
theorem GeneralRun.unswept (h : GeneralRun dt depth skel s0 n now s trace) {u : K}
    (hF : Forward (· ∈ s0.skTriangles) s u)
    (hA : ∀ t ∈ s0.skTriangles, Live s t → 0 < areaAt (viewT s t) u) {t : TId} (ht : t ∈ s0.skTriangles) (hl : Live s t)
    (o : K × K) : ∃ x ∈ s0.skTriangles, Live s x ∧ ∃ i, (s.tri x).neighbours i = none ∧ ∃ l, Rides (viewT s x) i l ∧
      u < l.w.1 * o.1 + l.w.2 * o.2 + l.b := by
  classical
  obtain ⟨G, S⟩ := C90_sharp h
  obtain ⟨R, -, -⟩ := G.ready
  obtain ⟨-, -, C⟩ := S.steady
  have T := (C84_steady S).1.standing
  by_contra hno
  push Not at hno
  let F := s0.skTriangles.toFinset.filter (Live s)
  have mF : ∀ x, x ∈ F ↔ x ∈ s0.skTriangles ∧ Live s x := fun x => by
    show x ∈ s0.skTriangles.toFinset.filter (Live s) ↔ _
    rw [Finset.mem_filter, List.mem_toFinset]
  let P : VId → K × K := fun v => match s.vert v with
    | .kin k => pointAt k u
    | .inf _ => (0, 0)
  have hP : ∀ x, Live s x → x ∈ s0.skTriangles → ∀ i, P ((s.tri x).vertices i) = cornerAt (viewT s x) i u := by
    intro x hx hm i
    obtain ⟨-, k, hk⟩ := C.kinetic x hm hx i
    rw [corner_place hk]
    show (match s.vert ((s.tri x).vertices i) with | .kin k => pointAt k u | .inf _ => (0, 0)) = _
    rw [hk]
  have hsum := area_sum R.mesh (F := F) (fun x hx => ((mF x).1 hx).2)
    (fun x hx i y hy => (mF y).2 ⟨T.closed x i y ((mF x).1 hx).1 hy,
      (facing R.mesh.consistent ((mF x).1 hx).2 hy).1⟩) P o
  have hpos : 0 < ∑ x ∈ F, area2 (P ((s.tri x).vertices 0)) (P ((s.tri x).vertices 1)) (P ((s.tri x).vertices 2)) := by
    refine Finset.sum_pos (fun x hx => ?_) ⟨t, (mF t).2 ⟨ht, hl⟩⟩
    obtain ⟨h1, h2⟩ := (mF x).1 hx
    rw [hP x h2 h1, hP x h2 h1, hP x h2 h1]
    exact hA x h1 h2
  refine absurd hpos (not_lt.2 ?_)
  rw [hsum]
  refine Finset.sum_nonpos fun a ha => ?_
  obtain ⟨h1, hn⟩ := Finset.mem_filter.1 ha
  obtain ⟨hx, hlx⟩ := (mF _).1 (Finset.mem_product.1 h1).1
  obtain ⟨l, hr⟩ := ready_rides R h.allTrack hlx hn
  have hle := hno a.1 hx hlx a.2 hn l hr
  obtain ⟨-, k1, hk1⟩ := C.kinetic a.1 hx hlx (a.2 + 1)
  obtain ⟨-, k2, hk2⟩ := C.kinetic a.1 hx hlx (a.2 + 2)
  have hf := hF a.1 hx hlx a.2 hn l (pointAt k1 u) (pointAt k2 u) (rides_rightLine hr)
    (by unfold placeAt; rw [hk1]) (by unfold placeAt; rw [hk2])
  obtain ⟨hw, -, hd⟩ := hr
  rw [hP _ hlx hx, hP _ hlx hx, area_from (hd u).1 (hd u).2 hw, corner_place hk1, corner_place hk2]
  exact mul_nonpos_of_nonneg_of_nonpos hf (by linarith)

/-- the lines of the wavefronts, finitely many -/
theorem front_lines (s0 s : St K) (o : K × K) :
    ∃ B, ∀ x ∈ s0.skTriangles, ∀ i l, Rides (viewT s x) i l → l.w.1 * o.1 + l.w.2 * o.2 + l.b ≤ B := by
  classical
  let f : TId × Fin 3 → K := fun a => if h : ∃ l, Rides (viewT s a.1) a.2 l then
    h.choose.w.1 * o.1 + h.choose.w.2 * o.2 + h.choose.b else 0
  obtain ⟨B, hB⟩ := ((s0.skTriangles.toFinset ×ˢ (Finset.univ : Finset (Fin 3))).image f).exists_le
  refine ⟨B, fun x hx i l hr => ?_⟩
  have := hB (f (x, i)) (Finset.mem_image_of_mem f (Finset.mem_product.2 ⟨List.mem_toFinset.2 hx, Finset.mem_univ _⟩))
  have ex : ∃ l, Rides (viewT s x) i l := ⟨l, hr⟩
  have e : f (x, i) = l.w.1 * o.1 + l.w.2 * o.2 + l.b := by
    show (if h : ∃ l, Rides (viewT s x) i l then
      h.choose.w.1 * o.1 + h.choose.w.2 * o.2 + h.choose.b else 0) = _
    rw [dif_pos ex, ← rightLine_unique (rides_rightLine hr) (rides_rightLine ex.choose_spec)]
  rwa [e] at this

/-- the wavefronts are lines of edges of the input -/
theorem GeneralRun.input (h : GeneralRun dt depth skel s0 n now s trace) {x : TId} (hl : Live s x) {i : Fin 3}
    {l : Line2 K} (hr : Rides (viewT s x) i l) : InputLine dt l := by
  obtain ⟨pyid, tr, -, hs0, hpre⟩ := id h.start
  obtain ⟨ts, vs, nbr, unwanted, sorted, hd⟩ := initSkeleton_ok hs0
  have w0 : Waves (InputLine dt) s0 := by rw [hpre]; exact (hd.waves h.mesh.toDtOk h.lengths).prepare true tr
  have w := execution_waves w0 h.run
  obtain ⟨G, -⟩ := C90_sharp h
  obtain ⟨R, -, -⟩ := G.ready
  obtain ⟨k, a, hk, ha, rfl⟩ := rides_rightLine hr
  exact w.linesOf _ k (R.mesh.vertices _ hl.1 _) hk _ (.inr ha)

/-- no event comes too late -/
theorem GeneralRun.bounded (h : GeneralRun dt depth skel s0 n now s trace) {now' : K} (hlt : now < now')
    (hi : s.immediate = []) (hmin : ∀ f ∈ s.queue, now' ≤ f.time) {t : TId} (ht : t ∈ s0.skTriangles) (hl : Live s t)
    (o : K × K) : ∃ l, InputLine dt l ∧ now' ≤ l.w.1 * o.1 + l.w.2 * o.2 + l.b := by
  classical
  by_contra hno
  push Not at hno
  let f : TId × Fin 3 → K := fun a => if h : Live s a.1 ∧ ∃ l, Rides (viewT s a.1) a.2 l then
    h.2.choose.w.1 * o.1 + h.2.choose.w.2 * o.2 + h.2.choose.b else now
  let D := insert now ((s0.skTriangles.toFinset ×ˢ (Finset.univ : Finset (Fin 3))).image f)
  have hD : ∀ d ∈ D, d < now' := by
    intro d hd
    rcases Finset.mem_insert.1 hd with rfl | hd
    · exact hlt
    obtain ⟨a, -, rfl⟩ := Finset.mem_image.1 hd
    show (if h : Live s a.1 ∧ ∃ l, Rides (viewT s a.1) a.2 l then
      h.2.choose.w.1 * o.1 + h.2.choose.w.2 * o.2 + h.2.choose.b else now) < now'
    split
    · next q => exact hno _ (h.input q.1 q.2.choose_spec)
    · exact hlt
  have hne : D.Nonempty := ⟨now, Finset.mem_insert_self _ _⟩
  have hmax := hD _ (D.max'_mem hne)
  have hnow : now ≤ D.max' hne := D.le_max' _ (Finset.mem_insert_self _ _)
  have F := h.forward_between (general_forward h) hi hmin (D.max' hne) hnow hmax.le
  obtain ⟨x, hx, hlx, i, hn, l, hr, hb⟩ := h.unswept F
    (fun y hy hly => h.lasting hi hmin hy hly _ hnow hmax) ht hl o
  refine absurd hb (not_lt.2 (D.le_max' _ (Finset.mem_insert_of_mem (Finset.mem_image.2 ⟨(x, i),
    Finset.mem_product.2 ⟨List.mem_toFinset.2 hx, Finset.mem_univ _⟩, ?_⟩))))
  have ex : Live s x ∧ ∃ l, Rides (viewT s x) i l := ⟨hlx, l, hr⟩
  show (if h : Live s x ∧ ∃ l, Rides (viewT s x) i l then
    h.2.choose.w.1 * o.1 + h.2.choose.w.2 * o.2 + h.2.choose.b else now) = _
  rw [dif_pos ex, ← rightLine_unique (rides_rightLine hr) (rides_rightLine ex.2.choose_spec)]

/-- when no event is left, no triangle is -/
theorem GeneralRun.finished (h : GeneralRun dt depth skel s0 n now s trace) (hi : s.immediate = []) (hq : s.queue = [])
    {t : TId} (ht : t ∈ s0.skTriangles) (hl : Live s t) : False := by
  obtain ⟨B, hB⟩ := front_lines s0 s (0, 0)
  have hmin : ∀ f ∈ s.queue, max now B + 1 ≤ f.time := by rw [hq]; nofun
  have hu : now ≤ max now B := le_max_left _ _
  have hu' : max now B < max now B + 1 := lt_add_one _
  obtain ⟨x, hx, hlx, i, hn, l, hr, hb⟩ := h.unswept
    (h.forward_between (general_forward h) hi hmin _ hu hu'.le) (fun y hy hly => h.lasting hi hmin hy hly _ hu hu') ht hl
    (0, 0)
  exact absurd (hb.trans_le ((hB x hx i l hr).trans (le_max_right now B))) (lt_irrefl _)

end Grassfire
