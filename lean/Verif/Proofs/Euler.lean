/-
Lemmas for C93: the numbers of triangles, inner sides and vertices of a triangulation.
-/
import Mathlib.Combinatorics.SimpleGraph.Acyclic
import Mathlib.Combinatorics.SimpleGraph.DegreeSum
import Verif.Proofs.InwardEnd
import Verif.Proofs.Cubic
import Verif.Proofs.ForestRun
import Verif.Spec.Simple

set_option linter.unusedSectionVars false

namespace Grassfire

open Spec

variable {K : Type} [Field K] [LinearOrder K] [IsStrictOrderedRing K] [HasSqrt K] [SqrtUnit K] [HasTrig K] {s : St K}

/-- the triangles of the skeleton that have not vanished -/
def liveSet (s : St K) : Finset TId := s.skTriangles.toFinset.filter fun t => (s.tri t).stopsAt.isNone = true

/-- their sides with a neighbour -/
def innerSet (s : St K) : Finset (TId × Fin 3) :=
  (liveSet s ×ˢ (Finset.univ : Finset (Fin 3))).filter fun a => ((s.tri a.1).neighbours a.2).isSome = true

/-- and those without -/
def frontSet (s : St K) : Finset (TId × Fin 3) :=
  (liveSet s ×ˢ (Finset.univ : Finset (Fin 3))).filter fun a => ¬ ((s.tri a.1).neighbours a.2).isSome = true

theorem mem_liveSet {t : TId} : t ∈ liveSet s ↔ t ∈ s.skTriangles ∧ (s.tri t).stopsAt = none := by
  simp [liveSet]

theorem mem_innerSet {a : TId × Fin 3} : a ∈ innerSet s ↔ a.1 ∈ liveSet s ∧ ∃ n, (s.tri a.1).neighbours a.2 = some n := by
  simp [innerSet, Option.isSome_iff_exists]

theorem mem_frontSet {a : TId × Fin 3} : a ∈ frontSet s ↔ a.1 ∈ liveSet s ∧ (s.tri a.1).neighbours a.2 = none := by
  simp [frontSet]

theorem innerSides_eq : innerSides s = (innerSet s).card := by
  unfold innerSides
  congr 1
  ext a
  rw [mem_innerSet, mem_liveSet]
  simp [Option.isSome_iff_exists, and_assoc]

theorem liveSet_card (h : s.skTriangles.Nodup) : (liveSet s).card = liveTriangles s := by
  unfold liveSet liveTriangles
  rw [← List.toFinset_filter, List.toFinset_card_of_nodup (h.filter _), List.countP_eq_length_filter]

theorem sides_split : (innerSet s).card + (frontSet s).card = 3 * (liveSet s).card := by
  unfold innerSet frontSet
  rw [Finset.card_filter_add_card_filter_not, Finset.card_product, Finset.card_univ, Fintype.card_fin, mul_comm]

/-- At the start every vertex is where a side without neighbour begins. -/
theorem front_of (hM : Mesh s) (hL : Linked s) (hP : Populated s)
    (hr : ∀ t ∈ s.skTriangles, Live s t → ∀ i, Running s ((s.tri t).vertices i))
    (hv : ∀ v ∈ s.skVertices, Running s v) {v : VId} (hm : v ∈ s.skVertices) :
    ∃ a ∈ frontSet s, (s.tri a.1).vertices (a.2 + 1) = v := by
  obtain ⟨t, ht, hl, i, hi⟩ := hP.held v hm (hv v hm)
  obtain ⟨l, hw⟩ := hL.fans t hl i (hr t ht hl i).kinetic
  rw [hi] at hw
  obtain ⟨u, hu, k, hk, hn⟩ := fanWalk_last hw (by cases hw; exact List.cons_ne_nil _ _)
  have hT := FanWalk.turns hM.consistent hw t rfl hl
  have har := hw.around (P' := Live s) (s' := s) (kv := v) (fun _ _ _ q => q) (fun x hx => (hT x hx).1)
    (fun _ _ _ _ q _ => q) t rfl u hu
  have hmem : u ∈ s.skTriangles := by
    have : ∀ x y, Relation.ReflTransGen (Beside s v) x y → x ∈ s.skTriangles → y ∈ s.skTriangles := by
      intro x y h hx
      induction h with
      | refl => exact hx
      | tail _ h ih =>
        obtain ⟨-, i, j, -, -, h⟩ := h
        exact hP.closed _ i _ ih h
    exact this t u har ht
  refine ⟨(u, k + 2), mem_frontSet.2 ⟨mem_liveSet.2 ⟨hmem, (hT u hu).1.2⟩, hn⟩, ?_⟩
  show (s.tri u).vertices (k + 2 + 1) = v
  rw [fin3_add_2_1]
  exact hk

/-- At the start as many sides are without neighbour as there are vertices. -/
theorem front_card (hM : Mesh s) (hL : Linked s) (hP : Populated s) (hlt : ∀ t ∈ s.skTriangles, t < s.nT)
    (hr : ∀ t ∈ s.skTriangles, Live s t → ∀ i, Running s ((s.tri t).vertices i))
    (hv : ∀ v ∈ s.skVertices, Running s v) : (frontSet s).card = s.skVertices.length := by
  classical
  rw [← List.toFinset_card_of_nodup hP.once]
  refine Finset.card_bij (fun a _ => (s.tri a.1).vertices (a.2 + 1)) (fun a ha => ?_) (fun a ha b hb e => ?_)
    (fun v hm => ?_)
  · obtain ⟨h1, h2⟩ := mem_frontSet.1 ha
    obtain ⟨h1, h3⟩ := mem_liveSet.1 h1
    exact List.mem_toFinset.2 (hP.corners _ h1 ⟨hlt _ h1, h3⟩ _ (hr _ h1 ⟨hlt _ h1, h3⟩ _).kinetic)
  · obtain ⟨h1, h2⟩ := mem_frontSet.1 ha
    obtain ⟨h1, h3⟩ := mem_liveSet.1 h1
    obtain ⟨g1, g2⟩ := mem_frontSet.1 hb
    obtain ⟨g1, g3⟩ := mem_liveSet.1 g1
    obtain ⟨u, j, b', -, -, uq⟩ := hL.ahead a.1 ⟨hlt _ h1, h3⟩ (a.2 + 1) (hr _ h1 ⟨hlt _ h1, h3⟩ _)
    obtain ⟨p1, p2⟩ := uq a.1 a.2 _ ⟨⟨hlt _ h1, h3⟩, h2, rfl, rfl⟩
    obtain ⟨q1, q2⟩ := uq b.1 b.2 _ ⟨⟨hlt _ g1, g3⟩, g2, e.symm, rfl⟩
    exact Prod.ext (p1.trans q1.symm) (p2.trans q2.symm)
  · obtain ⟨a, ha, q⟩ := front_of hM hL hP hr hv (List.mem_toFinset.1 hm)
    exact ⟨a, ha, q⟩

/-- the side on the other side -/
theorem inner_opposite (hM : Mesh s) (hP : Populated s) (hlt : ∀ t ∈ s.skTriangles, t < s.nT) {a : TId × Fin 3}
    (ha : a ∈ innerSet s) : ∃ b ∈ innerSet s, SidesMeet s a b := by
  obtain ⟨h1, n, hn⟩ := mem_innerSet.1 ha
  obtain ⟨h1, h2⟩ := mem_liveSet.1 h1
  obtain ⟨l, j, j1, j2, j3⟩ := facing hM.consistent ⟨hlt _ h1, h2⟩ hn
  exact ⟨(n, j), mem_innerSet.2 ⟨mem_liveSet.2 ⟨hP.closed _ _ _ h1 hn, l.2⟩, _, j1⟩, hn, j1, j2, j3⟩

/-- In a forest there are few inner sides. -/
theorem forest_card (hM : Mesh s) (hP : Populated s) (hlt : ∀ t ∈ s.skTriangles, t < s.nT)
    (hF : Forest (· ∈ s.skTriangles) s) (hne : (liveSet s).Nonempty) : (innerSet s).card + 2 ≤ 2 * (liveSet s).card := by
  classical
  obtain ⟨rank, hrank⟩ := hF
  obtain ⟨t0, h0, hmin⟩ := Finset.exists_min_image _ rank hne
  have ex : ∀ a : {a // a ∈ innerSet s}, ∃ b : TId × Fin 3, b ∈ innerSet s ∧ SidesMeet s a.1 b := fun a => by
    obtain ⟨b, q⟩ := inner_opposite hM hP hlt a.2
    exact ⟨b, q⟩
  choose f hf hfm using ex
  let σ : TId × Fin 3 → TId × Fin 3 := fun a => if h : a ∈ innerSet s then f ⟨a, h⟩ else a
  have σm : ∀ a ∈ innerSet s, σ a ∈ innerSet s ∧ SidesMeet s a (σ a) := fun a ha => by
    have : σ a = f ⟨a, ha⟩ := dif_pos ha
    rw [this]
    exact ⟨hf _, hfm ⟨a, ha⟩⟩
  have live : ∀ a ∈ innerSet s, Live s a.1 := fun a ha => by
    obtain ⟨h1, -⟩ := mem_innerSet.1 ha
    obtain ⟨h1, h2⟩ := mem_liveSet.1 h1
    exact ⟨hlt _ h1, h2⟩
  let P := (innerSet s).filter fun a => a.1 ≠ t0 ∧ rank (σ a).1 ≤ rank a.1
  have hPc : P.card ≤ (liveSet s).card - 1 := by
    rw [← Finset.card_erase_of_mem h0]
    refine Finset.card_le_card_of_injOn Prod.fst (fun a ha => ?_) fun a ha b hb e => ?_
    · obtain ⟨h1, h2, -⟩ := Finset.mem_filter.1 (Finset.mem_coe.1 ha)
      exact Finset.mem_coe.2 (Finset.mem_erase.2 ⟨h2, (mem_innerSet.1 h1).1⟩)
    · obtain ⟨h1, -, h2⟩ := Finset.mem_filter.1 (Finset.mem_coe.1 ha)
      obtain ⟨g1, -, g2⟩ := Finset.mem_filter.1 (Finset.mem_coe.1 hb)
      refine Prod.ext e (hrank a.1 (mem_liveSet.1 (mem_innerSet.1 h1).1).1 (live a h1) a.2 b.2 _ _ (σm a h1).2.there
        (by rw [e]; exact (σm b g1).2.there) h2 (by rw [e]; exact g2))
  have hcover : innerSet s ⊆ P ∪ (innerSet s).filter fun a => σ a ∈ P := by
    intro a ha
    obtain ⟨hb, hm⟩ := σm a ha
    obtain ⟨-, hne', -⟩ := neighbour_other hM (live a ha) hm.there
    have hback : σ (σ a) = a := (SidesMeet.unique hM hm.symm (σm _ hb).2 (live a ha)).symm
    have ra := hmin a.1 (mem_innerSet.1 ha).1
    have rb := hmin (σ a).1 (mem_innerSet.1 hb).1
    have cov : a ∈ P ∨ σ a ∈ P := by
      by_cases q : a.1 = t0
      · refine .inr (Finset.mem_filter.2 ⟨hb, fun z => hne' (z.trans q.symm), ?_⟩)
        rw [hback, q]; exact rb
      · by_cases z : (σ a).1 = t0
        · exact .inl (Finset.mem_filter.2 ⟨ha, q, by rw [z]; exact ra⟩)
        · rcases le_total (rank (σ a).1) (rank a.1) with r | r
          · exact .inl (Finset.mem_filter.2 ⟨ha, q, r⟩)
          · exact .inr (Finset.mem_filter.2 ⟨hb, z, by rw [hback]; exact r⟩)
    rcases cov with q | q
    · exact Finset.mem_union_left _ q
    · exact Finset.mem_union_right _ (Finset.mem_filter.2 ⟨ha, q⟩)
  have h2 : ((innerSet s).filter fun a => σ a ∈ P).card ≤ P.card := by
    refine Finset.card_le_card_of_injOn σ (fun a ha => ?_) fun a ha b hb e => ?_
    · exact Finset.mem_coe.2 (Finset.mem_filter.1 (Finset.mem_coe.1 ha)).2
    · obtain ⟨h1, -⟩ := Finset.mem_filter.1 (Finset.mem_coe.1 ha)
      obtain ⟨g1, -⟩ := Finset.mem_filter.1 (Finset.mem_coe.1 hb)
      have p := (σm a h1).2.symm
      have q := (σm b g1).2.symm
      rw [← e] at q
      exact SidesMeet.unique hM p q (live a h1)
  have h3 := Finset.card_le_card hcover
  have h4 := Finset.card_union_le P ((innerSet s).filter fun a => σ a ∈ P)
  have h5 := Finset.card_pos.2 hne
  omega

/-- In one piece there are many. -/
theorem piece_card (hM : Mesh s) (hP : Populated s) (hlt : ∀ t ∈ s.skTriangles, t < s.nT)
    (hone : OnePiece s) (hall : ∀ t ∈ s.skTriangles, Live s t) (hne : s.skTriangles ≠ []) :
    2 * (liveSet s).card ≤ (innerSet s).card + 2 := by
  classical
  let G : SimpleGraph {t // t ∈ liveSet s} :=
    { Adj := fun t u => ∃ i, (s.tri t.1).neighbours i = some u.1
      symm := ⟨fun t u h => by
        obtain ⟨i, h⟩ := h
        obtain ⟨h1, h2⟩ := mem_liveSet.1 t.2
        obtain ⟨-, j, j1, -⟩ := facing hM.consistent ⟨hlt _ h1, h2⟩ h
        exact ⟨j, j1⟩⟩
      loopless := ⟨fun t h => by
        obtain ⟨i, h⟩ := h
        obtain ⟨h1, h2⟩ := mem_liveSet.1 t.2
        exact (neighbour_other hM ⟨hlt _ h1, h2⟩ h).2.1 rfl⟩ }
  have hmem : ∀ t ∈ s.skTriangles, t ∈ liveSet s := fun t ht => mem_liveSet.2 ⟨ht, (hall t ht).2⟩
  have reach : ∀ t u, Relation.EqvGen (fun t u => t ∈ s.skTriangles ∧ Live s t ∧ ∃ i, (s.tri t).neighbours i = some u) t u →
      (t ∈ s.skTriangles ↔ u ∈ s.skTriangles) ∧
      ∀ (h1 : t ∈ liveSet s) (h2 : u ∈ liveSet s), G.Reachable ⟨t, h1⟩ ⟨u, h2⟩ := by
    intro t u h
    induction h with
    | rel t u h =>
      obtain ⟨h1, h2, i, h3⟩ := h
      refine ⟨⟨fun _ => hP.closed t i u h1 h3, fun _ => h1⟩, fun _ _ => ?_⟩
      exact SimpleGraph.Adj.reachable (G := G) ⟨i, h3⟩
    | refl t => exact ⟨Iff.rfl, fun _ _ => .refl _⟩
    | symm t u _ ih => exact ⟨ih.1.symm, fun a b => (ih.2 b a).symm⟩
    | trans t u x _ _ ih1 ih2 =>
      refine ⟨ih1.1.trans ih2.1, fun a b => ?_⟩
      have hu := hmem u (ih1.1.1 (mem_liveSet.1 a).1)
      exact (ih1.2 a hu).trans (ih2.2 hu b)
  have hconn : G.Connected := by
    obtain ⟨t, ht⟩ := List.exists_mem_of_ne_nil _ hne
    have : Nonempty {t // t ∈ liveSet s} := ⟨⟨t, hmem t ht⟩⟩
    refine ⟨fun x y => ?_⟩
    exact (reach x.1 y.1 (hone _ (mem_liveSet.1 x.2).1 _ (mem_liveSet.1 y.2).1)).2 x.2 y.2
  have h1 := hconn.card_vert_le_card_edgeSet_add_one
  have h2 := G.dart_card_eq_twice_card_edges
  rw [Nat.card_eq_fintype_card, Nat.card_eq_fintype_card, ← SimpleGraph.edgeFinset_card, Fintype.card_coe] at h1
  have hex : ∀ d : G.Dart, ∃ i, (s.tri d.fst.1).neighbours i = some d.snd.1 := fun d => d.adj
  choose f hf using hex
  have h3 : Fintype.card G.Dart ≤ (innerSet s).card := by
    rw [← Finset.card_univ]
    refine Finset.card_le_card_of_injOn (fun d => (d.fst.1, f d)) (fun d _ => ?_) fun d _ e _ q => ?_
    · exact Finset.mem_coe.2 (mem_innerSet.2 ⟨d.fst.2, _, hf d⟩)
    · obtain ⟨q1, q2⟩ := Prod.mk.inj q
      have p := hf d
      rw [q1, q2, hf e] at p
      refine SimpleGraph.Dart.ext _ _ (Prod.ext (Subtype.ext q1) (Subtype.ext (Option.some.inj p).symm))
  omega

end Grassfire
