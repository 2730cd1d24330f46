/-
C93: the numbers of triangles, arcs and nodes of a polygon; the skeleton of a simple polygon is a tree.
-/
import Verif.Proofs.Euler
import Verif.Props.Notch
import Verif.Props.Tree

set_option linter.unusedSectionVars false

namespace Grassfire

open Spec

variable {K : Type} [Field K] [LinearOrder K] [IsStrictOrderedRing K] [HasSqrt K] [SqrtUnit K] [HasTrig K]

section
variable {dt : Dt K} {pyid : TId → ℕ} {skel : St K} {tr : Option (Transform K)}

/-- what is used of the skeleton at the start -/
structure Fresh0 (dt : Dt K) (skel s : St K) : Prop where
  mesh : Mesh s
  linked : Linked s
  populated : Populated s
  tri : s.tri = skel.tri
  vert : s.vert = skel.vert
  live : ∀ t ∈ s.skTriangles, Live s t
  internal : ∀ t, t ∈ s.skTriangles ↔ t < dt.nT ∧ dt.internal t = true
  corners : ∀ t ∈ s.skTriangles, ∀ i, Running s ((s.tri t).vertices i)
  vertices : ∀ v ∈ s.skVertices, Running s v
  sides : ∀ t ∈ s.skTriangles, ∀ i, ((s.tri t).neighbours i = none ↔ dt.constrained t i = true) ∧
    (∀ n, (s.tri t).neighbours i = some n → dt.neighbour t i = some n) ∧
    ∃ v, dt.corner t i = some v ∧ beginOf s ((s.tri t).vertices i) = some v

theorem fresh0 (hid : Function.Injective pyid) (hm : DtMesh dt) (hr : DtRegions dt) (hi : DtInside dt)
    (h : initSkeleton dt pyid = .ok skel) : Fresh0 dt skel (prepare true tr skel) := by
  have hP := C88_init_skeleton dt pyid (fun _ _ _ _ e => hid e) hm hr skel h true tr
  have hI := (C52_initial dt pyid (fun _ _ _ _ e => hid e) skel h).1.prepare true tr
  have hlive := (C70_mesh dt pyid hm skel h).2
  have hcon := C70_constrained dt pyid hm skel h
  obtain ⟨ts, vs, nbr, unwanted, sorted, hd⟩ := initSkeleton_ok h
  obtain ⟨hc, hmem⟩ := C72_internal dt pyid hm hr skel h true tr
  have htri : (prepare true tr skel).tri = skel.tri := by unfold prepare; cases tr <;> rfl
  have hvert : (prepare true tr skel).vert = skel.vert := by unfold prepare; cases tr <;> rfl
  have hnT : (prepare true tr skel).nT = skel.nT := by unfold prepare; cases tr <;> rfl
  have hnV : (prepare true tr skel).nV = skel.nV := by unfold prepare; cases tr <;> rfl
  have hm' : Mesh (prepare true tr skel) := by
    refine mesh_congr ?_ ?_ ?_ (C70_mesh dt pyid hm skel h).1 <;> unfold prepare <;> cases tr <;> rfl
  have hl' : Linked (prepare true tr skel) := by
    refine linked_congr ?_ ?_ ?_ ?_ (C70_linked dt pyid hm skel h) <;> unfold prepare <;> cases tr <;> rfl
  have wanted : ∀ t < dt.nT, dt.internal t = true → t ∉ unwanted := by
    intro t ht hin hu
    have h2 := (hd.mem_unwanted.1 hu).2
    have : 0 < sides.countP (fun i => KRef.isInf (kref dt vs t i)) := by omega
    obtain ⟨i, -, hj⟩ := List.countP_pos_iff.1 this
    obtain ⟨v, hv, -⟩ := hm.corners t ht i
    rw [hd.isInf_iff hm ht hv, hi t ht hin i v hv] at hj
    cases hj
  have L : ∀ t ∈ (prepare true tr skel).skTriangles, Live (prepare true tr skel) t := fun t ht => by
    have := ((hmem rfl t).1 ht).1
    unfold Live at this ⊢
    rw [hnT, htri]
    exact this
  refine ⟨hm', hl', hP, htri, hvert, L, fun t => ?_, fun t ht i => ?_, fun v hv => ?_, fun t ht i => ?_⟩
  · rw [hmem rfl t, hd.live]
    exact ⟨fun q => ⟨q.1.1, q.2⟩, fun q => ⟨⟨q.1, wanted t q.1 q.2⟩, q.2⟩⟩
  · obtain ⟨hl, hin⟩ := (hmem rfl t).1 ht
    obtain ⟨hlt, hu⟩ := hd.live.1 hl
    obtain ⟨v, hv, -⟩ := hm.corners t hlt i
    obtain ⟨u, x, hx, -, -, -, hk⟩ := hd.finite_corner hm hlt hv (hi t hlt hin i v hv)
    have hv : ((prepare true tr skel).tri t).vertices i = u := by
      rw [htri, hd.tri_wanted hu]; dsimp only; rw [hk]; rfl
    have hrun := hd.all_running (hd.kinetic.2 (List.getElem?_eq_some_iff.1 hx).1)
    rw [hv]
    unfold Running at hrun ⊢
    rw [hnV, hvert]
    exact hrun
  · obtain ⟨k, hk⟩ := hI.kinetic v hv
    have hlt := hI.refs.skVertices v hv
    exact ⟨hlt, k, hk, (hI.lives v k hlt hk).2.2.1⟩
  · obtain ⟨hl, hin⟩ := (hmem rfl t).1 ht
    obtain ⟨hlt, hu⟩ := hd.live.1 hl
    obtain ⟨c1, v, c2, c3, -⟩ := hcon t ((hlive t).1 hl) i
    rw [htri]
    refine ⟨c1, fun n hn => ?_, v, c2, ?_⟩
    · rw [hd.tri_wanted hu] at hn
      exact (hd.inside_neighbour hm hi hlt hu hin hn).1
    · obtain ⟨kv, q1, -, q2⟩ := c3 (hi t hlt hin i v c2)
      unfold beginOf
      rw [hvert, q1]
      exact q2

theorem Fresh0.lt {s : St K} (h : Fresh0 dt skel s) : ∀ t ∈ s.skTriangles, t < s.nT := fun t ht => (h.live t ht).1

theorem Fresh0.liveSet {s : St K} (h : Fresh0 dt skel s) : (liveSet s).card = s.skTriangles.length := by
  rw [liveSet_card h.populated.different]
  unfold liveTriangles
  rw [List.countP_eq_length]
  exact fun t ht => Option.isNone_iff_eq_none.2 (h.live t ht).2

/-- the sides without neighbour are those that are constrained -/
theorem Fresh0.front {s : St K} (h : Fresh0 dt skel s) : (frontSet s).card = dtCorners dt := by
  unfold dtCorners
  congr 1
  ext a
  rw [mem_frontSet, mem_liveSet, Finset.mem_filter, Finset.mem_product, Finset.mem_range]
  constructor
  · rintro ⟨⟨h1, h2⟩, h3⟩
    exact ⟨⟨((h.internal _).1 h1).1, Finset.mem_univ _⟩, ((h.internal _).1 h1).2, (h.sides _ h1 _).1.1 h3⟩
  · rintro ⟨⟨h1, -⟩, h2, h3⟩
    have hm := (h.internal _).2 ⟨h1, h2⟩
    exact ⟨⟨hm, (h.live _ hm).2⟩, (h.sides _ hm _).1.2 h3⟩

/-- in one piece on the triangulation is in one piece on the skeleton -/
theorem Fresh0.onePiece {s : St K} (h : Fresh0 dt skel s) (hone : DtOnePiece dt) : OnePiece s := by
  have step : ∀ t ∈ s.skTriangles, ∀ i u, dt.neighbour t i = some u → dt.constrained t i = false →
      (s.tri t).neighbours i = some u := by
    intro t ht i u hn hc
    cases q : (s.tri t).neighbours i with
    | none => rw [((h.sides t ht i).1.1 q)] at hc; cases hc
    | some n => rw [(h.sides t ht i).2.1 n q] at hn; exact hn
  have key : ∀ t u, Relation.EqvGen (DtBeside dt) t u → (t ∈ s.skTriangles ↔ u ∈ s.skTriangles) ∧
      (t ∈ s.skTriangles → Relation.EqvGen (fun t u => t ∈ s.skTriangles ∧ Live s t ∧
        ∃ i, (s.tri t).neighbours i = some u) t u) := by
    intro t u q
    induction q with
    | rel t u q =>
      obtain ⟨h1, h2, h3, i, h4, h5⟩ := q
      have ht := (h.internal t).2 ⟨h1, h3⟩
      have hn := step t ht i u h4 h5
      exact ⟨⟨fun _ => h.populated.closed t i u ht hn, fun _ => ht⟩, fun _ => .rel _ _ ⟨ht, h.live t ht, i, hn⟩⟩
    | refl t => exact ⟨Iff.rfl, fun _ => .refl _⟩
    | symm t u _ ih => exact ⟨ih.1.symm, fun q => .symm _ _ (ih.2 (ih.1.2 q))⟩
    | trans t u x _ _ ih1 ih2 => exact ⟨ih1.1.trans ih2.1, fun q => .trans _ _ _ (ih1.2 q) (ih2.2 (ih1.1.1 q))⟩
  intro t ht u hu
  obtain ⟨h1, h2⟩ := (h.internal t).1 ht
  obtain ⟨h3, h4⟩ := (h.internal u).1 hu
  exact (key t u (hone.2 t h1 h2 u h3 h4)).2 ht

/-- different arcs begin at different nodes -/
theorem Fresh0.different {s : St K} (h : Fresh0 dt skel s) (honce : DtOnce dt) :
    ∀ v ∈ s.skVertices, ∀ w ∈ s.skVertices, beginOf s v = beginOf s w → v = w := by
  intro v hv w hw e
  have hr : ∀ t ∈ s.skTriangles, Live s t → ∀ i, Running s ((s.tri t).vertices i) := fun t ht _ => h.corners t ht
  obtain ⟨a, ha, rfl⟩ := front_of h.mesh h.linked h.populated hr h.vertices hv
  obtain ⟨b, hb, rfl⟩ := front_of h.mesh h.linked h.populated hr h.vertices hw
  obtain ⟨a1, a2⟩ := mem_frontSet.1 ha
  obtain ⟨b1, b2⟩ := mem_frontSet.1 hb
  have a1 := (mem_liveSet.1 a1).1
  have b1 := (mem_liveSet.1 b1).1
  obtain ⟨-, -, x, ax, ay⟩ := h.sides _ a1 (a.2 + 1)
  obtain ⟨-, -, y, bx, byy⟩ := h.sides _ b1 (b.2 + 1)
  rw [ay, byy] at e
  obtain ⟨p, q⟩ := honce a.1 ((h.internal _).1 a1).1 ((h.internal _).1 a1).2 b.1 ((h.internal _).1 b1).1
    ((h.internal _).1 b1).2 a.2 b.2 ((h.sides _ a1 _).1.1 a2) ((h.sides _ b1 _).1.1 b2) (by rw [ax, bx, Option.some.inj e])
  rw [p, q]

/-- **C93.** `init_skeleton` with `internal_only` makes one kinetic vertex for every constrained side inside; every side
of a triangle inside is such a side or one of two that face each other. -/
theorem C93_sides (hid : Function.Injective pyid) (hm : DtMesh dt) (hr : DtRegions dt) (hi : DtInside dt)
    (h : initSkeleton dt pyid = .ok skel) :
    (prepare true tr skel).skVertices.length = dtCorners dt ∧
    dtCorners dt + innerSides (prepare true tr skel) = 3 * (prepare true tr skel).skTriangles.length := by
  have F := fresh0 (tr := tr) hid hm hr hi h
  have e := front_card F.mesh F.linked F.populated F.lt (fun t ht _ => F.corners t ht) F.vertices
  have := sides_split (s := prepare true tr skel)
  rw [F.liveSet, F.front] at this
  refine ⟨e.symm.trans F.front, ?_⟩
  rw [innerSides_eq]
  omega

/-- **C93.** A polygon without holes with `n` corners consists of `n - 2` triangles. -/
theorem C93_triangles (hid : Function.Injective pyid) (hm : DtMesh dt) (hr : DtRegions dt) (hi : DtInside dt)
    (hf : DtForest dt) (hone : DtOnePiece dt) (h : initSkeleton dt pyid = .ok skel) :
    (prepare true tr skel).skTriangles.length + 2 = dtCorners dt := by
  have F := fresh0 (tr := tr) hid hm hr hi h
  have hN := (C71_internal dt pyid hm hr hi hf skel h tr).2
  obtain ⟨t, ht, hin⟩ := hone.1
  have hmem := (F.internal t).2 ⟨ht, hin⟩
  have ne : (liveSet (prepare true tr skel)).Nonempty := ⟨t, mem_liveSet.2 ⟨hmem, (F.live t hmem).2⟩⟩
  have h1 := forest_card F.mesh F.populated F.lt hN.forest ne
  have h2 := piece_card F.mesh F.populated F.lt (F.onePiece hone) F.live (List.ne_nil_of_mem hmem)
  have h3 := (C93_sides (tr := tr) hid hm hr hi h).2
  rw [innerSides_eq] at h3
  rw [F.liveSet] at h1 h2
  omega

end

variable {dt : Dt K} {depth : ℕ} {skel s0 : St K} {n : ℕ} {now : K} {s : St K} {trace : List (Event K × K)}

theorem GeneralRun.fresh0 (h : GeneralRun dt depth skel s0 n now s trace) : Fresh0 dt skel s0 := by
  obtain ⟨pyid, tr, hid, h1, rfl⟩ := h.start
  exact Grassfire.fresh0 hid h.mesh h.regions h.inside h1

/-- **C93.** Polygons with holes: in general position the skeleton of a region whose boundary does not meet itself has as
many independent cycles as the triangles and the sides between them: `arcs - nodes = sides - triangles`. -/
theorem C93_cycles (h : GeneralRun dt depth skel s0 n now s trace) (hl : LoneEvents depth s0 n) (honce : DtOnce dt)
    (hdone : ∀ t ∈ s.skTriangles, ¬ Live s t) :
    2 * s.skVertices.length + 2 * s0.skTriangles.length = 2 * Nat.card {x // Used s x} + innerSides s0 := by
  have F := h.fresh0
  obtain ⟨pyid, tr, hid, h1, rfl⟩ := h.start
  obtain ⟨e1, e2⟩ := C93_sides (tr := tr) hid h.mesh h.regions h.inside h1
  have L := h.lone hl
  have hL : liveTriangles (prepare true tr skel) = (prepare true tr skel).skTriangles.length := by
    rw [← liveSet_card F.populated.different, F.liveSet]
  obtain ⟨-, -, c, -⟩ := C88_complete L hdone
  have e := start_nodes L (F.different honce)
  have d := C89_nodes L
  obtain ⟨-, hI, -⟩ := L.generic.ready
  have hlt : liveTriangles s = 0 := by
    unfold liveTriangles
    rw [List.countP_eq_zero]
    intro t ht q
    exact hdone t ht ⟨hI.refs.skTriangles t ht, Option.isNone_iff_eq_none.1 q⟩
  omega

/-- **C93.** In general position the skeleton of a simple polygon with `c` corners is a tree, with `2 c - 3` arcs and
`2 c - 2` nodes. -/
theorem C93_tree (h : GeneralRun dt depth skel s0 n now s trace) (hl : LoneEvents depth s0 n) (hf : DtForest dt)
    (hone : DtOnePiece dt) (honce : DtOnce dt) (hdone : ∀ t ∈ s.skTriangles, ¬ Live s t) :
    (graph s).IsTree ∧ s.skVertices.length + 3 = 2 * dtCorners dt ∧ Nat.card {x // Used s x} + 2 = 2 * dtCorners dt ∧
    ∀ v ∈ s.skVertices, ∀ w ∈ s.skVertices, beginOf s v = beginOf s w → endOf s v = endOf s w → v = w := by
  have F := h.fresh0
  have G := (h.lone hl).generic.start
  have cyc := C93_cycles h hl honce hdone
  have L := h.lone hl
  obtain ⟨-, -, c, -⟩ := C88_complete L hdone
  have hL : liveTriangles s0 = s0.skTriangles.length := by
    rw [← liveSet_card F.populated.different, F.liveSet]
  obtain ⟨pyid, tr, hid, h1, rfl⟩ := h.start
  obtain ⟨e1, e2⟩ := C93_sides (tr := tr) hid h.mesh h.regions h.inside h1
  have e3 := C93_triangles (tr := tr) hid h.mesh h.regions h.inside hf hone h1
  obtain ⟨t1, t2⟩ := C89_tree L hdone (C89_piece G F.populated (F.onePiece hone)) (F.different honce) (by omega)
  exact ⟨t1, by omega, by omega, t2⟩

/-- **C93.** `calc_skel(shrink=True, internal_only=True)` on a simple polygon in general position with at most thirteen
corners: it delivers a tree, with `2 c - 3` arcs each of which is a segment; or it raises a ValueError because it is not
clear what happens to a triangle. -/
theorem C93_calc_skel {pyid : TId → ℕ} {triangulate : List (Pt K) → Except Err (Dt K)} (ht : Triangulates triangulate)
    {points pts : List (Pt K)} {tr : Option (Transform K)} (h1 : shrinkPoints true points = .ok (pts, tr))
    (h2 : triangulate pts = .ok dt) (h3 : initSkeleton dt pyid = .ok skel) (hid : Function.Injective pyid)
    (h : GeneralInput dt depth skel (prepare true tr skel)) (hf : DtForest dt) (hone : DtOnePiece dt) (honce : DtOnce dt)
    (hc : dtCorners dt ≤ 13) :
    (∃ now s, calcSkel depth pyid triangulate points true true = .ok (now, s) ∧ (graph s).IsTree ∧
      Nat.card {x // Used s x} + 2 = 2 * dtCorners dt ∧
      ∃ l, segments s = .ok l ∧ l.length + 3 = 2 * dtCorners dt) ∨
    calcSkel depth pyid triangulate points true true = .error (.py .valueError) ∧
      ((∃ t ∈ (prepare true tr skel).skTriangles, Ambiguous (viewT (prepare true tr skel) t) 0) ∨
        ∃ n now s trace, GeneralRun dt depth skel (prepare true tr skel) n now s trace ∧ Unclear s) := by
  have e1 := (C93_sides (tr := tr) hid h.mesh h.regions h.inside h3).1
  have e2 := C93_triangles (tr := tr) hid h.mesh h.regions h.inside hf hone h3
  have hb : mostIterations (prepare true tr skel).skTriangles.length (prepare true tr skel).skVertices.length < 50000 := by
    rw [e1, ← e2]
    have h11 : (prepare true tr skel).skTriangles.length < 12 := by omega
    exact (by decide : ∀ t < 12, mostIterations t (t + 2) < 50000) _ h11
  rcases C92_calc_skel ht h1 h2 h3 h hb with ⟨n, now, s, trace, q1, R, hd, -, -, -, l, q2, q3⟩ | q
  · obtain ⟨t1, t2, t3, -⟩ := C93_tree R (h.lone n) hf hone honce hd
    exact .inl ⟨now, s, q1, t1, t3, l, q2, by omega⟩
  · exact .inr q

/-! ### the hypotheses are met -/

theorem Sample.notchDt_forest : DtForest Sample.notchDt := by
  refine ⟨fun t => [0, 1, 1].getD t 2, ?_⟩
  intro t ht hin i j n m hn hm hc hc' r r'
  have h : ∀ t < Sample.notchDt.nT, Sample.notchDt.internal t = true → ∀ i j, ∀ n ∈ Sample.notchDt.neighbour t i,
    ∀ m ∈ Sample.notchDt.neighbour t j, Sample.notchDt.constrained t i = false → Sample.notchDt.constrained t j = false →
    [0, 1, 1].getD n 2 ≤ [0, 1, 1].getD t 2 → [0, 1, 1].getD m 2 ≤ [0, 1, 1].getD t 2 → i = j := by decide +kernel
  exact h t ht hin i j n hn m hm hc hc' r r'

theorem Sample.notchDt_piece : DtOnePiece Sample.notchDt := by
  have key : ∀ t < Sample.notchDt.nT, Sample.notchDt.internal t = true → Relation.EqvGen (DtBeside Sample.notchDt) 0 t := by
    have h : ∀ t < Sample.notchDt.nT, Sample.notchDt.internal t = true → t = 0 ∨ ∃ i, Sample.notchDt.neighbour 0 i = some t ∧
      Sample.notchDt.constrained 0 i = false := by decide +kernel
    intro t ht hin
    rcases h t ht hin with rfl | ⟨i, q⟩
    · exact .refl _
    · exact .rel _ _ ⟨by decide, ht, by decide, i, q⟩
  exact ⟨⟨0, by decide, by decide⟩, fun t ht hi u hu hj => .trans _ _ _ (.symm _ _ (key t ht hi)) (key u hu hj)⟩

theorem Sample.notchDt_once : DtOnce Sample.notchDt := by
  have h : ∀ t ∈ List.range 11, ∀ u ∈ List.range 11, ∀ i j : Fin 3, ¬ (Sample.notchDt.internal t = true ∧
      Sample.notchDt.internal u = true ∧ Sample.notchDt.constrained t i = true ∧ Sample.notchDt.constrained u j = true ∧
      Sample.notchDt.corner t (i + 1) = Sample.notchDt.corner u (j + 1) ∧ ¬ (t = u ∧ i = j)) := by decide +kernel
  intro t ht hi u hu hj i j h1 h2 h3
  by_contra q
  exact h t (List.mem_range.2 ht) u (List.mem_range.2 hu) i j ⟨hi, hj, h1, h2, h3, q⟩

/-- The skeleton of the pentagon with the notch is a tree with seven arcs. -/
example : ∃ s tr, GeneralRun Sample.notchDt 100 Sample.notchSkeleton Sample.notchStart 4 (29 / 12) s tr ∧
    (graph s).IsTree ∧ s.skVertices.length = 7 := by
  obtain ⟨s, tr, hs, h⟩ := Sample.notch_run
  have hv : (stateAt 100 Sample.notchFirst 4).map (fun r => r.2.skTriangles.all fun t => (r.2.tri t).stopsAt.isSome) =
    some true := by decide +kernel
  rw [hs] at hv
  have hd : ∀ t ∈ s.skTriangles, ¬ Live s t := fun t ht q => by
    have := List.all_eq_true.1 (Option.some.inj hv) t ht
    rw [q.2] at this
    cases this
  have hc : dtCorners Sample.notchDt = 5 := by decide +kernel
  obtain ⟨t1, t2, -⟩ := C93_tree h (Sample.notch_input.lone 4) Sample.notchDt_forest Sample.notchDt_piece
    Sample.notchDt_once hd
  exact ⟨s, tr, h, t1, by omega⟩

theorem Sample.smallDt_piece : DtOnePiece Sample.smallDt := by
  have key : ∀ t < Sample.smallDt.nT, Sample.smallDt.internal t = true → Relation.EqvGen (DtBeside Sample.smallDt) 0 t := by
    have h : ∀ t < Sample.smallDt.nT, Sample.smallDt.internal t = true → t = 0 ∨ ∃ i, Sample.smallDt.neighbour 0 i = some t ∧
      Sample.smallDt.constrained 0 i = false := by decide +kernel
    intro t ht hin
    rcases h t ht hin with rfl | ⟨i, q⟩
    · exact .refl _
    · exact .rel _ _ ⟨by decide, ht, by decide, i, q⟩
  exact ⟨⟨0, by decide, by decide⟩, fun t ht hi u hu hj => .trans _ _ _ (.symm _ _ (key t ht hi)) (key u hu hj)⟩

theorem Sample.smallDt_once : DtOnce Sample.smallDt := by
  have h : ∀ t ∈ List.range Sample.smallDt.nT, ∀ u ∈ List.range Sample.smallDt.nT, ∀ i j : Fin 3,
      ¬ (Sample.smallDt.internal t = true ∧
      Sample.smallDt.internal u = true ∧ Sample.smallDt.constrained t i = true ∧ Sample.smallDt.constrained u j = true ∧
      Sample.smallDt.corner t (i + 1) = Sample.smallDt.corner u (j + 1) ∧ ¬ (t = u ∧ i = j)) := by decide +kernel
  intro t ht hi u hu hj i j h1 h2 h3
  by_contra q
  exact h t (List.mem_range.2 ht) u (List.mem_range.2 hu) i j ⟨hi, hj, h1, h2, h3, q⟩

/-- `calc_skel` delivers a tree for the wedge. -/
example : ∃ now s, calcSkel 100 id Sample.triangulate Sample.wedgePoints true true = .ok (now, s) ∧ (graph s).IsTree ∧
    ∃ l, segments s = .ok l ∧ l.length = 5 := by
  have hok : (match calcSkel 100 id Sample.triangulate Sample.wedgePoints true true with
    | .ok _ => true
    | .error _ => false) = true := by decide +kernel
  have hc : dtCorners Sample.smallDt = 4 := by decide +kernel
  rcases C93_calc_skel Sample.triangulate_ok Sample.small_points Sample.small_triangulate Sample.smallSkeleton_ok
    (fun _ _ q => q) Sample.small_input Sample.rectangleDt_forest Sample.smallDt_piece Sample.smallDt_once
    (by rw [hc]; decide) with ⟨now, s, h, t1, -, l, h1, h2⟩ | ⟨h, -⟩
  · exact ⟨now, s, h, t1, l, h1, by omega⟩
  · rw [h] at hok
    cases hok

end Grassfire
