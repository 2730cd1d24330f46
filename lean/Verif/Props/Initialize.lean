/-
Properties C42, C52, C53 and C54: what `init_skeleton` and `internal_only_skeleton` deliver.
-/
import Verif.Proofs.InitState
import Verif.Spec.DtSamples

set_option linter.unusedSectionVars false

namespace Grassfire

open Spec

variable {K : Type} [Field K] [LinearOrder K] [HasSqrt K] {dt : Dt K}

/-- C52: for every triangulation, consistent or not: when `init_skeleton` returns, the skeleton is
of the kind from which the event loop can start: all references are valid, all vertices have
started at time 0 at a node of the skeleton, no triangle occurs twice, ...; and the vertices are
numbered 1, 2, ... -/
theorem C52_initial (dt : Dt K) (pyid : TId → ℕ)
    (hid : ∀ t u, t < dt.nT → u < dt.nT → pyid t = pyid u → t = u) (s : St K)
    (h : initSkeleton dt pyid = .ok s) : Initial s ∧ Numbered s := by
  obtain ⟨ts, vs, nbr, unwanted, sorted, hd⟩ := initSkeleton_ok h
  exact ⟨hd.initial hid, hd.numbered⟩

/-- C52: nothing that was removed from the triangulation is referred to by the triangles of the
skeleton: their neighbours are triangles of the skeleton, and the relation is mutual. -/
theorem C52_neighbours (dt : Dt K) (pyid : TId → ℕ) (s : St K) (h : initSkeleton dt pyid = .ok s) :
    MutualNeighbours s := by
  obtain ⟨ts, vs, nbr, unwanted, sorted, hd⟩ := initSkeleton_ok h
  have hsk : ∀ t, t ∈ s.skTriangles ↔ t < dt.nT ∧ t ∉ unwanted := by
    intro t
    have e : s.skTriangles = sorted := by rw [hd.state]; rfl
    rw [e, hd.perm.mem_iff, List.mem_filter, List.mem_range]
    simp
  have hn : ∀ t, t ∉ unwanted → (s.tri t).neighbours = nbr t := by
    intro t ht
    rw [hd.state]
    dsimp only [initState]
    rw [if_neg ht]
  intro t ht i n hni
  obtain ⟨ht1, ht2⟩ := (hsk t).1 ht
  rw [hn t ht2] at hni
  have hb := hd.neighbour hni
  have hc := hd.check
  unfold checkKTriangles at hc
  rw [List.all_eq_true] at hc
  have hc := hc t (List.mem_filter.2 ⟨List.mem_range.2 ht1, by simpa using ht2⟩)
  rw [List.all_eq_true] at hc
  have hc := hc i (mem_sides i)
  rw [hni] at hc
  dsimp only at hc
  rw [List.any_eq_true] at hc
  obtain ⟨j, _, hj⟩ := hc
  have hj := of_decide_eq_true hj
  have hnu : n ∉ unwanted := by
    intro hu
    obtain ⟨links, _, e⟩ := hd.nbrs
    rw [e] at hj
    dsimp only at hj
    rw [if_pos hu] at hj
    cases hj
  exact ⟨(hsk n).2 ⟨hb, hnu⟩, j, by rw [hn n hnu]; exact hj⟩

/-- C52: the skeleton has one triangle for every triangle of the triangulation, apart from the three
that have two infinite corners -/
theorem C52_triangles (dt : Dt K) (pyid : TId → ℕ) (s : St K) (h : initSkeleton dt pyid = .ok s) :
    s.skTriangles.Nodup ∧ s.skTriangles.length + 3 = dt.nT ∧
    ∀ t, t ∈ s.skTriangles ↔ t < dt.nT ∧
      (sides.countP fun i => match dt.corner t i with
        | some v => !dt.finite v
        | none => false) ≠ 2 := by
  obtain ⟨ts, vs, nbr, unwanted, sorted, hd⟩ := initSkeleton_ok h
  have e : s.skTriangles = sorted := by rw [hd.state]; rfl
  have hrem : unwanted = (List.range dt.nT).filter fun t =>
      (sides.countP fun i => match dt.corner t i with
        | some v => !dt.finite v
        | none => false) = 2 := by
    rw [hd.eqRemove]
    unfold removeOf
    refine List.filter_congr fun t _ => ?_
    congr 2
    refine List.countP_congr fun i _ => ?_
    have key : ∀ o : Option VId, KRef.isInf (K := K) (o.map .kin) = false := by
      intro o; cases o <;> rfl
    unfold kref
    cases dt.corner t i with
    | none => dsimp only; rw [key]
    | some v => dsimp only; cases dt.finite v <;> simp [KRef.isInf]
  have hmem : ∀ t, t ∈ unwanted ↔ t < dt.nT ∧ (sides.countP fun i => match dt.corner t i with
        | some v => !dt.finite v
        | none => false) = 2 := by
    intro t
    rw [hrem, List.mem_filter, List.mem_range]
    simp
  rw [e]
  refine ⟨hd.perm.nodup_iff.2 (List.nodup_range.filter _), ?_, fun t => ?_⟩
  · rw [hd.perm.length_eq]
    have hnd : unwanted.Nodup := by rw [hrem]; exact List.nodup_range.filter _
    have hperm : ((List.range dt.nT).filter fun t => t ∈ unwanted).Perm unwanted := by
      refine (List.perm_ext_iff_of_nodup (List.nodup_range.filter _) hnd).2 fun t => ?_
      rw [List.mem_filter, List.mem_range]
      simp only [decide_eq_true_eq]
      exact ⟨fun h => h.2, fun h => ⟨((hmem t).1 h).1, h⟩⟩
    have := List.length_eq_length_filter_add (l := List.range dt.nT) fun t => decide (t ∈ unwanted)
    rw [hperm.length_eq, hd.three, List.length_range] at this
    rw [add_comm]
    simp only [decide_not] at this ⊢
    exact this.symm
  · rw [hd.perm.mem_iff, List.mem_filter, List.mem_range]
    simp only [decide_not, Bool.not_eq_true', decide_eq_false_iff_not]
    rw [hmem]
    tauto

/-- C52: the triangles are listed in the order of their first corners. -/
theorem C52_order (dt : Dt K) (pyid : TId → ℕ) (s : St K) (h : initSkeleton dt pyid = .ok s) : Swept s := by
  obtain ⟨ts, vs, nbr, unwanted, sorted, hd⟩ := initSkeleton_ok h
  have e : s.skTriangles = sorted := by rw [hd.state]; rfl
  have hkey : ∀ t ∈ sorted, ∀ x, sortKey dt (vs.map (linkVertex vs)) (kref dt vs t 0) = .ok x →
      x = ((startOf s t).2, (startOf s t).1) := by
    intro t ht x hx
    have hu : t ∉ unwanted := by
      have := (List.mem_filter.1 (hd.perm.mem_iff.1 ht)).2
      simpa using this
    have hv : (s.tri t).vertices 0 = vidOf vs.length (kref dt vs t 0) := by
      rw [hd.state]
      dsimp only [initState]
      rw [if_neg hu, List.length_map]
    have hvert : s.vert = fun v => match (vs.map (linkVertex vs))[v]? with
      | some kv => .kin kv
      | none => .inf (centroidOf dt) := by
      rw [hd.state]
      rfl
    unfold startOf
    rw [hv, hvert]
    unfold sortKey at hx
    split at hx
    · rename_i v hk
      rw [hk]
      dsimp only [vidOf]
      split at hx
      · rename_i kv hkv
        rw [hkv]
        cases hx
        rfl
      · cases hx
    · rename_i w hk
      rw [hk]
      dsimp only [vidOf]
      rw [List.getElem?_eq_none (by simp)]
      cases hx
      rfl
    · cases hx
  unfold Swept
  rw [e]
  refine hd.order.imp_of_mem fun {t u} ht hu htu => ?_
  obtain ⟨x, hx⟩ := hd.keyed t ht
  obtain ⟨y, hy⟩ := hd.keyed u hu
  have := htu x y hx hy
  rw [hkey t ht x hx, hkey u hu y hy] at this
  unfold tupleLe at this
  simpa using this

/-! ### rings -/

theorem wfId_inj {t u : ℕ} {i j : Fin 3} (h : wfId t i = wfId u j) : t = u ∧ i = j := by
  have h : (3 * t + i.val : ℕ) = 3 * u + j.val := h
  have hi := i.isLt
  have hj := j.isLt
  refine ⟨by omega, Fin.ext (by omega)⟩

/-- in a consistent triangulation every corner belongs to one kinetic vertex -/
theorem Early.unique {ts : List (TriStart K)} {vs : List (KVertex K × List DEdge)}
    {unwanted : List TId}
    (h : Early dt ts vs unwanted) (hdt : DtOk dt) {e : DEdge} {u w : VId}
    {x y : KVertex K × List DEdge} (hx : vs[u]? = some x) (hy : vs[w]? = some y) (hex : e ∈ x.2)
    (hey : e ∈ y.2) : w = u := by
  obtain ⟨_, h2, h3⟩ := makeVertices_ok h.vertices
  have hnd : ((vs.map (·.2)).flatten).Nodup := by
    rw [h3]
    have hg : ∀ v, v < dt.nV → ∃ gs, vertexGroups dt v = .ok gs ∧ gs.flatten.Nodup ∧
        ∀ a ∈ gs.flatten, a ∈ dt.star v := by
      intro v hv
      obtain ⟨gs, hg, _⟩ := h2 v (List.mem_range.2 hv)
      obtain ⟨_, hs, _⟩ := vertexGroups_ok hg
      obtain ⟨hr, _⟩ := C41_rotation dt v gs hs
      exact ⟨gs, hg, hr.nodup_iff.2 (hdt.star_nodup v hv), fun a ha => hr.mem_iff.1 ha⟩
    rw [List.flatten_flatten, List.map_map]
    refine List.nodup_flatten.2 ⟨?_, ?_⟩
    · intro l hl
      obtain ⟨v, hv, rfl⟩ := List.mem_map.1 hl
      obtain ⟨gs, hgs, hn, _⟩ := hg v (List.mem_range.1 hv)
      simp only [Function.comp, hgs]
      exact hn
    · rw [List.pairwise_map]
      refine List.nodup_range.imp_of_mem ?_
      intro a b ha hb hne
      obtain ⟨ga, hga, _, ma⟩ := hg a (List.mem_range.1 ha)
      obtain ⟨gb, hgb, _, mb⟩ := hg b (List.mem_range.1 hb)
      simp only [Function.comp, hga, hgb]
      intro q hqa hqb
      have h1 := hdt.star_corner a (List.mem_range.1 ha) q (ma q hqa)
      have h2 := hdt.star_corner b (List.mem_range.1 hb) q (mb q hqb)
      rw [h1] at h2
      exact hne (Option.some.inj h2)
  have hdisj := (List.nodup_flatten.1 hnd).2
  rw [List.pairwise_map] at hdisj
  rw [List.pairwise_iff_getElem] at hdisj
  obtain ⟨hu, rfl⟩ := List.getElem?_eq_some_iff.1 hx
  obtain ⟨hw, rfl⟩ := List.getElem?_eq_some_iff.1 hy
  rcases lt_trichotomy u w with hlt | heq | hlt
  · exact absurd hey (hdisj u w hu hw hlt hex)
  · exact heq.symm
  · exact absurd hex (hdisj w u hw hu hlt hey)

/-- C53: for a consistent triangulation: when `init_skeleton` returns, its vertices are linked in
rings: following `right` and then `left`, or `left` and then `right`, leads back to the same
vertex, and neighbours in the ring agree on the wavefront between them. -/
theorem C53_rings (dt : Dt K) (pyid : TId → ℕ) (hdt : DtOk dt) (s : St K)
    (h : initSkeleton dt pyid = .ok s) : ∀ v ∈ s.skVertices, LinkedLeft s v ∧ LinkedRight s v := by
  obtain ⟨ts, vs, nbr, unwanted, sorted, hd⟩ := initSkeleton_ok h
  intro u hu
  have e : s.skVertices = List.range vs.length := by
    rw [hd.state]; dsimp only [initState]; rw [List.length_map]
  rw [e, List.mem_range] at hu
  have hx := List.getElem?_eq_getElem hu
  generalize vs[u] = x at hx
  obtain ⟨v, first, last, _, _, hn, _⟩ := hd.origin hx
  obtain ⟨a, b, y, z, ha, hb, hy, hz, h5, h6, ex⟩ := hd.linked hx hn.head hn.tail hn.empty
  obtain ⟨_, f1, l1, _, _, hny, _⟩ := hd.origin hy
  obtain ⟨_, f2, l2, _, _, hnz, _⟩ := hd.origin hz
  obtain ⟨a1, b1, y1, z1, ha1, hb1, _, _, _, _, ey⟩ := hd.linked hy hny.head hny.tail hny.empty
  obtain ⟨a2, b2, y2, z2, ha2, hb2, _, _, _, _, ez⟩ := hd.linked hz hnz.head hnz.tail hnz.empty
  have wx : x.1.wfl = some (wfId last.1 (ccw last.2)) ∧ x.1.wfr = some (wfId first.1 (cw first.2)) := by
    rw [hn.fields]; exact ⟨rfl, rfl⟩
  have wy : y.1.wfr = some (wfId f1.1 (cw f1.2)) := by rw [hny.fields]
  have wz : z.1.wfl = some (wfId l2.1 (ccw l2.2)) := by rw [hnz.fields]
  have cyc : ∀ i j : Fin 3, cw i = ccw j → ccw i = j := by decide
  have cyc' : ∀ i j : Fin 3, cw i = ccw j → cw j = i := by decide
  constructor
  · refine ⟨_, a, _, hd.vert_of hx, by rw [ex]; rfl, hd.vert_of hy, ?_, ?_, ?_⟩
    · rw [ey]
      have hw := h5
      rw [wy, wx.1] at hw
      obtain ⟨e1, e2⟩ := wfId_inj (Option.some.inj hw)
      have : kcorner vs f1.1 (ccw f1.2) = some u := by
        rw [e1, cyc _ _ e2]
        exact kcorner_eq hx (List.mem_of_getLast? hn.tail) fun w q hw hq =>
          hd.unique hdt hx hw (List.mem_of_getLast? hn.tail) hq
      rw [hb1] at this
      exact this
    · rw [ex, ey]; exact h5.symm
    · rw [ex]; dsimp only; rw [wx.1]; exact Option.some_ne_none _
  · refine ⟨_, b, _, hd.vert_of hx, by rw [ex]; rfl, hd.vert_of hz, ?_, ?_, ?_⟩
    · rw [ez]
      have hw := h6
      rw [wz, wx.2] at hw
      obtain ⟨e1, e2⟩ := wfId_inj (Option.some.inj hw)
      have : kcorner vs l2.1 (cw l2.2) = some u := by
        rw [← e1, cyc' _ _ e2]
        exact kcorner_eq hx (List.mem_of_head? hn.head) fun w q hw hq =>
          hd.unique hdt hx hw (List.mem_of_head? hn.head) hq
      rw [ha2] at this
      exact this
    · rw [ex, ez]; exact h6
    · rw [ex]; dsimp only; rw [wx.2]; exact Option.some_ne_none _

/-! ### faults -/

theorem liftE_error {α : Type} {x : Except Err α} {f : Fault} (h : liftE x = .error f) :
    ∃ e, f = .py e := by
  cases x with
  | ok a => cases h
  | error e => cases h; exact ⟨e, rfl⟩

theorem bindE_error {ε α β : Type} {x : Except ε α} {f : α → Except ε β} {e : ε}
    (h : (x >>= f) = .error e) : x = .error e ∨ ∃ a, x = .ok a ∧ f a = .error e := by
  cases x with
  | ok a => exact Or.inr ⟨a, rfl, h⟩
  | error e' => cases h; exact Or.inl rfl

theorem mapE_error {α β ε : Type} {f : α → Except ε β} : ∀ {l : List α} {e : ε},
    mapE f l = .error e → ∃ x ∈ l, f x = .error e
  | [], e, h => by cases h
  | x :: xs, e, h => by
    unfold mapE at h
    rcases bindE_error h with h | ⟨y, _, h⟩
    · exact ⟨x, List.mem_cons_self, h⟩
    · rcases bindE_error h with h | ⟨ys, _, h⟩
      · obtain ⟨z, hz, he⟩ := mapE_error h
        exact ⟨z, List.mem_cons_of_mem _ hz, he⟩
      · cases h

theorem rotateOut_error {corner : DT → Fin 3 → Option (KRef K)} {nbr : TId → Fin 3 → Option TId} {v : VId}
    {dir : Fin 3 → Fin 3} {cands : List TId} : ∀ {fuel : ℕ} {seen : List TId} {t : TId} {f : Fault},
    rotateOut corner nbr v dir cands fuel seen t = .error f → f = .nonTermination ∨ ∃ e, f = .py e
  | 0, _, _, _, h => by cases h; exact Or.inl rfl
  | fuel + 1, seen, t, f, h => by
    unfold rotateOut at h
    by_cases hs : t ∈ seen
    · rw [if_pos hs] at h; cases h
    · rw [if_neg hs] at h
      cases hc : cornerOf corner v t with
      | error e => rw [hc] at h; cases h; exact Or.inr ⟨e, rfl⟩
      | ok side =>
        rw [hc] at h
        dsimp only at h
        cases hn : nbr t (dir side) with
        | none => rw [hn] at h; cases h
        | some n =>
          rw [hn] at h
          dsimp only at h
          by_cases hm : n ∈ cands
          · rw [if_pos hm] at h; exact rotateOut_error h
          · rw [if_neg hm] at h; cases h

theorem relinkUnwanted_error {corner : DT → Fin 3 → Option (KRef K)} {nbr : TId → Fin 3 → Option TId}
    {unwanted : List TId} {kt : TId} {f : Fault} (hk : kt ∈ unwanted)
    (h : relinkUnwanted corner nbr unwanted kt = .error f) : ∃ e, f = .py e := by
  have hrot : ∀ v dir f, rotateOut corner nbr v dir unwanted (unwanted.length + 1) [] kt = .error f →
      ∃ e, f = .py e := by
    intro v dir f hf
    rcases rotateOut_error hf with rfl | h
    · exact absurd hf (rotateOut_terminates List.nodup_nil (by simp) hk (by simp))
    · exact h
  have hneed : ∀ o f, needTri o = .error f → ∃ e, f = .py e := by
    intro o f h
    cases o with
    | none => cases h; exact ⟨_, rfl⟩
    | some t => cases h
  unfold relinkUnwanted at h
  cases hi : index3 (nbr kt) none with
  | none => rw [hi] at h; cases h; exact ⟨_, rfl⟩
  | some i =>
    rw [hi] at h
    dsimp only at h
    split at h
    · rcases bindE_error h with h | ⟨a, _, h⟩
      · exact hrot _ _ _ h
      rcases bindE_error h with h | ⟨b, _, h⟩
      · exact hrot _ _ _ h
      rcases bindE_error h with h | ⟨_, _, h⟩
      · exact hneed _ _ h
      rcases bindE_error h with h | ⟨_, _, h⟩
      · exact liftE_error h
      rcases bindE_error h with h | ⟨_, _, h⟩
      · exact hneed _ _ h
      rcases bindE_error h with h | ⟨_, _, h⟩
      · exact liftE_error h
      cases h
    · cases h; exact ⟨_, rfl⟩

/-- C54: for a consistent triangulation `init_skeleton` always comes to an end, and it either
delivers a skeleton in which all corners of all triangles are set, or raises a python
exception. -/
theorem C54_faults (dt : Dt K) (pyid : TId → ℕ) (hdt : DtOk dt) (f : Fault)
    (h : initSkeleton dt pyid = .error f) : ∃ e, f = .py e := by
  unfold initSkeleton at h
  rcases bindE_error h with h | ⟨ts, h1, h⟩
  · exact liftE_error h
  rcases bindE_error h with h | ⟨vs, h2, h⟩
  · exact liftE_error h
  rcases bindE_error h with h | ⟨_, h3, h⟩
  · exact liftE_error h
  unfold finishSkeleton at h
  rcases bindE_error h with h | ⟨_, _, h⟩
  · exact liftE_error h
  rcases bindE_error h with h | ⟨_, _, h⟩
  · exact liftE_error h
  rcases bindE_error h with h | ⟨_, _, h⟩
  · exact liftE_error h
  rcases bindE_error h with h | ⟨_, _, h⟩
  · exact liftE_error h
  rcases bindE_error h with h | ⟨_, _, h⟩
  · obtain ⟨kt, hk, h⟩ := mapE_error h
    exact relinkUnwanted_error hk h
  rcases bindE_error h with h | ⟨_, _, h⟩
  · exact liftE_error h
  rcases bindE_error h with h | ⟨_, _, h⟩
  · exact liftE_error h
  exfalso
  dsimp only at h
  split_ifs at h with hc
  refine hc ?_
  rw [List.all_eq_true]
  intro t ht
  rw [List.all_eq_true]
  intro i _
  obtain ⟨v, hv, hfin⟩ := hdt.corners t (List.mem_range.1 (List.mem_filter.1 ht).1) i
  unfold kref
  rw [hv]
  dsimp only
  split_ifs with hf
  · obtain ⟨hlt, hstar⟩ := hfin hf
    obtain ⟨_, hall, _⟩ := makeVertices_ok (liftE_ok h2)
    obtain ⟨gs, hg, hidx⟩ := hall v (List.mem_range.2 hlt)
    obtain ⟨_, hs, _⟩ := vertexGroups_ok hg
    obtain ⟨hr, _⟩ := C41_rotation dt v gs hs
    obtain ⟨g, hgm, heg⟩ := List.mem_flatten.1 (hr.mem_iff.2 hstar)
    obtain ⟨j, x, hx, rfl⟩ := hidx g hgm
    rw [Option.isSome_map]
    exact kcorner_isSome hx heg
  · rfl

/-! ### internal_only_skeleton -/

/-- C42: `internal_only_skeleton` keeps all nodes and exactly the vertices and triangles marked
internal, in their order, as often as they were there; the objects themselves are not touched. -/
theorem C42_filter (s : St K) :
    (internalOnly s).skNodes = s.skNodes ∧
    (internalOnly s).skVertices.Sublist s.skVertices ∧
    (internalOnly s).skTriangles.Sublist s.skTriangles ∧
    (∀ v kv, s.vert v = .kin kv →
      (internalOnly s).skVertices.count v = if kv.internal = true then s.skVertices.count v else 0) ∧
    (∀ t, (internalOnly s).skTriangles.count t =
      if (s.tri t).internal = true then s.skTriangles.count t else 0) ∧
    (internalOnly s).vert = s.vert ∧ (internalOnly s).tri = s.tri ∧ (internalOnly s).node = s.node := by
  refine ⟨rfl, List.filter_sublist, List.filter_sublist, ?_, ?_, rfl, rfl, rfl⟩
  · intro v kv hv
    unfold internalOnly
    dsimp only
    by_cases hk : kv.internal = true
    · rw [if_pos hk, List.count_filter (by rw [hv]; exact hk)]
    · rw [if_neg hk, List.count_eq_zero]
      intro hm
      have := (List.mem_filter.1 hm).2
      rw [hv] at this
      exact hk this
  · intro t
    unfold internalOnly
    dsimp only
    by_cases hk : (s.tri t).internal = true
    · rw [if_pos hk, List.count_filter (by exact hk)]
    · rw [if_neg hk, List.count_eq_zero]
      intro hm
      exact hk (List.mem_filter.1 hm).2

/-- C42: applying `internal_only_skeleton` twice is the same as applying it once. -/
theorem C42_idempotent (s : St K) : internalOnly (internalOnly s) = internalOnly s := by
  unfold internalOnly
  simp only [List.filter_filter, Bool.and_self]

/-- C42: with `internal_only=True` the event loop still starts from a proper state. -/
theorem C42_initial (s : St K) (h : Initial s) : Initial (internalOnly s) where
  refs :=
    { h.refs with
      skVertices := fun v hv => h.refs.skVertices v (List.mem_of_mem_filter hv)
      skTriangles := fun t ht => h.refs.skTriangles t (List.mem_of_mem_filter ht) }
  lives := h.lives
  hist := h.hist
  kinetic := fun v hv => h.kinetic v (List.mem_of_mem_filter hv)
  triangles := h.triangles.filter _
  immediate := h.immediate
  events := h.events
  ids := h.ids

/-! ### C44 with internal_only=True -/

/-- C44, violation: with `internal_only=True` the numbers of the vertices need not be different:
for a rectangle, a complete run ends with two vertices of the skeleton that have the same
number. -/
theorem C44_internal_only_violated :
    ∃ (dt : Dt ℚ) (s0 : St ℚ) (now : ℚ) (s : St ℚ), DtOk dt ∧ initSkeleton dt id = .ok s0 ∧
      Completed 100 (internalOnly s0) now s ∧
      ∃ v ∈ s.skVertices, ∃ w ∈ s.skVertices, ∃ kv kw, v ≠ w ∧ s.vert v = .kin kv ∧ s.vert w = .kin kw ∧
        kv.info = kw.info := by
  have hi := (C52_initial Sample.rectangleDt id (fun _ _ _ _ h => h) _ Sample.rectangleSkeleton_ok).1
  obtain ⟨now, s, hc, hf⟩ := Sample.completed_of_outcome (C42_initial _ hi)
    (f := fun _ s => (s.skVertices, infoOf s 4, infoOf s 9)) (b := ([0, 2, 4, 6, 9], some 5, some 5))
    (by decide +kernel)
  refine ⟨_, _, now, s, Sample.rectangleDt_ok, Sample.rectangleSkeleton_ok, hc, ?_⟩
  simp only [Prod.mk.injEq] at hf
  obtain ⟨h1, h2, h3⟩ := hf
  obtain ⟨kv, hk⟩ := Sample.infoOf_isSome (s := s) (v := 4) (by rw [h2]; rfl)
  obtain ⟨kw, hw⟩ := Sample.infoOf_isSome (s := s) (v := 9) (by rw [h3]; rfl)
  refine ⟨4, by rw [h1]; decide, 9, by rw [h1]; decide, kv, kw, by decide, hk, hw, ?_⟩
  unfold infoOf at h2 h3
  rw [hk] at h2
  rw [hw] at h3
  exact (Option.some.inj h2).trans (Option.some.inj h3).symm

/-! ### the hypotheses are met -/

example : DtOk Sample.rectangleDt ∧ initSkeleton Sample.rectangleDt id = .ok Sample.rectangleSkeleton :=
  ⟨Sample.rectangleDt_ok, Sample.rectangleSkeleton_ok⟩

/-- the triangles of the skeleton, sorted by the position of their first corner -/
example : Sample.rectangleSkeleton.skTriangles = [0, 1, 2, 3, 4, 5] := by decide +kernel

example : (internalOnly Sample.rectangleSkeleton).skVertices = [0, 2, 4, 6] := by decide +kernel

/-- an inconsistent triangulation (the star of vertex 0 lacks a triangle) makes `init_skeleton` raise -/
example : (match initSkeleton { Sample.rectangleDt with
      star := fun v => if v = 0 then [(0, 0), (1, 0), (5, 1)] else Sample.rectangleDt.star v } id with
    | .error (.py e) => some e
    | _ => none) = some .assertionError := by decide +kernel

end Grassfire
