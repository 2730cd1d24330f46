/-
`init_skeleton`: the state it delivers (lemmas for C52-C54).
-/
import Verif.Proofs.InitLemmas
import Verif.Props.Star
import Verif.Spec.InitialMesh

set_option linter.unusedSectionVars false

namespace Grassfire

open Spec

variable {K : Type} [Field K] [LinearOrder K] [HasSqrt K] {dt : Dt K}

/-- all that is known when `init_skeleton` returns -/
structure Early (dt : Dt K) (ts : List (TriStart K)) (vs : List (KVertex K × List DEdge)) (unwanted : List TId) :
    Prop where
  tris : ts.length = dt.nT ∧ ∀ (t : ℕ) x, ts[t]? = some x → initTri dt t = .ok x
  vertices : makeVertices dt ts 0 (List.range dt.nV) = .ok vs
  eqUnwanted : unwanted = unwantedOf ts
  eqRemove : unwanted = removeOf dt (kref dt vs)

/-- what holds when `init_skeleton` has returned -/
structure Delivered (dt : Dt K) (pyid : TId → ℕ) (ts : List (TriStart K))
    (vs : List (KVertex K × List DEdge)) (nbr : TId → Fin 3 → Option TId) (unwanted sorted : List TId)
    (s : St K) : Prop extends Early dt ts vs unwanted where
  links : ∀ x ∈ vs, checkLink (vs.map (linkVertex vs)) (linkVertex vs x) = .ok ()
  inf : (infinites dt).length = 3
  three : unwanted.length = 3
  nbrs : ∃ links, mapE (relinkUnwanted (kref dt vs) (fun t i => (ts[t]?).bind fun x => x.neighbours i)
      unwanted) unwanted = .ok links ∧
    nbr = fun t => if t ∈ unwanted then fun _ => none else
      applyLinks (fun t i => (ts[t]?).bind fun x => x.neighbours i) links.flatten t
  check : checkKTriangles ((List.range dt.nT).filter fun t => t ∉ unwanted) nbr = true
  perm : sorted.Perm ((List.range dt.nT).filter fun t => t ∉ unwanted)
  order : sorted.Pairwise fun a b => ∀ x y, sortKey dt (vs.map (linkVertex vs)) (kref dt vs a 0) = .ok x →
    sortKey dt (vs.map (linkVertex vs)) (kref dt vs b 0) = .ok y → tupleLe x y = true
  keyed : ∀ t ∈ sorted, ∃ x, sortKey dt (vs.map (linkVertex vs)) (kref dt vs t 0) = .ok x
  complete : ∀ t, t < dt.nT → t ∉ unwanted → ∀ i, (kref dt vs t i).isSome
  state : s = initState dt pyid ts (vs.map (linkVertex vs)) (kref dt vs) unwanted nbr sorted

theorem mem_sides (i : Fin 3) : i ∈ sides := by fin_cases i <;> simp [sides]

theorem tupleLe_total (a b : Pt K) : tupleLe a b = true ∨ tupleLe b a = true := by
  unfold tupleLe
  rcases lt_trichotomy a.1 b.1 with h | h | h
  · exact Or.inl (by simp [h])
  · rcases le_total a.2 b.2 with q | q
    · exact Or.inl (by simp [h, q])
    · exact Or.inr (by simp [h, q])
  · exact Or.inr (by simp [h])

theorem tupleLe_trans {a b c : Pt K} (h : tupleLe a b = true) (q : tupleLe b c = true) : tupleLe a c = true := by
  unfold tupleLe at *
  simp only [Bool.or_eq_true, Bool.and_eq_true, decide_eq_true_eq] at *
  rcases h with h | ⟨h, h'⟩ <;> rcases q with q | ⟨q, q'⟩
  · exact Or.inl (h.trans q)
  · exact Or.inl (q ▸ h)
  · exact Or.inl (h ▸ q)
  · exact Or.inr ⟨h.trans q, h'.trans q'⟩

/-- sorting by keys that have been computed -/
theorem sort_keys {α : Type} {f : α → Except Err (Pt K)} {l : List α} {keys : List (Pt K)} (h : mapE f l = .ok keys) :
    ((((l.zip keys).insertionSort fun a b => tupleLe a.2 b.2 = true).map (·.1)).Pairwise
      fun a b => ∀ x y, f a = .ok x → f b = .ok y → tupleLe x y = true) ∧
    ∀ t ∈ ((l.zip keys).insertionSort fun a b => tupleLe a.2 b.2 = true).map (·.1), ∃ x, f t = .ok x := by
  have hk : ∀ z ∈ l.zip keys, f z.1 = .ok z.2 := by
    intro z hz
    obtain ⟨i, hi⟩ := List.mem_iff_getElem?.1 hz
    obtain ⟨h1, h2⟩ := List.getElem?_zip_eq_some.1 hi
    obtain ⟨y, e1, e2⟩ := (mapE_getElem h).2 i _ h1
    rw [h2] at e1
    cases e1
    exact e2
  have hp := List.perm_insertionSort (fun a b : α × Pt K => tupleLe a.2 b.2 = true) (l.zip keys)
  have : Std.Total (fun a b : α × Pt K => tupleLe a.2 b.2 = true) := ⟨fun a b => tupleLe_total _ _⟩
  have : IsTrans (α × Pt K) (fun a b => tupleLe a.2 b.2 = true) := ⟨fun a b c => tupleLe_trans⟩
  have hs := List.pairwise_insertionSort (fun a b : α × Pt K => tupleLe a.2 b.2 = true) (l.zip keys)
  refine ⟨List.pairwise_map.2 ?_, ?_⟩
  · refine hs.imp_of_mem fun {a b} ha hb hab x y hx hy => ?_
    rw [hk a (hp.mem_iff.1 ha)] at hx
    rw [hk b (hp.mem_iff.1 hb)] at hy
    cases hx
    cases hy
    exact hab
  · intro t ht
    obtain ⟨z, hz, rfl⟩ := List.mem_map.1 ht
    exact ⟨_, hk z (hp.mem_iff.1 hz)⟩

theorem initSkeleton_ok {pyid : TId → ℕ} {s : St K} (h : initSkeleton dt pyid = .ok s) :
    ∃ ts vs nbr unwanted sorted, Delivered dt pyid ts vs nbr unwanted sorted s := by
  unfold initSkeleton at h
  obtain ⟨ts, h1, h⟩ := bindE_ok h
  obtain ⟨vs, h2, h⟩ := bindE_ok h
  obtain ⟨_, h3, h⟩ := bindE_ok h
  unfold finishSkeleton at h
  obtain ⟨_, h4, h⟩ := bindE_ok h
  obtain ⟨_, h5, h⟩ := bindE_ok h
  obtain ⟨_, h6, h⟩ := bindE_ok h
  obtain ⟨_, h7, h⟩ := bindE_ok h
  obtain ⟨links, h8, h⟩ := bindE_ok h
  obtain ⟨_, h9, h⟩ := bindE_ok h
  obtain ⟨keys, h10, h⟩ := bindE_ok h
  dsimp only at h
  split_ifs at h with hc
  cases h
  have e7 := of_decide_eq_true (passert_ok (liftE_ok h7))
  refine ⟨ts, vs, _, _, _,
    { tris := tris_ok (liftE_ok h1)
      vertices := liftE_ok h2
      links := fun x hx => allE_ok (liftE_ok h3) _ (List.mem_map.2 ⟨x, hx, rfl⟩)
      inf := of_decide_eq_true (passert_ok (liftE_ok h4))
      three := of_decide_eq_true (passert_ok (liftE_ok h6))
      eqUnwanted := rfl
      eqRemove := e7.symm
      nbrs := ⟨links, h8, rfl⟩
      check := passert_ok (liftE_ok h9)
      perm := ?_
      order := (sort_keys (liftE_ok h10)).1
      keyed := (sort_keys (liftE_ok h10)).2
      complete := ?_
      state := rfl }⟩
  · have hl := (mapE_getElem (liftE_ok h10)).1
    have := (List.perm_insertionSort (fun a b : TId × Pt K => tupleLe a.2 b.2 = true)
      (((List.range dt.nT).filter fun t => t ∉ unwantedOf ts).zip keys)).map (·.1)
    refine this.trans ?_
    rw [List.map_fst_zip (by rw [hl])]
  · intro t ht hu i
    rw [List.all_eq_true] at hc
    have := hc t (List.mem_filter.2 ⟨List.mem_range.2 ht, by simpa using hu⟩)
    rw [List.all_eq_true] at this
    exact this i (mem_sides i)

section
variable {pyid : TId → ℕ} {ts : List (TriStart K)} {vs : List (KVertex K × List DEdge)}
  {nbr : TId → Fin 3 → Option TId} {unwanted sorted : List TId} {s : St K}

/-- every kinetic vertex: where it comes from -/
theorem Early.origin (h : Early dt ts vs unwanted) {u : VId}
    {x : KVertex K × List DEdge} (hx : vs[u]? = some x) :
    ∃ v first last, v < dt.nV ∧ dt.finite v = true ∧ NewVertex dt ts v u x.2 first last x.1 ∧
      ∃ gs, splitStar dt v = .ok gs ∧ x.2 ∈ gs ∧ gs.length ≠ 1 := by
  obtain ⟨h1, _, _⟩ := makeVertices_ok h.vertices
  obtain ⟨v, hv, gs, hg, hm, hk⟩ := h1 u x hx
  rw [Nat.zero_add] at hk
  obtain ⟨first, last, hn⟩ := makeVertex_ok hk
  obtain ⟨a, b, c⟩ := vertexGroups_ok hg
  exact ⟨v, first, last, List.mem_range.1 hv, a, hn, gs, b, hm, c⟩

/-- the links of every kinetic vertex -/
theorem Delivered.linked (h : Delivered dt pyid ts vs nbr unwanted sorted s) {u : VId}
    {x : KVertex K × List DEdge} (hx : vs[u]? = some x) {first last : DEdge}
    (hf : x.2.head? = some first) (hl : x.2.getLast? = some last)
    (hnew : x.1.left = [] ∧ x.1.right = []) :
    ∃ a b y z, kcorner vs last.1 (cw last.2) = some a ∧ kcorner vs first.1 (ccw first.2) = some b ∧
      vs[a]? = some y ∧ vs[b]? = some z ∧ y.1.wfr = x.1.wfl ∧ x.1.wfr = z.1.wfl ∧
      linkVertex vs x = { x.1 with left := [⟨0, none, some a⟩], right := [⟨0, none, some b⟩] } := by
  have hc := h.links x (List.mem_of_getElem? hx)
  obtain ⟨a, b, l, r, h1, h2, h3, h4, h5, h6⟩ := checkLink_ok hc
  have e := linkVertex_fields (vs := vs) x hf hl
  rw [hnew.1, hnew.2] at e
  have e1 : kcorner vs last.1 (cw last.2) = some a := by
    rw [e] at h1
    simpa [KVertex.leftRef, Hist.set, Hist.last] using h1
  have e2 : kcorner vs first.1 (ccw first.2) = some b := by
    rw [e] at h2
    simpa [KVertex.rightRef, Hist.set, Hist.last] using h2
  have wf : ∀ y : KVertex K × List DEdge, (linkVertex vs y).wfr = y.1.wfr ∧ (linkVertex vs y).wfl = y.1.wfl := by
    intro y
    unfold linkVertex
    split <;> exact ⟨rfl, rfl⟩
  rw [List.getElem?_map] at h3 h4
  obtain ⟨y, hy, rfl⟩ := Option.map_eq_some_iff.1 h3
  obtain ⟨z, hz, rfl⟩ := Option.map_eq_some_iff.1 h4
  rw [(wf y).1, (wf x).2] at h5
  rw [(wf x).1, (wf z).2] at h6
  refine ⟨a, b, y, z, e1, e2, hy, hz, h5, h6, ?_⟩
  rw [e, e1, e2]; rfl

theorem NewVertex.empty {v : DV} {ct : ℕ} {g : List DEdge} {first last : DEdge} {kv : KVertex K}
    (h : NewVertex dt ts v ct g first last kv) : kv.left = [] ∧ kv.right = [] := by
  rw [h.fields]; exact ⟨rfl, rfl⟩

/-- a kinetic vertex of the state -/
theorem Delivered.vert (h : Delivered dt pyid ts vs nbr unwanted sorted s) {u : VId} {kv : KVertex K}
    (hk : s.vert u = .kin kv) : ∃ x, vs[u]? = some x ∧ kv = linkVertex vs x := by
  rw [h.state] at hk
  dsimp only [initState] at hk
  rw [List.getElem?_map] at hk
  cases hx : vs[u]? with
  | none => rw [hx] at hk; cases hk
  | some x => rw [hx] at hk; cases hk; exact ⟨x, rfl, rfl⟩

theorem Delivered.vert_of (h : Delivered dt pyid ts vs nbr unwanted sorted s) {u : VId}
    {x : KVertex K × List DEdge} (hx : vs[u]? = some x) : s.vert u = .kin (linkVertex vs x) := by
  rw [h.state]
  dsimp only [initState]
  rw [List.getElem?_map, hx]; rfl

theorem Delivered.nV (h : Delivered dt pyid ts vs nbr unwanted sorted s) : s.nV = vs.length + 1 := by
  rw [h.state]; dsimp only [initState]; rw [List.length_map]

theorem Early.old_neighbour (h : Early dt ts vs unwanted) {t : TId} {i : Fin 3}
    {n : TId} (hn : ((ts[t]?).bind fun x => x.neighbours i) = some n) :
    n < dt.nT ∧ dt.neighbour t i = some n ∧ dt.constrained t i = false := by
  obtain ⟨x, hx, hn⟩ := Option.bind_eq_some_iff.1 hn
  obtain ⟨_, o, h1, h2, _⟩ := initTri_ok (h.tris.2 t x hx)
  rw [h2 i] at hn
  exact linkSide_ok (h1 i) n hn

theorem Delivered.neighbour (h : Delivered dt pyid ts vs nbr unwanted sorted s) {t : TId} {i : Fin 3}
    {n : TId} (hn : nbr t i = some n) : n < dt.nT := by
  obtain ⟨links, hl, rfl⟩ := h.nbrs
  dsimp only at hn
  split_ifs at hn with hu
  rcases applyLinks_some hn with hn | hm
  · exact (h.old_neighbour hn).1
  · obtain ⟨l, hl1, hl2⟩ := List.mem_flatten.1 hm
    have hf := mapE_ok hl
    obtain ⟨kt, _, hk⟩ : ∃ kt ∈ unwanted, relinkUnwanted (kref dt vs)
        (fun t i => (ts[t]?).bind fun x => x.neighbours i) unwanted kt = .ok l := by
      obtain ⟨j, hj⟩ := List.mem_iff_getElem?.1 hl1
      have hj' := List.getElem?_eq_some_iff.1 hj
      have hlt : j < unwanted.length := by rw [hf.length_eq]; exact hj'.1
      have := (mapE_getElem hl).2 j unwanted[j] (List.getElem?_eq_getElem hlt)
      obtain ⟨y, hy, hr⟩ := this
      rw [hj] at hy
      cases hy
      exact ⟨_, List.getElem_mem hlt, hr⟩
    obtain ⟨_, v, a, b, sa, sb, _, _, h1, h2, _, _, rfl⟩ := relinkUnwanted_ok hk
    obtain ⟨_, u1, i1, e1⟩ := rotateOut_mem h1
    obtain ⟨_, u2, i2, e2⟩ := rotateOut_mem h2
    have ha := (h.old_neighbour e1).1
    have hb := (h.old_neighbour e2).1
    simp only [List.mem_cons, List.not_mem_nil, or_false] at hl2
    rcases hl2 with hl2 | hl2 <;> cases hl2 <;> assumption

theorem Early.corner (_h : Early dt ts vs unwanted) (t : TId) (i : Fin 3) :
    vidOf vs.length (kref dt vs t i) < vs.length + 1 := by
  have key : ∀ u, kcorner vs t i = some u → u < vs.length + 1 := by
    intro u hu
    obtain ⟨x, hx, _⟩ := kcorner_some hu
    exact (List.getElem?_eq_some_iff.1 hx).1.trans (Nat.lt_succ_self _)
  have key2 : vidOf vs.length ((kcorner vs t i).map (KRef.kin (K := K))) < vs.length + 1 := by
    cases hc : kcorner vs t i with
    | none => exact Nat.lt_succ_self _
    | some u => exact key u hc
  unfold kref
  split
  · split_ifs
    · exact key2
    · exact Nat.lt_succ_self _
  · exact key2

theorem histOk_single (r : Option VId) : HistOk (0 : K) [⟨0, none, r⟩] :=
  ⟨fun x hx => by rw [List.mem_singleton.1 hx], List.pairwise_singleton _ _, List.IsChain.singleton _,
    fun x hx => by cases hx; rfl⟩

/-- the state that `init_skeleton` delivers -/
theorem Delivered.initial (h : Delivered dt pyid ts vs nbr unwanted sorted s)
    (hid : ∀ t u, t < dt.nT → u < dt.nT → pyid t = pyid u → t = u) : Initial s := by
  -- every kinetic vertex
  have kin : ∀ u kv, s.vert u = .kin kv → ∃ x v first last a b, vs[u]? = some x ∧ v < dt.nV ∧
      dt.finite v = true ∧ NewVertex dt ts v u x.2 first last x.1 ∧
      a < vs.length ∧ b < vs.length ∧
      kv = { x.1 with left := [⟨0, none, some a⟩], right := [⟨0, none, some b⟩] } := by
    intro u kv hk
    obtain ⟨x, hx, rfl⟩ := h.vert hk
    obtain ⟨v, first, last, hv, hfin, hn, _⟩ := h.origin hx
    obtain ⟨a, b, y, z, _, _, hy, hz, _, _, e⟩ := h.linked hx hn.head hn.tail hn.empty
    exact ⟨x, v, first, last, a, b, hx, hv, hfin, hn, (List.getElem?_eq_some_iff.1 hy).1,
      (List.getElem?_eq_some_iff.1 hz).1, e⟩
  have hnV := h.nV
  have htri : ∀ t, s.tri t = if t ∈ unwanted then
      { vertices := fun i => min i.val vs.length, neighbours := fun _ => none, stopsAt := some 0, info := t + 1,
        internal := dt.internal t }
      else { vertices := fun i => vidOf vs.length (kref dt vs t i), neighbours := nbr t, info := t + 1,
             internal := dt.internal t } := by
    intro t
    rw [h.state]; dsimp only [initState]; rw [List.length_map]
  have hnT : s.nT = dt.nT := by rw [h.state]; rfl
  refine
    { refs :=
        { vertices := ?_, neighbours := ?_, left := ?_, right := ?_, skNodes := ?_, skVertices := ?_,
          skTriangles := ?_ }
      lives := ?_, hist := ?_, kinetic := ?_, triangles := ?_, immediate := ?_, events := ?_, ids := ?_ }
  · intro t _ i
    rw [htri, hnV]
    split_ifs
    · exact Nat.lt_succ_of_le (Nat.min_le_right _ _)
    · exact h.corner t i
  · intro t _ i n hn
    rw [htri] at hn
    rw [hnT]
    split_ifs at hn
    exact h.neighbour hn
  · intro u kv _ hk y hy w hw
    obtain ⟨x, v, first, last, a, b, _, _, _, _, ha, _, rfl⟩ := kin u kv hk
    rw [List.mem_singleton.1 hy] at hw
    cases hw
    rw [hnV]; exact Nat.lt_succ_of_lt ha
  · intro u kv _ hk y hy w hw
    obtain ⟨x, v, first, last, a, b, _, _, _, _, _, hb, rfl⟩ := kin u kv hk
    rw [List.mem_singleton.1 hy] at hw
    cases hw
    rw [hnV]; exact Nat.lt_succ_of_lt hb
  · intro n hn
    rw [h.state] at hn ⊢
    dsimp only [initState] at hn ⊢
    exact List.mem_range.1 (List.mem_filter.1 hn).1
  · intro v hv
    rw [h.state] at hv
    dsimp only [initState] at hv
    rw [List.length_map, List.mem_range] at hv
    rw [hnV]; exact Nat.lt_succ_of_lt hv
  · intro t ht
    rw [h.state] at ht
    dsimp only [initState] at ht
    rw [hnT]
    exact List.mem_range.1 (List.mem_filter.1 (h.perm.mem_iff.1 ht)).1
  · intro u kv _ hk
    obtain ⟨x, v, first, last, a, b, _, hv, hfin, hn, _, _, rfl⟩ := kin u kv hk
    rw [hn.fields]
    refine ⟨rfl, ⟨v, ?_, rfl⟩, rfl, rfl⟩
    rw [h.state]
    exact List.mem_filter.2 ⟨List.mem_range.2 hv, hfin⟩
  · intro u kv _ hk
    obtain ⟨x, v, first, last, a, b, _, _, _, _, _, _, rfl⟩ := kin u kv hk
    exact ⟨histOk_single _, histOk_single _⟩
  · intro v hv
    rw [h.state] at hv
    dsimp only [initState] at hv
    rw [List.length_map, List.mem_range] at hv
    exact ⟨_, h.vert_of (List.getElem?_eq_getElem hv)⟩
  · rw [h.state]
    dsimp only [initState]
    exact h.perm.nodup_iff.2 (List.nodup_range.filter _)
  · rw [h.state]; rfl
  · intro t _
    rw [htri]
    split_ifs <;> rfl
  · intro t u ht hu he
    rw [hnT] at ht hu
    rw [h.state] at he
    exact hid t u ht hu he

/-- the numbers of the kinetic vertices -/
theorem Delivered.numbered (h : Delivered dt pyid ts vs nbr unwanted sorted s) : Numbered s := by
  unfold Numbered
  have e : s.skVertices = List.range vs.length := by
    rw [h.state]; dsimp only [initState]; rw [List.length_map]
  rw [e, List.length_range]
  refine List.map_congr_left fun u hu => ?_
  rw [List.mem_range] at hu
  have hx := List.getElem?_eq_getElem hu
  obtain ⟨v, first, last, _, _, hn, _⟩ := h.origin hx
  obtain ⟨a, b, y, z, _, _, _, _, _, _, e⟩ := h.linked hx hn.head hn.tail hn.empty
  unfold infoOf
  rw [h.vert_of hx, e, hn.fields]

end

end Grassfire
