/-
`init_skeleton`: corners and neighbours of the triangles it delivers, for a consistent triangulation
(lemmas for C70).
-/
import Verif.Props.Initialize

set_option linter.unusedSectionVars false

namespace Grassfire

open Spec

variable {K : Type} [Field K] [LinearOrder K] [HasSqrt K] {dt : Dt K}

/-! ### lists -/

theorem isChain_rotated {α : Type} {R : α → α → Prop} {l l' : List α} (h : l ~r l') (hc : l'.IsChain R)
    (hl : ∀ x ∈ l'.getLast?, ∀ y ∈ l'.head?, R x y) : l.IsChain R := by
  obtain ⟨n, hn⟩ := h.symm
  rw [List.rotate_eq_drop_append_take_mod] at hn
  generalize n % l'.length = k at hn
  rw [← List.take_append_drop k l', List.isChain_append] at hc
  rw [← hn, List.isChain_append]
  refine ⟨hc.2.1, hc.1, fun x hx y hy => ?_⟩
  refine hl x ?_ y ?_
  · rw [Option.mem_def] at hx ⊢
    rw [← List.take_append_drop k l', List.getLast?_append, hx]; rfl
  · rw [Option.mem_def] at hy ⊢
    rw [← List.take_append_drop k l', List.head?_append, hy]; rfl

/-- where an element of a list without repetitions stands -/
theorem nodup_split {α : Type} {e : α} : ∀ {p p' q q' : List α}, (p ++ e :: q).Nodup →
    p ++ e :: q = p' ++ e :: q' → p = p' ∧ q = q'
  | [], [], q, q', _, h => by cases h; exact ⟨rfl, rfl⟩
  | [], a :: p', q, q', hn, h => by
    cases h
    exact absurd (by simp) (List.nodup_cons.1 hn).1
  | a :: p, [], q, q', hn, h => by
    rw [List.cons_append, List.nil_append, List.cons.injEq] at h
    obtain ⟨rfl, rfl⟩ := h
    exact absurd (by simp) (List.nodup_cons.1 hn).1
  | a :: p, b :: p', q, q', hn, h => by
    rw [List.cons_append, List.cons_append, List.cons.injEq] at h
    obtain ⟨rfl, h⟩ := h
    obtain ⟨rfl, rfl⟩ := nodup_split (List.nodup_cons.1 hn).2 h
    exact ⟨rfl, rfl⟩

/-- the first element without a property -/
theorem first_unique {α : Type} {P : α → Prop} {f f' : α} : ∀ {m m' q q' : List α}, (∀ x ∈ m, P x) →
    (∀ x ∈ m', P x) → ¬ P f → ¬ P f' → m ++ f :: q = m' ++ f' :: q' → m = m' ∧ f = f' ∧ q = q'
  | [], [], q, q', _, _, _, _, h => by cases h; exact ⟨rfl, rfl, rfl⟩
  | [], a :: m', q, q', _, h2, h3, _, h => by
    cases h
    exact absurd (h2 f (List.mem_cons_self ..)) h3
  | a :: m, [], q, q', h1, _, _, h4, h => by
    rw [List.cons_append, List.nil_append, List.cons.injEq] at h
    obtain ⟨rfl, rfl⟩ := h
    exact absurd (h1 _ (List.mem_cons_self ..)) h4
  | a :: m, b :: m', q, q', h1, h2, h3, h4, h => by
    rw [List.cons_append, List.cons_append, List.cons.injEq] at h
    obtain ⟨rfl, h⟩ := h
    obtain ⟨rfl, rfl, rfl⟩ := first_unique (fun x hx => h1 x (List.mem_cons_of_mem _ hx))
      (fun x hx => h2 x (List.mem_cons_of_mem _ hx)) h3 h4 h
    exact ⟨rfl, rfl, rfl⟩

/-! ### walks -/

/-- `rotate_until_not_in_candidates` finds the first triangle of the row that is no candidate -/
theorem rotateOut_row {corner : DT → Fin 3 → Option (KRef K)} {nbr : TId → Fin 3 → Option TId} {v : VId}
    {dir : Fin 3 → Fin 3} {cands : List TId} : ∀ {L : List DEdge} {e : DEdge} {fuel : ℕ} {seen : List TId} {n : TId},
    (e :: L).IsChain (fun a b => nbr a.1 (dir a.2) = some b.1) →
    (∀ a ∈ (e :: L).getLast?, nbr a.1 (dir a.2) = none) → (∀ a ∈ e :: L, cornerOf corner v a.1 = .ok a.2) →
    rotateOut corner nbr v dir cands fuel seen e.1 = .ok (some n) →
    ∃ mid f q, L = mid ++ f :: q ∧ f.1 = n ∧ n ∉ cands ∧ ∀ x ∈ mid, x.1 ∈ cands
  | _, _, 0, _, _, _, _, _, h => by cases h
  | L, e, fuel + 1, seen, n, hc, hl, hv, h => by
    unfold rotateOut at h
    by_cases hs : e.1 ∈ seen
    · rw [if_pos hs] at h; cases h
    rw [if_neg hs, hv e (List.mem_cons_self ..)] at h
    dsimp only at h
    cases L with
    | nil =>
      rw [hl e (by simp)] at h
      cases h
    | cons f L =>
      rw [List.isChain_cons_cons] at hc
      rw [hc.1] at h
      dsimp only at h
      split_ifs at h with hm
      · obtain ⟨mid, g, q, rfl, h1, h2, h3⟩ := rotateOut_row hc.2 (fun a ha => hl a (by
          rw [List.getLast?_cons_cons]; exact ha)) (fun a ha => hv a (List.mem_cons_of_mem _ ha)) h
        refine ⟨f :: mid, g, q, rfl, h1, h2, fun x hx => ?_⟩
        rcases List.mem_cons.1 hx with rfl | hx
        · exact hm
        · exact h3 x hx
      · cases h
        exact ⟨[], f, L, rfl, rfl, hm, by simp⟩

/-! ### links -/

theorem applyLinks_cons {nbr : TId → Fin 3 → Option TId} {x : TId × Fin 3 × TId} {rest : List (TId × Fin 3 × TId)} :
    applyLinks nbr (x :: rest) =
      applyLinks (Function.update nbr x.1 (Function.update (nbr x.1) x.2.1 (some x.2.2))) rest := rfl

/-- sides that are not linked keep their neighbour -/
theorem applyLinks_other : ∀ {links : List (TId × Fin 3 × TId)} {nbr : TId → Fin 3 → Option TId} {t : TId} {i : Fin 3},
    (∀ n, (t, i, n) ∉ links) → applyLinks nbr links t i = nbr t i
  | [], _, _, _, _ => rfl
  | (u, j, m) :: rest, nbr, t, i, h => by
    rw [applyLinks_cons, applyLinks_other fun n hn => h n (List.mem_cons_of_mem _ hn)]
    dsimp only
    by_cases hu : t = u
    · subst hu
      rw [Function.update_self]
      refine Function.update_of_ne ?_ _ _
      rintro rfl
      exact h m (List.mem_cons_self ..)
    · rw [Function.update_of_ne hu]

/-- the others get the new one -/
theorem applyLinks_mem : ∀ {links : List (TId × Fin 3 × TId)} {nbr : TId → Fin 3 → Option TId} {t : TId} {i : Fin 3}
    {n : TId}, (∀ m, (t, i, m) ∈ links → m = n) → (t, i, n) ∈ links → applyLinks nbr links t i = some n
  | [], _, _, _, _, _, h => absurd h List.not_mem_nil
  | x :: rest, nbr, t, i, n, hu, h => by
    rw [applyLinks_cons]
    by_cases hr : ∃ m, (t, i, m) ∈ rest
    · obtain ⟨m, hm⟩ := hr
      have e := hu m (List.mem_cons_of_mem _ hm)
      subst e
      exact applyLinks_mem (fun m' hm' => hu m' (List.mem_cons_of_mem _ hm')) hm
    · rw [applyLinks_other fun m hm => hr ⟨m, hm⟩]
      rcases List.mem_cons.1 h with rfl | h
      · rw [Function.update_self, Function.update_self]
      · exact absurd ⟨n, h⟩ hr

theorem applyLinks_none {links : List (TId × Fin 3 × TId)} {nbr : TId → Fin 3 → Option TId} {t : TId} {i : Fin 3}
    (h : applyLinks nbr links t i = none) : nbr t i = none := by
  induction links generalizing nbr with
  | nil => exact h
  | cons x rest ih =>
    rw [applyLinks_cons] at h
    have := ih h
    by_cases hu : t = x.1
    · subst hu
      rw [Function.update_self] at this
      by_cases hi : i = x.2.1
      · subst hi; rw [Function.update_self] at this; cases this
      · rwa [Function.update_of_ne hi] at this
    · rwa [Function.update_of_ne hu] at this

/-! ### groups -/

section
variable {pyid : TId → ℕ} {ts : List (TriStart K)} {vs : List (KVertex K × List DEdge)}
  {nbr : TId → Fin 3 → Option TId} {unwanted sorted : List TId} {s : St K}

/-- the triangles at one kinetic vertex -/
structure Around (dt : Dt K) (v : DV) (g : List DEdge) : Prop where
  finite : dt.finite v = true
  ok : GroupOk dt g
  corner : ∀ e ∈ g, dt.corner e.1 e.2 = some v
  bound : ∀ e ∈ g, e.1 < dt.nT
  next : g.IsChain (Next dt)
  nodup : g.Nodup

theorem Early.around (h : Early dt ts vs unwanted) (hdt : DtMesh dt) {u : VId}
    {x : KVertex K × List DEdge} (hx : vs[u]? = some x) : ∃ v, Around dt v x.2 := by
  obtain ⟨v, first, last, hv, hf, hn, gs, hs, hm, hl⟩ := h.origin hx
  obtain ⟨hr, hne⟩ := C41_rotation dt v gs hs
  have hsub : ∀ e ∈ x.2, e ∈ dt.star v := fun e he => hr.mem_iff.1 (List.mem_flatten.2 ⟨_, hm, he⟩)
  have hnn : ([] : List DEdge) ∉ gs := fun hh => hne _ hh rfl
  have hch := isChain_rotated hr (hdt.star_next v hv) (hdt.star_closed v hv)
  have hnd := hr.nodup_iff.2 (hdt.star_nodup v hv)
  obtain ⟨gs', hs', hok⟩ := C41_groups dt v (hdt.star_ok v hv)
  rw [hs] at hs'
  cases hs'
  have hlen : 1 < gs.length := by
    have : 0 < gs.length := List.length_pos_of_mem hm
    omega
  exact ⟨v, hf, hok hlen _ hm, fun e he => hdt.star_corner v hv e (hsub e he), hn.bounds,
    ((List.isChain_flatten hnn).1 hch).1 _ hm, (List.nodup_flatten.1 hnd).1 _ hm⟩

theorem Around.split {v : DV} {g : List DEdge} (h : Around dt v g) {e : DEdge} (he : e ∈ g) (ha : ¬ Ahead dt e) :
    ∃ p f q, g = p ++ e :: f :: q := by
  obtain ⟨p, q, hg⟩ := List.mem_iff_append.1 he
  cases q with
  | nil =>
    exact absurd (h.ok.last e (by rw [hg]; simp)) ha
  | cons f q => exact ⟨p, f, q, hg⟩

theorem Around.unsplit {v : DV} {g : List DEdge} (h : Around dt v g) {e : DEdge} {p q : List DEdge}
    (hg : g = p ++ e :: q) (hb : ¬ Behind dt e) : ∃ r d, p = r ++ [d] := by
  rcases List.eq_nil_or_concat p with rfl | ⟨r, d, hr⟩
  · exact absurd (h.ok.first e (by rw [hg]; simp)) hb
  · exact ⟨r, d, by rw [hr, List.concat_eq_append]⟩

/-- two triangles that follow each other -/
theorem Around.step {v : DV} {g : List DEdge} (h : Around dt v g) (hdt : DtMesh dt) {e f : DEdge}
    {p q : List DEdge} (hg : g = p ++ e :: f :: q) :
    dt.neighbour e.1 (ccw e.2) = some f.1 ∧ dt.neighbour f.1 (cw f.2) = some e.1 ∧
    dt.corner f.1 (ccw f.2) = dt.corner e.1 (cw e.2) ∧
    dt.constrained e.1 (ccw e.2) = false ∧ dt.constrained f.1 (cw f.2) = false := by
  have he : e ∈ g := by rw [hg]; simp
  have hf : f ∈ g := by rw [hg]; simp
  have h1 : dt.neighbour e.1 (ccw e.2) = some f.1 := by
    have := h.next
    rw [hg, List.isChain_append_cons_cons] at this
    exact this.2.1
  obtain ⟨j, h2, h3, h4, h5⟩ := hdt.back _ (h.bound e he) _ _ h1 (h.bound f hf)
  have e1 : ∀ i : Fin 3, ccw i + 2 = i := by decide
  have e2 : ∀ i : Fin 3, ccw i + 1 = cw i := by decide
  have e3 : ∀ i j : Fin 3, j + 1 = i → j = cw i ∧ j + 2 = ccw i := by decide
  rw [e1, h.corner e he, ← h.corner f hf] at h3
  obtain ⟨e4, e5⟩ := e3 _ _ (hdt.distinct _ (h.bound f hf) h3)
  rw [e2, e5] at h4
  rw [e4] at h2 h5
  have ha : dt.constrained e.1 (ccw e.2) = false := by
    have := h.ok.ahead e (by
      rw [hg, List.dropLast_append_of_ne_nil (by simp), List.dropLast_cons_of_ne_nil (by simp)]; simp)
    unfold Ahead at this
    simpa using this
  exact ⟨h1, h2, h4, ha, by rw [h5]; exact ha⟩

/-- a corner at a finite vertex -/
theorem Early.finite_corner (h : Early dt ts vs unwanted) (hdt : DtMesh dt) {t : DT}
    (ht : t < dt.nT) {i : Fin 3} {w : DV} (hw : dt.corner t i = some w) (hf : dt.finite w = true) :
    ∃ (u : ℕ) (x : KVertex K × List DEdge), vs[u]? = some x ∧ (t, i) ∈ x.2 ∧ Around dt w x.2 ∧
      kcorner vs t i = some u ∧ kref dt vs t i = some (.kin u) := by
  obtain ⟨w', hw', hfin⟩ := hdt.corners t ht i
  rw [hw] at hw'
  cases hw'
  obtain ⟨hlt, hstar⟩ := hfin hf
  obtain ⟨_, hall, _⟩ := makeVertices_ok h.vertices
  obtain ⟨gs, hg, hidx⟩ := hall w (List.mem_range.2 hlt)
  obtain ⟨_, hs, _⟩ := vertexGroups_ok hg
  obtain ⟨hr, _⟩ := C41_rotation dt w gs hs
  obtain ⟨g, hgm, heg⟩ := List.mem_flatten.1 (hr.mem_iff.2 hstar)
  obtain ⟨u, x, hx, rfl⟩ := hidx g hgm
  obtain ⟨v, ha⟩ := h.around hdt hx
  have e := ha.corner _ heg
  dsimp only at e
  rw [hw] at e
  cases e
  have hk : kcorner vs t i = some u := kcorner_eq hx heg fun w' q hw' hq => h.unique hdt.toDtOk hx hw' heg hq
  refine ⟨u, x, hx, heg, ha, hk, ?_⟩
  unfold kref
  rw [hw]
  dsimp only
  rw [if_pos hf, hk]; rfl

theorem kref_kin {t : DT} {i : Fin 3} {u : VId} (hk : kref dt vs t i = some (.kin u)) :
    kcorner vs t i = some u := by
  have key : ∀ o : Option VId, o.map (KRef.kin (K := K)) = some (.kin u) → o = some u := by
    intro o ho
    cases o with
    | none => cases ho
    | some w => cases ho; rfl
  unfold kref at hk
  split at hk
  · split_ifs at hk
    · exact key _ hk
    · cases hk
  · exact key _ hk

/-- an infinite corner -/
theorem kref_inf {t : DT} {i : Fin 3} {w : DV} (hw : dt.corner t i = some w) (hf : dt.finite w = false) :
    kref dt vs t i = some (.inf (dt.pos w)) := by
  unfold kref
  rw [hw]
  dsimp only
  rw [hf]; rfl

theorem Early.kin_corner (h : Early dt ts vs unwanted) (hdt : DtMesh dt) {t : DT}
    {i : Fin 3} {u : VId} (hk : kref dt vs t i = some (.kin u)) :
    ∃ x w, vs[u]? = some x ∧ (t, i) ∈ x.2 ∧ dt.corner t i = some w ∧ dt.finite w = true ∧ Around dt w x.2 := by
  obtain ⟨x, hx, hm⟩ := kcorner_some (kref_kin hk)
  obtain ⟨w, ha⟩ := h.around hdt hx
  exact ⟨x, w, hx, hm, ha.corner _ hm, ha.finite, ha⟩

theorem Early.kref_member (h : Early dt ts vs unwanted) (hdt : DtMesh dt) {u : VId}
    {x : KVertex K × List DEdge} (hx : vs[u]? = some x) {e : DEdge} (he : e ∈ x.2) :
    kref dt vs e.1 e.2 = some (.kin u) := by
  obtain ⟨w, ha⟩ := h.around hdt hx
  obtain ⟨u', x', hx', hm, _, hk, hr⟩ := h.finite_corner hdt (ha.bound e he) (ha.corner e he) ha.finite
  have := h.unique hdt.toDtOk hx hx' he hm
  subst this
  exact hr

/-- the corner at which a triangle has a kinetic vertex -/
theorem Early.cornerOf_member (h : Early dt ts vs unwanted) (hdt : DtMesh dt) {u : VId}
    {x : KVertex K × List DEdge} (hx : vs[u]? = some x) {e : DEdge} (he : e ∈ x.2) :
    cornerOf (kref dt vs) u e.1 = .ok e.2 := by
  obtain ⟨w, ha⟩ := h.around hdt hx
  have hr := h.kref_member hdt hx he
  have huniq : ∀ j, kref dt vs e.1 j = some (.kin u) → j = e.2 := by
    intro j hj
    obtain ⟨y, w', hy, hm, hc, _, _⟩ := h.kin_corner hdt hj
    rw [hx] at hy
    cases hy
    exact hdt.distinct _ (ha.bound e he) ((ha.corner _ hm).trans (ha.corner e he).symm)
  unfold cornerOf index3
  generalize e.2 = k at hr huniq
  by_cases h0 : kref dt vs e.1 0 = some (.kin u)
  · rw [if_pos h0, huniq 0 h0]
  rw [if_neg h0]
  by_cases h1 : kref dt vs e.1 1 = some (.kin u)
  · rw [if_pos h1, huniq 1 h1]
  rw [if_neg h1]
  by_cases h2 : kref dt vs e.1 2 = some (.kin u)
  · rw [if_pos h2, huniq 2 h2]
  exfalso
  fin_cases k
  · exact h0 hr
  · exact h1 hr
  · exact h2 hr

/-! ### neighbours before the three triangles are taken out -/

/-- the neighbours in the triangles before three of them are taken out -/
abbrev oldNbr (ts : List (TriStart K)) (t : TId) (i : Fin 3) : Option TId := (ts[t]?).bind fun x => x.neighbours i

theorem Early.old_some (h : Early dt ts vs unwanted) (hdt : DtMesh dt) {t n : DT}
    (ht : t < dt.nT) (hn : n < dt.nT) {i : Fin 3} (hb : dt.neighbour t i = some n)
    (hc : dt.constrained t i = false) : oldNbr ts t i = some n := by
  have hlt : t < ts.length := by rw [h.tris.1]; exact ht
  have hx := List.getElem?_eq_getElem hlt
  obtain ⟨_, o, h1, h2, _⟩ := initTri_ok (h.tris.2 t _ hx)
  unfold oldNbr
  rw [hx, Option.bind_some, h2]
  have := h1 i
  unfold linkSide at this
  obtain ⟨w, hw, _⟩ := hdt.corners n hn 2
  rw [hc, hb] at this
  simp only [Bool.false_eq_true, if_false] at this
  rw [hw] at this
  simp only [reduceCtorEq, if_false] at this
  rw [if_pos hn] at this
  cases hoi : o i with
  | none => rw [hoi] at this; cases this
  | some y => rw [hoi] at this; cases this; rfl

theorem count3_pos {α : Type} [DecidableEq α] {f : Fin 3 → α} {x : α} {i : Fin 3} (h : f i = x) : 0 < count3 f x := by
  unfold count3
  fin_cases i
  · rw [show f 0 = x from h]; simp
  · rw [show f 1 = x from h]; simp
  · rw [show f 2 = x from h]; simp

theorem Early.old_none (h : Early dt ts vs unwanted) {t : DT}
    (ht : t < dt.nT) (hu : t ∉ unwanted) {i : Fin 3} (hb : oldNbr ts t i = none) : dt.constrained t i = true := by
  have hlt : t < ts.length := by rw [h.tris.1]; exact ht
  have hx := List.getElem?_eq_getElem hlt
  obtain ⟨_, o, h1, h2, h3⟩ := initTri_ok (h.tris.2 t _ hx)
  unfold oldNbr at hb
  rw [hx, Option.bind_some, h2] at hb
  cases hoi : o i with
  | none =>
    exfalso
    apply hu
    rw [h.eqUnwanted]
    unfold unwantedOf
    refine List.mem_flatMap.2 ⟨(ts[t], t), List.mem_zipIdx_iff_getElem?.2 hx, ?_⟩
    rw [List.mem_replicate]
    refine ⟨?_, rfl⟩
    dsimp only
    rw [h3]
    exact (count3_pos hoi).ne'
  | some y =>
    rw [hoi] at hb
    cases y with
    | some n => cases hb
    | none =>
      have := h1 i
      rw [hoi] at this
      unfold linkSide at this
      by_contra hc
      rw [if_neg hc] at this
      cases hn : dt.neighbour t i with
      | none => rw [hn] at this; cases this
      | some n =>
        rw [hn] at this
        dsimp only at this
        split_ifs at this <;> cases this

/-- neighbours have the same kinetic corners -/
theorem Early.shared (h : Early dt ts vs unwanted) (hdt : DtMesh dt) {t n : DT}
    (ht : t < dt.nT) (hn : n < dt.nT) {i j : Fin 3} (hb : dt.neighbour t i = some n)
    (hc : dt.constrained t i = false) (he : dt.corner n (j + 1) = dt.corner t (i + 2)) :
    kref dt vs n (j + 1) = kref dt vs t (i + 2) := by
  obtain ⟨w, hw, _⟩ := hdt.corners t ht (i + 2)
  rw [hw] at he
  by_cases hf : dt.finite w = true
  · obtain ⟨u, x, hx, hm, ha, _, hr⟩ := h.finite_corner hdt ht hw hf
    have e1 : ∀ i : Fin 3, ccw (i + 2) = i := by decide
    obtain ⟨p, f, q, hg⟩ := ha.split hm (by unfold Ahead; rw [e1, hc]; simp)
    obtain ⟨h1, _⟩ := ha.step hdt hg
    rw [e1, hb] at h1
    have hfm : f ∈ x.2 := by rw [hg]; simp
    have e2 : n = f.1 := Option.some.inj h1
    have e3 : f.2 = j + 1 := by
      refine hdt.distinct n hn ?_
      rw [he, e2]
      exact ha.corner f hfm
    rw [hr, e2, ← e3]
    exact h.kref_member hdt hx hfm
  · have hf : dt.finite w = false := by simpa using hf
    rw [kref_inf hw hf, kref_inf he hf]

/-! ### the three triangles -/

theorem Early.mem_unwanted (h : Early dt ts vs unwanted) {t : TId} :
    t ∈ unwanted ↔ t < dt.nT ∧ sides.countP (fun i => KRef.isInf (kref dt vs t i)) = 2 := by
  rw [h.eqRemove]
  unfold removeOf
  rw [List.mem_filter, List.mem_range]
  simp

theorem Early.isInf_iff (h : Early dt ts vs unwanted) (hdt : DtMesh dt) {t : DT} (ht : t < dt.nT)
    {i : Fin 3} {w : DV} (hw : dt.corner t i = some w) :
    KRef.isInf (kref dt vs t i) = !dt.finite w := by
  cases hf : dt.finite w with
  | true =>
    obtain ⟨u, x, _, _, _, _, hr⟩ := h.finite_corner hdt ht hw hf
    rw [hr]; rfl
  | false => rw [kref_inf hw hf]; rfl

/-- the other corners of a triangle that is taken out, next to a kinetic one, are infinite -/
theorem Early.unwanted_inf (h : Early dt ts vs unwanted) {t : TId}
    (ht : t ∈ unwanted) {i : Fin 3} {u : VId} (hk : kref dt vs t i = some (.kin u)) {j : Fin 3} (hj : j ≠ i) :
    KRef.isInf (kref dt vs t j) = true := by
  have h2 := (h.mem_unwanted.1 ht).2
  have h0 : KRef.isInf (kref dt vs t i) = false := by rw [hk]; rfl
  unfold sides at h2
  simp only [List.countP_cons, List.countP_nil] at h2
  fin_cases i <;> fin_cases j <;> first | exact absurd rfl hj | skip
  all_goals
    simp only [Fin.zero_eta, Fin.mk_one, Fin.reduceFinMk] at h0 ⊢
    rw [h0] at h2
    simp only [Bool.false_eq_true, if_false] at h2
    by_contra hc
    simp only [hc] at h2
    split_ifs at h2 <;> omega

/-- a triangle that stays has at most one infinite corner -/
theorem Early.wanted_inf (h : Early dt ts vs unwanted) (hdt : DtMesh dt) {t : TId}
    (ht : t < dt.nT) (hu : t ∉ unwanted) {i j : Fin 3} (hi : KRef.isInf (kref dt vs t i) = true)
    (hj : KRef.isInf (kref dt vs t j) = true) : i = j := by
  have h2 : sides.countP (fun i => KRef.isInf (kref dt vs t i)) ≠ 2 := fun e => hu (h.mem_unwanted.2 ⟨ht, e⟩)
  obtain ⟨k, w, hw, hf⟩ := hdt.proper t ht
  have hk := h.isInf_iff hdt ht hw
  rw [hf] at hk
  unfold sides at h2
  simp only [List.countP_cons, List.countP_nil] at h2
  by_contra hne
  apply h2
  fin_cases i <;> fin_cases j <;> first | exact absurd rfl hne | skip
  all_goals
    simp only [Fin.zero_eta, Fin.mk_one, Fin.reduceFinMk] at hi hj
    rw [hi, hj]
    fin_cases k <;> simp_all

/-! ### what the removal links -/

/-- between `e` and `f` lie triangles that are taken out -/
structure Gap (dt : Dt K) (vs : List (KVertex K × List DEdge)) (unwanted : List TId) (u : VId) (e f : DEdge) : Prop where
  row : ∃ x p mid q, vs[u]? = some x ∧ x.2 = p ++ e :: (mid ++ f :: q) ∧ mid ≠ [] ∧ ∀ m ∈ mid, m.1 ∈ unwanted
  before : e.1 ∉ unwanted
  after : f.1 ∉ unwanted

theorem Gap.mem {u : VId} {e f : DEdge} (h : Gap dt vs unwanted u e f) : ∃ x, vs[u]? = some x ∧ e ∈ x.2 ∧ f ∈ x.2 := by
  obtain ⟨x, p, mid, q, hx, hg, _⟩ := h.row
  exact ⟨x, hx, by rw [hg]; simp, by rw [hg]; simp⟩

theorem Early.gap_sides (h : Early dt ts vs unwanted) (hdt : DtMesh dt) {u : VId} {e f : DEdge}
    (hg : Gap dt vs unwanted u e f) :
    dt.constrained e.1 (ccw e.2) = false ∧ dt.constrained f.1 (cw f.2) = false ∧
    KRef.isInf (kref dt vs e.1 (cw e.2)) = true ∧ KRef.isInf (kref dt vs f.1 (ccw f.2)) = true ∧
    (∃ n ∈ unwanted, dt.neighbour e.1 (ccw e.2) = some n) ∧ ∃ n ∈ unwanted, dt.neighbour f.1 (cw f.2) = some n := by
  obtain ⟨x, p, mid, q, hx, hrow, hne, hall⟩ := hg.row
  obtain ⟨v, ha⟩ := h.around hdt hx
  have hmem : ∀ m ∈ mid, m ∈ x.2 := fun m hm => by rw [hrow]; simp [hm]
  have hemem : e ∈ x.2 := by rw [hrow]; simp
  have hfmem : f ∈ x.2 := by rw [hrow]; simp
  have inf : ∀ m ∈ mid, ∀ j, j ≠ m.2 → ∃ w, dt.corner m.1 j = some w ∧ dt.finite w = false := by
    intro m hm j hj
    obtain ⟨w, hw, _⟩ := hdt.corners m.1 (ha.bound m (hmem m hm)) j
    have := h.unwanted_inf (hall m hm) (h.kref_member hdt hx (hmem m hm)) hj
    rw [h.isInf_iff hdt (ha.bound m (hmem m hm)) hw] at this
    exact ⟨w, hw, by simpa using this⟩
  have ne1 : ∀ i : Fin 3, ccw i ≠ i := by decide
  have ne2 : ∀ i : Fin 3, cw i ≠ i := by decide
  have part1 : dt.constrained e.1 (ccw e.2) = false ∧ KRef.isInf (kref dt vs e.1 (cw e.2)) = true ∧
      ∃ n ∈ unwanted, dt.neighbour e.1 (ccw e.2) = some n := by
    cases mid with
    | nil => exact absurd rfl hne
    | cons m mid =>
      obtain ⟨h1, _, h3, h4, _⟩ := ha.step hdt (e := e) (f := m) (p := p) (q := mid ++ f :: q) hrow
      obtain ⟨w, hw, hf⟩ := inf m (List.mem_cons_self ..) (ccw m.2) (ne1 _)
      rw [h3] at hw
      refine ⟨h4, ?_, _, hall m (List.mem_cons_self ..), h1⟩
      rw [h.isInf_iff hdt (ha.bound e hemem) hw, hf]; rfl
  have part2 : dt.constrained f.1 (cw f.2) = false ∧ KRef.isInf (kref dt vs f.1 (ccw f.2)) = true ∧
      ∃ n ∈ unwanted, dt.neighbour f.1 (cw f.2) = some n := by
    rcases List.eq_nil_or_concat mid with rfl | ⟨mid, m, hm⟩
    · exact absurd rfl hne
    · rw [List.concat_eq_append] at hm
      subst hm
      have hm' : m ∈ mid ++ [m] := by simp
      obtain ⟨_, h2, h3, _, h5⟩ := ha.step hdt (e := m) (f := f) (p := p ++ e :: mid) (q := q)
        (by rw [hrow]; simp)
      obtain ⟨w, hw, hf⟩ := inf m hm' (cw m.2) (ne2 _)
      rw [← h3] at hw
      refine ⟨h5, ?_, _, hall m hm', h2⟩
      rw [h.isInf_iff hdt (ha.bound f hfmem) hw, hf]; rfl
  exact ⟨part1.1, part2.1, part1.2.1, part2.2.1, part1.2.2, part2.2.2⟩

/-- the row of triangles at a kinetic vertex, counterclockwise -/
theorem Early.row_ccw (h : Early dt ts vs unwanted) (hdt : DtMesh dt) {v : DV}
    {g : List DEdge} (ha : Around dt v g) :
    g.IsChain (fun a b => oldNbr ts a.1 (ccw a.2) = some b.1) ∧
    (∀ a ∈ g.getLast?, oldNbr ts a.1 (ccw a.2) = none) := by
  constructor
  · rw [List.isChain_iff_forall_rel_of_append_cons_cons]
    intro e f p q hg
    obtain ⟨h1, _, _, h4, _⟩ := ha.step hdt hg
    exact h.old_some hdt (ha.bound e (by rw [hg]; simp)) (ha.bound f (by rw [hg]; simp)) h1 h4
  · intro a hl
    have hc := ha.ok.last a hl
    unfold Ahead at hc
    cases hn : oldNbr ts a.1 (ccw a.2) with
    | none => rfl
    | some n =>
      have := (h.old_neighbour hn).2.2
      rw [hc] at this
      cases this

/-- the row of triangles at a kinetic vertex, clockwise -/
theorem Early.row_cw (h : Early dt ts vs unwanted) (hdt : DtMesh dt) {v : DV}
    {g : List DEdge} (ha : Around dt v g) :
    g.reverse.IsChain (fun a b => oldNbr ts a.1 (cw a.2) = some b.1) ∧
    (∀ a ∈ g.reverse.getLast?, oldNbr ts a.1 (cw a.2) = none) := by
  constructor
  · rw [List.isChain_reverse, List.isChain_iff_forall_rel_of_append_cons_cons]
    intro e f p q hg
    obtain ⟨_, h2, _, _, h5⟩ := ha.step hdt hg
    exact h.old_some hdt (ha.bound f (by rw [hg]; simp)) (ha.bound e (by rw [hg]; simp)) h2 h5
  · intro a hl
    rw [List.getLast?_reverse] at hl
    have hc := ha.ok.first a hl
    unfold Behind at hc
    cases hn : oldNbr ts a.1 (cw a.2) with
    | none => rfl
    | some n =>
      have := (h.old_neighbour hn).2.2
      rw [hc] at this
      cases this

/-- what is linked for one of the triangles that are taken out -/
theorem Early.relink (h : Early dt ts vs unwanted) (hdt : DtMesh dt) {kt : TId}
    (hkt : kt ∈ unwanted) {ls : List (TId × Fin 3 × TId)}
    (hr : relinkUnwanted (kref dt vs) (oldNbr ts) unwanted kt = .ok ls) :
    ∃ u e f, Gap dt vs unwanted u e f ∧ ls = [(e.1, ccw e.2, f.1), (f.1, cw f.2, e.1)] := by
  obtain ⟨i, u, a, b, sa, sb, _, hk, ha, hb, hsa, hsb, rfl⟩ := relinkUnwanted_ok hr
  obtain ⟨x, w, hx, hm, _, _, har⟩ := h.kin_corner hdt hk
  obtain ⟨p, q, hg⟩ := List.mem_iff_append.1 hm
  have hcor : ∀ a ∈ x.2, cornerOf (kref dt vs) u a.1 = .ok a.2 := fun a ha => h.cornerOf_member hdt hx ha
  obtain ⟨c1, l1⟩ := h.row_ccw hdt har
  obtain ⟨c2, l2⟩ := h.row_cw hdt har
  have hrev : x.2.reverse = q.reverse ++ (kt, i) :: p.reverse := by rw [hg]; simp
  obtain ⟨m1, e, r1, h1, rfl, h3, h4⟩ := rotateOut_row (L := p.reverse) (e := (kt, i))
    (by rw [hrev, List.isChain_append] at c2; exact c2.2.1)
    (by
      intro a ha
      refine l2 a ?_
      rw [hrev, List.getLast?_append, ha]; rfl)
    (fun a ha => hcor a (by
      rw [← List.mem_reverse, hrev]; exact List.mem_append_right _ ha)) ha
  obtain ⟨m2, f, r2, h5, rfl, h7, h8⟩ := rotateOut_row (L := q) (e := (kt, i))
    (by rw [hg, List.isChain_append] at c1; exact c1.2.1)
    (by
      intro a ha
      refine l1 a ?_
      rw [hg, List.getLast?_append, ha]; rfl)
    (fun a ha => hcor a (by rw [hg]; exact List.mem_append_right _ ha)) hb
  have hp : p = r1.reverse ++ e :: m1.reverse := by
    rw [← List.reverse_reverse p, h1]; simp
  have hrow : x.2 = r1.reverse ++ e :: ((m1.reverse ++ (kt, i) :: m2) ++ f :: r2) := by
    rw [hg, hp, h5]; simp
  have he := hcor e (by rw [hrow]; simp)
  have hf := hcor f (by rw [hrow]; simp)
  rw [hsa] at he
  rw [hsb] at hf
  cases he
  cases hf
  refine ⟨u, e, f, ⟨⟨x, _, _, _, hx, hrow, by simp, ?_⟩, h3, h7⟩, rfl⟩
  intro m hm
  simp only [List.mem_append, List.mem_reverse, List.mem_cons] at hm
  rcases hm with hm | rfl | hm
  · exact h4 m hm
  · exact hkt
  · exact h8 m hm

/-- the links that are made -/
theorem Early.links_made (h : Early dt ts vs unwanted) (hdt : DtMesh dt) {links : List (List (TId × Fin 3 × TId))}
    (hl : mapE (relinkUnwanted (kref dt vs) (oldNbr ts) unwanted) unwanted = .ok links) :
    ∀ t i n, (t, i, n) ∈ links.flatten → ∃ u e f, Gap dt vs unwanted u e f ∧
      (e.1, ccw e.2, f.1) ∈ links.flatten ∧ (f.1, cw f.2, e.1) ∈ links.flatten ∧
      ((t, i, n) = (e.1, ccw e.2, f.1) ∨ (t, i, n) = (f.1, cw f.2, e.1)) := by
  intro t i n hm
  obtain ⟨l, hl1, hl2⟩ := List.mem_flatten.1 hm
  have hf := mapE_ok hl
  obtain ⟨kt, hkt, hk⟩ : ∃ kt ∈ unwanted, relinkUnwanted (kref dt vs) (oldNbr ts) unwanted kt = .ok l := by
    obtain ⟨j, hj⟩ := List.mem_iff_getElem?.1 hl1
    have hj' := List.getElem?_eq_some_iff.1 hj
    have hlt : j < unwanted.length := by rw [hf.length_eq]; exact hj'.1
    have := (mapE_getElem hl).2 j unwanted[j] (List.getElem?_eq_getElem hlt)
    obtain ⟨y, hy, hr⟩ := this
    rw [hj] at hy
    cases hy
    exact ⟨_, List.getElem_mem hlt, hr⟩
  obtain ⟨u, e, f, hg, rfl⟩ := h.relink hdt hkt hk
  refine ⟨u, e, f, hg, List.mem_flatten.2 ⟨_, hl1, by simp⟩, List.mem_flatten.2 ⟨_, hl1, by simp⟩, ?_⟩
  simpa using hl2

/-- the links that are made, and which neighbours there are in the end -/
theorem Delivered.links_ok (h : Delivered dt pyid ts vs nbr unwanted sorted s) (hdt : DtMesh dt) :
    ∃ links : List (TId × Fin 3 × TId),
      (∀ t ∉ unwanted, nbr t = applyLinks (oldNbr ts) links t) ∧
      (∀ t ∈ unwanted, nbr t = fun _ => none) ∧
      (∀ t i n, (t, i, n) ∈ links → ∃ u e f, Gap dt vs unwanted u e f ∧
        (e.1, ccw e.2, f.1) ∈ links ∧ (f.1, cw f.2, e.1) ∈ links ∧
        ((t, i, n) = (e.1, ccw e.2, f.1) ∨ (t, i, n) = (f.1, cw f.2, e.1))) := by
  obtain ⟨links, hl, rfl⟩ := h.nbrs
  exact ⟨links.flatten, fun t ht => by dsimp only; rw [if_neg ht], fun t ht => by dsimp only; rw [if_pos ht],
    h.links_made hdt hl⟩

/-- the two ends of a gap determine each other -/
theorem Early.gap_unique (h : Early dt ts vs unwanted) (hdt : DtMesh dt) {u u' : VId}
    {e e' f f' : DEdge} (hg : Gap dt vs unwanted u e f) (hg' : Gap dt vs unwanted u' e' f') :
    (e = e' ↔ f = f') := by
  obtain ⟨x, p, m, q, hx, hr, _, hm⟩ := hg.row
  obtain ⟨x', p', m', q', hx', hr', _, hm'⟩ := hg'.row
  obtain ⟨v, ha⟩ := h.around hdt hx
  constructor
  · rintro rfl
    have := h.unique hdt.toDtOk hx hx' (e := e) (by rw [hr]; simp) (by rw [hr']; simp)
    subst this
    rw [hx] at hx'
    cases hx'
    obtain ⟨_, hq⟩ := nodup_split (by rw [← hr]; exact ha.nodup) (hr.symm.trans hr')
    exact (first_unique (P := fun a : DEdge => a.1 ∈ unwanted) hm hm' hg.after hg'.after hq).2.1
  · rintro rfl
    have := h.unique hdt.toDtOk hx hx' (e := f) (by rw [hr]; simp) (by rw [hr']; simp)
    subst this
    rw [hx] at hx'
    cases hx'
    have e1 : x.2.reverse = q.reverse ++ f :: (m.reverse ++ e :: p.reverse) := by rw [hr]; simp
    have e2 : x.2.reverse = q'.reverse ++ f :: (m'.reverse ++ e' :: p'.reverse) := by rw [hr']; simp
    obtain ⟨_, hq⟩ := nodup_split (by rw [← e1]; exact List.nodup_reverse.2 ha.nodup) (e1.symm.trans e2)
    exact (first_unique (P := fun a : DEdge => a.1 ∈ unwanted) (fun a ha => hm a (List.mem_reverse.1 ha))
      (fun a ha => hm' a (List.mem_reverse.1 ha)) hg.before hg'.before hq).2.1

/-- a corner at which a gap begins or ends is kinetic, the other end of the side infinite -/
theorem Early.gap_cross (h : Early dt ts vs unwanted) (hdt : DtMesh dt) {u u' : VId}
    {e e' f f' : DEdge} (hg : Gap dt vs unwanted u e f) (hg' : Gap dt vs unwanted u' e' f')
    (h1 : e.1 = f'.1) (h2 : ccw e.2 = cw f'.2) : False := by
  obtain ⟨_, _, h3, _⟩ := h.gap_sides hdt hg
  obtain ⟨x, hx, _, hm⟩ := hg'.mem
  have hk := h.kref_member hdt hx hm
  have key : ∀ i j : Fin 3, ccw i = cw j → cw i = j := by decide
  rw [h1, key _ _ h2, hk] at h3
  cases h3

/-- the neighbours in the end -/
theorem Early.gap_nbr (h : Early dt ts vs unwanted) (hdt : DtMesh dt)
    {links : List (TId × Fin 3 × TId)}
    (hl : ∀ t i n, (t, i, n) ∈ links → ∃ u e f, Gap dt vs unwanted u e f ∧
        (e.1, ccw e.2, f.1) ∈ links ∧ (f.1, cw f.2, e.1) ∈ links ∧
        ((t, i, n) = (e.1, ccw e.2, f.1) ∨ (t, i, n) = (f.1, cw f.2, e.1))) {t : TId} {i : Fin 3} {n : TId}
    (hm : (t, i, n) ∈ links) : applyLinks (oldNbr ts) links t i = some n := by
  refine applyLinks_mem (fun m hm' => ?_) hm
  obtain ⟨u, e, f, hg, _, _, h1⟩ := hl _ _ _ hm
  obtain ⟨u', e', f', hg', _, _, h2⟩ := hl _ _ _ hm'
  have inj1 : ∀ i j : Fin 3, ccw i = ccw j → i = j := by decide
  have inj2 : ∀ i j : Fin 3, cw i = cw j → i = j := by decide
  rcases h1 with h1 | h1 <;> rcases h2 with h2 | h2
  · simp only [Prod.mk.injEq] at h1 h2
    have : e = e' := Prod.ext (h1.1.symm.trans h2.1) (inj1 _ _ (h1.2.1.symm.trans h2.2.1))
    rw [h1.2.2, h2.2.2, ((h.gap_unique hdt hg hg').1 this)]
  · simp only [Prod.mk.injEq] at h1 h2
    exact (h.gap_cross hdt hg hg' (h1.1.symm.trans h2.1) (h1.2.1.symm.trans h2.2.1)).elim
  · simp only [Prod.mk.injEq] at h1 h2
    exact (h.gap_cross hdt hg' hg (h2.1.symm.trans h1.1) (h2.2.1.symm.trans h1.2.1)).elim
  · simp only [Prod.mk.injEq] at h1 h2
    have : f = f' := Prod.ext (h1.1.symm.trans h2.1) (inj2 _ _ (h1.2.1.symm.trans h2.2.1))
    rw [h1.2.2, h2.2.2, ((h.gap_unique hdt hg hg').2 this)]

/-- C70, the sides of the triangles that stay: those without neighbour are the constrained ones; neighbours have the
side in common. -/
theorem Delivered.sides_ok (h : Delivered dt pyid ts vs nbr unwanted sorted s) (hdt : DtMesh dt) {t : TId}
    (ht : t < dt.nT) (hu : t ∉ unwanted) (i : Fin 3) :
    (nbr t i = none ↔ dt.constrained t i = true) ∧
    ∀ n, nbr t i = some n → n < dt.nT ∧ n ∉ unwanted ∧ ∃ j : Fin 3, nbr n j = some t ∧
      vidOf vs.length (kref dt vs n (j + 1)) = vidOf vs.length (kref dt vs t (i + 2)) ∧
      vidOf vs.length (kref dt vs n (j + 2)) = vidOf vs.length (kref dt vs t (i + 1)) := by
  obtain ⟨links, hw, hun, hl⟩ := h.links_ok hdt
  have hrt := hw t hu
  -- sides that are linked
  have hwrite : ∀ t i n, (t, i, n) ∈ links → dt.constrained t i = false ∧
      ∃ m ∈ unwanted, dt.neighbour t i = some m := by
    intro t i n hm
    obtain ⟨u, e, f, hg, _, _, h1⟩ := hl _ _ _ hm
    obtain ⟨a1, a2, _, _, a5, a6⟩ := h.gap_sides hdt hg
    rcases h1 with h1 | h1 <;> simp only [Prod.mk.injEq] at h1 <;> obtain ⟨rfl, rfl, rfl⟩ := h1
    · exact ⟨a1, a5⟩
    · exact ⟨a2, a6⟩
  refine ⟨⟨fun hn => ?_, fun hc => ?_⟩, fun n hn => ?_⟩
  · rw [hrt] at hn
    exact h.old_none ht hu (applyLinks_none hn)
  · rw [hrt, applyLinks_other]
    · cases ho : oldNbr ts t i with
      | none => rfl
      | some n =>
        have := (h.old_neighbour ho).2.2
        rw [hc] at this; cases this
    · intro n hm
      have := (hwrite _ _ _ hm).1
      rw [hc] at this; cases this
  · have hb := h.neighbour hn
    have hc := h.check
    unfold checkKTriangles at hc
    rw [List.all_eq_true] at hc
    have hc := hc t (List.mem_filter.2 ⟨List.mem_range.2 ht, by simpa using hu⟩)
    rw [List.all_eq_true] at hc
    have hc := hc i (mem_sides i)
    rw [hn] at hc
    dsimp only at hc
    rw [List.any_eq_true] at hc
    obtain ⟨j0, _, hj0⟩ := hc
    have hj0 := of_decide_eq_true hj0
    have hnu : n ∉ unwanted := by
      intro hm
      rw [hun n hm] at hj0
      cases hj0
    refine ⟨hb, hnu, ?_⟩
    rw [hrt] at hn
    rcases applyLinks_some hn with ho | hm
    · obtain ⟨_, h1, h2⟩ := h.old_neighbour ho
      obtain ⟨j, h3, h4, h5, h6⟩ := hdt.back t ht i n h1 hb
      rw [h2] at h6
      refine ⟨j, ?_, ?_, ?_⟩
      · rw [hw n hnu, applyLinks_other, h.old_some hdt hb ht h3 h6]
        intro m hm
        obtain ⟨_, m', hm', he⟩ := hwrite _ _ _ hm
        rw [h3] at he
        cases he
        exact hu hm'
      · rw [h.shared hdt ht hb h1 h2 h4]
      · rw [← h.shared hdt hb ht h3 h6 h5.symm]
    · obtain ⟨u, e, f, hg, m1, m2, h1⟩ := hl _ _ _ hm
      obtain ⟨_, _, a3, a4, _, _⟩ := h.gap_sides hdt hg
      obtain ⟨x, hx, me, mf⟩ := hg.mem
      have ke := h.kref_member hdt hx me
      have kf := h.kref_member hdt hx mf
      have vinf : ∀ o : Option (KRef K), KRef.isInf o = true → vidOf vs.length o = vs.length := by
        intro o ho
        match o, ho with
        | some (.inf p), _ => rfl
      have q1 : ∀ i : Fin 3, cw i + 1 = i := by decide
      have q2 : ∀ i : Fin 3, cw i + 2 = ccw i := by decide
      have q3 : ∀ i : Fin 3, ccw i + 1 = cw i := by decide
      have q4 : ∀ i : Fin 3, ccw i + 2 = i := by decide
      rcases h1 with h1 | h1 <;> simp only [Prod.mk.injEq] at h1 <;> obtain ⟨rfl, rfl, rfl⟩ := h1
      · refine ⟨cw f.2, by rw [hw _ hnu]; exact h.gap_nbr hdt hl m2, ?_, ?_⟩
        · rw [q1, q4, ke, kf]
        · rw [q2, q3, vinf _ a3, vinf _ a4]
      · refine ⟨ccw e.2, by rw [hw _ hnu]; exact h.gap_nbr hdt hl m1, ?_, ?_⟩
        · rw [q2, q3, vinf _ a3, vinf _ a4]
        · rw [q1, q4, ke, kf]

end

end Grassfire
