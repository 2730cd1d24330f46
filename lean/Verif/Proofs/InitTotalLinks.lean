/-
`init_skeleton` does not raise: links of the vertices and removal of the outer triangles (lemmas for C85).
-/
import Verif.Proofs.InitTotal

set_option linter.unusedSectionVars false

namespace Grassfire

open Spec

variable {K : Type} [Field K] [LinearOrder K] [HasSqrt K] {dt : Dt K} {ts : List (TriStart K)}
  {vs : List (KVertex K × List DEdge)} {unwanted : List TId}

/-! ### links -/

/-- a triangle of a group that begins at a constrained edge is the first one -/
theorem Around.head {v : DV} {g : List DEdge} (h : Around dt v g) {e : DEdge} (he : e ∈ g) (hb : Behind dt e) :
    g.head? = some e := by
  cases g with
  | nil => cases he
  | cons f g =>
    rcases List.mem_cons.1 he with rfl | he
    · rfl
    · exact absurd hb (h.ok.behind e he)

/-- a triangle of a group that ends at a constrained edge is the last one -/
theorem Around.last {v : DV} {g : List DEdge} (h : Around dt v g) {e : DEdge} (he : e ∈ g) (hb : Ahead dt e) :
    g.getLast? = some e := by
  rcases List.eq_nil_or_concat g with rfl | ⟨g', f, hg⟩
  · cases he
  · rw [List.concat_eq_append] at hg
    subst hg
    rcases List.mem_append.1 he with he | he
    · exact absurd hb (h.ok.ahead e (by rw [List.dropLast_concat]; exact he))
    · rw [List.mem_singleton.1 he]
      simp

theorem linkVertex_wf (vs : List (KVertex K × List DEdge)) (y : KVertex K × List DEdge) :
    (linkVertex vs y).wfr = y.1.wfr ∧ (linkVertex vs y).wfl = y.1.wfl := by
  unfold linkVertex
  split <;> exact ⟨rfl, rfl⟩

/-- initialize.py:602-605 does not fail -/
theorem Early.checkLink_total (h : Early dt ts vs unwanted) (hdt : DtMesh dt) {u : VId} {x : KVertex K × List DEdge}
    (hx : vs[u]? = some x) : checkLink (vs.map (linkVertex vs)) (linkVertex vs x) = .ok () := by
  obtain ⟨w, first, last, -, -, hn, -⟩ := h.origin hx
  obtain ⟨v, ha⟩ := h.around hdt hx
  have hf := List.mem_of_head? hn.head
  have hl := List.mem_of_getLast? hn.tail
  have c1 : dt.constrained last.1 (ccw last.2) = true := ha.ok.last last hn.tail
  have c2 : dt.constrained first.1 (cw first.2) = true := ha.ok.first first hn.head
  have bl := ha.bound last hl
  have bf := ha.bound first hf
  have n1 : ∀ i : Fin 3, cw i ≠ ccw i := by decide
  have n2 : ∀ i : Fin 3, cw (cw i) = ccw i := by decide
  have n3 : ∀ i : Fin 3, ccw (ccw i) = cw i := by decide
  obtain ⟨a, ha1, -⟩ := hdt.corners last.1 bl (cw last.2)
  obtain ⟨b, hb1, -⟩ := hdt.corners first.1 bf (ccw first.2)
  obtain ⟨p, y, hy, my, ay, ky, -⟩ := h.finite_corner hdt bl ha1 (hdt.constrained_finite _ bl _ c1 _ (n1 _) a ha1)
  obtain ⟨q, z, hz, mz, az, kz, -⟩ := h.finite_corner hdt bf hb1 (hdt.constrained_finite _ bf _ c2 _ (n1 _).symm b hb1)
  have hy1 := ay.head my (by unfold Behind; dsimp only; rw [n2]; exact c1)
  have hz1 := az.last mz (by unfold Ahead; dsimp only; rw [n3]; exact c2)
  obtain ⟨_, fy, ly, -, -, hny, -⟩ := h.origin hy
  obtain ⟨_, fz, lz, -, -, hnz, -⟩ := h.origin hz
  have e1 : fy = (last.1, cw last.2) := Option.some.inj (hny.head.symm.trans hy1)
  have e2 : lz = (first.1, ccw first.2) := Option.some.inj (hnz.tail.symm.trans hz1)
  have wl : x.1.wfl = some (wfId last.1 (ccw last.2)) := congrArg KVertex.wfl hn.fields
  have wr : x.1.wfr = some (wfId first.1 (cw first.2)) := congrArg KVertex.wfr hn.fields
  have wy : y.1.wfr = some (wfId fy.1 (cw fy.2)) := congrArg KVertex.wfr hny.fields
  have wz : z.1.wfl = some (wfId lz.1 (ccw lz.2)) := congrArg KVertex.wfl hnz.fields
  have hleft : (linkVertex vs x).leftRef = some p := by
    rw [linkVertex_fields x hn.head hn.tail, hn.empty.1, ky]
    rfl
  have hright : (linkVertex vs x).rightRef = some q := by
    rw [linkVertex_fields x hn.head hn.tail, hn.empty.2, kz]
    rfl
  have hp : (vs.map (linkVertex vs))[p]? = some (linkVertex vs y) := by rw [List.getElem?_map, hy]; rfl
  have hq : (vs.map (linkVertex vs))[q]? = some (linkVertex vs z) := by rw [List.getElem?_map, hz]; rfl
  unfold checkLink
  rw [hleft, hright, Option.bind_some, Option.bind_some, hp, hq]
  dsimp only
  rw [(linkVertex_wf vs y).1, (linkVertex_wf vs x).2, (linkVertex_wf vs x).1, (linkVertex_wf vs z).2,
    passert_true (show y.1.wfr = x.1.wfl by rw [wy, wl, e1]; dsimp only; rw [n2]),
    passert_true (show x.1.wfr = z.1.wfl by rw [wz, wr, e2]; dsimp only; rw [n3])]
  rfl

theorem allE_total {α ε : Type} {f : α → Except ε Unit} : ∀ {l : List α}, (∀ x ∈ l, f x = .ok ()) → allE f l = .ok ()
  | [], _ => rfl
  | x :: xs, h => by
    unfold allE
    rw [h x (List.mem_cons_self ..)]
    exact allE_total fun y hy => h y (List.mem_cons_of_mem _ hy)

/-! ### removal -/

/-- `rotate_until_not_in_candidates` gets to the first triangle that is no candidate -/
theorem rotateOut_find {corner : DT → Fin 3 → Option (KRef K)} {nbr : TId → Fin 3 → Option TId} {v : VId}
    {dir : Fin 3 → Fin 3} {cands : List TId} {f : DEdge} {q : List DEdge} (hf : f.1 ∉ cands) :
    ∀ {mid : List DEdge} {e : DEdge} {fuel : ℕ} {seen : List TId},
    (e :: (mid ++ f :: q)).IsChain (fun a b => nbr a.1 (dir a.2) = some b.1) →
    (∀ a ∈ e :: mid, cornerOf corner v a.1 = .ok a.2) → (∀ a ∈ mid, a.1 ∈ cands) →
    ((e :: mid).map (·.1)).Nodup → (∀ a ∈ e :: mid, a.1 ∉ seen) → mid.length < fuel →
    rotateOut corner nbr v dir cands fuel seen e.1 = .ok (some f.1)
  | _, _, 0, _, _, _, _, _, _, hl => absurd hl (Nat.not_lt_zero _)
  | [], e, fuel + 1, seen, hc, hv, _, _, hs, _ => by
    unfold rotateOut
    rw [List.nil_append, List.isChain_cons_cons] at hc
    rw [if_neg (hs e (List.mem_cons_self ..)), hv e (List.mem_cons_self ..)]
    dsimp only
    rw [hc.1]
    dsimp only
    rw [if_neg hf]
  | m :: mid, e, fuel + 1, seen, hc, hv, hm, hn, hs, hl => by
    unfold rotateOut
    rw [List.cons_append, List.isChain_cons_cons] at hc
    rw [if_neg (hs e (List.mem_cons_self ..)), hv e (List.mem_cons_self ..)]
    dsimp only
    rw [hc.1]
    dsimp only
    rw [if_pos (hm m (List.mem_cons_self ..))]
    rw [List.map_cons, List.nodup_cons] at hn
    refine rotateOut_find hf hc.2 (fun a ha => hv a (List.mem_cons_of_mem _ ha))
      (fun a ha => hm a (List.mem_cons_of_mem _ ha)) hn.2 (fun a ha h => ?_) (Nat.lt_of_succ_lt_succ hl)
    rcases List.mem_cons.1 h with h | h
    · exact hn.1 (List.mem_map.2 ⟨a, ha, h⟩)
    · exact hs a (List.mem_cons_of_mem _ ha) h

/-- the first element of a list without a property -/
theorem first_without {α : Type} {P : α → Prop} : ∀ {l : List α}, (∃ x ∈ l, ¬ P x) →
    ∃ mid f q, l = mid ++ f :: q ∧ ¬ P f ∧ ∀ x ∈ mid, P x
  | [], h => by obtain ⟨x, hx, -⟩ := h; cases hx
  | y :: l, h => by
    by_cases hy : P y
    · obtain ⟨x, hx, hp⟩ := h
      rcases List.mem_cons.1 hx with rfl | hx
      · exact absurd hy hp
      · obtain ⟨mid, f, q, rfl, h1, h2⟩ := first_without ⟨x, hx, hp⟩
        refine ⟨y :: mid, f, q, rfl, h1, fun z hz => ?_⟩
        rcases List.mem_cons.1 hz with rfl | hz
        · exact hy
        · exact h2 z hz
    · exact ⟨[], y, l, rfl, hy, fun z hz => by cases hz⟩

/-- a triangle with a constrained side has no side with two infinite ends -/
theorem constrained_near (hdt : DtMesh dt) {t : DT} (ht : t < dt.nT) {i : Fin 3} (hc : dt.constrained t i = true) :
    ¬ ∃ j, FarSide dt t j := by
  rintro ⟨j, hj⟩
  have hne : i ≠ j := by
    rintro rfl
    rw [farSide_free hdt ht hj] at hc
    cases hc
  have third : ∀ i j : Fin 3, ∃ k : Fin 3, k ≠ i ∧ k ≠ j := by decide
  obtain ⟨k, h1, h2⟩ := third i j
  obtain ⟨v, hv, hf⟩ := hj k h2
  have := hdt.constrained_finite t ht i hc k h1 v hv
  rw [hf] at this
  cases this

/-- two triangles of a group are the same triangle only at the same place -/
theorem Around.inj {v : DV} {g : List DEdge} (h : Around dt v g) (hdt : DtMesh dt) {a b : DEdge} (ha : a ∈ g) (hb : b ∈ g)
    (e : a.1 = b.1) : a = b := by
  refine Prod.ext e (hdt.distinct a.1 (h.bound a ha) ?_)
  rw [h.corner a ha]
  have := h.corner b hb
  rw [← e] at this
  exact this.symm

/-- the side of a triangle that is taken out over which there is nothing -/
theorem Early.index_far (h : Early dt ts vs unwanted) (hdt : DtMesh dt) (hfr : DtFrame dt) {t : TId}
    (ht : t < dt.nT) {k : Fin 3} (hk : FarSide dt t k) : index3 (oldNbr ts t) none = some k := by
  have hlt : t < ts.length := by rw [h.tris.1]; exact ht
  have hx := List.getElem?_eq_getElem hlt
  obtain ⟨_, o, h1, h2, -⟩ := initTri_ok (h.tris.2 t _ hx)
  have hiff : ∀ i, oldNbr ts t i = none ↔ i = k := by
    intro i
    unfold oldNbr
    rw [hx, Option.bind_some, h2]
    obtain ⟨o', e1, e2⟩ := linkSide_total hfr ht i
    rw [h1 i] at e1
    cases e1
    constructor
    · intro hj
      by_contra hne
      have hcf : dt.constrained t i = false := by
        by_contra hc
        exact constrained_near hdt ht (by simpa using hc) ⟨k, hk⟩
      cases ho : o i with
      | none => exact hne (farSide_unique hdt ht (e2.1 ho).2 hk)
      | some y =>
        rw [ho] at hj
        cases y with
        | some n => cases hj
        | none =>
          have := h1 i
          rw [ho] at this
          unfold linkSide at this
          rw [hcf] at this
          simp only [Bool.false_eq_true, if_false] at this
          split at this
          · cases this
          · split_ifs at this <;> cases this
    · rintro rfl
      rw [e2.2 ⟨farSide_free hdt ht hk, hk⟩]
      rfl
  unfold index3
  have key : ∀ i, (oldNbr ts t i = none) = (i = k) := fun i => propext (hiff i)
  simp only [key]
  clear hiff key h1 h2 hk hx
  revert k
  decide

/-- one of the triangles is taken out: the triangles next to the row of such triangles become neighbours -/
theorem Early.relink_total (h : Early dt ts vs unwanted) (hdt : DtMesh dt) (hfr : DtFrame dt)
    (hun : ∀ t, t ∈ unwanted ↔ t < dt.nT ∧ ∃ i, FarSide dt t i) {kt : TId} (hkt : kt ∈ unwanted) :
    ∃ k u x p e mid f q, FarSide dt kt k ∧ vs[u]? = some x ∧ x.2 = p ++ e :: (mid ++ f :: q) ∧ (kt, k) ∈ mid ∧
      (∀ m ∈ mid, m.1 ∈ unwanted) ∧ Gap dt vs unwanted u e f ∧
      relinkUnwanted (kref dt vs) (oldNbr ts) unwanted kt = .ok [(e.1, ccw e.2, f.1), (f.1, cw f.2, e.1)] := by
  obtain ⟨hlt, k, hk⟩ := (hun kt).1 hkt
  obtain ⟨j, w, hw, hf⟩ := hdt.proper kt hlt
  have hjk : j = k := by
    by_contra hne
    obtain ⟨w', hw', hf'⟩ := hk j hne
    rw [hw] at hw'
    cases hw'
    rw [hf] at hf'
    cases hf'
  subst hjk
  obtain ⟨u, x, hx, hm, ha, -, hr⟩ := h.finite_corner hdt hlt hw hf
  obtain ⟨p, q, hg⟩ := List.mem_iff_append.1 hm
  have hcor : ∀ a ∈ x.2, cornerOf (kref dt vs) u a.1 = .ok a.2 := fun a ha => h.cornerOf_member hdt hx ha
  obtain ⟨c1, -⟩ := h.row_ccw hdt ha
  obtain ⟨c2, -⟩ := h.row_cw hdt ha
  have hrev : x.2.reverse = q.reverse ++ (kt, j) :: p.reverse := by rw [hg]; simp
  obtain ⟨last, hla⟩ := Option.ne_none_iff_exists'.1 fun e => ha.ok.nonempty (List.getLast?_eq_none_iff.1 e)
  obtain ⟨first, hfi⟩ := Option.ne_none_iff_exists'.1 fun e => ha.ok.nonempty (List.head?_eq_none_iff.1 e)
  have ml := List.mem_of_getLast? hla
  have mf := List.mem_of_head? hfi
  have ul : last.1 ∉ unwanted := fun q => constrained_near hdt (ha.bound _ ml) (ha.ok.last last hla) ((hun _).1 q).2
  have uf : first.1 ∉ unwanted := fun q => constrained_near hdt (ha.bound _ mf) (ha.ok.first first hfi) ((hun _).1 q).2
  have hql : last ∈ q := by
    rw [hg, List.getLast?_append] at hla
    cases q with
    | nil =>
      simp at hla
      rw [← hla] at ul
      exact absurd hkt ul
    | cons b q =>
      simp only [List.getLast?_cons_cons, Option.or_eq_some_iff] at hla
      rcases hla with hla | ⟨hla, -⟩
      · exact List.mem_of_getLast? hla
      · simp at hla
  have hpf : first ∈ p := by
    rw [hg] at hfi
    cases p with
    | nil =>
      simp at hfi
      rw [← hfi] at uf
      exact absurd hkt uf
    | cons b p =>
      simp at hfi
      rw [hfi]
      exact List.mem_cons_self ..
  obtain ⟨m1, e, r1, h1, e1, h3⟩ := first_without (P := fun a : DEdge => a.1 ∈ unwanted) (l := p.reverse)
    ⟨first, List.mem_reverse.2 hpf, uf⟩
  obtain ⟨m2, f, r2, h5, e2, h7⟩ := first_without (P := fun a : DEdge => a.1 ∈ unwanted) (l := q) ⟨last, hql, ul⟩
  have hp : p = r1.reverse ++ e :: m1.reverse := by
    rw [← List.reverse_reverse p, h1]; simp
  have hrow : x.2 = r1.reverse ++ e :: ((m1.reverse ++ (kt, j) :: m2) ++ f :: r2) := by
    rw [hg, hp, h5]; simp
  have hnd : (x.2.map (·.1)).Nodup := (List.nodup_map_iff_inj_on ha.nodup).2 fun a ha' b hb e => ha.inj hdt ha' hb e
  have hfst : ∀ L : List DEdge, (L.Sublist x.2 ∨ L.Sublist x.2.reverse) → (L.map (·.1)).Nodup := by
    rintro L (hL | hL)
    · exact hnd.sublist (hL.map _)
    · refine List.Nodup.sublist (hL.map _) ?_
      rw [List.map_reverse]
      exact List.nodup_reverse.2 hnd
  have hall : ∀ m ∈ m1.reverse ++ (kt, j) :: m2, m.1 ∈ unwanted := by
    intro m hm
    simp only [List.mem_append, List.mem_reverse, List.mem_cons] at hm
    rcases hm with hm | rfl | hm
    · exact h3 m hm
    · exact hkt
    · exact h7 m hm
  have hfuel : ∀ L : List DEdge, (L.Sublist x.2 ∨ L.Sublist x.2.reverse) → (∀ m ∈ L, m.1 ∈ unwanted) →
      L.length ≤ unwanted.length := by
    intro L hL hLu
    have := (List.subperm_of_subset (hfst L hL) (fun t ht => by
      obtain ⟨m, hm, rfl⟩ := List.mem_map.1 ht
      exact hLu m hm)).length_le
    rwa [List.length_map] at this
  have s1 : ((kt, j) :: m1).Sublist x.2.reverse := by
    rw [hrev, h1]
    refine List.Sublist.trans ?_ (List.sublist_append_right _ _)
    exact List.Sublist.cons_cons _ (List.sublist_append_left _ _)
  have s2 : ((kt, j) :: m2).Sublist x.2 := by
    rw [hg, h5]
    refine List.Sublist.trans ?_ (List.sublist_append_right _ _)
    exact List.Sublist.cons_cons _ (List.sublist_append_left _ _)
  have l1 := hfuel _ (Or.inr s1) (fun m hm => by
    rcases List.mem_cons.1 hm with rfl | hm
    · exact hkt
    · exact h3 m hm)
  have l2 := hfuel _ (Or.inl s2) (fun m hm => by
    rcases List.mem_cons.1 hm with rfl | hm
    · exact hkt
    · exact h7 m hm)
  rw [List.length_cons] at l1 l2
  have ra : rotateOut (kref dt vs) (oldNbr ts) u cw unwanted (unwanted.length + 1) [] kt = .ok (some e.1) :=
    rotateOut_find (e := (kt, j)) (mid := m1) (f := e) (q := r1) e1
      (by rw [hrev, h1, List.isChain_append] at c2; exact c2.2.1)
      (fun a ha => hcor a (List.mem_reverse.1 (s1.subset ha))) h3 (hfst _ (Or.inr s1)) (by simp) (by omega)
  have rb : rotateOut (kref dt vs) (oldNbr ts) u ccw unwanted (unwanted.length + 1) [] kt = .ok (some f.1) :=
    rotateOut_find (e := (kt, j)) (mid := m2) (f := f) (q := r2) e2
      (by rw [hg, h5, List.isChain_append] at c1; exact c1.2.1)
      (fun a ha => hcor a (s2.subset ha)) h7 (hfst _ (Or.inl s2)) (by simp) (by omega)
  refine ⟨j, u, x, r1.reverse, e, m1.reverse ++ (kt, j) :: m2, f, r2, hk, hx, hrow, by simp, hall,
    ⟨⟨x, _, _, _, hx, hrow, by simp, hall⟩, e1, e2⟩, ?_⟩
  unfold relinkUnwanted
  rw [h.index_far hdt hfr hlt hk]
  dsimp only
  rw [hr]
  dsimp only
  rw [ra, rb]
  dsimp only [bind, Except.bind, needTri]
  rw [hcor e (by rw [hrow]; simp), hcor f (by rw [hrow]; simp)]
  rfl

/-- in the end the neighbours of the triangles that stay, stay -/
theorem Early.check_total (h : Early dt ts vs unwanted) (hdt : DtMesh dt) (hfr : DtFrame dt)
    (hun : ∀ t, t ∈ unwanted ↔ t < dt.nT ∧ ∃ i, FarSide dt t i) {links : List (List (TId × Fin 3 × TId))}
    (hl : mapE (relinkUnwanted (kref dt vs) (oldNbr ts) unwanted) unwanted = .ok links) :
    checkKTriangles ((List.range dt.nT).filter fun t => t ∉ unwanted)
      (fun t => if t ∈ unwanted then fun _ => none else applyLinks (oldNbr ts) links.flatten t) = true := by
  have hfrom : ∀ t i n, (t, i, n) ∈ links.flatten → ∃ u e f, Gap dt vs unwanted u e f ∧
      (e.1, ccw e.2, f.1) ∈ links.flatten ∧ (f.1, cw f.2, e.1) ∈ links.flatten ∧
      ((t, i, n) = (e.1, ccw e.2, f.1) ∨ (t, i, n) = (f.1, cw f.2, e.1)) := h.links_made hdt hl
  have hinto : ∀ kt ∈ unwanted, ∃ k u x p e mid f q, FarSide dt kt k ∧ vs[u]? = some x ∧
      x.2 = p ++ e :: (mid ++ f :: q) ∧ (kt, k) ∈ mid ∧ (∀ m ∈ mid, m.1 ∈ unwanted) ∧ Gap dt vs unwanted u e f ∧
      (e.1, ccw e.2, f.1) ∈ links.flatten ∧ (f.1, cw f.2, e.1) ∈ links.flatten := by
    intro kt hkt
    obtain ⟨k, u, x, p, e, mid, f, q, a1, a2, a3, a4, a5, a6, a7⟩ := h.relink_total hdt hfr hun hkt
    obtain ⟨i, hi⟩ := List.mem_iff_getElem?.1 hkt
    obtain ⟨ls, b1, b2⟩ := (mapE_getElem hl).2 i kt hi
    rw [a7] at b2
    cases b2
    have := List.mem_of_getElem? b1
    exact ⟨k, u, x, p, e, mid, f, q, a1, a2, a3, a4, a5, a6, List.mem_flatten.2 ⟨_, this, by simp⟩,
      List.mem_flatten.2 ⟨_, this, by simp⟩⟩
  unfold checkKTriangles
  rw [List.all_eq_true]
  intro t htm
  obtain ⟨ht, hu⟩ := List.mem_filter.1 htm
  rw [List.mem_range] at ht
  have hu : t ∉ unwanted := by simpa using hu
  rw [List.all_eq_true]
  intro i _
  dsimp only
  rw [if_neg hu]
  cases hn : applyLinks (oldNbr ts) links.flatten t i with
  | none => rfl
  | some n =>
    dsimp only
    rw [List.any_eq_true]
    suffices hgoal : n ∉ unwanted ∧ ∃ j, applyLinks (oldNbr ts) links.flatten n j = some t by
      obtain ⟨hnu, j, hj⟩ := hgoal
      refine ⟨j, mem_sides j, decide_eq_true ?_⟩
      rw [if_neg hnu]
      exact hj
    rcases applyLinks_some hn with ho | hm
    · obtain ⟨hb, h1, h2⟩ := h.old_neighbour ho
      obtain ⟨j, h3, h4, h5, h6⟩ := hdt.back t ht i n h1 hb
      rw [h2] at h6
      have hnu : n ∉ unwanted := by
        intro hnu
        obtain ⟨k, u, x, p, e, mid, f, q, a1, a2, a3, a4, a5, a6, a7, a8⟩ := hinto n hnu
        obtain ⟨v, ha⟩ := h.around hdt a2
        have mk : (n, k) ∈ x.2 := by rw [a3]; simp [a4]
        have q1 : ∀ j k : Fin 3, j ≠ k → k = j + 1 ∨ k = j + 2 := by decide
        by_cases hjk : j = k
        · subst hjk
          refine hu ((hun t).2 ⟨ht, i, fun l hl => ?_⟩)
          have q2 : ∀ i j : Fin 3, i ≠ j → i = j + 1 ∨ i = j + 2 := by decide
          have q3 : ∀ j : Fin 3, j + 1 ≠ j ∧ j + 2 ≠ j := by decide
          rcases q2 l i hl with rfl | rfl
          · rw [← h5]; exact a1 _ (q3 j).2
          · rw [← h4]; exact a1 _ (q3 j).1
        have hv := ha.corner _ mk
        dsimp only at hv
        obtain ⟨m1, m2, hmid⟩ := List.mem_iff_append.1 a4
        rcases q1 j k hjk with rfl | rfl
        · -- the triangle before
          have q4 : ∀ j : Fin 3, cw (j + 1) = j := by decide
          obtain ⟨r, d, hrd, hdu⟩ : ∃ r d, p ++ e :: m1 = r ++ [d] ∧ (d = e ∨ d ∈ mid) := by
            rcases List.eq_nil_or_concat m1 with rfl | ⟨r, d, hr⟩
            · exact ⟨p, e, rfl, Or.inl rfl⟩
            · rw [List.concat_eq_append] at hr
              refine ⟨p ++ e :: r, d, by rw [hr]; simp, Or.inr ?_⟩
              rw [hmid, hr]
              simp
          have hrow : x.2 = r ++ d :: (n, j + 1) :: (m2 ++ f :: q) := by
            have : x.2 = (p ++ e :: m1) ++ (n, j + 1) :: (m2 ++ f :: q) := by rw [a3, hmid]; simp
            rw [this, hrd]
            simp
          obtain ⟨-, b2, -⟩ := ha.step hdt hrow
          dsimp only at b2
          rw [q4, h3] at b2
          have hdt' : t = d.1 := Option.some.inj b2
          have hde : d = e := by
            rcases hdu with hde | hdm
            · exact hde
            · exact absurd (hdt' ▸ a5 d hdm) hu
          subst hde
          have hc := ha.corner d (by rw [hrow]; simp)
          have hi : d.2 = i + 2 := by
            refine hdt.distinct t ht ?_
            rw [← h4, hv, hdt']
            exact hc
          have q5 : ∀ i : Fin 3, ccw (i + 2) = i := by decide
          have := h.gap_nbr hdt hfrom a7
          rw [hi, q5, ← hdt', hn] at this
          exact a6.after (Option.some.inj this ▸ hnu)
        · -- the triangle after
          have q4 : ∀ j : Fin 3, ccw (j + 2) = j := by decide
          obtain ⟨d, r, hrd, hdu⟩ : ∃ d r, m2 ++ f :: q = d :: r ∧ (d = f ∨ d ∈ mid) := by
            cases m2 with
            | nil => exact ⟨f, q, rfl, Or.inl rfl⟩
            | cons d m2 => exact ⟨d, m2 ++ f :: q, rfl, Or.inr (by rw [hmid]; simp)⟩
          have hrow : x.2 = (p ++ e :: m1) ++ (n, j + 2) :: d :: r := by
            rw [← hrd, a3, hmid]
            simp
          obtain ⟨b1, -⟩ := ha.step hdt hrow
          dsimp only at b1
          rw [q4, h3] at b1
          have hdt' : t = d.1 := Option.some.inj b1
          have hdf : d = f := by
            rcases hdu with hdf | hdm
            · exact hdf
            · exact absurd (hdt' ▸ a5 d hdm) hu
          subst hdf
          have hc := ha.corner d (by rw [hrow]; simp)
          have hi : d.2 = i + 1 := by
            refine hdt.distinct t ht ?_
            rw [← h5, hv, hdt']
            exact hc
          have q5 : ∀ i : Fin 3, cw (i + 1) = i := by decide
          have := h.gap_nbr hdt hfrom a8
          rw [hi, q5, ← hdt', hn] at this
          exact a6.before (Option.some.inj this ▸ hnu)
      refine ⟨hnu, j, ?_⟩
      rw [applyLinks_other, h.old_some hdt hb ht h3 h6]
      intro m hm
      obtain ⟨u, e, f, hg, _, _, hh⟩ := hfrom _ _ _ hm
      obtain ⟨-, -, -, -, ⟨n1, hn1, hn1'⟩, n2, hn2, hn2'⟩ := h.gap_sides hdt hg
      rcases hh with hh | hh <;> simp only [Prod.mk.injEq] at hh <;> obtain ⟨rfl, rfl, rfl⟩ := hh
      · rw [h3] at hn1'
        cases hn1'
        exact hu hn1
      · rw [h3] at hn2'
        cases hn2'
        exact hu hn2
    · obtain ⟨u, e, f, hg, m1, m2, hh⟩ := hfrom _ _ _ hm
      rcases hh with hh | hh <;> simp only [Prod.mk.injEq] at hh <;> obtain ⟨rfl, rfl, rfl⟩ := hh
      · exact ⟨hg.after, cw f.2, h.gap_nbr hdt hfrom m2⟩
      · exact ⟨hg.before, ccw e.2, h.gap_nbr hdt hfrom m1⟩

/-- **C85**, see there -/
theorem initSkeleton_total [IsStrictOrderedRing K] [SqrtUnit K] (hdt : DtMesh dt) (hfr : DtFrame dt)
    (hx : ExactLengths dt) (pyid : TId → ℕ) : ∃ s, initSkeleton dt pyid = .ok s := by
  obtain ⟨ts, vs, unwanted, hts, h, hthree, hun⟩ := early_total hdt hfr hx
  have hlinks : allE (checkLink (vs.map (linkVertex vs))) (vs.map (linkVertex vs)) = .ok () :=
    allE_total fun y hy => by
      obtain ⟨x, hxm, rfl⟩ := List.mem_map.1 hy
      obtain ⟨u, hu⟩ := List.mem_iff_getElem?.1 hxm
      exact h.checkLink_total hdt hu
  obtain ⟨links, hl⟩ := mapE_total (f := relinkUnwanted (kref dt vs) (oldNbr ts) unwanted) (l := unwanted)
    fun kt hkt => by
      obtain ⟨k, u, x, p, e, mid, f, q, -, -, -, -, -, -, hh⟩ := h.relink_total hdt hfr hun hkt
      exact ⟨_, hh⟩
  have hcheck := h.check_total hdt hfr hun hl
  have hsome : ∀ t < dt.nT, ∀ i, (kref dt vs t i).isSome := by
    intro t ht i
    obtain ⟨w, hw, -⟩ := hdt.corners t ht i
    cases hf : dt.finite w with
    | true =>
      obtain ⟨u, x, -, -, -, -, hr⟩ := h.finite_corner hdt ht hw hf
      rw [hr]; rfl
    | false => rw [kref_inf hw hf]; rfl
  obtain ⟨keys, hkeys⟩ := mapE_total (f := fun t => sortKey dt (vs.map (linkVertex vs)) (kref dt vs t 0))
    (l := (List.range dt.nT).filter fun t => t ∉ unwanted) fun t ht => by
      have ht := List.mem_range.1 (List.mem_filter.1 ht).1
      obtain ⟨r, hr⟩ := Option.isSome_iff_exists.1 (hsome t ht 0)
      rw [hr]
      unfold sortKey
      cases r with
      | kin v =>
        obtain ⟨x, hxv, -⟩ := kcorner_some (kref_kin hr)
        dsimp only
        rw [List.getElem?_map, hxv]
        exact ⟨_, rfl⟩
      | inf p => exact ⟨_, rfl⟩
  refine ⟨initState dt pyid ts (vs.map (linkVertex vs)) (kref dt vs) unwanted
    (fun t => if t ∈ unwanted then fun _ => none else applyLinks (oldNbr ts) links.flatten t)
    (((((List.range dt.nT).filter fun t => t ∉ unwanted).zip keys).insertionSort
      fun a b => tupleLe a.2 b.2 = true).map (·.1)), ?_⟩
  unfold initSkeleton
  rw [hts]
  dsimp only [liftE, bind, Except.bind]
  rw [h.vertices]
  dsimp only
  rw [hlinks]
  dsimp only
  unfold finishSkeleton
  have hnbr : (fun t i => ts[t]?.bind fun x => x.neighbours i : TId → Fin 3 → Option TId) = oldNbr ts := rfl
  dsimp only
  rw [hnbr, passert_true (infinites_three hfr), ← h.eqUnwanted, ← h.eqRemove, passert_true hthree, passert_true rfl]
  dsimp only [liftE, bind, Except.bind]
  rw [hl]
  dsimp only
  rw [hcheck]
  dsimp only [passert, liftE]
  rw [hkeys]
  dsimp only [liftE]
  rw [if_pos rfl]
  dsimp only
  rw [if_pos]
  refine List.all_eq_true.2 fun t ht => List.all_eq_true.2 fun i _ => ?_
  exact hsome t (List.mem_range.1 (List.mem_filter.1 ht).1) i

end Grassfire
