/-
Property C70: what `init_skeleton` delivers for a consistent triangulation is a consistent triangulation
of which the vertices are linked along the constrained edges.
-/
import Verif.Proofs.InitMesh
import Verif.Spec.Links
import Verif.Props.CalcSkel

set_option linter.unusedSectionVars false

namespace Grassfire

open Spec

variable {K : Type} [Field K] [LinearOrder K] [HasSqrt K] {dt : Dt K}

section
variable {pyid : TId → ℕ} {ts : List (TriStart K)} {vs : List (KVertex K × List DEdge)}
  {nbr : TId → Fin 3 → Option TId} {unwanted sorted : List TId} {s : St K}

theorem Delivered.tri_wanted (h : Delivered dt pyid ts vs nbr unwanted sorted s) {t : TId} (hu : t ∉ unwanted) :
    s.tri t =
      { vertices := fun i => vidOf vs.length (kref dt vs t i), neighbours := nbr t, info := t + 1,
        internal := dt.internal t } := by
  rw [h.state]; dsimp only [initState]; rw [List.length_map, if_neg hu]

theorem Delivered.tri_unwanted (h : Delivered dt pyid ts vs nbr unwanted sorted s) {t : TId} (hu : t ∈ unwanted) :
    s.tri t =
      { vertices := fun i => min i.val vs.length, neighbours := fun _ => none, stopsAt := some 0, info := t + 1,
        internal := dt.internal t } := by
  rw [h.state]; dsimp only [initState]; rw [List.length_map, if_pos hu]

theorem Delivered.live (h : Delivered dt pyid ts vs nbr unwanted sorted s) {t : TId} :
    Live s t ↔ t < dt.nT ∧ t ∉ unwanted := by
  unfold Live
  have hnT : s.nT = dt.nT := by rw [h.state]; rfl
  rw [hnT]
  refine and_congr_right fun _ => ⟨fun hs hu => ?_, fun hu => ?_⟩
  · rw [h.tri_unwanted hu] at hs; cases hs
  · rw [h.tri_wanted hu]

/-- the kinetic vertices of a state that `init_skeleton` delivers -/
theorem Delivered.kinetic (h : Delivered dt pyid ts vs nbr unwanted sorted s) {u : VId} :
    Kinetic s u ↔ u < vs.length := by
  constructor
  · rintro ⟨_, k, hk⟩
    obtain ⟨x, hx, _⟩ := h.vert hk
    exact (List.getElem?_eq_some_iff.1 hx).1
  · intro hu
    refine ⟨by rw [h.nV]; exact Nat.lt_succ_of_lt hu, _, h.vert_of (List.getElem?_eq_getElem hu)⟩

theorem Delivered.all_running (h : Delivered dt pyid ts vs nbr unwanted sorted s) {u : VId} :
    Kinetic s u → Running s u := by
  rintro ⟨hv, k, hk⟩
  refine ⟨hv, k, hk, ?_⟩
  obtain ⟨x, hx, rfl⟩ := h.vert hk
  obtain ⟨_, _, _, _, _, hn, _⟩ := h.origin hx
  have : (linkVertex vs x).stopsAt = x.1.stopsAt := by unfold linkVertex; split <;> rfl
  rw [this, hn.fields]

/-- a kinetic corner -/
theorem Delivered.corner_kinetic (h : Delivered dt pyid ts vs nbr unwanted sorted s) (hdt : DtMesh dt) {t : TId}
    (ht : t < dt.nT) (i : Fin 3) (hk : vidOf vs.length (kref dt vs t i) < vs.length) :
    ∃ u, kref dt vs t i = some (.kin u) ∧ vidOf vs.length (kref dt vs t i) = u := by
  obtain ⟨w, hw, _⟩ := hdt.corners t ht i
  cases hf : dt.finite w with
  | true =>
    obtain ⟨u, _, _, _, _, _, hr⟩ := h.finite_corner hdt ht hw hf
    exact ⟨u, hr, by rw [hr]; rfl⟩
  | false =>
    rw [kref_inf hw hf] at hk
    exact absurd hk (lt_irrefl _)

/-- the corners of a triangle that stays are different -/
theorem Delivered.corners_distinct (h : Delivered dt pyid ts vs nbr unwanted sorted s) (hdt : DtMesh dt) {t : TId}
    (ht : t < dt.nT) (hu : t ∉ unwanted) : Function.Injective fun i => vidOf vs.length (kref dt vs t i) := by
  intro i j hij
  dsimp only at hij
  obtain ⟨v, hv, _⟩ := hdt.corners t ht i
  obtain ⟨w, hw, _⟩ := hdt.corners t ht j
  cases hf : dt.finite v with
  | true =>
    obtain ⟨a, x, hx, hm, ha, _, hr⟩ := h.finite_corner hdt ht hv hf
    rw [hr] at hij
    have hlt : vidOf vs.length (kref dt vs t j) < vs.length := by
      rw [← hij]; exact (List.getElem?_eq_some_iff.1 hx).1
    obtain ⟨b, hb, hb'⟩ := h.corner_kinetic hdt ht j hlt
    rw [hb'] at hij
    obtain ⟨y, _, hy, hmy, _⟩ := h.kin_corner hdt hb
    have : a = b := hij
    subst this
    rw [hx] at hy
    cases hy
    exact hdt.distinct t ht (hv.trans (((ha.corner _ hm).symm.trans hv).symm.trans (ha.corner _ hmy).symm))
  | false =>
    refine h.wanted_inf hdt ht hu (by rw [kref_inf hv hf]; rfl) ?_
    rw [kref_inf hv hf] at hij
    rw [h.isInf_iff hdt ht hw]
    cases hg : dt.finite w with
    | false => rfl
    | true =>
      obtain ⟨b, y, hy, _, _, _, hr⟩ := h.finite_corner hdt ht hw hg
      rw [hr] at hij
      have : vs.length = b := hij
      exact absurd (List.getElem?_eq_some_iff.1 hy).1 (by rw [this]; exact lt_irrefl _)

theorem two_le {a b n : ℕ} (h : a ≠ b) (ha : a < n) (hb : b < n) : 2 ≤ n := by omega

/-- there are at least two kinetic vertices -/
theorem Delivered.two_vertices (h : Delivered dt pyid ts vs nbr unwanted sorted s) (hdt : DtMesh dt) :
    2 ≤ vs.length := by
  obtain ⟨links, hl, _⟩ := h.nbrs
  have h3 := h.three
  cases hun : unwanted with
  | nil => rw [hun] at h3; cases h3
  | cons kt rest =>
    obtain ⟨y, _, hr⟩ := (mapE_getElem hl).2 0 kt (by rw [hun]; rfl)
    obtain ⟨i, u, _, _, _, _, _, hk, _⟩ := relinkUnwanted_ok hr
    obtain ⟨x, w, hx, hm, _, _, ha⟩ := h.kin_corner hdt hk
    obtain ⟨e, he⟩ := List.exists_mem_of_ne_nil _ ha.ok.nonempty
    cases hh : x.2.head? with
    | none => exact absurd (List.head?_eq_none_iff.1 hh) ha.ok.nonempty
    | some f =>
      have hf := List.mem_of_head? hh
      have hb := ha.ok.first f hh
      have ht := ha.bound f hf
      obtain ⟨z, hz, _⟩ := hdt.corners f.1 ht (ccw f.2)
      have ne1 : ∀ i : Fin 3, ccw i ≠ cw i := by decide
      have ne2 : ∀ i : Fin 3, ccw i ≠ i := by decide
      have hzf := hdt.constrained_finite f.1 ht (cw f.2) hb (ccw f.2) (ne1 _) z hz
      obtain ⟨u', x', hx', hm', ha', _, _⟩ := h.finite_corner hdt ht hz hzf
      have hne : u ≠ u' := by
        rintro rfl
        rw [hx] at hx'
        cases hx'
        have := (ha.corner _ hf).trans (ha.corner _ hm').symm
        exact ne2 _ (hdt.distinct f.1 ht this).symm
      have h1 : u < vs.length := (List.getElem?_eq_some_iff.1 hx).1
      have h2 : u' < vs.length := (List.getElem?_eq_some_iff.1 hx').1
      exact two_le hne h1 h2

theorem Delivered.mesh (h : Delivered dt pyid ts vs nbr unwanted sorted s) (hdt : DtMesh dt) : Mesh s := by
  have hnT : s.nT = dt.nT := by rw [h.state]; rfl
  have h2 := h.two_vertices hdt
  have hinj : ∀ t < s.nT, Function.Injective (s.tri t).vertices := by
    intro t ht
    by_cases hu : t ∈ unwanted
    · rw [h.tri_unwanted hu]
      intro i j hij
      have hij : min i.val vs.length = min j.val vs.length := hij
      have := i.isLt
      have := j.isLt
      exact Fin.ext (by omega)
    · rw [h.tri_wanted hu]
      exact h.corners_distinct hdt (by rw [← hnT]; exact ht) hu
  refine ⟨fun t hlive => ?_, hinj, fun t ht i => ?_⟩
  · obtain ⟨ht, hu⟩ := h.live.1 hlive
    refine ⟨hlive.1, hinj t hlive.1, ?_⟩
    rintro a b n ⟨i, h1, h2, h3⟩
    rw [h.tri_wanted hu] at h1 h2 h3
    dsimp only at h1 h2 h3
    obtain ⟨hn, hnu, j, h4, h5, h6⟩ := (h.sides_ok hdt ht hu i).2 n h3
    refine ⟨h.live.2 ⟨hn, hnu⟩, j, ?_⟩
    rw [h.tri_wanted hnu]
    exact ⟨h5.trans h2, h6.trans h1, h4⟩
  · rw [h.nV]
    by_cases hu : t ∈ unwanted
    · rw [h.tri_unwanted hu]
      exact Nat.lt_succ_of_le (Nat.min_le_right _ _)
    · rw [h.tri_wanted hu]
      exact h.corner t i

/-! ### the links of the vertices -/

/-- a side without neighbour: its ends, and where they stand in their rows -/
theorem Delivered.front (h : Delivered dt pyid ts vs nbr unwanted sorted s) (hdt : DtMesh dt) {t : TId} {i : Fin 3}
    {a b : VId} (hs : FrontSide s t i a b) :
    ∃ x y : KVertex K × List DEdge, vs[a]? = some x ∧ vs[b]? = some y ∧ x.2.head? = some (t, i + 1) ∧
      y.2.getLast? = some (t, i + 2) := by
  obtain ⟨hl, h1, h2, h3⟩ := hs
  obtain ⟨ht, hu⟩ := h.live.1 hl
  rw [h.tri_wanted hu] at h1 h2 h3
  dsimp only at h1 h2 h3
  have hc := (h.sides_ok hdt ht hu i).1.1 h1
  have ne1 : ∀ i : Fin 3, i + 1 ≠ i := by decide
  have ne2 : ∀ i : Fin 3, i + 2 ≠ i := by decide
  have q1 : ∀ i : Fin 3, cw (i + 1) = i := by decide
  have q2 : ∀ i : Fin 3, ccw (i + 2) = i := by decide
  obtain ⟨v, hv, _⟩ := hdt.corners t ht (i + 1)
  obtain ⟨w, hw, _⟩ := hdt.corners t ht (i + 2)
  obtain ⟨a', x, hx, mx, ax, _, kx⟩ := h.finite_corner hdt ht hv (hdt.constrained_finite t ht i hc _ (ne1 i) v hv)
  obtain ⟨b', y, hy, my, ay, _, ky⟩ := h.finite_corner hdt ht hw (hdt.constrained_finite t ht i hc _ (ne2 i) w hw)
  rw [kx] at h2
  rw [ky] at h3
  have h2 : a' = a := h2
  have h3 : b' = b := h3
  subst h2
  subst h3
  refine ⟨x, y, hx, hy, ?_, ?_⟩
  · cases hx2 : x.2 with
    | nil => rw [hx2] at mx; cases mx
    | cons f l =>
      rw [hx2] at mx
      rcases List.mem_cons.1 mx with rfl | hm
      · rfl
      · refine absurd ?_ (ax.ok.behind (t, i + 1) (by rw [hx2]; exact hm))
        unfold Behind
        rw [q1]; exact hc
  · rcases List.eq_nil_or_concat y.2 with he | ⟨l, f, he⟩
    · rw [he] at my; cases my
    · rw [List.concat_eq_append] at he
      rw [he] at my
      rcases List.mem_append.1 my with hm | hm
      · refine absurd ?_ (ay.ok.ahead (t, i + 2) (by rw [he, List.dropLast_concat]; exact hm))
        unfold Ahead
        rw [q2]; exact hc
      · rw [List.mem_singleton.1 hm, he]; simp

theorem Delivered.points (h : Delivered dt pyid ts vs nbr unwanted sorted s) (hdt : DtMesh dt) {t : TId} {i : Fin 3}
    {a b : VId} (hs : FrontSide s t i a b) : Points s a b := by
  obtain ⟨x, y, hx, hy, hf, hl⟩ := h.front hdt hs
  obtain ⟨_, f1, l1, _, _, hnx, _⟩ := h.origin hx
  obtain ⟨_, f2, l2, _, _, hny, _⟩ := h.origin hy
  obtain ⟨_, c, _, _, _, hc, _, _, _, _, ex⟩ := h.linked hx hnx.head hnx.tail hnx.empty
  obtain ⟨d, _, _, _, hd, _, _, _, _, _, ey⟩ := h.linked hy hny.head hny.tail hny.empty
  have q1 : ∀ i : Fin 3, ccw (i + 1) = i + 2 := by decide
  have q2 : ∀ i : Fin 3, cw (i + 2) = i + 1 := by decide
  have e1 : f1 = (t, i + 1) := Option.some.inj (hnx.head.symm.trans hf)
  have e2 : l2 = (t, i + 2) := Option.some.inj (hny.tail.symm.trans hl)
  have k1 : kcorner vs t (i + 1) = some a := kref_kin (h.kref_member hdt hx (List.mem_of_head? hf))
  have k2 : kcorner vs t (i + 2) = some b := kref_kin (h.kref_member hdt hy (List.mem_of_getLast? hl))
  rw [e1] at hc
  rw [e2] at hd
  dsimp only at hc hd
  rw [q1, k2] at hc
  rw [q2, k1] at hd
  cases hc
  cases hd
  refine ⟨_, _, ?_, ?_, h.vert_of hx, h.vert_of hy, ?_, ?_⟩
  · rw [h.nV]; exact Nat.lt_succ_of_lt (List.getElem?_eq_some_iff.1 hx).1
  · rw [h.nV]; exact Nat.lt_succ_of_lt (List.getElem?_eq_some_iff.1 hy).1
  · rw [ex]; rfl
  · rw [ey]; rfl

/-- a triangle that is taken out has no constrained side -/
theorem Delivered.constrained_wanted (h : Delivered dt pyid ts vs nbr unwanted sorted s) (hdt : DtMesh dt) {t : TId}
    {i : Fin 3} (ht : t < dt.nT) (hc : dt.constrained t i = true) : t ∉ unwanted := by
  intro hu
  have ne1 : ∀ i : Fin 3, i + 1 ≠ i := by decide
  have ne2 : ∀ i : Fin 3, i + 2 ≠ i := by decide
  have ne3 : ∀ i : Fin 3, i + 2 ≠ i + 1 := by decide
  obtain ⟨v, hv, _⟩ := hdt.corners t ht (i + 1)
  obtain ⟨w, hw, _⟩ := hdt.corners t ht (i + 2)
  obtain ⟨_, _, _, _, _, _, hk⟩ := h.finite_corner hdt ht hv (hdt.constrained_finite t ht i hc _ (ne1 i) v hv)
  have := h.unwanted_inf hu hk (ne3 i)
  rw [h.isInf_iff hdt ht hw, hdt.constrained_finite t ht i hc _ (ne2 i) w hw] at this
  cases this

/-- the side at which the row of a kinetic vertex begins -/
theorem Delivered.head_front (h : Delivered dt pyid ts vs nbr unwanted sorted s) (hdt : DtMesh dt) {u : VId}
    {x : KVertex K × List DEdge} (hx : vs[u]? = some x) {f : DEdge} (hf : x.2.head? = some f) :
    ∃ b, FrontSide s f.1 (cw f.2) u b := by
  obtain ⟨v, ha⟩ := h.around hdt hx
  have hm := List.mem_of_head? hf
  have hc := ha.ok.first f hf
  unfold Behind at hc
  have hu := h.constrained_wanted hdt (ha.bound f hm) hc
  have q1 : ∀ i : Fin 3, cw i + 1 = i := by decide
  refine ⟨_, h.live.2 ⟨ha.bound f hm, hu⟩, ?_, ?_, rfl⟩
  · rw [h.tri_wanted hu]
    exact (h.sides_ok hdt (ha.bound f hm) hu _).1.2 hc
  · rw [h.tri_wanted hu, q1]
    dsimp only
    rw [h.kref_member hdt hx hm]; rfl

/-- the side at which it ends -/
theorem Delivered.last_front (h : Delivered dt pyid ts vs nbr unwanted sorted s) (hdt : DtMesh dt) {u : VId}
    {x : KVertex K × List DEdge} (hx : vs[u]? = some x) {l : DEdge} (hl : x.2.getLast? = some l) :
    ∃ a, FrontSide s l.1 (ccw l.2) a u := by
  obtain ⟨v, ha⟩ := h.around hdt hx
  have hm := List.mem_of_getLast? hl
  have hc := ha.ok.last l hl
  unfold Ahead at hc
  have hu := h.constrained_wanted hdt (ha.bound l hm) hc
  have q1 : ∀ i : Fin 3, ccw i + 2 = i := by decide
  refine ⟨_, h.live.2 ⟨ha.bound l hm, hu⟩, ?_, rfl, ?_⟩
  · rw [h.tri_wanted hu]
    exact (h.sides_ok hdt (ha.bound l hm) hu _).1.2 hc
  · rw [h.tri_wanted hu, q1]
    dsimp only
    rw [h.kref_member hdt hx hm]; rfl

/-- going around a kinetic vertex comes to an end -/
theorem Delivered.fan (h : Delivered dt pyid ts vs nbr unwanted sorted s) (hdt : DtMesh dt) {u : VId}
    {x : KVertex K × List DEdge} (hx : vs[u]? = some x) : ∀ (k : ℕ) (p : List DEdge) (e : DEdge) (q : List DEdge),
    p.length = k → x.2 = p ++ e :: q → e.1 ∉ unwanted → ∃ l, FanWalk .cw u s.tri (some e.1) l := by
  obtain ⟨v, ha⟩ := h.around hdt hx
  obtain ⟨links, hw, hun, hl⟩ := h.links_ok hdt
  intro k
  induction k using Nat.strong_induction_on with
  | _ k ih =>
    intro p e q hp hg hu
    have hm : e ∈ x.2 := by rw [hg]; simp
    have ht := ha.bound e hm
    have hv : (s.tri e.1).vertices e.2 = u := by
      rw [h.tri_wanted hu]
      dsimp only
      rw [h.kref_member hdt hx hm]; rfl
    have hnb : (s.tri e.1).neighbours (Dir.cw.fn e.2) = nbr e.1 (cw e.2) := by rw [h.tri_wanted hu]; rfl
    cases hn : nbr e.1 (cw e.2) with
    | none => exact ⟨[e.1], FanWalk.step hv (by rw [hnb, hn]; exact FanWalk.stop)⟩
    | some n =>
      obtain ⟨hwant, hnc⟩ : n ∉ unwanted ∧ dt.constrained e.1 (cw e.2) = false := by
        have := h.sides_ok hdt ht hu (cw e.2)
        refine ⟨(this.2 n hn).2.1, ?_⟩
        by_contra hc
        rw [this.1.2 (by simpa using hc)] at hn
        cases hn
      suffices hs : ∃ p' f q', p'.length < k ∧ x.2 = p' ++ f :: q' ∧ f.1 = n by
        obtain ⟨p', f, q', h1, h2, rfl⟩ := hs
        obtain ⟨l, hlw⟩ := ih _ h1 p' f q' rfl h2 hwant
        exact ⟨e.1 :: l, FanWalk.step hv (by rw [hnb, hn]; exact hlw)⟩
      rw [hw _ hu] at hn
      rcases applyLinks_some hn with ho | hmem
      · obtain ⟨r, d, rfl⟩ := ha.unsplit hg (by unfold Behind; rw [hnc]; simp)
        have hg' : x.2 = r ++ d :: e :: q := by rw [hg]; simp
        obtain ⟨_, h2, _⟩ := ha.step hdt hg'
        have h3 := (h.old_neighbour ho).2.1
        rw [h2] at h3
        refine ⟨r, d, e :: q, ?_, hg', Option.some.inj h3⟩
        rw [← hp, List.length_append, List.length_singleton]; exact Nat.lt_succ_self _
      · obtain ⟨u', e', f', hgap, _, _, h1⟩ := hl _ _ _ hmem
        rcases h1 with h1 | h1
        · exfalso
          simp only [Prod.mk.injEq] at h1
          obtain ⟨_, _, a3, _⟩ := h.gap_sides hdt hgap
          have key : ∀ i j : Fin 3, cw i = ccw j → cw j = i := by decide
          rw [← h1.1, key _ _ h1.2.1, h.kref_member hdt hx hm] at a3
          cases a3
        · simp only [Prod.mk.injEq] at h1
          have inj2 : ∀ i j : Fin 3, cw i = cw j → i = j := by decide
          have he : e = f' := Prod.ext h1.1 (inj2 _ _ h1.2.1)
          subst he
          obtain ⟨x', p', mid, q', hx', hr, _, _⟩ := hgap.row
          have := h.unique hdt.toDtOk hx hx' (e := e) hm (by rw [hr]; simp)
          subst this
          rw [hx] at hx'
          cases hx'
          have hr' : x.2 = (p' ++ e' :: mid) ++ e :: q' := by rw [hr]; simp
          obtain ⟨hpe, _⟩ := nodup_split (by rw [← hg]; exact ha.nodup) (hg.symm.trans hr')
          refine ⟨p', e', mid ++ e :: q', ?_, hr, h1.2.2.symm⟩
          rw [← hp, hpe, List.length_append, List.length_cons]
          omega

theorem Delivered.linked_ok (h : Delivered dt pyid ts vs nbr unwanted sorted s) (hdt : DtMesh dt) : Linked s := by
  have hcor : ∀ t, Live s t → ∀ i, Kinetic s ((s.tri t).vertices i) →
      ∃ u x, (s.tri t).vertices i = u ∧ vs[u]? = some x ∧ (t, i) ∈ x.2 := by
    intro t hl i hk
    obtain ⟨ht, hu⟩ := h.live.1 hl
    have hk := h.kinetic.1 hk
    rw [h.tri_wanted hu] at hk ⊢
    dsimp only at hk ⊢
    obtain ⟨u, h1, h2⟩ := h.corner_kinetic hdt ht i hk
    obtain ⟨x, w, hx, hm, _⟩ := h.kin_corner hdt h1
    exact ⟨u, x, h2, hx, hm⟩
  have inj1 : ∀ i j : Fin 3, i + 1 = j → i = cw j := by decide
  have inj2 : ∀ i j : Fin 3, i + 2 = j → i = ccw j := by decide
  refine ⟨fun t i a b hs => ?_, fun t i a b hs => Or.inl (h.points hdt hs), fun t hl i hk => ?_,
    fun t hl i hr => ?_, fun t hl i hr => ?_, fun t hl i hk hr => absurd (h.all_running hk) hr⟩
  · obtain ⟨x, y, hx, hy, _⟩ := h.front hdt hs
    exact ⟨h.kinetic.2 (List.getElem?_eq_some_iff.1 hx).1, h.kinetic.2 (List.getElem?_eq_some_iff.1 hy).1⟩
  · obtain ⟨u, x, h1, hx, hm⟩ := hcor t hl i hk
    rw [h1]
    obtain ⟨p, q, hg⟩ := List.mem_iff_append.1 hm
    exact h.fan hdt hx _ p (t, i) q rfl hg (h.live.1 hl).2
  · obtain ⟨u, x, h1, hx, hm⟩ := hcor t hl i ⟨hr.1, hr.2.choose, hr.2.choose_spec.1⟩
    rw [h1]
    obtain ⟨f, hf⟩ : ∃ f, x.2.head? = some f := by
      cases hh : x.2.head? with
      | none => rw [List.head?_eq_none_iff.1 hh] at hm; cases hm
      | some f => exact ⟨f, rfl⟩
    obtain ⟨b, hb⟩ := h.head_front hdt hx hf
    refine ⟨f.1, cw f.2, b, hb, h.points hdt hb, fun u' j' b' hs => ?_⟩
    obtain ⟨x', _, hx', _, hf', _⟩ := h.front hdt hs
    rw [hx] at hx'
    cases hx'
    rw [hf] at hf'
    cases hf'
    exact ⟨rfl, inj1 _ _ rfl⟩
  · obtain ⟨u, x, h1, hx, hm⟩ := hcor t hl i ⟨hr.1, hr.2.choose, hr.2.choose_spec.1⟩
    rw [h1]
    obtain ⟨l, hlast⟩ : ∃ l, x.2.getLast? = some l := by
      cases hh : x.2.getLast? with
      | none => rw [List.getLast?_eq_none_iff.1 hh] at hm; cases hm
      | some f => exact ⟨f, rfl⟩
    obtain ⟨a, ha⟩ := h.last_front hdt hx hlast
    refine ⟨l.1, ccw l.2, a, ha, h.points hdt ha, fun u' j' a' hs => ?_⟩
    obtain ⟨_, y, _, hy, _, hl'⟩ := h.front hdt hs
    rw [hx] at hy
    cases hy
    rw [hlast] at hl'
    cases hl'
    exact ⟨rfl, inj2 _ _ rfl⟩

end

/-! ### the theorems -/

/-- C70: for a consistent triangulation: when `init_skeleton` returns, the triangles of the skeleton form a consistent
triangulation, although three triangles of `dt` were taken out and three infinite vertices were made one: their corners
are different, and neighbours share a side (in opposite directions) and point to each other. -/
theorem C70_mesh (dt : Dt K) (pyid : TId → ℕ) (hdt : DtMesh dt) (s : St K) (h : initSkeleton dt pyid = .ok s) :
    Mesh s ∧ ∀ t, Live s t ↔ t ∈ s.skTriangles := by
  obtain ⟨ts, vs, nbr, unwanted, sorted, hd⟩ := initSkeleton_ok h
  refine ⟨hd.mesh hdt, fun t => ?_⟩
  have e : s.skTriangles = sorted := by rw [hd.state]; rfl
  rw [hd.live, e, hd.perm.mem_iff, List.mem_filter, List.mem_range]
  simp

/-- C70: the neighbours that the vertices keep are the ends of the sides without neighbour, and going around a kinetic
vertex from triangle to triangle leads from the one of these sides to the other. -/
theorem C70_linked (dt : Dt K) (pyid : TId → ℕ) (hdt : DtMesh dt) (s : St K) (h : initSkeleton dt pyid = .ok s) :
    Linked s := by
  obtain ⟨ts, vs, nbr, unwanted, sorted, hd⟩ := initSkeleton_ok h
  exact hd.linked_ok hdt

/-- C70: the wavefront starts at the constrained edges: a side of a triangle of the skeleton is without neighbour if and
only if it is constrained, and the corners at finite vertices of the triangulation are kinetic vertices that start
there; the other corners are the vertex that stands for the infinite ones. -/
theorem C70_constrained (dt : Dt K) (pyid : TId → ℕ) (hdt : DtMesh dt) (s : St K) (h : initSkeleton dt pyid = .ok s) :
    ∀ t ∈ s.skTriangles, ∀ i, ((s.tri t).neighbours i = none ↔ dt.constrained t i = true) ∧
      ∃ v, dt.corner t i = some v ∧
        (dt.finite v = true → ∃ kv, s.vert ((s.tri t).vertices i) = .kin kv ∧ kv.origin = dt.pos v ∧
          kv.startNode = some v) ∧
        (dt.finite v = false → s.vert ((s.tri t).vertices i) = .inf (centroidOf dt)) := by
  obtain ⟨ts, vs, nbr, unwanted, sorted, hd⟩ := initSkeleton_ok h
  intro t hmem i
  have e : s.skTriangles = sorted := by rw [hd.state]; rfl
  rw [e, hd.perm.mem_iff, List.mem_filter, List.mem_range] at hmem
  have hu : t ∉ unwanted := by simpa using hmem.2
  rw [hd.tri_wanted hu]
  dsimp only
  refine ⟨(hd.sides_ok hdt hmem.1 hu i).1, ?_⟩
  obtain ⟨v, hv, _⟩ := hdt.corners t hmem.1 i
  refine ⟨v, hv, fun hf => ?_, fun hf => ?_⟩
  · obtain ⟨u, x, hx, hm, ha, _, hr⟩ := hd.finite_corner hdt hmem.1 hv hf
    rw [hr]
    refine ⟨_, hd.vert_of hx, ?_⟩
    obtain ⟨v', first, last, _, _, hn, gs, hs, hmg, _⟩ := hd.origin hx
    have hv' : v' = v := by
      obtain ⟨hrot, _⟩ := C41_rotation dt v' gs hs
      have := hdt.star_corner v' ‹_› (t, i) (hrot.mem_iff.1 (List.mem_flatten.2 ⟨_, hmg, hm⟩))
      exact Option.some.inj (this.symm.trans hv)
    have : (linkVertex vs x).origin = x.1.origin ∧ (linkVertex vs x).startNode = x.1.startNode := by
      unfold linkVertex; split <;> exact ⟨rfl, rfl⟩
    rw [this.1, this.2, hn.fields, hv']
    exact ⟨rfl, rfl⟩
  · rw [kref_inf hv hf, hd.state]
    dsimp only [initState, vidOf]
    rw [List.getElem?_map, List.getElem?_eq_none (le_refl _)]
    rfl

/-- `Mesh` and `Linked` are about vertices and triangles only -/
theorem mesh_congr {s s' : St K} (h1 : s'.tri = s.tri) (h2 : s'.nT = s.nT) (h3 : s'.nV = s.nV) (h : Mesh s) : Mesh s' := by
  obtain ⟨a, b, c⟩ := h
  unfold Consistent Live at a
  refine ⟨?_, ?_, ?_⟩
  · unfold Consistent Live; rw [h1, h2]; exact a
  · rw [h1, h2]; exact b
  · rw [h1, h2, h3]; exact c

theorem linked_congr {s s' : St K} (h1 : s'.tri = s.tri) (h2 : s'.nT = s.nT) (h3 : s'.nV = s.nV) (h4 : s'.vert = s.vert)
    (h : Linked s) : Linked s' := by
  have e1 : FrontSide s' = FrontSide s := by unfold FrontSide Live; rw [h1, h2]
  have e2 : Kinetic s' = Kinetic s := by unfold Kinetic; rw [h3, h4]
  have e3 : Running s' = Running s := by unfold Running; rw [h3, h4]
  have e4 : Points s' = Points s := by unfold Points; rw [h3, h4]
  have e5 : Live s' = Live s := by unfold Live; rw [h1, h2]
  obtain ⟨a, b, c, d, e, f⟩ := h
  refine ⟨?_, ?_, ?_, ?_, ?_, ?_⟩
  · rw [e1, e2]; exact a
  · rw [e1, e3, e4]; exact b
  · rw [e5, e2, h1]; exact c
  · rw [e5, e3, e1, e4, h1]; exact d
  · rw [e5, e3, e1, e4, h1]; exact e
  · rw [e5, e2, e3, e1, h1]; exact f

/-- C70: so every run of `calc_skel` on a consistent triangulation starts from a state as C66-C69 require it, with
`internal_only` or without. -/
theorem C70_calc_skel [HasTrig K] [IsStrictOrderedRing K] (depth : ℕ) (pyid : TId → ℕ) (hid : Function.Injective pyid)
    (triangulate : List (Pt K) → Except Err (Dt K)) (ht : ∀ pts dt, triangulate pts = .ok dt → DtMesh dt)
    (points : List (Pt K)) (shrink internal : Bool) (now : K) (s : St K)
    (h : calcSkel depth pyid triangulate points shrink internal = .ok (now, s)) :
    ∃ s0, Initial s0 ∧ Mesh s0 ∧ Linked s0 ∧ Completed depth s0 now s := by
  obtain ⟨pts, tr, dt, skel, _, h2, h3, h4⟩ := C55_completed depth pyid hid triangulate points shrink internal now s h
  have hm := (C70_mesh dt pyid (ht _ _ h2) skel h3).1
  have hl := C70_linked dt pyid (ht _ _ h2) skel h3
  have hi := (C52_initial dt pyid (fun _ _ _ _ e => hid e) skel h3).1
  refine ⟨_, hi.prepare internal tr, ?_, ?_, h4⟩
  · refine mesh_congr ?_ ?_ ?_ hm <;> unfold prepare <;> cases internal <;> cases tr <;> rfl
  · refine linked_congr ?_ ?_ ?_ ?_ hl <;> unfold prepare <;> cases internal <;> cases tr <;> rfl

/-! ### the hypotheses are met -/

/-- the rectangle of the samples -/
theorem Sample.rectangleDt_mesh : DtMesh Sample.rectangleDt where
  toDtOk := Sample.rectangleDt_ok
  distinct := by
    intro t ht i j
    have ht : t < 9 := ht
    revert i j
    interval_cases t <;> decide +kernel
  proper := by
    intro t ht
    have ht : t < 9 := ht
    interval_cases t <;> first
      | exact ⟨2, _, rfl, by decide +kernel⟩
  back := by
    intro t ht i n hn hlt
    have ht : t < 9 := ht
    interval_cases t <;> fin_cases i <;> first
      | (cases hn; done)
      | (cases hn; decide +kernel)
  star_next := by
    intro v hv
    have hv : v < 4 := hv
    interval_cases v <;> (unfold Next; decide +kernel)
  star_closed := by
    intro v hv
    have hv : v < 4 := hv
    interval_cases v <;> (unfold Next; decide +kernel)
  constrained_finite := by
    intro t ht i hc j hj v hv
    have ht : t < 9 := ht
    interval_cases t <;> fin_cases i <;> first
      | (cases hc; done)
      | (fin_cases j <;> first
          | exact absurd rfl hj
          | (cases hv; decide +kernel))

example : Mesh Sample.rectangleSkeleton ∧ Linked Sample.rectangleSkeleton :=
  ⟨(C70_mesh _ _ Sample.rectangleDt_mesh _ Sample.rectangleSkeleton_ok).1,
    C70_linked _ _ Sample.rectangleDt_mesh _ Sample.rectangleSkeleton_ok⟩

/-- triangles 2 and 3 have become neighbours: triangle 6 was between them -/
example : (Sample.rectangleSkeleton.tri 2).neighbours 2 = some 3 ∧ (Sample.rectangleSkeleton.tri 3).neighbours 1 = some 2 ∧
    (Sample.rectangleSkeleton.tri 0).neighbours 0 = none := by decide +kernel

theorem Sample.triangulate_mesh : ∀ pts dt, Sample.triangulate pts = .ok dt → DtMesh dt := by
  intro pts dt h
  have hok := Sample.triangulate_ok.consistent pts dt h
  unfold Sample.triangulate at h
  split_ifs at h
  cases h
  have h := Sample.rectangleDt_mesh
  exact { toDtOk := hok, distinct := h.distinct, proper := h.proper, back := h.back, star_next := h.star_next,
          star_closed := h.star_closed, constrained_finite := h.constrained_finite }

/-- a run of `calc_skel` to which C70 applies -/
example : ∃ now s s0, calcSkel 100 id Sample.triangulate [(0, 0), (4, 0), (4, 2), (0, 2)] true true = .ok (now, s) ∧
    Initial s0 ∧ Mesh s0 ∧ Linked s0 ∧ Completed 100 s0 now s := by
  have h := Sample.skeletonOf_internal
  unfold Sample.skeletonOf at h
  split at h
  · rename_i now s hs
    exact ⟨now, s, (C70_calc_skel _ _ Function.injective_id _ Sample.triangulate_mesh _ _ _ _ _ hs).imp
      fun s0 h0 => ⟨hs, h0⟩⟩
  · cases h

end Grassfire
