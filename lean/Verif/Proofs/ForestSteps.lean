/-
Regions without holes stay regions without holes (lemmas for C71): what the events do.
-/
import Verif.Proofs.Trails
import Verif.Proofs.FrontFlip
import Verif.Proofs.MeshSteps

set_option linter.unusedSectionVars false

namespace Grassfire

open Spec

variable {K : Type} [Field K] [LinearOrder K] {P P' : TId → Prop} {s s' : St K}

theorem star_mono {r q : TId → TId → Prop} {x y : TId} (h : Relation.ReflTransGen r x y) (f : ∀ a b, r a b → q a b) :
    Relation.ReflTransGen q x y := by
  induction h with
  | refl => exact .refl
  | tail _ hb ih => exact ih.tail (f _ _ hb)

theorem star_symm {r : TId → TId → Prop} (f : ∀ a b, r a b → r b a) {x y : TId} (h : Relation.ReflTransGen r x y) :
    Relation.ReflTransGen r y x := by
  induction h with
  | refl => exact .refl
  | tail _ hb ih => exact .head (f _ _ hb) ih

/-- `Adjacent`, for any set of triangles -/
def Adj (P : TId → Prop) (s : St K) (x y : TId) : Prop := P x ∧ ∃ i, (s.tri x).neighbours i = some y

/-- `Connected`, for any set of triangles -/
def Conn (P : TId → Prop) (s : St K) : TId → TId → Prop := Relation.ReflTransGen (Adj P s)

/-- `Beside`, for any set of triangles -/
def Bes (P : TId → Prop) (s : St K) (v : VId) (x y : TId) : Prop :=
  P x ∧ ∃ i j, j ≠ i ∧ (s.tri x).vertices j = v ∧ (s.tri x).neighbours i = some y

/-- `Round`, for any set of triangles -/
def RoundP (P : TId → Prop) (s : St K) : Prop :=
  ∀ v x y, P x → P y → Conn P s x y → (∃ i, (s.tri x).vertices i = v) → (∃ i, (s.tri y).vertices i = v) →
    Relation.ReflTransGen (Bes P s v) x y

/-- `NoHoles`, for any set of triangles -/
def Simple (P : TId → Prop) (s : St K) : Prop := (∃ rank, Ranked P s rank) ∧ RoundP P s

/-- over side `i` of `x`, which has the end `v`, one gets to `y` -/
def Rim (P : TId → Prop) (s : St K) (v : VId) (x : TId) (i : Fin 3) (y : TId) (k : Fin 3) : Prop :=
  Across P s x i y k ∧ ∃ j, j ≠ i ∧ (s.tri x).vertices j = v

theorem rim_symm {v : VId} {x i y k} (h : Rim P s v x i y k) : Rim P s v y k x i := by
  obtain ⟨h1, j, hj, hv⟩ := h
  refine ⟨h1.symm, ?_⟩
  rcases fin3_cases i j with rfl | rfl | rfl
  · exact absurd rfl hj
  · exact ⟨k + 2, (fin3_ne_2 k).symm, h1.v2.trans hv⟩
  · exact ⟨k + 1, (fin3_ne_1 k).symm, h1.v1.trans hv⟩

theorem adjacent_iff (hC : Consistent P s) {x y : TId} : Adj P s x y ↔ ∃ i k, Across P s x i y k := by
  constructor
  · rintro ⟨hx, i, hi⟩
    exact ⟨i, across_of hC hx hi⟩
  · rintro ⟨i, k, h⟩
    exact ⟨h.px, i, h.go⟩

theorem beside_iff (hC : Consistent P s) {v : VId} {x y : TId} : Bes P s v x y ↔ ∃ i k, Rim P s v x i y k := by
  constructor
  · rintro ⟨hx, i, j, hj, hv, hi⟩
    obtain ⟨k, hk⟩ := across_of hC hx hi
    exact ⟨i, k, hk, j, hj, hv⟩
  · rintro ⟨i, k, h, j, hj, hv⟩
    exact ⟨h.px, i, j, hj, hv, h.go⟩

theorem connected_star (hC : Consistent P s) {x y : TId} (h : Conn P s x y) :
    Relation.ReflTransGen (fun x y => ∃ i k, Across P s x i y k) x y :=
  star_mono h fun _ _ q => (adjacent_iff hC).1 q

theorem around_star (hC : Consistent P s) {v : VId} {x y : TId} :
    Relation.ReflTransGen (Bes P s v) x y ↔ Relation.ReflTransGen (fun x y => ∃ i k, Rim P s v x i y k) x y :=
  ⟨fun h => star_mono h fun _ _ q => (beside_iff hC).1 q, fun h => star_mono h fun _ _ q => (beside_iff hC).2 q⟩

theorem around_symm (hC : Consistent P s) {v : VId} {x y : TId} (h : Relation.ReflTransGen (Bes P s v) x y) :
    Relation.ReflTransGen (Bes P s v) y x := by
  refine star_symm (fun a b q => ?_) h
  obtain ⟨i, k, q⟩ := (beside_iff hC).1 q
  exact (beside_iff hC).2 ⟨k, i, rim_symm q⟩

/-- around a common corner, without turns -/
theorem around_trail (hC : Consistent P s) (hR : RoundP P s) {v : VId} {x y : TId} (hx : P x) (hy : P y)
    (h : Conn P s x y) (h1 : ∃ i, (s.tri x).vertices i = v) (h2 : ∃ i, (s.tri y).vertices i = v) (hne : x ≠ y) :
    ∃ n i k, Trail (Rim P s v) n x i y k :=
  (trail_of_star hC (S := Rim P s v) (fun _ _ _ _ q => q.1)
    ((around_star hC).1 (hR v x y hx hy h h1 h2))).resolve_left hne

/-! ### the conditions of the events -/

theorem Simple.collapsible (hN : Simple P s) (hC : Consistent P s) {t : TId} (hl : P t) (e : Fin 3) {x : TId} (hx : P x)
    (hc : Conn P s t x) (h1 : ∃ i, (s.tri x).vertices i = (s.tri t).vertices (e + 1))
    (h2 : ∃ i, (s.tri x).vertices i = (s.tri t).vertices (e + 2)) : x = t ∨
    (s.tri t).neighbours e = some x ∧ (s.tri t).neighbours (e + 1) ≠ some x ∧ (s.tri t).neighbours (e + 2) ≠ some x := by
  obtain ⟨⟨rank, hr⟩, hR⟩ := hN
  by_cases hxt : x = t
  · exact .inl hxt
  right
  obtain ⟨n1, i1, k1, t1⟩ := around_trail hC hR hl hx hc ⟨e + 1, rfl⟩ h1 (Ne.symm hxt)
  obtain ⟨n2, i2, k2, t2⟩ := around_trail hC hR hl hx hc ⟨e + 2, rfl⟩ h2 (Ne.symm hxt)
  have hne : (s.tri t).vertices (e + 1) ≠ (s.tri t).vertices (e + 2) := fun q => fin3_1_ne_2 e ((hC t hl).2.1 q)
  obtain ⟨-, -, tt⟩ := t1.unique hC hr (fun _ _ _ _ q => q.1) (fun _ _ _ _ q => q.1) t2
  have first : ∀ {i y k}, Rim P s ((s.tri t).vertices (e + 1)) t i y k ∧ Rim P s ((s.tri t).vertices (e + 2)) t i y k →
      i = e := by
    rintro i y k ⟨⟨-, j, hj, hv⟩, -, j', hj', hv'⟩
    obtain rfl := (hC t hl).2.1 hv
    obtain rfl := (hC t hl).2.1 hv'
    rcases fin3_cases e i with q | q | q
    · exact q
    · exact absurd q.symm hj
    · exact absurd q.symm hj'
  cases tt with
  | one a =>
    obtain rfl := first a
    have no : ∀ j, (s.tri t).neighbours j = some x → j = i1 := fun j hj => by
      obtain ⟨k, hk⟩ := across_of hC hl hj
      exact ((Trail.one a.1).unique hC hr (fun _ _ _ _ q => q.1) (fun _ _ _ _ q => q) (Trail.one hk)).1
    exact ⟨a.1.1.go, fun q => (fin3_ne_1 _).symm (no _ q), fun q => (fin3_ne_2 _).symm (no _ q)⟩
  | @cons n _ _ y k j _ _ a hk ht =>
    exfalso
    obtain ⟨z, l, b⟩ : ∃ z l, Rim P s ((s.tri t).vertices (e + 1)) y j z l ∧ Rim P s ((s.tri t).vertices (e + 2)) y j z l := by
      cases ht with
      | one b => exact ⟨_, _, b⟩
      | cons b _ _ => exact ⟨_, _, b⟩
    have hi := (hC y a.1.1.py).2.1
    have only : ∀ v, Rim P s v t i1 y k → Rim P s v y j z l → ∃ m, m ≠ k ∧ m ≠ j ∧ (s.tri y).vertices m = v := by
      rintro v q1 ⟨-, m, hm, hv⟩
      obtain ⟨-, m', hm', hv'⟩ := rim_symm q1
      obtain rfl := hi (hv.trans hv'.symm)
      exact ⟨m, hm', hm, hv⟩
    obtain ⟨m, m1, m2, m3⟩ := only _ a.1 b.1
    obtain ⟨m', m1', m2', m3'⟩ := only _ a.2 b.2
    have : m = m' := by
      clear m3 m3' only hi b ht a
      revert m m' k j
      decide
    exact hne (by rw [← m3, ← m3', this])

theorem Simple.proper (hN : Simple P s) (hC : Consistent P s) {t : TId} (hl : P t) (e : Fin 3) :
    ProperSide s t e := by
  obtain ⟨⟨rank, hr⟩, hR⟩ := hN
  intro n hn i hi
  obtain ⟨k, a⟩ := across_of hC hl hn
  obtain ⟨m, j, l, ht⟩ := around_trail hC hR hl a.py (.single ⟨hl, e, hn⟩) ⟨e, rfl⟩ ⟨i, hi⟩ (a.ne hC)
  obtain ⟨rfl, -, -⟩ := ht.unique hC hr (fun _ _ _ _ q => q.1) (fun _ _ _ _ q => q) (Trail.one a)
  obtain ⟨j, hj, hv⟩ : ∃ j, j ≠ e ∧ (s.tri t).vertices j = (s.tri t).vertices e := by
    cases ht with
    | one b => exact b.2
    | cons b _ _ => exact b.2
  exact hj ((hC t hl).2.1 hv)

/-! ### triangles are taken out -/

/-- When connections only vanish, corners at which a region was round are so afterwards. -/
theorem round_less (hC : Consistent P s) (hC' : Consistent P' s') (hN : Simple P s)
    (hA : ∀ x i y k, Across P' s' x i y k → Across P s x i y k)
    (hL : ∀ x, P' x → P x)
    (hw : ∀ w, ∃ (o : VId) (I : TId → Prop), (∀ x j, P' x → (s'.tri x).vertices j = w → (s.tri x).vertices j = o ∧ I x) ∧
      (∀ x i y k, Across P' s' x i y k → Rim P s o x i y k → I x → I y) ∧
      (∀ x j, P' x → I x → (s.tri x).vertices j = o → (s'.tri x).vertices j = w)) : Simple P' s' := by
  obtain ⟨⟨rank, hr⟩, hR⟩ := hN
  refine ⟨⟨rank, fun t ht i j n m hi hj => ?_⟩, fun w x y hx hy hc ⟨i, hi⟩ ⟨j, hj⟩ => ?_⟩
  · obtain ⟨k, hk⟩ := across_of hC' ht hi
    obtain ⟨l, hl⟩ := across_of hC' ht hj
    exact hr t (hL t ht) i j n m (hA _ _ _ _ hk).go (hA _ _ _ _ hl).go
  · by_cases hxy : x = y
    · rw [hxy]
    obtain ⟨o, I, w1, w2, w3⟩ := hw w
    have hc' : Conn P s x y := by
      refine star_mono hc fun a b q => ?_
      obtain ⟨i, k, q⟩ := (adjacent_iff hC').1 q
      exact (adjacent_iff hC).2 ⟨i, k, hA _ _ _ _ q⟩
    obtain ⟨n, i1, k1, t1⟩ := (trail_of_star hC' (S := Across P' s') (fun _ _ _ _ q => q)
      (connected_star hC' hc)).resolve_left hxy
    obtain ⟨n2, i2, k2, t2⟩ := around_trail hC hR (hL x hx) (hL y hy) hc' ⟨i, (w1 x i hx hi).1⟩ ⟨j, (w1 y j hy hj).1⟩ hxy
    obtain ⟨-, -, tt⟩ := t1.unique hC hr hA (fun _ _ _ _ q => q.1) t2
    rw [around_star hC']
    refine star_of_trail (tt.map (I := I) (w1 x i hx hi).2 fun a i b k ia q => ⟨w2 a i b k q.1 q.2 ia, q.1, ?_⟩).2
    obtain ⟨j', hj', hv⟩ := q.2.2
    exact ⟨j', hj', w3 a j' q.1.px ia hv⟩

theorem simple_removed {t : TId} (hC : Consistent P s) (hC' : Consistent P' s') (hN : Simple P s) (hL : ∀ x, P' x → P x ∧ x ≠ t)
    (hv : ∀ x, (s'.tri x).vertices = (s.tri x).vertices)
    (hnb : ∀ x i, P x → x ≠ t → (s'.tri x).neighbours i = if (s.tri x).neighbours i = some t then none else (s.tri x).neighbours i) : Simple P' s' := by
  have hn : ∀ x i y, P' x → (s'.tri x).neighbours i = some y → (s.tri x).neighbours i = some y := by
    intro x i y hx hi
    rw [hnb x i (hL x hx).1 (hL x hx).2] at hi
    split_ifs at hi
    exact hi
  refine round_less hC hC' hN (fun x i y k q => ?_) (fun x hx => (hL x hx).1) fun w => ⟨w, fun _ => True, ?_, ?_, ?_⟩
  · obtain ⟨px, py, go, back, v1, v2⟩ := q
    rw [hv, hv] at v1 v2
    exact ⟨(hL x px).1, (hL y py).1, hn _ _ _ px go, hn _ _ _ py back, v1, v2⟩
  · exact fun x j _ q => ⟨by rw [← hv]; exact q, trivial⟩
  · exact fun _ _ _ _ _ _ _ => trivial
  · exact fun x j _ _ q => by rw [hv]; exact q

/-- going on around a vertex one stays in the fan, or outside -/
theorem ClosedFan.stay {t : TId} {v : VId} {F : List TId} (cF : ClosedFan P s t v F) {x i y k} (h : Rim P s v x i y k)
    (hx : x ≠ t) (hy : y ≠ t) : x ∈ F ↔ y ∈ F := by
  have : ∀ {x i y k}, Rim P s v x i y k → y ≠ t → x ∈ F → y ∈ F := by
    rintro x i y k ⟨a, j, hj, hv⟩ hy hx
    refine ((cF x hx).2.2.2 j hv y ?_).resolve_left hy
    rcases fin3_cases j i with rfl | rfl | rfl
    · exact absurd rfl hj
    · exact .inl a.go
    · exact .inr a.go
  exact ⟨this h hy, this (rim_symm h) hx⟩

theorem simple_split {t : TId} {e : Fin 3} {va vb : VId} (hC : Consistent P s) (hC' : Consistent P' s') (hN : Simple P s)
    {a b : TId} {fanA fanB : List TId} (hL : ∀ x, P' x → P x ∧ x ≠ t) (hd : ∀ x ∈ fanB, x ∉ fanA)
    (cA : ClosedFan P s t ((s.tri t).vertices e) fanA) (cB : ClosedFan P s t ((s.tri t).vertices e) fanB)
    (D : SplitDone P s s' t a b ((s.tri t).vertices e) va vb fanA fanB) (hfa : ∀ x, P x → ∀ i, (s.tri x).vertices i ≠ va)
    (hfb : ∀ x, P x → ∀ i, (s.tri x).vertices i ≠ vb) (hne : va ≠ vb) (hl : P t) : Simple P' s' := by
  have hn : ∀ x i y, P' x → (s'.tri x).neighbours i = some y → (s.tri x).neighbours i = some y := by
    intro x i y hx hi
    by_cases q : (s.tri x).neighbours i = some t
    · rw [D.gap x i (hL x hx).1 (hL x hx).2 q] at hi; cases hi
    · rw [D.same x i (hL x hx).1 (hL x hx).2 q] at hi; exact hi
  have hA : ∀ x i y k, Across P' s' x i y k → Across P s x i y k := by
    intro x i y k q
    obtain ⟨k', q'⟩ := across_of hC (hL x q.px).1 (hn _ _ _ q.px q.go)
    have hb := hn _ _ _ q.py q.back
    -- the side is the same one
    suffices k' = k by rw [← this]; exact q'
    by_contra hk
    obtain ⟨⟨rank, hr⟩, -⟩ := hN
    obtain ⟨i', q2⟩ := across_of hC (hL y q.py).1 hb
    have := (Trail.one q2).unique hC hr (fun _ _ _ _ q => q) (fun _ _ _ _ q => q) (Trail.one q'.symm)
    exact hk this.1
  have v0a : (s.tri t).vertices e ≠ va := hfa t hl e
  have v0b : (s.tri t).vertices e ≠ vb := hfb t hl e
  generalize hv : (s.tri t).vertices e = v at *
  have val : ∀ x j, (s'.tri x).vertices j = if x ∈ fanB ∧ (s.tri x).vertices j = v then vb
      else if x ∈ fanA ∧ (s.tri x).vertices j = v then va else (s.tri x).vertices j := by
    intro x j
    rw [D.vertices x]
    by_cases h1 : x ∈ fanB
    · have h2 := hd x h1
      simp only [h1, h2, if_true, true_and, false_and, if_false, substitute]
    · simp only [h1, if_false, false_and]
      by_cases h2 : x ∈ fanA
      · simp only [h2, if_true, true_and, substitute]
      · simp only [h2, if_false, false_and]
  refine round_less hC hC' hN hA (fun x hx => (hL x hx).1) fun w => ?_
  by_cases wa : w = va
  · subst wa
    refine ⟨v, fun x => x ∈ fanA, fun x j hx q => ?_, fun x i y k q1 q2 q3 => ?_, fun x j hx hi q => ?_⟩
    · rw [val] at q
      split_ifs at q with q1 q2
      · exact absurd q.symm hne
      · exact ⟨q2.2, q2.1⟩
      · exact absurd q (hfa x (hL x hx).1 j)
    · exact (cA.stay q2 (hL x q1.px).2 (hL y q1.py).2).1 q3
    · rw [val, if_neg (fun z => hd x z.1 hi), if_pos ⟨hi, q⟩]
  by_cases wb : w = vb
  · subst wb
    refine ⟨v, fun x => x ∈ fanB, fun x j hx q => ?_, fun x i y k q1 q2 q3 => ?_, fun x j hx hi q => ?_⟩
    · rw [val] at q
      split_ifs at q with q1 q2
      · exact ⟨q1.2, q1.1⟩
      · exact absurd q.symm wa
      · exact absurd q (hfb x (hL x hx).1 j)
    · exact (cB.stay q2 (hL x q1.px).2 (hL y q1.py).2).1 q3
    · rw [val, if_pos ⟨hi, q⟩]
  by_cases wv : w = v
  · subst wv
    refine ⟨w, fun x => x ∉ fanA ∧ x ∉ fanB, fun x j hx q => ?_, fun x i y k q1 q2 q3 => ?_, fun x j hx hi q => ?_⟩
    · rw [val] at q
      split_ifs at q with q1 q2
      · exact absurd q.symm wb
      · exact absurd q.symm wa
      · exact ⟨q, fun z => q2 ⟨z, q⟩, fun z => q1 ⟨z, q⟩⟩
    · exact ⟨fun z => q3.1 ((cA.stay q2 (hL x q1.px).2 (hL y q1.py).2).2 z),
        fun z => q3.2 ((cB.stay q2 (hL x q1.px).2 (hL y q1.py).2).2 z)⟩
    · rw [val, if_neg (fun z => hi.2 z.1), if_neg (fun z => hi.1 z.1)]; exact q
  · refine ⟨w, fun _ => True, fun x j hx q => ?_, fun _ _ _ _ _ _ _ => trivial, fun x j hx hi q => ?_⟩
    · rw [val] at q
      split_ifs at q with q1 q2
      · exact absurd q.symm wb
      · exact absurd q.symm wa
      · exact ⟨q, trivial⟩
    · rw [val, if_neg (fun z => wv (q.symm.trans z.2)), if_neg (fun z => wv (q.symm.trans z.2))]; exact q

end Grassfire
