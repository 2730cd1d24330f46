/-
The wavefront links and the triangulation (lemmas for C69): what taking out a triangle and flipping a side do.
-/
import Verif.Proofs.FrontLemmas
import Mathlib.Logic.Relation
import Mathlib.Algebra.Order.BigOperators.Group.Finset

set_option linter.unusedSectionVars false

namespace Grassfire

open Spec

variable {K : Type} [Field K] [LinearOrder K] {P : TId → Prop} {s : St K} {kin run : VId → Prop}
  {pts : VId → VId → Prop} {c : TId → Fin 3 → Kind} {r : TId → Fin 3 → ℕ}

/-- the next corner around a vertex -/
def Succ (tri : TId → KTri K) (p q : TId × Fin 3) : Prop :=
  (tri p.1).neighbours (p.2 + 2) = some q.1 ∧ (tri q.1).vertices q.2 = (tri p.1).vertices p.2

/-- what is the same at all corners that one meets going around a vertex -/
theorem Front.reach (F : Front s.tri P kin run pts c r) (hC : Consistent P s) {p q : TId × Fin 3}
    (h : Relation.ReflTransGen (Succ s.tri) p q) (pp : P p.1) (hk : kin ((s.tri p.1).vertices p.2)) :
    P q.1 ∧ (s.tri q.1).vertices q.2 = (s.tri p.1).vertices p.2 ∧ c q.1 q.2 = c p.1 p.2 ∧ r q.1 q.2 ≤ r p.1 p.2 := by
  induction h with
  | refl => exact ⟨pp, rfl, rfl, le_rfl⟩
  | @tail a b _ hs ih =>
    obtain ⟨i1, i2, i3, i4⟩ := ih
    have := F.next a.1 i1 a.2 b.1 b.2 hs.1 hs.2 (by rw [i2]; exact hk)
    exact ⟨(facing hC i1 hs.1).1, hs.2.trans i2, this.1.trans i3, this.2.le.trans i4⟩

/-- going back one gets to a wavefront side -/
theorem Front.first (F : Front s.tri P kin run pts c r) (hC : Consistent P s) {t : TId} {k : Fin 3} (pt : P t)
    (hk : kin ((s.tri t).vertices k)) : ∃ y m, P y ∧ Relation.ReflTransGen (Succ s.tri) (y, m) (t, k) ∧
      (s.tri y).vertices m = (s.tri t).vertices k ∧ c y m = c t k ∧ (s.tri y).neighbours (m + 1) = none := by
  have bound : ∀ x, P x → ∀ i, r x i ≤ ∑ y ∈ Finset.range s.nT, (r y 0 + r y 1 + r y 2) := by
    intro x px i
    refine (le_sum3 (r x) i).trans ?_
    exact Finset.single_le_sum (f := fun y => r y 0 + r y 1 + r y 2) (fun _ _ => Nat.zero_le _)
      (Finset.mem_range.2 (hC x px).1)
  generalize ∑ y ∈ Finset.range s.nT, (r y 0 + r y 1 + r y 2) = B at bound
  obtain ⟨d, hd⟩ : ∃ d, d + r t k = B := ⟨B - r t k, Nat.sub_add_cancel (bound t pt k)⟩
  induction d using Nat.strong_induction_on generalizing t k with
  | _ d ih =>
    cases hn : (s.tri t).neighbours (k + 1) with
    | none => exact ⟨t, k, pt, .refl, rfl, rfl, hn⟩
    | some y =>
      obtain ⟨py, j, hj, hb⟩ := Grassfire.turn hC .ccw pt rfl hn
      change (s.tri y).neighbours (j + 2) = some t at hb
      obtain ⟨q1, q2⟩ := F.next y py j t k hb hj.symm (by rw [hj]; exact hk)
      have := bound y py j
      obtain ⟨z, m, z1, z2, z3, z4, z5⟩ := ih (B - r y j) (by omega) py (by rw [hj]; exact hk) (by omega)
      exact ⟨z, m, z1, z2.tail ⟨hb, hj.symm⟩, z3.trans hj, z4.trans q1.symm, z5⟩

/-- A triangle is taken out and its vertices stop. -/
theorem front_remove (hC : Consistent P s) (F : Front s.tri P kin run pts c r)
    (hL : ∀ a a' b, pts a b → pts a' b → a = a') {s' : St K} {t : TId} {run' : VId → Prop} (pt : P t)
    (hv : ∀ x, P x → x ≠ t → (s'.tri x).vertices = (s.tri x).vertices)
    (hn : ∀ x i, P x → x ≠ t → (s'.tri x).neighbours i =
      if (s.tri x).neighbours i = some t then none else (s.tri x).neighbours i)
    (hk : ∀ i, kin ((s.tri t).vertices i))
    (hrun : ∀ x, P x → ∀ i, (run' ((s.tri x).vertices i) ↔
      run ((s.tri x).vertices i) ∧ ∀ j, (s.tri x).vertices i ≠ (s.tri t).vertices j))
    (hcond : ∀ i, run ((s.tri t).vertices i) ∨ c t i = .endDead ∧ (s.tri t).neighbours (i + 2) = none ∨
      c t i = .startDead ∧ (s.tri t).neighbours (i + 1) = none) :
    ∃ c', Front s'.tri (fun x => P x ∧ x ≠ t) kin run' pts c' r ∧
      ∀ x i, P x → x ≠ t → (s'.tri x).neighbours i = none → c' x (i + 1) = .endDead →
        ((s.tri x).neighbours i = none ∧ c x (i + 1) = .endDead) ∨
        ∃ j, (s.tri t).neighbours j = some x ∧ (s.tri x).vertices (i + 1) = (s.tri t).vertices (j + 2) ∧
          (s.tri x).vertices (i + 2) = (s.tri t).vertices (j + 1) := by
  classical
  let own : TId → Fin 3 → Prop := fun x i => run ((s.tri x).vertices i) ∧ ∃ k, (s.tri x).vertices i = (s.tri t).vertices k
  let hits : TId → Fin 3 → Prop := fun x i => ∃ k, Relation.ReflTransGen (Succ s.tri) (x, i) (t, k)
  let c' : TId → Fin 3 → Kind := fun x i => if own x i then (if hits x i then .endDead else .startDead) else c x i
  have c'E : ∀ x i, own x i → hits x i → c' x i = .endDead := by
    intro x i h1 h2
    show (if _ then _ else _) = _
    rw [if_pos h1, if_pos h2]
  have c'S : ∀ x i, own x i → ¬ hits x i → c' x i = .startDead := by
    intro x i h1 h2
    show (if _ then _ else _) = _
    rw [if_pos h1, if_neg h2]
  have c'O : ∀ x i, ¬ own x i → c' x i = c x i := fun x i h => if_neg h
  have notOwn : ∀ x i, P x → kin ((s.tri x).vertices i) → c x i ≠ .whole → ¬ own x i :=
    fun x i px hki hc h => hc ((F.kind x px i hki).2 h.1)
  have inj := fun x (px : P x) => (hC x px).2.1
  have side : ∀ x i, P x → x ≠ t → (s'.tri x).neighbours i = none →
      (kin ((s.tri x).vertices (i + 1)) ∧ kin ((s.tri x).vertices (i + 2)) ∧ c' x (i + 1) = .endDead ∧
        c' x (i + 2) = .startDead ∧ (((s.tri x).neighbours i = none ∧ c x (i + 1) = .endDead) ∨
        ∃ j, (s.tri t).neighbours j = some x ∧ (s.tri x).vertices (i + 1) = (s.tri t).vertices (j + 2) ∧
          (s.tri x).vertices (i + 2) = (s.tri t).vertices (j + 1))) ∨
      ((s.tri x).neighbours i = none ∧ kin ((s.tri x).vertices (i + 1)) ∧ kin ((s.tri x).vertices (i + 2)) ∧
        c x (i + 1) ≠ .endDead ∧ c' x (i + 1) ≠ .endDead ∧ c' x (i + 2) ≠ .startDead ∧
        pts ((s.tri x).vertices (i + 1)) ((s.tri x).vertices (i + 2))) := by
    intro x i px hxt hi
    rw [hn x i px hxt] at hi
    by_cases ho : (s.tri x).neighbours i = some t
    · obtain ⟨-, j, j1, j2, j3⟩ := facing hC px ho
      left
      refine ⟨by rw [← j3]; exact hk _, by rw [← j2]; exact hk _, ?_, ?_, .inr ⟨j, j1, j3.symm, j2.symm⟩⟩
      · have hs : Succ s.tri (x, i + 1) (t, j + 2) := ⟨by show _ = _; rw [fin3_add_1_2]; exact ho, j3⟩
        have hc := (F.next x px (i + 1) t (j + 2) hs.1 j3 (by rw [← j3]; exact hk _)).1
        rcases hcond (j + 2) with q | q | q
        · exact c'E x _ ⟨by rw [← j3]; exact q, _, j3.symm⟩ ⟨_, .single hs⟩
        · rw [c'O x _ (notOwn x _ px (by rw [← j3]; exact hk _) (by rw [← hc, q.1]; nofun)), ← hc]
          exact q.1
        · rw [fin3_add_2_1, j1] at q; cases q.2
      · have hs : Succ s.tri (t, j + 1) (x, i + 2) := ⟨by show _ = _; rw [fin3_add_1_2]; exact j1, j2.symm⟩
        have hc := F.next t pt (j + 1) x (i + 2) hs.1 j2.symm (hk _)
        rcases hcond (j + 1) with q | q | q
        · refine c'S x _ ⟨by rw [← j2]; exact q, _, j2.symm⟩ ?_
          rintro ⟨k, hr⟩
          obtain ⟨-, q2, -, q4⟩ := F.reach hC hr px (by show kin ((s.tri x).vertices (i + 2)); rw [← j2]; exact hk _)
          dsimp only at q2 q4
          obtain rfl := inj t pt (q2.trans j2.symm)
          exact absurd hc.2 (Nat.not_lt.2 q4)
        · rw [fin3_add_1_2, j1] at q; cases q.2
        · rw [c'O x _ (notOwn x _ px (by rw [← j2]; exact hk _) (by rw [hc.1, q.1]; nofun)), hc.1]
          exact q.1
    · rw [if_neg ho] at hi
      obtain ⟨g1, g2, g3⟩ := F.gap x px i hi
      rcases g3 with z | z
      · right
        refine ⟨hi, g1, g2, z.1, ?_, ?_, z.2.2⟩
        · by_cases hw : own x (i + 1)
          · rw [c'S x _ hw]
            · nofun
            · rintro ⟨k, hr⟩
              rcases Relation.ReflTransGen.cases_head hr with q | ⟨y, q, -⟩
              · injection q with q _; exact hxt q
              · have := q.1
                dsimp only at this
                rw [fin3_add_1_2, hi] at this
                cases this
          · rw [c'O x _ hw]; exact z.1
        · by_cases hw : own x (i + 2)
          · obtain ⟨w1, k, w2⟩ := hw
            have hck : c t k = .whole := (F.kind t pt k (hk k)).2 (by rw [← w2]; exact w1)
            obtain ⟨y, m, y1, y2, y3, y4, y5⟩ := F.first hC pt (hk k)
            obtain ⟨y6, y7⟩ := F.start y1 y5 (by rw [y4, hck]; nofun)
            rw [y3, ← w2] at y7
            have : x = y := F.unique x y px y1 i (m + 1) hi y5 z.1 (by rw [fin3_add_1_1]; exact y6)
              (by rw [fin3_add_1_1]; exact hL _ _ _ z.2.2 y7) (by rw [fin3_add_1_2, y3]; exact w2)
            subst this
            have : i + 2 = m := inj x px (w2.trans y3.symm)
            rw [c'E x _ ⟨w1, k, w2⟩ ⟨k, by rw [this]; exact y2⟩]
            nofun
          · rw [c'O x _ hw]; exact z.2.1
      · left
        refine ⟨g1, g2, ?_, ?_, .inl ⟨hi, z.1⟩⟩
        · rw [c'O x _ (notOwn x _ px g1 (by rw [z.1]; nofun))]; exact z.1
        · rw [c'O x _ (notOwn x _ px g2 (by rw [z.2]; nofun))]; exact z.2
  refine ⟨c', ⟨?_, ?_, ?_, ?_⟩, fun x i px hxt hi hc => ?_⟩
  · rintro x ⟨px, hxt⟩ i hi
    rw [hv x px hxt]
    rcases side x i px hxt hi with q | q
    · exact ⟨q.1, q.2.1, .inr ⟨q.2.2.1, q.2.2.2.1⟩⟩
    · exact ⟨q.2.1, q.2.2.1, .inl q.2.2.2.2⟩
  · rintro x ⟨px, hxt⟩ i n j hni hj hki
    rw [hn x _ px hxt] at hni
    by_cases ho : (s.tri x).neighbours (i + 2) = some t
    · rw [if_pos ho] at hni; cases hni
    rw [if_neg ho] at hni
    have pn := (facing hC px hni).1
    have hnt : n ≠ t := fun h => ho (h ▸ hni)
    rw [hv x px hxt] at hj hki
    rw [hv n pn hnt] at hj
    have f := F.next x px i n j hni hj hki
    have hs : Succ s.tri (x, i) (n, j) := ⟨hni, hj⟩
    refine ⟨?_, f.2⟩
    have ho1 : own n j ↔ own x i := by
      show (_ ∧ _) ↔ (_ ∧ _)
      rw [hj]
    have ho2 : hits n j ↔ hits x i := by
      refine ⟨fun ⟨k, h⟩ => ⟨k, h.head hs⟩, fun ⟨k, h⟩ => ?_⟩
      rcases Relation.ReflTransGen.cases_head h with q | ⟨y, q1, q2⟩
      · injection q with q _; exact absurd q hxt
      · have e1 : y.1 = n := by
          have := q1.1
          dsimp only at this
          rw [hni] at this
          injection this with this
          exact this.symm
        obtain ⟨y1, y2⟩ := y
        dsimp only at e1
        subst e1
        have : y2 = j := inj _ pn (q1.2.trans hj.symm)
        subst this
        exact ⟨k, q2⟩
    show (if _ then _ else _) = (if _ then _ else _)
    rw [f.1]
    simp only [ho1, ho2]
  · rintro x ⟨px, hxt⟩ i hki
    rw [hv x px hxt] at hki ⊢
    rw [hrun x px]
    by_cases hw : own x i
    · refine ⟨fun h => ?_, fun h => absurd hw.2 (fun ⟨k, q⟩ => h.2 k q)⟩
      by_cases hh : hits x i
      · rw [c'E x i hw hh] at h; cases h
      · rw [c'S x i hw hh] at h; cases h
    · rw [c'O x i hw, F.kind x px i hki]
      exact ⟨fun h => ⟨h, fun j q => hw ⟨h, j, q⟩⟩, fun h => h.1⟩
  · rintro x y ⟨px, hxt⟩ ⟨py, hyt⟩ i j hi hj hci hcj h1 h2
    rw [hv x px hxt, hv y py hyt] at h1 h2
    rcases side x i px hxt hi with q | q
    · exact absurd q.2.2.1 hci
    rcases side y j py hyt hj with q' | q'
    · exact absurd q'.2.2.1 hcj
    exact F.unique x y px py i j q.1 q'.1 q.2.2.2.1 q'.2.2.2.1 h1 h2
  · rcases side x i px hxt hi with q | q
    · exact q.2.2.2.2
    · exact absurd hc q.2.2.2.2.1

/-! ### flips -/

/-- one of the two triangles after a flip -/
structure Half (s s' : St K) (t0 : TId) (s0 : Fin 3) (t1 : TId) (s1 : Fin 3) : Prop where
  v0 : (s'.tri t0).vertices 0 = (s.tri t0).vertices s0
  v1 : (s'.tri t0).vertices 1 = (s.tri t0).vertices (s0 + 1)
  v2 : (s'.tri t0).vertices 2 = (s.tri t1).vertices s1
  n0 : (s'.tri t0).neighbours 0 = (s.tri t1).neighbours (s1 + 1)
  n1 : (s'.tri t0).neighbours 1 = some t1
  n2 : (s'.tri t0).neighbours 2 = (s.tri t0).neighbours (s0 + 2)

theorem flip_halves {t0 t1 : TId} {s0 s1 : Fin 3} {A B C D : VId} (h : SharedEdge P s t0 s0 t1 s1 A B C D) {s' : St K}
    (hr : flip t0 s0 t1 s1 s = .ok ((), s')) : Half s s' t0 s0 t1 s1 ∧ Half s s' t1 s1 t0 s0 := by
  rw [flip_run h.ne h.flippable] at hr
  simp only [Except.ok.injEq, Prod.mk.injEq, true_and] at hr
  subst hr
  have e0 : flipTri t0 s0 t1 s1 s t0 = { linkAround t0 s0 t1 s1 s t0 with
      vertices := ![(s.tri t0).vertices s0, (s.tri t0).vertices (ccw s0), (s.tri t1).vertices s1]
      neighbours := ![(s.tri t1).neighbours (ccw s1), some t1, (s.tri t0).neighbours (cw s0)] } := by
    unfold flipTri
    rw [if_neg h.ne, if_pos rfl]
  have e1 : flipTri t0 s0 t1 s1 s t1 = { linkAround t0 s0 t1 s1 s t1 with
      vertices := ![(s.tri t1).vertices s1, (s.tri t0).vertices (cw s0), (s.tri t0).vertices s0]
      neighbours := ![(s.tri t0).neighbours (ccw s0), some t0, (s.tri t1).neighbours (cw s1)] } := by
    unfold flipTri
    rw [if_pos rfl]
  constructor
  · constructor <;> (dsimp only; rw [e0]) <;> rfl
  · constructor <;> (dsimp only; rw [e1])
    · rfl
    · exact h.d0.trans h.d1.symm
    · rfl
    · rfl
    · rfl
    · rfl

theorem fin3_split (i : Fin 3) : i = 0 ∨ i = 1 ∨ i = 2 := by revert i; decide

/-- A side is flipped. -/
theorem front_flip {t0 t1 : TId} {s0 s1 : Fin 3} {A B C D : VId} (h : SharedEdge P s t0 s0 t1 s1 A B C D) {s' : St K}
    (hr : flip t0 s0 t1 s1 s = .ok ((), s')) (F : Front s.tri P kin run pts c r) :
    ∃ c' r', Front s'.tri P kin run pts c' r' ∧
      ∀ x i, P x → (s'.tri x).neighbours i = none → ∃ y k, P y ∧ (s.tri y).neighbours k = none ∧
        (s'.tri x).vertices (i + 1) = (s.tri y).vertices (k + 1) ∧
        (s'.tri x).vertices (i + 2) = (s.tri y).vertices (k + 2) ∧ c' x (i + 1) = c y (k + 1) ∧
        (x = y ∨ x = t0 ∨ x = t1) := by
  classical
  have hC := h.consistent
  have hC' := C26_consistent h hr
  obtain ⟨H0, H1⟩ := flip_halves h hr
  obtain ⟨frame, -⟩ := C26_frame h hr
  have hne := h.ne
  let half : TId → Fin 3 → TId → Fin 3 → Fin 3 → Kind := fun t s0 u s1 => ![c t s0, c t (s0 + 1), c u s1]
  let rank : TId → Fin 3 → TId → Fin 3 → Fin 3 → ℕ := fun t s0 u s1 => ![2 * r t s0, 2 * r t (s0 + 1), 2 * r u s1 + 1]
  let c' : TId → Fin 3 → Kind := fun x => if x = t0 then half t0 s0 t1 s1 else if x = t1 then half t1 s1 t0 s0 else c x
  let r' : TId → Fin 3 → ℕ := fun x => if x = t0 then rank t0 s0 t1 s1 else if x = t1 then rank t1 s1 t0 s0
    else fun i => 2 * r x i
  have c'0 : c' t0 = half t0 s0 t1 s1 := if_pos rfl
  have c'1 : c' t1 = half t1 s1 t0 s0 := by show (if _ then _ else _) = _; rw [if_neg hne.symm, if_pos rfl]
  have c'O : ∀ x, x ≠ t0 → x ≠ t1 → c' x = c x := by
    intro x q0 q1; show (if _ then _ else _) = _; rw [if_neg q0, if_neg q1]
  have r'0 : r' t0 = rank t0 s0 t1 s1 := if_pos rfl
  have r'1 : r' t1 = rank t1 s1 t0 s0 := by show (if _ then _ else _) = _; rw [if_neg hne.symm, if_pos rfl]
  have r'O : ∀ x, x ≠ t0 → x ≠ t1 → r' x = fun i => 2 * r x i := by
    intro x q0 q1; show (if _ then _ else _) = _; rw [if_neg q0, if_neg q1]
  clear_value c' r'
  -- one half
  have shared : ∀ {t u : TId} {a b : Fin 3} {A B C D : VId}, SharedEdge P s t a u b A B C D →
      kin ((s.tri t).vertices (a + 1)) → c u (b + 2) = c t (a + 1) ∧ r u (b + 2) < r t (a + 1) := by
    intro t u a b A B C D hh hk
    exact F.next t hh.p0 (a + 1) u (b + 2) (by rw [fin3_add_1_2]; exact hh.n0) (hh.b1.trans hh.b0.symm) hk
  have gapH : ∀ {t u : TId} {a b : Fin 3} {A B C D : VId}, SharedEdge P s t a u b A B C D → Half s s' t a u b →
      c' t = half t a u b → ∀ i, (s'.tri t).neighbours i = none → ∃ y k, P y ∧ (s.tri y).neighbours k = none ∧
        (s'.tri t).vertices (i + 1) = (s.tri y).vertices (k + 1) ∧
        (s'.tri t).vertices (i + 2) = (s.tri y).vertices (k + 2) ∧
        c' t (i + 1) = c y (k + 1) ∧ c' t (i + 2) = c y (k + 2) ∧ (y = u ∧ k = b + 1 ∨ y = t ∧ k = a + 2) := by
    intro t u a b A B C D hh hH hc i hi
    rw [hc]
    rcases fin3_split i with rfl | rfl | rfl
    · rw [hH.n0] at hi
      have hg := F.gap u hh.p1 (b + 1) hi
      rw [fin3_add_1_1, fin3_add_1_2] at hg
      refine ⟨u, b + 1, hh.p1, hi, ?_, ?_, ?_, ?_, .inl ⟨rfl, rfl⟩⟩
      · rw [fin3_add_1_1]; exact hH.v1.trans (hh.b0.trans hh.b1.symm)
      · rw [fin3_add_1_2]; exact hH.v2
      · rw [fin3_add_1_1]
        exact (shared hh (by rw [hh.b0, ← hh.b1]; exact hg.1)).1.symm
      · rw [fin3_add_1_2]; rfl
    · rw [hH.n1] at hi; cases hi
    · rw [hH.n2] at hi
      refine ⟨t, a + 2, hh.p0, hi, ?_, ?_, ?_, ?_, .inr ⟨rfl, rfl⟩⟩
      · rw [fin3_add_2_1]; exact hH.v0
      · rw [fin3_add_2_2]; exact hH.v1
      · rw [fin3_add_2_1]; rfl
      · rw [fin3_add_2_2]; rfl
  have nextH : ∀ {t u : TId} {a b : Fin 3} {A B C D : VId}, SharedEdge P s t a u b A B C D → Half s s' t a u b →
      Half s s' u b t a → c' t = half t a u b → c' u = half u b t a → r' t = rank t a u b → r' u = rank u b t a →
      (∀ x, x ≠ t → x ≠ u → P x → (s'.tri x).vertices = (s.tri x).vertices ∧ c' x = c x ∧ r' x = fun i => 2 * r x i) →
      ∀ i n j, (s'.tri t).neighbours (i + 2) = some n → (s'.tri n).vertices j = (s'.tri t).vertices i →
      kin ((s'.tri t).vertices i) → c' n j = c' t i ∧ r' n j < r' t i := by
    intro t u a b A B C D hh hH hH' hc hcu hrt hru ho i n j hn hj hk
    rw [hc, hrt]
    rcases fin3_split i with rfl | rfl | rfl
    · have hn' : (s.tri t).neighbours (a + 2) = some n := hH.n2.symm.trans hn
      obtain ⟨q1, q2⟩ := hh.outside0 (cw_ne a) hn'
      obtain ⟨o1, o2, o3⟩ := ho n q1 q2 (facing hC hh.p0 hn').1
      rw [o2, o3]
      rw [o1, hH.v0] at hj
      rw [hH.v0] at hk
      have f := F.next t hh.p0 a n j hn' hj hk
      exact ⟨f.1, by show 2 * r n j < 2 * r t a; omega⟩
    · have hn' : (s.tri u).neighbours (b + 1) = some n := hH.n0.symm.trans hn
      obtain ⟨q2, q1⟩ := hh.symm.outside0 (ccw_ne b) hn'
      obtain ⟨o1, o2, o3⟩ := ho n q1 q2 (facing hC hh.p1 hn').1
      rw [o2, o3]
      rw [o1, hH.v1] at hj
      rw [hH.v1] at hk
      have f1 := shared hh hk
      have f := F.next u hh.p1 (b + 2) n j (by rw [fin3_add_2_2]; exact hn') (by rw [hj, hh.b0, hh.b1])
        (by rw [hh.b1, ← hh.b0]; exact hk)
      exact ⟨f.1.trans f1.1, by show 2 * r n j < 2 * r t (a + 1); omega⟩
    · have : u = n := by
        have := hH.n1.symm.trans hn
        injection this
      subst this
      rw [hH.v2, ← hH'.v0] at hj
      obtain rfl := (hC' u hh.p1).2.1 hj
      rw [hcu, hru]
      exact ⟨rfl, by show 2 * r u b < 2 * r u b + 1; omega⟩
  have inH : ∀ {t u : TId} {a b : Fin 3} {A B C D : VId}, SharedEdge P s t a u b A B C D → Half s s' t a u b →
      c' t = half t a u b → r' t = rank t a u b →
      (∀ x, x ≠ t → x ≠ u → P x → (s'.tri x).vertices = (s.tri x).vertices ∧ c' x = c x ∧ r' x = fun i => 2 * r x i) →
      ∀ x i j, P x → x ≠ t → x ≠ u → (s'.tri x).neighbours (i + 2) = some t →
      (s'.tri t).vertices j = (s'.tri x).vertices i → kin ((s'.tri x).vertices i) → c' t j = c' x i ∧ r' t j < r' x i := by
    intro t u a b A B C D hh hH hc hrt ho x i j px hxt hxu hn hj hk
    obtain ⟨o1, o2, o3⟩ := ho x hxt hxu px
    obtain ⟨-, m, m1, m2, m3⟩ := facing hC' px hn
    rw [fin3_add_2_1] at m3
    rw [o1] at hj hk m3
    rw [hc, hrt, o2, o3]
    rcases fin3_split m with rfl | rfl | rfl
    · have hx : (s.tri u).neighbours (b + 1) = some x := hH.n0.symm.trans m1
      obtain ⟨-, k, k1, k2, k3⟩ := facing hC hh.p1 hx
      rw [fin3_add_1_2] at k2
      have e1 : (s.tri x).vertices i = (s.tri u).vertices b := m3.symm.trans hH.v2
      have : i = k + 1 := (hC x px).2.1 (e1.trans k2.symm)
      subst this
      obtain rfl : j = 2 := (hC' t hh.p0).2.1 (hj.trans m3.symm)
      have f := F.next x px (k + 1) u b (by rw [fin3_add_1_2]; exact k1) e1.symm hk
      exact ⟨f.1, by show 2 * r u b + 1 < 2 * r x (k + 1); omega⟩
    · have : u = x := by
        have := hH.n1.symm.trans m1
        injection this
      exact absurd this.symm hxu
    · have hx : (s.tri t).neighbours (a + 2) = some x := hH.n2.symm.trans m1
      obtain ⟨-, k, k1, k2, k3⟩ := facing hC hh.p0 hx
      rw [fin3_add_2_2] at k2
      have m4 : (s'.tri t).vertices 1 = (s.tri x).vertices i := m3
      have e1 : (s.tri x).vertices i = (s.tri t).vertices (a + 1) := m4.symm.trans hH.v1
      have : i = k + 1 := (hC x px).2.1 (e1.trans k2.symm)
      subst this
      obtain rfl : j = 1 := (hC' t hh.p0).2.1 (hj.trans m4.symm)
      have f := F.next x px (k + 1) t (a + 1) (by rw [fin3_add_1_2]; exact k1) e1.symm hk
      exact ⟨f.1, by show 2 * r t (a + 1) < 2 * r x (k + 1); omega⟩
  have kindH : ∀ {t u : TId} {a b : Fin 3} {A B C D : VId}, SharedEdge P s t a u b A B C D → Half s s' t a u b →
      c' t = half t a u b → ∀ i, kin ((s'.tri t).vertices i) → (c' t i = .whole ↔ run ((s'.tri t).vertices i)) := by
    intro t u a b A B C D hh hH hc i hk
    rw [hc]
    rcases fin3_split i with rfl | rfl | rfl
    · rw [hH.v0] at hk ⊢; exact F.kind t hh.p0 a hk
    · rw [hH.v1] at hk ⊢; exact F.kind t hh.p0 (a + 1) hk
    · rw [hH.v2] at hk ⊢; exact F.kind u hh.p1 b hk
  have out : ∀ x, x ≠ t0 → x ≠ t1 → P x → (s'.tri x).vertices = (s.tri x).vertices ∧ c' x = c x ∧
      r' x = fun i => 2 * r x i := fun x q0 q1 px => ⟨(frame x px q0 q1).1, c'O x q0 q1, r'O x q0 q1⟩
  have out' : ∀ x, x ≠ t1 → x ≠ t0 → P x → (s'.tri x).vertices = (s.tri x).vertices ∧ c' x = c x ∧
      r' x = fun i => 2 * r x i := fun x q0 q1 => out x q1 q0
  -- where a wavefront side comes from
  let owner : TId → Fin 3 → TId := fun y k => if y = t0 then (if k = s0 + 2 then t0 else t1)
    else if y = t1 then (if k = s1 + 1 then t0 else t1) else y
  have origin : ∀ x i, P x → (s'.tri x).neighbours i = none → ∃ y k, P y ∧ (s.tri y).neighbours k = none ∧
      (s'.tri x).vertices (i + 1) = (s.tri y).vertices (k + 1) ∧
      (s'.tri x).vertices (i + 2) = (s.tri y).vertices (k + 2) ∧
      c' x (i + 1) = c y (k + 1) ∧ c' x (i + 2) = c y (k + 2) ∧ x = owner y k := by
    intro x i px hi
    by_cases q0 : x = t0
    · subst q0
      obtain ⟨y, k, y1, y2, y3, y4, y5, y6, y7⟩ := gapH h H0 c'0 i hi
      refine ⟨y, k, y1, y2, y3, y4, y5, y6, ?_⟩
      rcases y7 with ⟨rfl, rfl⟩ | ⟨rfl, rfl⟩
      · show _ = (if _ then _ else _); rw [if_neg hne.symm, if_pos rfl, if_pos rfl]
      · show _ = (if _ then _ else _); rw [if_pos rfl, if_pos rfl]
    · by_cases q1 : x = t1
      · subst q1
        obtain ⟨y, k, y1, y2, y3, y4, y5, y6, y7⟩ := gapH h.symm H1 c'1 i hi
        refine ⟨y, k, y1, y2, y3, y4, y5, y6, ?_⟩
        rcases y7 with ⟨rfl, rfl⟩ | ⟨rfl, rfl⟩
        · show _ = (if _ then _ else _); rw [if_pos rfl, if_neg (fin3_1_ne_2 s0)]
        · show _ = (if _ then _ else _); rw [if_neg hne.symm, if_pos rfl, if_neg (fin3_1_ne_2 s1).symm]
      · obtain ⟨o1, o2, -⟩ := out x q0 q1 px
        have f := (frame x px q0 q1).2 i
        have hi' : (s.tri x).neighbours i = none := by
          by_cases z : (s.tri x).neighbours i = some t0 ∨ (s.tri x).neighbours i = some t1
          · rcases f.2 z with w | w <;> (rw [hi] at w; cases w)
          · rw [not_or] at z; rw [← f.1 z.1 z.2]; exact hi
        refine ⟨x, i, px, hi', by rw [o1], by rw [o1], by rw [o2], by rw [o2], ?_⟩
        show _ = (if _ then _ else _)
        rw [if_neg q0, if_neg q1]
  refine ⟨c', r', ⟨?_, ?_, ?_, ?_⟩, fun x i px hi => ?_⟩
  · intro x px i hi
    obtain ⟨y, k, y1, y2, y3, y4, y5, y6, -⟩ := origin x i px hi
    rw [y3, y4, y5, y6]
    exact F.gap y y1 k y2
  · intro x px i n j hn hj hk
    by_cases q0 : x = t0
    · subst q0; exact nextH h H0 H1 c'0 c'1 r'0 r'1 out i n j hn hj hk
    · by_cases q1 : x = t1
      · subst q1; exact nextH h.symm H1 H0 c'1 c'0 r'1 r'0 out' i n j hn hj hk
      · by_cases n0 : n = t0
        · subst n0; exact inH h H0 c'0 r'0 out x i j px q0 q1 hn hj hk
        · by_cases n1 : n = t1
          · subst n1; exact inH h.symm H1 c'1 r'1 out' x i j px q1 q0 hn hj hk
          · obtain ⟨o1, o2, o3⟩ := out x q0 q1 px
            have pn := (facing hC' px hn).1
            obtain ⟨p1, p2, p3⟩ := out n n0 n1 pn
            have f := (frame x px q0 q1).2 (i + 2)
            have hn' : (s.tri x).neighbours (i + 2) = some n := by
              by_cases z : (s.tri x).neighbours (i + 2) = some t0 ∨ (s.tri x).neighbours (i + 2) = some t1
              · rcases f.2 z with w | w
                · rw [hn] at w; injection w with w; exact absurd w n0
                · rw [hn] at w; injection w with w; exact absurd w n1
              · rw [not_or] at z; rw [← f.1 z.1 z.2]; exact hn
            rw [o1] at hj hk
            rw [p1] at hj
            rw [o2, o3, p2, p3]
            have := F.next x px i n j hn' hj hk
            exact ⟨this.1, by show 2 * r n j < 2 * r x i; omega⟩
  · intro x px i hk
    by_cases q0 : x = t0
    · subst q0; exact kindH h H0 c'0 i hk
    · by_cases q1 : x = t1
      · subst q1; exact kindH h.symm H1 c'1 i hk
      · obtain ⟨o1, o2, -⟩ := out x q0 q1 px
        rw [o1] at hk ⊢
        rw [o2]
        exact F.kind x px i hk
  · intro x y px py i j hi hj hci hcj h1 h2
    obtain ⟨x0, k, x1, x2, x3, x4, x5, x6, x7⟩ := origin x i px hi
    obtain ⟨y0, l, y1, y2, y3, y4, y5, y6, y7⟩ := origin y j py hj
    have e0 := F.unique x0 y0 x1 y1 k l x2 y2 (x5 ▸ hci) (y5 ▸ hcj) (by rw [← x3, ← y3, h1]) (by rw [← x4, ← y4, h2])
    subst e0
    have : k = l := add_right_cancel ((hC x0 x1).2.1 (by rw [← x3, ← y3, h1]))
    subst this
    rw [x7, y7]
  · obtain ⟨y, k, y1, y2, y3, y4, y5, y6, y7⟩ := origin x i px hi
    refine ⟨y, k, y1, y2, y3, y4, y5, ?_⟩
    have : owner y k = y ∨ owner y k = t0 ∨ owner y k = t1 := by
      show (if _ then _ else _) = _ ∨ (if _ then _ else _) = _ ∨ (if _ then _ else _) = _
      split <;> [split; (split <;> [split; skip])] <;> simp
    rw [y7]
    exact this

end Grassfire
