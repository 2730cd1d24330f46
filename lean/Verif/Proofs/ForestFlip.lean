/-
A flip in a region without holes (lemmas for C71).
-/
import Verif.Proofs.ForestSteps

set_option linter.unusedSectionVars false

namespace Grassfire

open Spec

variable {K : Type} [Field K] [LinearOrder K] {P : TId → Prop} {s s' : St K} {t0 t1 : TId} {s0 s1 : Fin 3} {A B C D : VId}

/-- the rest of the triangles after a flip -/
def Beyond (P : TId → Prop) (s s' : St K) (t0 t1 : TId) : Prop :=
  ∀ u, P u → u ≠ t0 → u ≠ t1 → (s'.tri u).vertices = (s.tri u).vertices ∧ ∀ i,
    ((s.tri u).neighbours i ≠ some t0 → (s.tri u).neighbours i ≠ some t1 →
      (s'.tri u).neighbours i = (s.tri u).neighbours i) ∧
    ((s.tri u).neighbours i = some t0 ∨ (s.tri u).neighbours i = some t1 →
      (s'.tri u).neighbours i = some t0 ∨ (s'.tri u).neighbours i = some t1)

theorem Beyond.symm (h : Beyond P s s' t0 t1) : Beyond P s s' t1 t0 :=
  fun u pu h1 h0 => ⟨(h u pu h0 h1).1, fun i => ⟨fun a b => ((h u pu h0 h1).2 i).1 b a, fun q => (((h u pu h0 h1).2 i).2 q.symm).symm⟩⟩

/-- the ranks after a flip, when the triangle that is flipped ranks lower -/
theorem ranked_flip_le (h : SharedEdge P s t0 s0 t1 s1 A B C D) (H0 : Half s s' t0 s0 t1 s1) (H1 : Half s s' t1 s1 t0 s0)
    (frame : Beyond P s s' t0 t1) {rank : TId → ℕ} (hR : Ranked P s rank) (hle : rank t0 ≤ rank t1) :
    ∃ rank', Ranked P s' rank' := by
  classical
  have hC := h.consistent
  have hne := h.ne
  have up1 : ∀ i y, i ≠ s1 → (s.tri t1).neighbours i = some y → rank t1 < rank y := by
    intro i y hi hy
    by_contra q
    exact hi (hR t1 h.p1 i s1 y t0 hy h.n1 (not_lt.1 q) hle)
  have out0 : ∀ {i y}, i ≠ s0 → (s.tri t0).neighbours i = some y → y ≠ t0 ∧ y ≠ t1 := fun hi hy => h.outside0 hi hy
  have out1 : ∀ {i y}, i ≠ s1 → (s.tri t1).neighbours i = some y → y ≠ t0 ∧ y ≠ t1 := fun hi hy => h.outside1 hi hy
  have main : ∀ r0 r1 : ℕ, (r0 = 2 * rank t0 ∧ r1 = 2 * rank t0 + 1 ∧
        (∀ y, (s.tri t0).neighbours (s0 + 1) = some y → rank t0 < rank y)) ∨
      (r1 = 2 * rank t0 ∧ r0 = 2 * rank t0 + 1 ∧
        (∀ y, (s.tri t0).neighbours (s0 + 2) = some y → rank t0 < rank y)) →
      Ranked P s' fun x => if x = t0 then r0 else if x = t1 then r1 else 2 * rank x := by
    intro r0 r1 hr t pt i j n m hi hj hn hm
    have R0 : ∀ {p q : ℕ}, (if t0 = t0 then p else q) = p := if_pos rfl
    have R1 : (if t1 = t0 then r0 else if t1 = t1 then r1 else 2 * rank t1) = r1 := by rw [if_neg hne.symm, if_pos rfl]
    have RO : ∀ {x}, x ≠ t0 → x ≠ t1 → (if x = t0 then r0 else if x = t1 then r1 else 2 * rank x) = 2 * rank x :=
      fun a b => by rw [if_neg a, if_neg b]
    have big : ∀ {y}, rank t1 < rank y → r0 < 2 * rank y ∧ r1 < 2 * rank y := by
      intro y hy; rcases hr with ⟨a, b, -⟩ | ⟨a, b, -⟩ <;> constructor <;> omega
    by_cases ht0 : t = t0
    · subst ht0
      dsimp only at hn hm
      rw [R0] at hn hm
      have low : ∀ {i n}, (s'.tri t).neighbours i = some n →
          (if n = t then r0 else if n = t1 then r1 else 2 * rank n) ≤ r0 → i = if r0 < r1 then 2 else 1 := by
        intro i n hi hn
        rcases fin3_split i with rfl | rfl | rfl
        · rw [H0.n0] at hi
          obtain ⟨o1, o2⟩ := out1 (fin3_ne_1 _).symm hi
          rw [RO o1 o2] at hn
          exact absurd (big (up1 _ _ (fin3_ne_1 _).symm hi)).1 (not_lt.2 hn)
        · rw [H0.n1] at hi
          injection hi with hi
          subst hi
          rw [R1] at hn
          rw [if_neg (not_lt.2 hn)]
        · rw [H0.n2] at hi
          obtain ⟨o1, o2⟩ := out0 (fin3_ne_2 _).symm hi
          rw [RO o1 o2] at hn
          rcases hr with ⟨a, b, c⟩ | ⟨a, b, c⟩
          · rw [if_pos (by omega)]
          · have := c _ hi
            omega
      exact (low hi hn).trans (low hj hm).symm
    by_cases ht1 : t = t1
    · subst ht1
      dsimp only at hn hm
      rw [R1] at hn hm
      have low : ∀ {i n}, (s'.tri t).neighbours i = some n →
          (if n = t0 then r0 else if n = t then r1 else 2 * rank n) ≤ r1 → i = if r1 < r0 then 0 else 1 := by
        intro i n hi hn
        rcases fin3_split i with rfl | rfl | rfl
        · rw [H1.n0] at hi
          obtain ⟨o1, o2⟩ := out0 (fin3_ne_1 _).symm hi
          rw [RO o1 o2] at hn
          rcases hr with ⟨a, b, c⟩ | ⟨a, b, c⟩
          · have := c _ hi
            omega
          · rw [if_pos (by omega)]
        · rw [H1.n1] at hi
          injection hi with hi
          subst hi
          rw [R0] at hn
          rw [if_neg (not_lt.2 hn)]
        · rw [H1.n2] at hi
          obtain ⟨o1, o2⟩ := out1 (fin3_ne_2 _).symm hi
          rw [RO o1 o2] at hn
          exact absurd (big (up1 _ _ (fin3_ne_2 _).symm hi)).2 (not_lt.2 hn)
      exact (low hi hn).trans (low hj hm).symm
    dsimp only at hn hm
    rw [RO ht0 ht1] at hn hm
    obtain ⟨-, fr⟩ := frame t pt ht0 ht1
    have low : ∀ {i n}, (s'.tri t).neighbours i = some n →
        (if n = t0 then r0 else if n = t1 then r1 else 2 * rank n) ≤ 2 * rank t →
        ∃ n', (s.tri t).neighbours i = some n' ∧ rank n' ≤ rank t := by
      intro i n hi hn
      by_cases q0 : (s.tri t).neighbours i = some t0
      · refine ⟨t0, q0, ?_⟩
        rcases (fr i).2 (.inl q0) with q | q
        · rw [hi] at q
          injection q with q
          subst q
          rw [R0] at hn
          rcases hr with ⟨a, b, -⟩ | ⟨a, b, -⟩ <;> omega
        · rw [hi] at q
          injection q with q
          subst q
          rw [R1] at hn
          rcases hr with ⟨a, b, -⟩ | ⟨a, b, -⟩ <;> omega
      by_cases q1 : (s.tri t).neighbours i = some t1
      · refine ⟨t1, q1, ?_⟩
        obtain ⟨-, k, k1, -⟩ := facing hC pt q1
        refine (up1 k t ?_ k1).le
        rintro rfl
        rw [h.n1] at k1
        injection k1 with k1
        exact ht0 k1.symm
      · rw [(fr i).1 q0 q1] at hi
        refine ⟨n, hi, ?_⟩
        rw [RO (fun z => q0 (z ▸ hi)) (fun z => q1 (z ▸ hi))] at hn
        omega
    obtain ⟨n', a, b⟩ := low hi hn
    obtain ⟨m', c, d⟩ := low hj hm
    exact hR t pt i j n' m' a c b d
  by_cases hlow : ∃ y, (s.tri t0).neighbours (s0 + 1) = some y ∧ rank y ≤ rank t0
  · obtain ⟨y, hy, hr⟩ := hlow
    exact ⟨_, main (2 * rank t0 + 1) (2 * rank t0) (.inr ⟨rfl, rfl, fun z hz => by
      by_contra q
      exact fin3_1_ne_2 s0 (hR t0 h.p0 _ _ y z hy hz hr (not_lt.1 q))⟩)⟩
  · exact ⟨_, main (2 * rank t0) (2 * rank t0 + 1) (.inl ⟨rfl, rfl, fun z hz => by
      by_contra q
      exact hlow ⟨z, hz, not_lt.1 q⟩⟩)⟩

theorem ranked_flip (h : SharedEdge P s t0 s0 t1 s1 A B C D) (H0 : Half s s' t0 s0 t1 s1) (H1 : Half s s' t1 s1 t0 s0)
    (frame : Beyond P s s' t0 t1) {rank : TId → ℕ} (hR : Ranked P s rank) : ∃ rank', Ranked P s' rank' := by
  rcases le_total (rank t0) (rank t1) with q | q
  · exact ranked_flip_le h H0 H1 frame hR q
  · exact ranked_flip_le h.symm H1 H0 frame.symm hR q

/-- a flip in a region without holes -/
theorem simple_flip (hC : Consistent P s) (hC' : Consistent P s')  (h : SharedEdge P s t0 s0 t1 s1 A B C D)
    (H0 : Half s s' t0 s0 t1 s1) (H1 : Half s s' t1 s1 t0 s0) (frame : Beyond P s s' t0 t1) (hN : Simple P s) :
    Simple P s' := by
  obtain ⟨⟨rank, hr⟩, hR⟩ := hN
  have hne := h.ne
  refine ⟨?_, ?_⟩
  · obtain ⟨rank', h'⟩ := ranked_flip h H0 H1 frame hr
    refine ⟨rank', fun t ht => h' t (ht)⟩
  -- the pair
  let Q : TId → Prop := fun x => x = t0 ∨ x = t1
  have step01 : Conn P s t0 t1 := .single ⟨h.p0, s0, h.n0⟩
  have step10 : Conn P s t1 t0 := .single ⟨h.p1, s1, h.n1⟩
  have pair : ∀ {x y}, Q x → Q y → Conn P s x y := by
    rintro x y (rfl | rfl) (rfl | rfl)
    · exact .refl
    · exact step01
    · exact step10
    · exact .refl
  have liveQ : ∀ {x}, Q x → P x := by
    rintro x (rfl | rfl)
    · exact h.p0
    · exact h.p1
  -- the corners of the pair
  have old : ∀ {x w}, Q x → (∃ i, (s'.tri x).vertices i = w) → ∃ q, Q q ∧ ∃ i, (s.tri q).vertices i = w := by
    have half : ∀ {t u a b w}, Half s s' t a u b → Q t → Q u → (∃ i, (s'.tri t).vertices i = w) →
        ∃ q, Q q ∧ ∃ i, (s.tri q).vertices i = w := by
      rintro t u a b w hH qt qu ⟨i, hi⟩
      rcases fin3_split i with rfl | rfl | rfl
      · exact ⟨t, qt, _, hH.v0.symm.trans hi⟩
      · exact ⟨t, qt, _, hH.v1.symm.trans hi⟩
      · exact ⟨u, qu, _, hH.v2.symm.trans hi⟩
    rintro x w (rfl | rfl) hx
    · exact half H0 (.inl rfl) (.inr rfl) hx
    · exact half H1 (.inr rfl) (.inl rfl) hx
  have new : ∀ {x w}, Q x → (∃ i, (s.tri x).vertices i = w) → ∃ q, Q q ∧ ∃ i, (s'.tri q).vertices i = w := by
    have half : ∀ {t u a b w A B C D}, SharedEdge P s t a u b A B C D → Half s s' t a u b → Half s s' u b t a →
        Q t → Q u → (∃ i, (s.tri t).vertices i = w) → ∃ q, Q q ∧ ∃ i, (s'.tri q).vertices i = w := by
      rintro t u a b w A B C D hS hH hG qt qu ⟨i, hi⟩
      rcases fin3_cases a i with rfl | rfl | rfl
      · exact ⟨t, qt, _, hH.v0.trans hi⟩
      · exact ⟨t, qt, _, hH.v1.trans hi⟩
      · exact ⟨u, qu, _, hG.v1.trans ((hS.d1.trans hS.d0.symm).trans hi)⟩
    rintro x w (rfl | rfl) hx
    · exact half h H0 H1 (.inl rfl) (.inr rfl) hx
    · exact half h.symm H1 H0 (.inr rfl) (.inl rfl) hx
  have around : ∀ {x y w}, Q x → Q y → (∃ i, (s'.tri x).vertices i = w) → (∃ i, (s'.tri y).vertices i = w) →
      Relation.ReflTransGen (Bes P s' w) x y := by
    have half : ∀ {t u a b w A B C D}, SharedEdge P s t a u b A B C D → Half s s' t a u b → Half s s' u b t a →
        (∃ i, (s'.tri t).vertices i = w) → (∃ i, (s'.tri u).vertices i = w) → Relation.ReflTransGen (Bes P s' w) t u := by
      rintro t u a b w A B C D hS hH hG ⟨i, hi⟩ ⟨j, hj⟩
      by_cases q : i = 1
      · subst q
        exfalso
        obtain ⟨c1, c2, c3, c4, c5⟩ := hS.corners
        have hB := hi.symm.trans (hH.v1.trans hS.b0)
        subst hB
        rcases fin3_split j with rfl | rfl | rfl
        · exact c5 ((hG.v0.trans hS.c).symm.trans hj)
        · exact c3 (hj.symm.trans (hG.v1.trans hS.d1))
        · exact c1 ((hG.v2.trans hS.a).symm.trans hj)
      · exact .single ⟨hS.p0, 1, i, q, hi, hH.n1⟩
    rintro x y w (rfl | rfl) (rfl | rfl) hx hy
    · exact .refl
    · exact half h H0 H1 hx hy
    · exact half h.symm H1 H0 hx hy
    · exact .refl
  -- what is connected has been connected
  have conn : ∀ {x y}, Conn P s' x y → Conn P s x y := by
    intro x y hc
    have adj : ∀ x y, Adj P s' x y → Conn P s x y := by
      rintro x y ⟨hx, i, hi⟩
      by_cases q : Q x
      · have half : ∀ {t u a b}, Half s s' t a u b → Q t → Q u → (s'.tri t).neighbours i = some y → Conn P s t y := by
          intro t u a b hH qt qu hi
          rcases fin3_split i with rfl | rfl | rfl
          · exact (pair qt qu).tail ⟨liveQ qu, _, hH.n0.symm.trans hi⟩
          · rw [hH.n1] at hi
            injection hi with hi
            subst hi
            exact pair qt qu
          · exact .single ⟨liveQ qt, _, hH.n2.symm.trans hi⟩
        rcases q with rfl | rfl
        · exact half H0 (.inl rfl) (.inr rfl) hi
        · exact half H1 (.inr rfl) (.inl rfl) hi
      · obtain ⟨-, fr⟩ := frame x hx (fun z => q (.inl z)) (fun z => q (.inr z))
        by_cases q2 : (s.tri x).neighbours i = some t0 ∨ (s.tri x).neighbours i = some t1
        · have qy : Q y := by
            rcases (fr i).2 q2 with z | z
            · rw [hi] at z; injection z with z; exact .inl z
            · rw [hi] at z; injection z with z; exact .inr z
          rcases q2 with q2 | q2
          · exact .head ⟨hx, i, q2⟩ (pair (.inl rfl) qy)
          · exact .head ⟨hx, i, q2⟩ (pair (.inr rfl) qy)
        · rw [(fr i).1 (fun z => q2 (.inl z)) (fun z => q2 (.inr z))] at hi
          exact .single ⟨hx, i, hi⟩
    induction hc with
    | refl => exact .refl
    | tail _ hb ih => exact ih.trans (adj _ _ hb)
  intro w x y hx hy hc hwx hwy
  -- what stands for a triangle afterwards
  let Rep : TId → TId → Prop := fun a a' => (¬ Q a ∧ a' = a) ∨ (Q a ∧ Q a' ∧ ∃ i, (s'.tri a').vertices i = w)
  have repOf : ∀ {a}, (∃ i, (s.tri a).vertices i = w) → ∃ a', Rep a a' := by
    intro a ha
    by_cases q : Q a
    · obtain ⟨a', h1, h2⟩ := new q ha
      exact ⟨a', .inr ⟨q, h1, h2⟩⟩
    · exact ⟨a, .inl ⟨q, rfl⟩⟩
  -- from outside into the pair
  have enter : ∀ {a c a' c'}, ¬ Q a → Q c → Bes P s w a c → Rep a a' → Rep c c' →
      Relation.ReflTransGen (Bes P s' w) a' c' := by
    rintro a c a' c' qa qc ⟨ha, i, j, hj, hw, hi⟩ (⟨-, rfl⟩ | ⟨q, -, -⟩) (⟨q, -⟩ | ⟨-, qc', hc'⟩)
    · exact absurd qc q
    rotate_left
    · exact absurd qc q
    · exact absurd q qa
    obtain ⟨fv, fr⟩ := frame a' ha (fun z => qa (.inl z)) (fun z => qa (.inr z))
    obtain ⟨q, qq, hq⟩ : ∃ q, Q q ∧ (s'.tri a').neighbours i = some q := by
      rcases (fr i).2 (by rcases qc with rfl | rfl; exacts [.inl hi, .inr hi]) with z | z
      · exact ⟨_, .inl rfl, z⟩
      · exact ⟨_, .inr rfl, z⟩
    have hb : Bes P s' w a' q := ⟨ha, i, j, hj, by rw [fv]; exact hw, hq⟩
    refine .head hb (around qq qc' ?_ hc')
    obtain ⟨i', k, hk⟩ := (beside_iff hC').1 hb
    obtain ⟨-, m, -, hm⟩ := rim_symm hk
    exact ⟨m, hm⟩
  have step : ∀ {a c a' c'}, Bes P s w a c → Rep a a' → Rep c c' → Relation.ReflTransGen (Bes P s' w) a' c' := by
    intro a c a' c' hb ra rc
    by_cases qa : Q a
    · by_cases qc : Q c
      · rcases ra with ⟨z, -⟩ | ⟨-, qa', ha'⟩
        · exact absurd qa z
        rcases rc with ⟨z, -⟩ | ⟨-, qc', hc'⟩
        · exact absurd qc z
        exact around qa' qc' ha' hc'
      · obtain ⟨i, k, hk⟩ := (beside_iff hC).1 hb
        exact around_symm hC' (enter qc qa ((beside_iff hC).2 ⟨k, i, rim_symm hk⟩) rc ra)
    · by_cases qc : Q c
      · exact enter qa qc hb ra rc
      · rcases ra with ⟨-, rfl⟩ | ⟨z, -⟩
        rotate_left
        · exact absurd z qa
        rcases rc with ⟨-, rfl⟩ | ⟨z, -⟩
        rotate_left
        · exact absurd z qc
        obtain ⟨ha, i, j, hj, hw, hi⟩ := hb
        obtain ⟨fv, fr⟩ := frame a' ha (fun z => qa (.inl z)) (fun z => qa (.inr z))
        refine .single ⟨ha, i, j, hj, by rw [fv]; exact hw, ?_⟩
        rw [(fr i).1 (fun z => qc (.inl (by rw [hi] at z; injection z))) (fun z => qc (.inr (by rw [hi] at z; injection z)))]
        exact hi
  have walk : ∀ {a b}, Relation.ReflTransGen (Bes P s w) a b → ∀ {a' b'}, Rep a a' → Rep b b' →
      (∃ i, (s'.tri a').vertices i = w) → (∃ i, (s.tri b).vertices i = w) → Relation.ReflTransGen (Bes P s' w) a' b' := by
    intro a b hab
    induction hab using Relation.ReflTransGen.head_induction_on with
    | refl =>
      rintro a' b' (⟨q, rfl⟩ | ⟨q, qa', ha'⟩) (⟨q2, rfl⟩ | ⟨q2, qb', hb'⟩) - -
      · exact .refl
      · exact absurd q2 q
      · exact absurd q q2
      · exact around qa' qb' ha' hb'
    | @head a c hac hcb ih =>
      intro a' b' ra rb hwa hwb
      have hwc : ∃ i, (s.tri c).vertices i = w := by
        obtain ⟨i', k, hk⟩ := (beside_iff hC).1 hac
        obtain ⟨-, m, -, hm⟩ := rim_symm hk
        exact ⟨m, hm⟩
      obtain ⟨c', rc⟩ := repOf hwc
      refine (step hac ra rc).trans (ih rc rb ?_ hwb)
      rcases rc with ⟨q, rfl⟩ | ⟨-, -, z⟩
      · obtain ⟨m, hm⟩ := hwc
        obtain ⟨ha, i, j, hj, hw, hi⟩ := hac
        obtain ⟨fv, -⟩ := frame c' (facing hC ha hi).1 (fun z => q (.inl z)) (fun z => q (.inr z))
        exact ⟨m, by rw [fv]; exact hm⟩
      · exact z
  -- what stood for a triangle before
  have before : ∀ {x}, P x → (∃ i, (s'.tri x).vertices i = w) → ∃ a, P a ∧ Rep a x ∧ Conn P s x a ∧ Conn P s a x ∧
      ∃ i, (s.tri a).vertices i = w := by
    intro x hx hw
    by_cases q : Q x
    · obtain ⟨a, qa, ha⟩ := old q hw
      exact ⟨a, liveQ qa, .inr ⟨qa, q, hw⟩, pair q qa, pair qa q, ha⟩
    · obtain ⟨fv, -⟩ := frame x hx (fun z => q (.inl z)) (fun z => q (.inr z))
      rw [fv] at hw
      exact ⟨x, hx, .inl ⟨q, rfl⟩, .refl, .refl, hw⟩
  obtain ⟨a, la, ra, -, ca, wa⟩ := before hx hwx
  obtain ⟨b, lb, rb, cb, -, wb⟩ := before hy hwy
  exact walk (hR w a b la lb (ca.trans ((conn hc).trans cb)) wa wb) ra rb hwx wb

end Grassfire
