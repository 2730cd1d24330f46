/-
Walks from triangle to triangle that do not turn back (lemmas for C71).
-/
import Verif.Proofs.MeshLemmas
import Verif.Spec.Forest

set_option linter.unusedSectionVars false

namespace Grassfire

open Spec

variable {K : Type}

/-- over side `i` of `x` one gets to `y`, through its side `k` -/
structure Across (P : TId → Prop) (s : St K) (x : TId) (i : Fin 3) (y : TId) (k : Fin 3) : Prop where
  px : P x
  py : P y
  go : (s.tri x).neighbours i = some y
  back : (s.tri y).neighbours k = some x
  v1 : (s.tri y).vertices (k + 1) = (s.tri x).vertices (i + 2)
  v2 : (s.tri y).vertices (k + 2) = (s.tri x).vertices (i + 1)

/-- a walk that leaves `x` over side `i`, never turns back, and gets to `y` through side `k` of it -/
inductive Trail (S : TId → Fin 3 → TId → Fin 3 → Prop) : ℕ → TId → Fin 3 → TId → Fin 3 → Prop where
  | one {x i y k} : S x i y k → Trail S 0 x i y k
  | cons {n x i y k j z m} : S x i y k → k ≠ j → Trail S n y j z m → Trail S (n + 1) x i z m

section
variable {S S' : TId → Fin 3 → TId → Fin 3 → Prop}

theorem Trail.map {n x i y k} (h : Trail S n x i y k) {I : TId → Prop} (hx : I x)
    (hS : ∀ x i y k, I x → S x i y k → I y ∧ S' x i y k) : I y ∧ Trail S' n x i y k := by
  induction h with
  | one a => exact ⟨(hS _ _ _ _ hx a).1, .one (hS _ _ _ _ hx a).2⟩
  | cons a hk _ ih =>
    obtain ⟨p, q⟩ := hS _ _ _ _ hx a
    exact ⟨(ih p).1, .cons q hk (ih p).2⟩

theorem Trail.mono {n x i y k} (h : Trail S n x i y k) (hS : ∀ x i y k, S x i y k → S' x i y k) : Trail S' n x i y k :=
  (h.map (I := fun _ => True) trivial fun x i y k _ q => ⟨trivial, hS x i y k q⟩).2

theorem Trail.append {n x i y k} (h : Trail S n x i y k) {l j z m} (hk : k ≠ j) (h' : Trail S l y j z m) :
    Trail S (n + l + 1) x i z m := by
  induction h with
  | one a =>
    rw [Nat.zero_add]
    exact .cons a hk h'
  | @cons n x i y k j' z' m' a hk' _ ih =>
    have := ih hk h'
    rw [show n + 1 + l + 1 = n + l + 1 + 1 by omega]
    exact .cons a hk' this

theorem Trail.snoc {n x i y k} (h : Trail S n x i y k) {j z m} (hk : k ≠ j) (h' : S y j z m) :
    Trail S (n + 1) x i z m := h.append hk (.one h')

theorem Trail.rev (hs : ∀ x i y k, S x i y k → S y k x i) {n x i y k} (h : Trail S n x i y k) : Trail S n y k x i := by
  induction h with
  | one a => exact .one (hs _ _ _ _ a)
  | cons a hk _ ih => exact ih.snoc hk.symm (hs _ _ _ _ a)

end

variable [Field K] [LinearOrder K] {P : TId → Prop} {s : St K}

theorem Across.symm {x i y k} (h : Across P s x i y k) : Across P s y k x i :=
  ⟨h.py, h.px, h.back, h.go, h.v2.symm, h.v1.symm⟩

theorem Across.det (hC : Consistent P s) {x i y k y' k'} (h : Across P s x i y k) (h' : Across P s x i y' k') :
    y' = y ∧ k' = k := by
  have := h.go.symm.trans h'.go
  injection this with this
  subst this
  exact ⟨rfl, add_right_cancel ((hC y h.py).2.1 (h'.v1.trans h.v1.symm))⟩

theorem across_of (hC : Consistent P s) {x y : TId} {i : Fin 3} (px : P x) (h : (s.tri x).neighbours i = some y) :
    ∃ k, Across P s x i y k := by
  obtain ⟨py, k, k1, k2, k3⟩ := facing hC px h
  exact ⟨k, px, py, h, k1, k2, k3⟩

theorem Across.ne (hC : Consistent P s) {x i y k} (h : Across P s x i y k) : x ≠ y :=
  fun e => hC.not_self h.px i (e ▸ h.go)

/-- the forest, for any set of triangles -/
def Ranked (P : TId → Prop) (s : St K) (rank : TId → ℕ) : Prop :=
  ∀ t, P t → ∀ i j n m, (s.tri t).neighbours i = some n → (s.tri t).neighbours j = some m →
    rank n ≤ rank t → rank m ≤ rank t → i = j

variable {rank : TId → ℕ}

/-- once upwards, always upwards -/
theorem Trail.up (hR : Ranked P s rank) {n x i y k} (h : Trail (Across P s) n x i y k) :
    ∀ z, (s.tri x).neighbours i = some z → rank x ≤ rank z → rank x ≤ rank y ∧ (1 ≤ n → rank x < rank y) := by
  induction h with
  | one a =>
    intro z hz hr
    rw [a.go] at hz
    injection hz with hz
    subst hz
    exact ⟨hr, fun q => absurd q (by decide)⟩
  | @cons n x i y k j z m a hk ht ih =>
    intro z' hz hr
    rw [a.go] at hz
    injection hz with hz
    subst hz
    obtain ⟨w, hw⟩ : ∃ w, (s.tri y).neighbours j = some w := by
      cases ht with
      | one b => exact ⟨_, b.go⟩
      | cons b _ _ => exact ⟨_, b.go⟩
    have hlt : rank y < rank w := by
      by_contra q
      exact hk (hR y a.py k j x w a.back hw hr (not_lt.1 q))
    have h1 := ih w hw hlt.le
    have h2 : rank y < rank z := by
      cases ht with
      | one b =>
        rw [b.go] at hw
        injection hw with hw
        rw [hw]; exact hlt
      | cons _ _ _ => exact h1.2 (Nat.succ_le_succ (Nat.zero_le _))
    exact ⟨hr.trans h2.le, fun _ => lt_of_le_of_lt hr h2⟩

/-- no walk gets back to where it started -/
theorem no_closed (hC : Consistent P s) (hR : Ranked P s rank) : ∀ {n x i k}, ¬ Trail (Across P s) n x i x k := by
  intro n
  induction n using Nat.strong_induction_on with
  | _ n ih =>
    intro x i k h
    have down : ∀ {i k}, Trail (Across P s) n x i x k → ∃ z, (s.tri x).neighbours i = some z ∧ rank z ≤ rank x ∧ 1 ≤ n := by
      intro i k h
      have hn : 1 ≤ n := by
        cases h with
        | one a => exact absurd rfl (a.ne hC)
        | cons _ _ _ => exact Nat.succ_le_succ (Nat.zero_le _)
      obtain ⟨w, hw⟩ : ∃ w, (s.tri x).neighbours i = some w := by
        cases h with
        | one b => exact ⟨_, b.go⟩
        | cons b _ _ => exact ⟨_, b.go⟩
      refine ⟨w, hw, ?_, hn⟩
      by_contra q
      exact absurd ((h.up hR w hw (not_le.1 q).le).2 hn) (lt_irrefl _)
    obtain ⟨w, hw, hr, hn⟩ := down h
    obtain ⟨w', hw', hr', -⟩ := down (h.rev fun _ _ _ _ => Across.symm)
    obtain rfl := hR x (by cases h with
      | one a => exact a.px
      | cons a _ _ => exact a.px) i k w w' hw hw' hr hr'
    cases h with
    | one a => exact absurd rfl (a.ne hC)
    | @cons n _ _ y k j _ _ a hk ht =>
      have ht' := ht.rev fun _ _ _ _ => Across.symm
      cases ht' with
      | one b => exact hk (b.det hC a).2
      | @cons n' _ _ y' k' j' _ _ b hk' ht'' =>
        obtain ⟨rfl, rfl⟩ := a.det hC b
        exact ih n' (by omega) ht''

/-- a walk between two triangles is unique -/
theorem Trail.unique (hC : Consistent P s) (hR : Ranked P s rank) {S S' : TId → Fin 3 → TId → Fin 3 → Prop}
    (h1 : ∀ x i y k, S x i y k → Across P s x i y k) (h2 : ∀ x i y k, S' x i y k → Across P s x i y k)
    {n x i y k} (h : Trail S n x i y k) : ∀ {n' i' k'}, Trail S' n' x i' y k' → i' = i ∧ k' = k ∧
      Trail (fun x i y k => S x i y k ∧ S' x i y k) n x i y k := by
  have same : ∀ {n x i y k n' i' k'}, Trail (Across P s) n x i y k → Trail (Across P s) n' x i' y k' → i' = i := by
    intro n x i y k n' i' k' h h'
    by_contra q
    exact no_closed hC hR ((h'.rev fun _ _ _ _ => Across.symm).append q h)
  induction h with
  | one a =>
    intro n' i' k' h'
    obtain rfl := same ((Trail.one a).mono h1) (h'.mono h2)
    cases h' with
    | one b =>
      obtain ⟨-, rfl⟩ := (h1 _ _ _ _ a).det hC (h2 _ _ _ _ b)
      exact ⟨rfl, rfl, .one ⟨a, b⟩⟩
    | cons b _ ht =>
      obtain ⟨rfl, -⟩ := (h1 _ _ _ _ a).det hC (h2 _ _ _ _ b)
      exact absurd (ht.mono h2) (no_closed hC hR)
  | cons a hk ht ih =>
    intro n' i' k' h'
    obtain rfl := same ((Trail.cons a hk ht).mono h1) (h'.mono h2)
    cases h' with
    | one b =>
      obtain ⟨rfl, -⟩ := (h1 _ _ _ _ a).det hC (h2 _ _ _ _ b)
      exact absurd (ht.mono h1) (no_closed hC hR)
    | cons b hk' ht' =>
      obtain ⟨rfl, rfl⟩ := (h1 _ _ _ _ a).det hC (h2 _ _ _ _ b)
      obtain ⟨rfl, rfl, q⟩ := ih ht'
      exact ⟨rfl, rfl, .cons ⟨a, b⟩ hk q⟩

/-- leave out the turns -/
theorem trail_of_star (hC : Consistent P s) {S : TId → Fin 3 → TId → Fin 3 → Prop}
    (h1 : ∀ x i y k, S x i y k → Across P s x i y k) {x y : TId}
    (h : Relation.ReflTransGen (fun x y => ∃ i k, S x i y k) x y) : x = y ∨ ∃ n i k, Trail S n x i y k := by
  induction h using Relation.ReflTransGen.head_induction_on with
  | refl => exact .inl rfl
  | @head x z hx _ ih =>
    obtain ⟨i, k, a⟩ := hx
    rcases ih with rfl | ⟨n, j, m, ht⟩
    · exact .inr ⟨_, _, _, .one a⟩
    · by_cases hk : k = j
      · subst hk
        cases ht with
        | one b => exact .inl ((h1 _ _ _ _ b).det hC (h1 _ _ _ _ a).symm).1
        | cons b hk' ht' =>
          obtain ⟨rfl, rfl⟩ := (h1 _ _ _ _ a).symm.det hC (h1 _ _ _ _ b)
          exact .inr ⟨_, _, _, ht'⟩
      · exact .inr ⟨_, _, _, .cons a hk ht⟩

theorem star_of_trail {S : TId → Fin 3 → TId → Fin 3 → Prop} {n x i y k} (h : Trail S n x i y k) :
    Relation.ReflTransGen (fun x y => ∃ i k, S x i y k) x y := by
  induction h with
  | one a => exact .single ⟨_, _, a⟩
  | cons a _ _ ih => exact .head ⟨_, _, a⟩ ih

end Grassfire
