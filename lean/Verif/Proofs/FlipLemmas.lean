/-
Lemmas on `flip`.
-/
import Verif.Proofs.Wp

set_option linter.unusedSectionVars false

namespace Grassfire

variable {K : Type} [Field K] [LinearOrder K]

theorem cw_cw (i : Fin 3) : cw (cw i) = ccw i := by revert i; decide
theorem ccw_ccw (i : Fin 3) : ccw (ccw i) = cw i := by revert i; decide
theorem cw_ccw (i : Fin 3) : cw (ccw i) = i := by revert i; decide
theorem ccw_cw (i : Fin 3) : ccw (cw i) = i := by revert i; decide
theorem cw_ne (i : Fin 3) : cw i ≠ i := by revert i; decide
theorem ccw_ne (i : Fin 3) : ccw i ≠ i := by revert i; decide
theorem cw_ne_ccw (i : Fin 3) : cw i ≠ ccw i := by revert i; decide
theorem cw_inj {i j : Fin 3} : cw i = cw j → i = j := by revert i j; decide
theorem no_reverse {i j : Fin 3} : ccw j = cw i → cw j ≠ ccw i := by revert i j; decide
theorem three_sides (i j : Fin 3) : j = i ∨ j = ccw i ∨ j = cw i := by revert i j; decide

theorem inj3 {α : Type} {a b c : α} (h1 : a ≠ b) (h2 : a ≠ c) (h3 : b ≠ c) :
    Function.Injective ![a, b, c] := by
  intro x y e
  match x, y, e with
  | 0, 0, _ => rfl
  | 1, 1, _ => rfl
  | 2, 2, _ => rfl
  | 0, 1, e => exact absurd e h1
  | 0, 2, e => exact absurd e h2
  | 1, 2, e => exact absurd e h3
  | 1, 0, e => exact absurd e.symm h1
  | 2, 0, e => exact absurd e.symm h2
  | 2, 1, e => exact absurd e.symm h3

theorem index3_some {α : Type} [DecidableEq α] {f : Fin 3 → α} {x : α} {i : Fin 3}
    (h : index3 f x = some i) : f i = x := by
  unfold index3 at h
  split_ifs at h with h0 h1 h2 <;> cases h <;> assumption

theorem index3_none {α : Type} [DecidableEq α] {f : Fin 3 → α} {x : α}
    (h : index3 f x = none) (i : Fin 3) : f i ≠ x := by
  unfold index3 at h
  split_ifs at h with h0 h1 h2
  match i with
  | 0 => exact h0
  | 1 => exact h1
  | 2 => exact h2

theorem index3_of_inj {α : Type} [DecidableEq α] {f : Fin 3 → α} (hf : Function.Injective f)
    (i : Fin 3) : index3 f (f i) = some i := by
  cases h : index3 f (f i) with
  | none => exact absurd rfl (index3_none h i)
  | some j => rw [hf (index3_some h)]

/-- the side of the neighbour that `flipSide` finds -/
def sideOf (s : St K) (nb : Option TId) (X : VId) : Option (Fin 3) :=
  nb.bind fun n => (index3 (s.tri n).vertices X).map ccw

theorem flipSide_run {nb : Option TId} {X : VId} {s : St K}
    (h : ∀ n, nb = some n → n < s.nT ∧ ∃ i, (s.tri n).vertices i = X) :
    flipSide nb X s = .ok (sideOf s nb X, s) := by
  cases nb with
  | none => rfl
  | some n =>
    obtain ⟨hn, i, hi⟩ := h n rfl
    unfold flipSide sideOf
    simp only
    rw [bind_run, getT_run_ok.2 ⟨hn, rfl, rfl⟩]
    dsimp only
    cases hx : index3 (s.tri n).vertices X with
    | none => exact absurd hi (index3_none hx i)
    | some j => simp only [Option.bind_some, hx]; rfl

/-- the triangles after `flipLink` -/
def linkTri (nb : Option TId) (side : Option (Fin 3)) (t : TId) (f : TId → KTri K) : TId → KTri K :=
  match nb, side with
  | some n, some i =>
    Function.update f n { f n with neighbours := Function.update (f n).neighbours i (some t) }
  | _, _ => f

theorem flipLink_run {nb : Option TId} {side : Option (Fin 3)} {t : TId} {s : St K}
    (h : ∀ n, nb = some n → n < s.nT) :
    flipLink nb side t s = .ok ((), { s with tri := linkTri nb side t s.tri }) := by
  cases nb with
  | none => rfl
  | some n =>
    cases side with
    | none => rfl
    | some i =>
      unfold flipLink setNeighbour linkTri
      exact (modifyT_run_ok (b := ())).2 ⟨h n rfl, rfl⟩

theorem linkTri_vertices (nb : Option TId) (side : Option (Fin 3)) (t : TId) (f : TId → KTri K)
    (u : TId) : (linkTri nb side t f u).vertices = (f u).vertices := by
  unfold linkTri
  split
  · rename_i n i
    by_cases hu : u = n
    · subst hu; simp
    · simp [hu]
  · rfl

theorem linkTri_rest (nb : Option TId) (side : Option (Fin 3)) (t : TId) (f : TId → KTri K)
    (u : TId) : ∃ ns, linkTri nb side t f u = { f u with neighbours := ns } := by
  unfold linkTri
  split
  · rename_i n i
    by_cases hu : u = n
    · subst hu; exact ⟨_, Function.update_self _ _ _⟩
    · exact ⟨(f u).neighbours, by simp [hu]⟩
  · exact ⟨_, rfl⟩

theorem linkTri_neighbours (nb : Option TId) (side : Option (Fin 3)) (t : TId) (f : TId → KTri K)
    (u : TId) (i : Fin 3) : (linkTri nb side t f u).neighbours i =
      if nb = some u ∧ side = some i then some t else (f u).neighbours i := by
  unfold linkTri
  split
  · rename_i n j
    by_cases hu : u = n
    · subst hu
      by_cases hj : i = j
      · subst hj; simp
      · have : ¬ (j = i) := fun h => hj h.symm
        simp [this, Function.update, hj]
    · have : ¬ (n = u) := fun h => hu h.symm
      simp [this, hu]
  · rename_i h
    rw [if_neg]
    rintro ⟨h1, h2⟩
    exact h u i h1 h2

/-- all that is needed for `flip` to succeed -/
structure Flippable (t0 : TId) (s0 : Fin 3) (t1 : TId) (s1 : Fin 3) (s : St K) : Prop where
  lt0 : t0 < s.nT
  lt1 : t1 < s.nT
  od : (s.tri t0).vertices (ccw s0) = (s.tri t1).vertices (cw s1)
  do_ : (s.tri t0).vertices (cw s0) = (s.tri t1).vertices (ccw s1)
  n0 : ((s.tri t0).neighbours s0).isSome
  n1 : ((s.tri t1).neighbours s1).isSome
  ab : ∀ n, (s.tri t0).neighbours (cw s0) = some n →
    n < s.nT ∧ ∃ i, (s.tri n).vertices i = (s.tri t0).vertices s0
  bc : ∀ n, (s.tri t1).neighbours (ccw s1) = some n →
    n < s.nT ∧ ∃ i, (s.tri n).vertices i = (s.tri t0).vertices (ccw s0)
  cd : ∀ n, (s.tri t1).neighbours (cw s1) = some n →
    n < s.nT ∧ ∃ i, (s.tri n).vertices i = (s.tri t1).vertices s1
  da : ∀ n, (s.tri t0).neighbours (ccw s0) = some n →
    n < s.nT ∧ ∃ i, (s.tri n).vertices i = (s.tri t0).vertices (cw s0)

/-- the triangles after the four links of `flip` -/
def linkAround (t0 : TId) (s0 : Fin 3) (t1 : TId) (s1 : Fin 3) (s : St K) : TId → KTri K :=
  linkTri ((s.tri t0).neighbours (ccw s0))
      (sideOf s ((s.tri t0).neighbours (ccw s0)) ((s.tri t0).vertices (cw s0))) t1 <|
  linkTri ((s.tri t1).neighbours (cw s1))
      (sideOf s ((s.tri t1).neighbours (cw s1)) ((s.tri t1).vertices s1)) t1 <|
  linkTri ((s.tri t1).neighbours (ccw s1))
      (sideOf s ((s.tri t1).neighbours (ccw s1)) ((s.tri t0).vertices (ccw s0))) t0 <|
  linkTri ((s.tri t0).neighbours (cw s0))
      (sideOf s ((s.tri t0).neighbours (cw s0)) ((s.tri t0).vertices s0)) t0 s.tri

/-- the triangles after `flip` -/
def flipTri (t0 : TId) (s0 : Fin 3) (t1 : TId) (s1 : Fin 3) (s : St K) : TId → KTri K := fun u =>
  if u = t1 then { linkAround t0 s0 t1 s1 s t1 with
    vertices := ![(s.tri t1).vertices s1, (s.tri t0).vertices (cw s0), (s.tri t0).vertices s0]
    neighbours := ![(s.tri t0).neighbours (ccw s0), some t0, (s.tri t1).neighbours (cw s1)] }
  else if u = t0 then { linkAround t0 s0 t1 s1 s t0 with
    vertices := ![(s.tri t0).vertices s0, (s.tri t0).vertices (ccw s0), (s.tri t1).vertices s1]
    neighbours := ![(s.tri t1).neighbours (ccw s1), some t1, (s.tri t0).neighbours (cw s0)] }
  else linkAround t0 s0 t1 s1 s u

theorem flip_run {t0 t1 : TId} {s0 s1 : Fin 3} {s : St K} (hne : t0 ≠ t1)
    (h : Flippable t0 s0 t1 s1 s) :
    flip t0 s0 t1 s1 s = .ok ((), { s with tri := flipTri t0 s0 t1 s1 s }) := by
  unfold flip
  rw [bind_run, getT_run_ok.2 ⟨h.lt0, rfl, rfl⟩]; dsimp only
  rw [bind_run, getT_run_ok.2 ⟨h.lt1, rfl, rfl⟩]; dsimp only
  rw [bind_run, (assertM_run_ok (b := ())).2 ⟨h.od, rfl⟩]; dsimp only
  rw [bind_run, (assertM_run_ok (b := ())).2 ⟨h.do_, rfl⟩]; dsimp only
  rw [bind_run, (assertM_run_ok (b := ())).2 ⟨h.n0, rfl⟩]; dsimp only
  rw [bind_run, (assertM_run_ok (b := ())).2 ⟨h.n1, rfl⟩]; dsimp only
  rw [bind_run, flipSide_run h.ab]; dsimp only
  rw [bind_run, flipSide_run h.bc]; dsimp only
  rw [bind_run, flipSide_run h.cd]; dsimp only
  rw [bind_run, flipSide_run h.da]; dsimp only
  rw [bind_run, flipLink_run (by exact fun n e => (h.ab n e).1)]; dsimp only
  rw [bind_run, flipLink_run (by exact fun n e => (h.bc n e).1)]; dsimp only
  rw [bind_run, flipLink_run (by exact fun n e => (h.cd n e).1)]; dsimp only
  rw [bind_run, flipLink_run (by exact fun n e => (h.da n e).1)]; dsimp only
  unfold setTriangle
  rw [bind_run, (modifyT_run_ok (b := ())).2 ⟨(by exact h.lt0), rfl⟩]; dsimp only
  refine (modifyT_run_ok (b := ())).2 ⟨h.lt1, ?_⟩
  congr 1
  funext u
  unfold flipTri linkAround
  by_cases h1 : u = t1
  · subst h1
    have : u ≠ t0 := fun e => hne e.symm
    simp [this]
  · by_cases h0 : u = t0
    · subst h0
      simp [hne]
    · simp [h1, h0]

theorem linkAround_rest (t0 : TId) (s0 : Fin 3) (t1 : TId) (s1 : Fin 3) (s : St K) (u : TId) :
    ∃ ns, linkAround t0 s0 t1 s1 s u = { s.tri u with neighbours := ns } := by
  unfold linkAround
  obtain ⟨n1, h1⟩ := linkTri_rest ((s.tri t0).neighbours (cw s0))
    (sideOf s ((s.tri t0).neighbours (cw s0)) ((s.tri t0).vertices s0)) t0 s.tri u
  obtain ⟨n2, h2⟩ := linkTri_rest ((s.tri t1).neighbours (ccw s1))
    (sideOf s ((s.tri t1).neighbours (ccw s1)) ((s.tri t0).vertices (ccw s0))) t0
    (linkTri ((s.tri t0).neighbours (cw s0))
      (sideOf s ((s.tri t0).neighbours (cw s0)) ((s.tri t0).vertices s0)) t0 s.tri) u
  obtain ⟨n3, h3⟩ := linkTri_rest ((s.tri t1).neighbours (cw s1))
    (sideOf s ((s.tri t1).neighbours (cw s1)) ((s.tri t1).vertices s1)) t1
    (linkTri ((s.tri t1).neighbours (ccw s1))
      (sideOf s ((s.tri t1).neighbours (ccw s1)) ((s.tri t0).vertices (ccw s0))) t0
      (linkTri ((s.tri t0).neighbours (cw s0))
        (sideOf s ((s.tri t0).neighbours (cw s0)) ((s.tri t0).vertices s0)) t0 s.tri)) u
  obtain ⟨n4, h4⟩ := linkTri_rest ((s.tri t0).neighbours (ccw s0))
    (sideOf s ((s.tri t0).neighbours (ccw s0)) ((s.tri t0).vertices (cw s0))) t1 (
    linkTri ((s.tri t1).neighbours (cw s1))
    (sideOf s ((s.tri t1).neighbours (cw s1)) ((s.tri t1).vertices s1)) t1
    (linkTri ((s.tri t1).neighbours (ccw s1))
      (sideOf s ((s.tri t1).neighbours (ccw s1)) ((s.tri t0).vertices (ccw s0))) t0
      (linkTri ((s.tri t0).neighbours (cw s0))
        (sideOf s ((s.tri t0).neighbours (cw s0)) ((s.tri t0).vertices s0)) t0 s.tri))) u
  refine ⟨n4, ?_⟩
  rw [h4, h3, h2, h1]

theorem sideOf_iff {s : St K} {nb : Option TId} {X : VId} {u : TId} {i : Fin 3}
    (hu : Function.Injective (s.tri u).vertices) :
    (nb = some u ∧ sideOf s nb X = some i) ↔ (nb = some u ∧ (s.tri u).vertices (cw i) = X) := by
  constructor
  · rintro ⟨rfl, h⟩
    refine ⟨rfl, ?_⟩
    simp only [sideOf, Option.bind_some, Option.map_eq_some_iff] at h
    obtain ⟨j, hj, rfl⟩ := h
    rw [cw_ccw]
    exact index3_some hj
  · rintro ⟨rfl, h⟩
    refine ⟨rfl, ?_⟩
    simp only [sideOf, Option.bind_some]
    rw [← h, index3_of_inj hu]
    simp [ccw_cw]

theorem linkAround_neighbours (t0 : TId) (s0 : Fin 3) (t1 : TId) (s1 : Fin 3) (s : St K) (u : TId)
    (hu : Function.Injective (s.tri u).vertices) (i : Fin 3) :
    (linkAround t0 s0 t1 s1 s u).neighbours i =
      if (s.tri t0).neighbours (ccw s0) = some u ∧ (s.tri u).vertices (cw i) = (s.tri t0).vertices (cw s0)
        then some t1
      else if (s.tri t1).neighbours (cw s1) = some u ∧ (s.tri u).vertices (cw i) = (s.tri t1).vertices s1
        then some t1
      else if (s.tri t1).neighbours (ccw s1) = some u ∧
          (s.tri u).vertices (cw i) = (s.tri t0).vertices (ccw s0) then some t0
      else if (s.tri t0).neighbours (cw s0) = some u ∧ (s.tri u).vertices (cw i) = (s.tri t0).vertices s0
        then some t0
      else (s.tri u).neighbours i := by
  unfold linkAround
  rw [linkTri_neighbours, linkTri_neighbours, linkTri_neighbours, linkTri_neighbours]
  simp only [sideOf_iff hu]

end Grassfire
