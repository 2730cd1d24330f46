/-
Property C74: the checks of events/check.py accept exactly the states that they are to accept, and leave these as they
are.
-/
import Verif.Spec.Checks
import Verif.Proofs.LoopLemmas
import Verif.Proofs.LinkCheck
import Verif.Props.Links

set_option linter.unusedSectionVars false

namespace Grassfire

open Spec

variable {K : Type} [Field K] [LinearOrder K] [IsStrictOrderedRing K] [HasSqrt K] [HasTrig K]

/-! ### lemmas -/

theorem forEach_iff {α : Type} {f : α → M K Unit} (hf : ∀ x s a s', f x s = .ok (a, s') → s = s') (l : List α)
    (s : St K) : forEach f l s = .ok ((), s) ↔ ∀ x ∈ l, f x s = .ok ((), s) := by
  constructor
  · intro h
    induction l with
    | nil => simp
    | cons x xs ih =>
      obtain ⟨_, s1, h1, h2⟩ := bind_run_ok.1 h
      obtain rfl := hf _ _ _ _ h1
      intro y hy
      rcases List.mem_cons.1 hy with rfl | hy
      · exact h1
      · exact ih h2 y hy
  · intro h
    induction l with
    | nil => rfl
    | cons x xs ih =>
      exact bind_run_ok.2 ⟨(), s, h x List.mem_cons_self, ih fun y hy => h y (List.mem_cons_of_mem _ hy)⟩

theorem all3 {p : Fin 3 → Prop} : (∀ i ∈ ([0, 1, 2] : List (Fin 3)), p i) ↔ ∀ i, p i :=
  ⟨fun h i => h i ((by decide : ∀ i : Fin 3, i ∈ ([0, 1, 2] : List (Fin 3))) i), fun h i _ => h i⟩

theorem at_iff {s : St K} {now : K} {v : VId} {p : Pt K} : positionAt v now s = .ok (p, s) ↔ At s now v p := by
  rw [positionAt_run_ok]
  unfold At Place
  cases hv : s.vert v with
  | inf o => simp [Vertex.positionAt]
  | kin k =>
    simp only [Vertex.positionAt]
    cases hi : k.infFast with
    | false => simp [hi, eq_comm (a := p)]
    | true =>
      cases hn : k.startNode with
      | none => simp [hi, hn]
      | some n => simp [hi, hn, eq_comm (a := p)]

theorem at_unique {s : St K} {now : K} {v : VId} {p q : Pt K} (h : At s now v p) (h' : At s now v q) : p = q := by
  have h1 := at_iff.2 h
  rw [at_iff.2 h'] at h1
  injection h1 with h1
  injection h1 with h1
  exact h1.symm

theorem moves_iff {s : St K} {v : VId} {u : Pt K} (hv : v < s.nV) : velocityOf v s = .ok (u, s) ↔ Moves s v u := by
  unfold velocityOf Moves
  rw [bind_run]
  have : getV v s = .ok (s.vert v, s) := getV_run_ok.2 ⟨hv, rfl, rfl⟩
  rw [this]
  simp only
  rw [pure_run_ok]
  cases s.vert v <;> simp [Vertex.velocity, eq_comm]

/-- the checks look at the triangles that have not been stopped -/
theorem activeOnly_iff {f : KTri K → M K Unit} {t : TId} {s : St K} (ht : t < s.nT) :
    ((do let T ← getT t; if T.stopsAt.isNone then f T else pure ()) : M K Unit) s = .ok ((), s) ↔
      (Live s t → f (s.tri t) s = .ok ((), s)) := by
  rw [bind_run, getT_run_ok.2 ⟨ht, rfl, rfl⟩]
  simp only
  by_cases h : (s.tri t).stopsAt.isNone = true
  · rw [if_pos h]
    exact ⟨fun q _ => q, fun q => q ⟨ht, Option.isNone_iff_eq_none.1 h⟩⟩
  · rw [if_neg h]
    exact ⟨fun _ q => absurd (Option.isNone_iff_eq_none.2 q.2) h, fun _ => rfl⟩

theorem activeOnly_same {f : KTri K → M K Unit} {t : TId} (hf : ∀ T s a s', f T s = .ok (a, s') → s = s') (s : St K) (a : Unit)
    (s' : St K) (h : ((do let T ← getT t; if T.stopsAt.isNone then f T else pure ()) : M K Unit) s = .ok (a, s')) :
    s = s' := by
  obtain ⟨T, s1, h1, h⟩ := bind_run_ok.1 h
  obtain ⟨-, -, rfl⟩ := getT_run_ok.1 h1
  split_ifs at h
  · exact hf _ _ _ _ h
  · exact (pure_run_ok.1 h).2

theorem pointToEachOther_same {t : TId} {i : Fin 3} {s s' : St K} {a : Unit}
    (h : pointToEachOther t i s = .ok (a, s')) : s = s' := by
  unfold pointToEachOther at h
  obtain ⟨_, s1, h1, h⟩ := bind_run_ok.1 h
  obtain ⟨-, -, rfl⟩ := getT_run_ok.1 h1
  obtain ⟨_, s1, h1, h⟩ := bind_run_ok.1 h
  obtain ⟨-, -, rfl⟩ := getK_run_ok.1 h1
  obtain ⟨_, s1, h1, h⟩ := bind_run_ok.1 h
  obtain ⟨-, rfl⟩ := assertM_run_ok.1 h1
  obtain ⟨_, s1, h1, h⟩ := bind_run_ok.1 h
  obtain ⟨-, -, rfl⟩ := getK_run_ok.1 h1
  exact (assertM_run_ok.1 h).2

theorem neighbourActive_same {n : Option TId} {s s' : St K} {a : Unit} (h : neighbourActive n s = .ok (a, s')) :
    s = s' := by
  cases n with
  | none => exact (pure_run_ok.1 h).2
  | some n =>
    obtain ⟨_, s1, h1, h⟩ := bind_run_ok.1 h
    obtain ⟨-, -, rfl⟩ := getT_run_ok.1 h1
    exact (assertM_run_ok.1 h).2

theorem vertexActive_same {v : VId} {s s' : St K} {a : Unit} (h : vertexActive v s = .ok (a, s')) : s = s' := by
  obtain ⟨x, s1, h1, h⟩ := bind_run_ok.1 h
  obtain ⟨-, -, rfl⟩ := getV_run_ok.1 h1
  cases x with
  | inf o => exact (pure_run_ok.1 h).2
  | kin k => exact (assertM_run_ok.1 h).2

theorem checkBisectorDirection_iff {t : TId} {i : Fin 3} {now : K} {s : St K} (ht : t < s.nT) :
    checkBisectorDirection t i now s = .ok ((), s) ↔
      KeepsLeft s now ((s.tri t).vertices (i + 1)) ((s.tri t).vertices (i + 2)) := by
  have key : ∀ p q u : Pt K, (orient2d p q (add2 q u) > 0 ∨ nearZero (orient2d p q (add2 q u)) = true) ↔
      -(1 / 10 ^ 10) ≤ leftTurn p q (q.1 + u.1, q.2 + u.2) := by
    intro p q u
    have e : orient2d p q (add2 q u) = leftTurn p q (q.1 + u.1, q.2 + u.2) := by
      simp only [orient2d, leftTurn, add2]; ring
    rw [e, nearZero_iff, abs_le]
    have : (0 : K) < 1 / 10 ^ 10 := by positivity
    constructor
    · rintro (h | h)
      · linarith
      · exact h.1
    · intro h
      by_cases hp : 0 < leftTurn p q (q.1 + u.1, q.2 + u.2)
      · exact .inl hp
      · exact .inr ⟨h, by linarith⟩
  constructor
  · intro h
    unfold checkBisectorDirection at h
    obtain ⟨T, s1, h1, h⟩ := bind_run_ok.1 h
    obtain ⟨-, rfl, rfl⟩ := getT_run_ok.1 h1
    obtain ⟨q, s1, h1, h⟩ := bind_run_ok.1 h
    obtain ⟨hv, -, rfl⟩ := positionAt_run_ok.1 h1
    obtain ⟨u, s1, h2, h⟩ := bind_run_ok.1 h
    have e : s = s1 := by
      obtain ⟨_, s2, h3, h4⟩ := bind_run_ok.1 h2
      obtain ⟨-, -, rfl⟩ := getV_run_ok.1 h3
      exact (pure_run_ok.1 h4).2
    subst e
    obtain ⟨p, s1, h3, h⟩ := bind_run_ok.1 h
    obtain ⟨-, -, rfl⟩ := positionAt_run_ok.1 h3
    exact ⟨p, q, u, at_iff.1 h3, at_iff.1 h1, (moves_iff hv).1 h2, (key p q u).1 (assertM_run_ok.1 h).1⟩
  · rintro ⟨p, q, u, hp, hq, hu, h⟩
    unfold checkBisectorDirection
    refine bind_run_ok.2 ⟨_, s, getT_run_ok.2 ⟨ht, rfl, rfl⟩, ?_⟩
    refine bind_run_ok.2 ⟨q, s, at_iff.2 hq, ?_⟩
    refine bind_run_ok.2 ⟨u, s, (moves_iff hq.1).2 hu, ?_⟩
    refine bind_run_ok.2 ⟨p, s, at_iff.2 hp, ?_⟩
    exact assertM_run_ok.2 ⟨(key p q u).2 h, rfl⟩

/-- the branch for sides without neighbour -/
theorem front_iff {f : Fin 3 → M K Unit} {T : KTri K} {s : St K} :
    (∀ i, (if (T.neighbours i).isNone then f i else pure () : M K Unit) s = .ok ((), s)) ↔
      ∀ i, T.neighbours i = none → f i s = .ok ((), s) := by
  refine forall_congr' fun i => ?_
  by_cases h : (T.neighbours i).isNone = true
  · rw [if_pos h]
    exact ⟨fun q _ => q, fun q => q (Option.isNone_iff_eq_none.1 h)⟩
  · rw [if_neg h]
    exact ⟨fun _ q => absurd (Option.isNone_iff_eq_none.2 q) h, fun _ => rfl⟩

theorem front_same {f : Fin 3 → M K Unit} {T : KTri K} (hf : ∀ i s a s', f i s = .ok (a, s') → s = s') (i : Fin 3)
    (s : St K) (a : Unit) (s' : St K)
    (h : (if (T.neighbours i).isNone then f i else pure () : M K Unit) s = .ok (a, s')) : s = s' := by
  split_ifs at h
  · exact hf _ _ _ _ h
  · exact (pure_run_ok.1 h).2

/-! ### the property -/

/-- C74: `check_bisectors` accepts the state if and only if no end of a wavefront side moves to the right of the side. -/
theorem C74_bisectors (ts : List TId) (now : K) (s : St K) (hts : ∀ t ∈ ts, t < s.nT) :
    checkBisectors ts now s = .ok ((), s) ↔
      ∀ t ∈ ts, ∀ i a b, FrontSide s t i a b → KeepsLeft s now a b := by
  unfold checkBisectors
  rw [forEach_iff fun t s a s' h => activeOnly_same (fun T s a s' h =>
    forEach_same (front_same fun _ _ _ _ h => checkBisectorDirection_same h) _ h) s a s' h]
  refine forall₂_congr fun t ht => ?_
  rw [activeOnly_iff (hts t ht), forEach_iff (front_same fun _ _ _ _ h => checkBisectorDirection_same h), all3, front_iff]
  constructor
  · rintro h i a b ⟨h1, h2, rfl, rfl⟩
    exact (checkBisectorDirection_iff (hts t ht)).1 (h h1 i h2)
  · intro h h1 i h2
    exact (checkBisectorDirection_iff (hts t ht)).2 (h i _ _ ⟨h1, h2, rfl, rfl⟩)

/-- C74: `check_wavefront_links` accepts the state if and only if the ends of all wavefront sides point to each other. -/
theorem C74_wavefront_links (ts : List TId) (s : St K) (hts : ∀ t ∈ ts, t < s.nT) :
    checkWavefrontLinks ts s = .ok ((), s) ↔ ∀ t ∈ ts, ∀ i a b, FrontSide s t i a b → Points s a b := by
  unfold checkWavefrontLinks
  rw [forEach_iff fun t s a s' h => activeOnly_same (fun T s a s' h =>
    forEach_same (front_same fun _ _ _ _ h => pointToEachOther_same h) _ h) s a s' h]
  refine forall₂_congr fun t ht => ?_
  rw [activeOnly_iff (hts t ht), forEach_iff (front_same fun _ _ _ _ h => pointToEachOther_same h), all3, front_iff]
  have key : ∀ i, pointToEachOther t i s = .ok ((), s) ↔
      Points s ((s.tri t).vertices (i + 1)) ((s.tri t).vertices (i + 2)) := by
    intro i
    constructor
    · intro h
      unfold pointToEachOther at h
      obtain ⟨_, s1, h1, h⟩ := bind_run_ok.1 h
      obtain ⟨-, rfl, rfl⟩ := getT_run_ok.1 h1
      obtain ⟨kb, s1, h1, h⟩ := bind_run_ok.1 h
      obtain ⟨hb, eb, rfl⟩ := getK_run_ok.1 h1
      obtain ⟨_, s1, h1, h⟩ := bind_run_ok.1 h
      obtain ⟨lb, rfl⟩ := assertM_run_ok.1 h1
      obtain ⟨ka, s1, h1, h⟩ := bind_run_ok.1 h
      obtain ⟨ha, ea, rfl⟩ := getK_run_ok.1 h1
      exact ⟨ka, kb, ha, hb, ea, eb, (assertM_run_ok.1 h).1, lb⟩
    · rintro ⟨ka, kb, ha, hb, ea, eb, ra, lb⟩
      unfold pointToEachOther
      refine bind_run_ok.2 ⟨_, s, getT_run_ok.2 ⟨hts t ht, rfl, rfl⟩, ?_⟩
      refine bind_run_ok.2 ⟨kb, s, getK_run_ok.2 ⟨hb, eb, rfl⟩, ?_⟩
      refine bind_run_ok.2 ⟨(), s, assertM_run_ok.2 ⟨lb, rfl⟩, ?_⟩
      refine bind_run_ok.2 ⟨ka, s, getK_run_ok.2 ⟨ha, ea, rfl⟩, ?_⟩
      exact assertM_run_ok.2 ⟨ra, rfl⟩
  constructor
  · rintro h i a b ⟨h1, h2, rfl, rfl⟩
    exact (key i).1 (h h1 i h2)
  · intro h h1 i h2
    exact (key i).2 (h i _ _ ⟨h1, h2, rfl, rfl⟩)

/-- C74: `check_active_triangles` accepts the state if and only if no triangle that goes on has a neighbour that has been
stopped. -/
theorem C74_active_triangles (ts : List TId) (s : St K) (hts : ∀ t ∈ ts, t < s.nT) :
    checkActiveTriangles ts s = .ok ((), s) ↔
      ∀ t ∈ ts, Live s t → ∀ i n, (s.tri t).neighbours i = some n → Live s n := by
  unfold checkActiveTriangles
  rw [forEach_iff fun t s a s' h => activeOnly_same (fun T s a s' h =>
    forEach_same (fun _ _ _ _ h => neighbourActive_same h) _ h) s a s' h]
  refine forall₂_congr fun t ht => ?_
  rw [activeOnly_iff (hts t ht), forEach_iff (fun _ _ _ _ h => neighbourActive_same h), all3]
  refine forall_congr' fun _ => forall_congr' fun i => ?_
  unfold neighbourActive
  cases hn : (s.tri t).neighbours i with
  | none => exact ⟨fun _ n hn => (Option.some_ne_none n hn.symm).elim, fun _ => rfl⟩
  | some n =>
    constructor
    · intro h m hm
      injection hm with hm
      subst hm
      obtain ⟨_, s1, h1, h⟩ := bind_run_ok.1 h
      obtain ⟨hlt, rfl, rfl⟩ := getT_run_ok.1 h1
      exact ⟨hlt, Option.isNone_iff_eq_none.1 (assertM_run_ok.1 h).1⟩
    · intro h
      obtain ⟨h1, h2⟩ := h n rfl
      exact bind_run_ok.2 ⟨_, s, getT_run_ok.2 ⟨h1, rfl, rfl⟩, assertM_run_ok.2 ⟨Option.isNone_iff_eq_none.2 h2, rfl⟩⟩

/-- C74: `check_kinetic_vertices` accepts the state if and only if no triangle that goes on has a kinetic corner that has
been stopped. -/
theorem C74_kinetic_vertices (ts : List TId) (s : St K) (hts : ∀ t ∈ ts, t < s.nT)
    (hv : ∀ t ∈ ts, ∀ i, (s.tri t).vertices i < s.nV) :
    checkKineticVertices ts s = .ok ((), s) ↔
      ∀ t ∈ ts, Live s t → ∀ i, Kinetic s ((s.tri t).vertices i) → Running s ((s.tri t).vertices i) := by
  unfold checkKineticVertices
  rw [forEach_iff fun t s a s' h => activeOnly_same (fun T s a s' h =>
    forEach_same (fun _ _ _ _ h => vertexActive_same h) _ h) s a s' h]
  refine forall₂_congr fun t ht => ?_
  rw [activeOnly_iff (hts t ht), forEach_iff (fun _ _ _ _ h => vertexActive_same h), all3]
  refine forall_congr' fun _ => forall_congr' fun i => ?_
  have hlt := hv t ht i
  have e : vertexActive ((s.tri t).vertices i) s = (match s.vert ((s.tri t).vertices i) with
      | .inf _ => pure ()
      | .kin k => assertM (k.stopsAt.isNone = true) : M K Unit) s := by
    unfold vertexActive
    rw [bind_run, getV_run_ok.2 ⟨hlt, rfl, rfl⟩]
    rfl
  rw [e]
  cases hx : s.vert ((s.tri t).vertices i) with
  | inf o =>
    refine ⟨fun _ q => ?_, fun _ => rfl⟩
    obtain ⟨-, k, hk⟩ := q
    rw [hx] at hk
    cases hk
  | kin k =>
    constructor
    · intro h _
      exact ⟨hlt, k, hx, Option.isNone_iff_eq_none.1 (assertM_run_ok.1 h).1⟩
    · intro h
      obtain ⟨-, k', hk, h2⟩ := h ⟨hlt, k, hx⟩
      rw [hx] at hk
      injection hk with hk
      subst hk
      exact assertM_run_ok.2 ⟨Option.isNone_iff_eq_none.2 h2, rfl⟩

theorem isKinetic_iff {s : St K} {v : VId} (hv : v < s.nV) : Kinetic s v ↔ (s.vert v).isKinetic = true := by
  unfold Kinetic
  cases s.vert v <;> simp [Vertex.isKinetic, hv]

/-- C74: `check_active_triangles_orientation` accepts the state if and only if the triangles that go on turn left, those
with an infinite corner right. -/
theorem C74_orientation (ts : List TId) (now : K) (s : St K) (hts : ∀ t ∈ ts, t < s.nT) :
    checkOrientation ts now s = .ok ((), s) ↔ ∀ t ∈ ts, Live s t → Turns s now t := by
  have tol : (0 : K) < 1 / 10 ^ 10 := by positivity
  unfold checkOrientation
  rw [forEach_iff fun t s a s' h => checkOrientation_same (ts := [t]) (now := now)
    (bind_run_ok.2 ⟨a, s', h, rfl⟩)]
  refine forall₂_congr fun t ht => ?_
  rw [activeOnly_iff (hts t ht)]
  refine forall_congr' fun _ => ?_
  have hor : ∀ a b c : Pt K, orient2d a b c = leftTurn a b c := by
    intro a b c
    simp only [orient2d, leftTurn]; ring
  constructor
  · intro h
    obtain ⟨p0, s1, h0, h⟩ := bind_run_ok.1 h
    obtain ⟨v0, -, rfl⟩ := positionAt_run_ok.1 h0
    obtain ⟨p1, s1, h1, h⟩ := bind_run_ok.1 h
    obtain ⟨v1, -, rfl⟩ := positionAt_run_ok.1 h1
    obtain ⟨p2, s1, h2, h⟩ := bind_run_ok.1 h
    obtain ⟨v2, -, rfl⟩ := positionAt_run_ok.1 h2
    obtain ⟨x0, s1, g0, h⟩ := bind_run_ok.1 h
    obtain ⟨-, rfl, rfl⟩ := getV_run_ok.1 g0
    obtain ⟨x1, s1, g1, h⟩ := bind_run_ok.1 h
    obtain ⟨-, rfl, rfl⟩ := getV_run_ok.1 g1
    obtain ⟨x2, s1, g2, h⟩ := bind_run_ok.1 h
    obtain ⟨-, rfl, rfl⟩ := getV_run_ok.1 g2
    have hk : (∀ i, Kinetic s ((s.tri t).vertices i)) ↔ ((s.vert ((s.tri t).vertices 0)).isKinetic &&
        (s.vert ((s.tri t).vertices 1)).isKinetic && (s.vert ((s.tri t).vertices 2)).isKinetic) = true := by
      rw [Fin.forall_fin_succ, Fin.forall_fin_succ, Fin.forall_fin_succ]
      simp only [Bool.and_eq_true]
      refine ⟨fun q => ⟨⟨(isKinetic_iff v0).1 q.1, (isKinetic_iff v1).1 q.2.1⟩, (isKinetic_iff v2).1 q.2.2.1⟩,
        fun q => ⟨(isKinetic_iff v0).2 q.1.1, (isKinetic_iff v1).2 q.1.2, (isKinetic_iff v2).2 q.2, fun i => i.elim0⟩⟩
    refine ⟨![p0, p1, p2], ?_, fun q => ?_, fun q => ?_⟩
    · intro i
      match i with
      | 0 => exact at_iff.1 h0
      | 1 => exact at_iff.1 h1
      | 2 => exact at_iff.1 h2
    · simp only [if_pos (hk.1 q)] at h
      have h := (assertM_run_ok.1 h).1
      rw [hor, nearZero_iff, abs_le] at h
      show -(1 / 10 ^ 10) ≤ leftTurn p0 p1 p2
      rcases h with h | h
      · exact le_trans (by linarith) h
      · exact h.1
    · simp only [if_neg fun c => q (hk.2 c)] at h
      have h := (assertM_run_ok.1 h).1
      rw [hor, nearZero_iff, abs_le] at h
      show leftTurn p0 p1 p2 ≤ 1 / 10 ^ 10
      rcases h with h | h
      · exact le_trans h tol.le
      · exact h.2
  · rintro ⟨p, hp, hk, hi⟩
    refine bind_run_ok.2 ⟨p 0, s, at_iff.2 (hp 0), ?_⟩
    refine bind_run_ok.2 ⟨p 1, s, at_iff.2 (hp 1), ?_⟩
    refine bind_run_ok.2 ⟨p 2, s, at_iff.2 (hp 2), ?_⟩
    refine bind_run_ok.2 ⟨_, s, getV_run_ok.2 ⟨(hp 0).1, rfl, rfl⟩, ?_⟩
    refine bind_run_ok.2 ⟨_, s, getV_run_ok.2 ⟨(hp 1).1, rfl, rfl⟩, ?_⟩
    refine bind_run_ok.2 ⟨_, s, getV_run_ok.2 ⟨(hp 2).1, rfl, rfl⟩, ?_⟩
    have hk' : (∀ i, Kinetic s ((s.tri t).vertices i)) ↔ ((s.vert ((s.tri t).vertices 0)).isKinetic &&
        (s.vert ((s.tri t).vertices 1)).isKinetic && (s.vert ((s.tri t).vertices 2)).isKinetic) = true := by
      rw [Fin.forall_fin_succ, Fin.forall_fin_succ, Fin.forall_fin_succ]
      simp only [Bool.and_eq_true]
      refine ⟨fun q => ⟨⟨(isKinetic_iff (hp 0).1).1 q.1, (isKinetic_iff (hp 1).1).1 q.2.1⟩, (isKinetic_iff (hp 2).1).1 q.2.2.1⟩,
        fun q => ⟨(isKinetic_iff (hp 0).1).2 q.1.1, (isKinetic_iff (hp 1).1).2 q.1.2, (isKinetic_iff (hp 2).1).2 q.2, fun i => i.elim0⟩⟩
    by_cases q : ((s.vert ((s.tri t).vertices 0)).isKinetic &&
        (s.vert ((s.tri t).vertices 1)).isKinetic && (s.vert ((s.tri t).vertices 2)).isKinetic) = true
    · simp only [if_pos q]
      refine assertM_run_ok.2 ⟨?_, rfl⟩
      rw [hor, nearZero_iff, abs_le]
      have := hk (hk'.2 q)
      by_cases hc : 0 ≤ leftTurn (p 0) (p 1) (p 2)
      · exact .inl hc
      · exact .inr ⟨this, le_trans (not_le.1 hc).le tol.le⟩
    · simp only [if_neg q]
      refine assertM_run_ok.2 ⟨?_, rfl⟩
      rw [hor, nearZero_iff, abs_le]
      have := hi fun c => q (hk'.1 c)
      by_cases hc : leftTurn (p 0) (p 1) (p 2) ≤ 0
      · exact .inl hc
      · exact .inr ⟨by linarith [not_le.1 hc], this⟩

/-- C74: `at_same_location` tells whether the others are, in x and in y, within the tolerance of the first. -/
theorem C74_same_location (x : Located) (xs : List Located) (now : K) (s s' : St K) (b : Bool)
    (h : atSameLocation (x :: xs) now s = .ok (b, s')) :
    s = s' ∧ ∃ p, x.positionAt now s = .ok (p, s) ∧ ∃ ps : List (Pt K),
      List.Forall₂ (fun y q => y.positionAt now s = .ok (q, s)) xs ps ∧
      (b = true ↔ ∀ q ∈ ps, |p.1 - q.1| ≤ 1 / 10 ^ 10 ∧ |p.2 - q.2| ≤ 1 / 10 ^ 10) := by
  have same : ∀ (y : Located) (s : St K) q s', y.positionAt now s = .ok (q, s') → s = s' := by
    intro y s q s' h
    cases y with
    | vertex v => exact (positionAt_run_ok.1 h).2.2
    | node n =>
      obtain ⟨_, s1, h1, h⟩ := bind_run_ok.1 h
      obtain ⟨-, -, rfl⟩ := getN_run_ok.1 h1
      exact (pure_run_ok.1 h).2
  have all : ∀ (ys : List Located) (l : List (Pt K)) (s s' : St K), mapEach (fun v => v.positionAt now) ys s = .ok (l, s') →
      s = s' ∧ List.Forall₂ (fun y q => y.positionAt now s = .ok (q, s)) ys l := by
    intro ys
    induction ys with
    | nil =>
      intro l s s' h
      obtain ⟨rfl, rfl⟩ := pure_run_ok.1 h
      exact ⟨rfl, .nil⟩
    | cons y ys ih =>
      intro l s s' h
      obtain ⟨q, s1, h1, h⟩ := bind_run_ok.1 h
      obtain rfl := same _ _ _ _ h1
      obtain ⟨qs, s1, h2, h⟩ := bind_run_ok.1 h
      obtain ⟨rfl, hf⟩ := ih _ _ _ h2
      obtain ⟨rfl, rfl⟩ := pure_run_ok.1 h
      exact ⟨rfl, .cons h1 hf⟩
  unfold atSameLocation at h
  obtain ⟨P, s1, h1, h⟩ := bind_run_ok.1 h
  obtain ⟨rfl, hf⟩ := all _ _ _ _ h1
  cases hf with
  | cons hx hxs =>
    rename_i p ps
    obtain ⟨rfl, rfl⟩ := pure_run_ok.1 h
    refine ⟨rfl, p, hx, ps, hxs, ?_⟩
    rw [List.all_eq_true]
    refine forall₂_congr fun q _ => ?_
    rw [Bool.and_eq_true, nearZero_iff, nearZero_iff]

/-- C74: the checks change nothing. -/
theorem C74_read_only (ts : List TId) (now : K) (s s' : St K) (a : Unit) :
    (checkBisectors ts now s = .ok (a, s') → s = s') ∧ (checkOrientation ts now s = .ok (a, s') → s = s') ∧
    (checkWavefrontLinks ts s = .ok (a, s') → s = s') ∧ (checkActiveTriangles ts s = .ok (a, s') → s = s') ∧
    (checkKineticVertices ts s = .ok (a, s') → s = s') :=
  ⟨checkBisectors_same, checkOrientation_same,
    fun h => forEach_same (fun _ _ _ _ h => activeOnly_same (fun _ _ _ _ h =>
      forEach_same (front_same fun _ _ _ _ h => pointToEachOther_same h) _ h) _ _ _ h) _ h,
    fun h => forEach_same (fun _ _ _ _ h => activeOnly_same (fun _ _ _ _ h =>
      forEach_same (fun _ _ _ _ h => neighbourActive_same h) _ h) _ _ _ h) _ h,
    fun h => forEach_same (fun _ _ _ _ h => activeOnly_same (fun _ _ _ _ h =>
      forEach_same (fun _ _ _ _ h => vertexActive_same h) _ h) _ _ _ h) _ h⟩

/-- C74: when the event loop returns, the wavefront sides kept left and the triangles turned left (those with an infinite
corner right) when it started. -/
theorem C74_event_loop (depth : ℕ) (s s' : St K) (now : K)
    (h : eventLoop depth s = .ok (now, s')) (hts : ∀ t ∈ s.skTriangles, t < s.nT) (t : TId) (ht : t ∈ s.skTriangles)
    (hl : Live s t) :
    Turns s 0 t ∧ ∀ i, (s.tri t).neighbours i = none →
      KeepsLeft s 0 ((s.tri t).vertices (i + 1)) ((s.tri t).vertices (i + 2)) := by
  unfold eventLoop at h
  obtain ⟨_, s1, h1, h⟩ := bind_run_ok.1 h
  simp only [clearImmediate, Except.ok.injEq, Prod.mk.injEq, true_and] at h1
  subst h1
  obtain ⟨ts, s2, h1, h⟩ := bind_run_ok.1 h
  simp only [skelTriangles, Except.ok.injEq, Prod.mk.injEq] at h1
  obtain ⟨rfl, rfl⟩ := h1
  obtain ⟨_, s3, h1, h⟩ := bind_run_ok.1 h
  obtain rfl := checkBisectors_same h1
  obtain ⟨_, s4, h2, h⟩ := bind_run_ok.1 h
  obtain rfl := checkOrientation_same h2
  exact ⟨(C74_orientation s.skTriangles 0 { s with immediate := [] } hts).1 h2 t ht hl, fun i hi =>
    (C74_bisectors s.skTriangles 0 { s with immediate := [] } hts).1 h1 t ht i _ _ ⟨hl, hi, rfl, rfl⟩⟩

/-! ### the hypotheses are met -/

theorem check_passes {m : M ℚ Unit} {s : St ℚ} (hm : ∀ s' a, m s = .ok (a, s') → s = s')
    (h : (match m s with | .ok _ => true | .error _ => false) = true) : m s = .ok ((), s) := by
  cases hr : m s with
  | error e => rw [hr] at h; exact absurd h (by simp)
  | ok x =>
    obtain ⟨⟨⟩, s'⟩ := x
    rw [hm s' () hr]

/-- The triangles of the examples turn left, and the corners of the polygon move inwards. -/
example : ∀ t ∈ Sample.notched.skTriangles, Live Sample.notched t → Turns Sample.notched 0 t :=
  (C74_orientation _ _ _ (by decide)).1 (check_passes (fun _ _ => checkOrientation_same) (by decide +kernel))
example : ∀ t ∈ Sample.trapezoid.skTriangles, ∀ i a b, FrontSide Sample.trapezoid t i a b →
    KeepsLeft Sample.trapezoid 0 a b :=
  (C74_bisectors _ _ _ (by decide)).1 (check_passes (fun _ _ => checkBisectors_same) (by decide +kernel))

/-- After its event a triangle does not turn left any more, and the check refuses it. -/
example : ¬ ∀ t ∈ Sample.trapezoid.skTriangles, Live Sample.trapezoid t → Turns Sample.trapezoid (3 / 2) t := by
  intro h
  have h1 := (C74_orientation _ _ _ (by decide)).2 h
  have h2 : (match checkOrientation Sample.trapezoid.skTriangles (3 / 2) Sample.trapezoid with
    | .ok _ => true | .error _ => false) = false := by decide +kernel
  rw [h1] at h2
  cases h2

/-- Runs of the event loop exist. -/
example : ∃ now s', eventLoop 100 (Sample.after initEventList Sample.trapezoid) = .ok (now, s') := by
  have h : (match eventLoop 100 (Sample.after initEventList Sample.trapezoid) with
    | .ok _ => true | .error _ => false) = true := by decide +kernel
  cases hr : eventLoop 100 (Sample.after initEventList Sample.trapezoid) with
  | error e => rw [hr] at h; cases h
  | ok x => exact ⟨x.1, x.2, rfl⟩

end Grassfire
