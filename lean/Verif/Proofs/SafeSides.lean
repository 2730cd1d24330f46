/-
Progress of the event loop (lemmas for C87): putting a new vertex in the place of a stopped one.
-/
import Verif.Proofs.SafeBlocks

set_option linter.unusedSectionVars false

namespace Grassfire

open Spec

variable {K : Type} [Field K] [LinearOrder K] [IsStrictOrderedRing K] [HasSqrt K]

variable {E : Err → Prop} {s : St K} {P : Line2 K → Prop}

/-- what holds between two events -/
structure Ready (P : Line2 K → Prop) (s : St K) : Prop where
  mesh : Mesh s
  undead : Undead s
  waves : Waves P s
  slow : ∀ v k, v < s.nV → s.vert v = .kin k → k.infFast = false

theorem Ready.side (R : Ready P s) {x : TId} (hx : Live s x) {i : Fin 3} (hi : (s.tri x).neighbours i = none) :
    SideView (viewOf s ((s.tri x).vertices (i + 1))) (viewOf s ((s.tri x).vertices (i + 2))) :=
  sideView_of_points R.waves (R.undead.points R.mesh hx hi)

theorem Ready.slowView (R : Ready P s) {v : VId} (hv : v < s.nV) : (viewOf s v).infFast = false := by
  unfold viewOf
  cases h : s.vert v with
  | inf o => rfl
  | kin k => exact R.slow v k hv h

/-- the line that belongs to the far side of the fan is the same -/
def KeepsLine : Dir → VView K → VView K → Prop
  | .cw, A, B => A.ur = B.ur
  | .ccw, A, B => A.ul = B.ul

/-- a wavefront edge at the near side of the fan has the line of the new vertex -/
def NewSide : Dir → VView K → VView K → Prop
  | .cw, W, X => SideView X W
  | .ccw, W, X => SideView W X

/-- the triangles around corner `i` of `t` on one side -/
structure FanAt (dir : Dir) (s : St K) (t : TId) (i : Fin 3) (v : VId) (l : List TId) : Prop where
  walk : FanWalk dir v s.tri ((s.tri t).neighbours (dir.fn i)) l
  nodup : l.Nodup
  ne : t ∉ l
  mem : ∀ x ∈ l, Live s x ∧ ∃ k, (s.tri x).vertices k = v ∧ ∃ y, (s.tri x).neighbours (dir.rev.fn k) = some y

/-- the side of the first triangle of the fan that faces `t` -/
theorem first_facing (hC : Consistent (Live s) s) {dir : Dir} {t n : TId} {i : Fin 3} {v : VId} (hl : Live s t)
    (hi : (s.tri t).vertices i = v) (hn : (s.tri t).neighbours (dir.fn i) = some n)
    (huniq : ∀ j, (s.tri t).neighbours j = some n → j = dir.fn i) :
    Live s n ∧ ∃ k, (s.tri n).vertices k = v ∧ (s.tri n).neighbours (dir.rev.fn k) = some t ∧
      (s.tri n).vertices (dir.fn k) = (s.tri t).vertices (dir.rev.fn i) ∧
      ∀ j, (s.tri n).neighbours j = some t → j = dir.rev.fn k := by
  obtain ⟨ln, k, hk, hb⟩ := turn hC dir hl hi hn
  obtain ⟨-, j0, a1, a2, a3⟩ := facing hC ln hb
  obtain rfl := huniq j0 a1
  refine ⟨ln, k, hk, hb, ?_, fun j hj => ?_⟩
  · cases dir with
    | cw =>
      change (s.tri t).vertices (i + 2 + 2) = (s.tri n).vertices (k + 1 + 1) at a3
      change (s.tri n).vertices (k + 2) = (s.tri t).vertices (i + 1)
      rw [fin3_add_2_2, fin3_add_1_1] at a3
      exact a3.symm
    | ccw =>
      change (s.tri t).vertices (i + 1 + 1) = (s.tri n).vertices (k + 2 + 2) at a2
      change (s.tri n).vertices (k + 1) = (s.tri t).vertices (i + 2)
      rw [fin3_add_2_2, fin3_add_1_1] at a2
      exact a2.symm
  · obtain ⟨-, j1, b1, b2, -⟩ := facing hC ln hj
    obtain rfl := huniq j1 b1
    have := (hC n ln).2.1 (b2.symm.trans a2)
    exact add_right_cancel this

theorem safe_side (R : Ready P s) {dir : Dir} {t n : TId} {i : Fin 3} {v : VId} {now : K} (hl : Live s t)
    (hi : (s.tri t).vertices i = v) (hn : (s.tri t).neighbours (dir.fn i) = some n)
    (huniq : ∀ j, (s.tri t).neighbours j = some n → j = dir.fn i) {l : List TId} (hA : FanAt dir s t i v l)
    {s1 : St K} (hview : ∀ w, w < s.nV → viewOf s1 w = viewOf s w)
    (hsame : ∀ x ∈ l, (s1.tri x).vertices = (s.tri x).vertices ∧ (s1.tri x).neighbours = (s.tri x).neighbours)
    {w : VId} {kw : KVertex K} (hkw : s1.vert w = .kin kw) (hslow : kw.infFast = false)
    (hkeep : KeepsLine dir (viewOf s1 w) (viewOf s v)) {other : Option TId}
    (hother : other = none → NewSide dir (viewOf s1 w) (viewOf s ((s.tri t).vertices (dir.rev.fn i))))
    (hE : ∀ T : TView K, Followable T → Ambiguous T now →
      (∃ x, Substituted s dir t (dir.fn i) other x v (viewOf s1 w) T) → E .valueError) :
    Safe E (relink n t other) s1 ∧
      ∀ u s2, relink n t other s1 = .ok (u, s2) → Safe E (replaceKvertex n v w now dir) s2 ∧
        FanWalk dir v s2.tri (some n) l ∧
        (∀ x ∈ l, ∀ i j, (s2.tri x).vertices i = v → (s2.tri x).vertices j = v → i = j) := by
  have hC := R.mesh.consistent
  obtain ⟨ln, k0, hk0, hb, hX, hu⟩ := first_facing hC hl hi hn huniq
  have hw := hA.walk
  rw [hn] at hw
  have hmem : n ∈ l := by
    cases hw with
    | step _ _ => exact List.mem_cons_self
  have hN := (hsame n hmem).2
  refine ⟨safe_bind (safe_getT n) fun N s2 h2 => ?_, fun u s2 h2 => ?_⟩
  · obtain ⟨-, rfl, rfl⟩ := getT_run_ok.1 h2
    refine safe_bind (safe_needIdx ?_) fun j s2 _ => safe_setNeighbour _ _ _
    cases h : index3 (s1.tri n).neighbours (some t) with
    | none => exact absurd (by rw [hN]; exact hb) (index3_none h (dir.rev.fn k0))
    | some j => exact ⟨j, rfl⟩
  obtain ⟨j, hj, rfl⟩ := relink_run h2
  rw [hN] at hj
  obtain rfl := hu j hj
  have hV : ∀ x ∈ l, (Function.update s1.tri n { s1.tri n with
      neighbours := (Function.update (s1.tri n).neighbours (dir.rev.fn k0) other) } x).vertices = (s.tri x).vertices := by
    intro x hx
    by_cases q : x = n
    · subst q; rw [Function.update_self]; exact (hsame x hx).1
    · rw [Function.update_of_ne q]; exact (hsame x hx).1
  have hNb : ∀ x ∈ l, ∀ i, (s.tri x).neighbours i ≠ some t ∨ x ≠ n → (Function.update s1.tri n { s1.tri n with
      neighbours := (Function.update (s1.tri n).neighbours (dir.rev.fn k0) other) } x).neighbours i =
        (s.tri x).neighbours i := by
    intro x hx i q
    by_cases q' : x = n
    · subst q'
      rw [Function.update_self]
      dsimp only
      rw [Function.update_of_ne, (hsame x hx).2]
      rintro rfl
      rcases q with q | q
      · exact q hb
      · exact q rfl
    · rw [Function.update_of_ne q', (hsame x hx).2]
  have hcorner : ∀ x ∈ l, ∀ i j, (s.tri x).vertices i = v → (s.tri x).vertices j = v → i = j := fun x hx i j q1 q2 =>
    (hC x (hA.mem x hx).1).2.1 (q1.trans q2.symm)
  have hnewV : (viewOf s1 w).kinetic = true ∧ (viewOf s1 w).infFast = false := by
    unfold viewOf
    rw [hkw]
    exact ⟨rfl, hslow⟩
  have hF : ∀ x ∈ l, Followable (viewSub { s1 with tri := (Function.update s1.tri n { s1.tri n with
      neighbours := (Function.update (s1.tri n).neighbours (dir.rev.fn k0) other) }) } v w x) := by
    intro x hx
    obtain ⟨lx, k, hk, y, hy⟩ := hA.mem x hx
    have hbnd := R.mesh.vertices x lx.1
    have hn' : ∀ i, (Function.update s1.tri n { s1.tri n with
        neighbours := (Function.update (s1.tri n).neighbours (dir.rev.fn k0) other) } x).neighbours i = none →
        (s.tri x).neighbours i = none ∨ x = n ∧ i = dir.rev.fn k ∧ other = none := by
      intro i h
      by_cases q : x = n
      · subst q
        obtain rfl := hcorner x hx k k0 hk hk0
        by_cases q' : i = dir.rev.fn k
        · subst q'
          rw [Function.update_self] at h
          dsimp only at h
          rw [Function.update_self] at h
          exact .inr ⟨rfl, rfl, h⟩
        · rw [hNb x hx i (.inl fun z => q' (hu i z))] at h
          exact .inl h
      · rw [hNb x hx i (.inr q)] at h
        exact .inl h
    cases dir with
    | cw =>
      refine follow_cw (s := s) hk (hC x lx).2.1 (hV x hx) (fun i _ => hview _ (hbnd i))
        (fun i => R.slowView (hbnd i)) (fun i q => R.side lx q) ⟨hnewV.1, hnewV.2, hkeep⟩ (by
          change (s.tri x).neighbours (k + 1) = some y at hy
          rw [hy]; nofun) fun i q => ?_
      rcases hn' i q with q | ⟨rfl, q1, q2⟩
      · exact .inl q
      · obtain rfl := hcorner x hx k k0 hk hk0
        refine .inr ⟨q1, ?_⟩
        have := hother q2
        rw [← hX] at this
        exact this
    | ccw =>
      refine follow_ccw (s := s) hk (hC x lx).2.1 (hV x hx) (fun i _ => hview _ (hbnd i))
        (fun i => R.slowView (hbnd i)) (fun i q => R.side lx q) ⟨hnewV.1, hnewV.2, hkeep⟩ (by
          change (s.tri x).neighbours (k + 2) = some y at hy
          rw [hy]; nofun) fun i q => ?_
      rcases hn' i q with q | ⟨rfl, q1, q2⟩
      · exact .inl q
      · obtain rfl := hcorner x hx k k0 hk hk0
        refine .inr ⟨q1, ?_⟩
        have := hother q2
        rw [← hX] at this
        exact this
  have walk' : FanWalk dir v (Function.update s1.tri n { s1.tri n with
      neighbours := (Function.update (s1.tri n).neighbours (dir.rev.fn k0) other) }) (some n) l := by
    refine FanWalk.transfer hw fun x hx i hi => ⟨by rw [hV x hx]; exact hi, hNb x hx _ ?_⟩
    by_cases q : x = n
    · subst q
      left
      intro z
      have z1 := hu _ z
      obtain rfl := hcorner x hx i k0 hi hk0
      cases dir
      · exact fin3_1_ne_2 i z1.symm
      · exact fin3_1_ne_2 i z1
    · exact .inr q
  have corner' : ∀ x ∈ l, ∀ i j, (Function.update s1.tri n { s1.tri n with
      neighbours := (Function.update (s1.tri n).neighbours (dir.rev.fn k0) other) } x).vertices i = v →
      (Function.update s1.tri n { s1.tri n with
        neighbours := (Function.update (s1.tri n).neighbours (dir.rev.fn k0) other) } x).vertices j = v → i = j := by
    intro x hx i j hi hj
    rw [hV x hx] at hi hj
    exact hcorner x hx i j hi hj
  refine ⟨safe_replaceKvertex (l := l) walk' hA.nodup corner' ⟨kw, hkw⟩ hF
    fun x hx hamb => hE _ (hF x hx) hamb ⟨x, ?_⟩, walk', corner'⟩
  · obtain ⟨lx, k, hk, -⟩ := hA.mem x hx
    have hbnd := R.mesh.vertices x lx.1
    refine ⟨⟨l, hA.walk, hx⟩, lx, fun q => hA.ne (q ▸ hx), ⟨k, hk⟩, fun i => ?_, fun i => ?_⟩
    · unfold viewSub substitute
      dsimp only
      rw [hV x hx]
      split
      · rfl
      · exact hview _ (hbnd i)
    · unfold viewSub
      dsimp only
      rw [hn]
      by_cases q : x = n ∧ (s.tri x).neighbours i = some t
      · obtain ⟨rfl, q⟩ := q
        rw [if_pos ⟨rfl, q⟩]
        obtain rfl := hu i q
        rw [Function.update_self]
        dsimp only
        rw [Function.update_self]
      · rw [if_neg fun z => q ⟨(Option.some.inj z.1).symm, z.2⟩, hNb x hx i]
        by_cases z : x = n
        · exact .inl fun y => q ⟨z, y⟩
        · exact .inr z

/-- the last triangle of a fan -/
theorem FanWalk.getLast {dir : Dir} {v : VId} {tri : TId → KTri K} {ot : Option TId} {l : List TId}
    (h : FanWalk dir v tri ot l) : ∀ {x}, l.getLast? = some x → ∃ k, (tri x).vertices k = v ∧
      (tri x).neighbours (dir.fn k) = none := by
  induction h with
  | stop => intro x hx; cases hx
  | @step t i l hi hw ih =>
    intro x hx
    cases l with
    | nil =>
      obtain rfl : t = x := by injection hx
      refine ⟨i, hi, ?_⟩
      generalize (tri t).neighbours (dir.fn i) = o at hw
      cases hw
      rfl
    | cons y l =>
      rw [List.getLast?_cons_cons] at hx
      exact ih hx

theorem safe_scheduleTiny {fan : List TId} {kv : VId} {dir : Dir} {now : K}
    (h : ∀ x, fan.getLast? = some x → ∃ k, (s.tri x).vertices k = kv ∧ (∀ j, (s.tri x).vertices j = kv → j = k) ∧
      ∃ ka kb, s.vert ((s.tri x).vertices (dir.fn k + 1)) = .kin ka ∧ s.vert ((s.tri x).vertices (dir.fn k + 2)) = .kin kb ∧
        ka.infFast = false ∧ kb.infFast = false ∧ 1 / 10 ^ 10 < HasSqrt.sqrt
          (((pointAt ka now).1 - (pointAt kb now).1) * ((pointAt ka now).1 - (pointAt kb now).1) +
            ((pointAt ka now).2 - (pointAt kb now).2) * ((pointAt ka now).2 - (pointAt kb now).2))) :
    Safe E (scheduleTiny fan kv dir now) s ∧ ∀ u s', scheduleTiny fan kv dir now s = .ok (u, s') → s' = s := by
  unfold scheduleTiny
  cases hf : fan.getLast? with
  | none => exact ⟨safe_pure _, fun u s' h => (pure_run_ok.1 h).2.symm⟩
  | some x =>
    obtain ⟨k, hk, hku, ka, kb, h1, h2, h3, h4, h5⟩ := h x hf
    have hidx : index3 (s.tri x).vertices kv = some k := by
      cases q : index3 (s.tri x).vertices kv with
      | none => exact absurd hk (index3_none q k)
      | some j => rw [hku j (index3_some q)]
    have hnz : ∀ d : K, 1 / 10 ^ 10 < d → ¬ nearZero d = true := by
      intro d hd q
      rw [nearZero_iff] at q
      exact absurd (lt_of_lt_of_le hd (le_abs_self d)) (not_lt.2 q)
    have pos : ∀ {v : VId} {kk : KVertex K} {p : Pt K} {s' : St K}, s.vert v = .kin kk → kk.infFast = false →
        positionAt v now s = .ok (p, s') → p = pointAt kk now ∧ s' = s := by
      intro v kk p s' hv hs hp
      obtain ⟨-, hp', rfl⟩ := positionAt_run_ok.1 hp
      rw [hv] at hp'
      unfold Vertex.positionAt at hp'
      dsimp only at hp'
      rw [if_pos hs] at hp'
      cases hp'
      exact ⟨rfl, rfl⟩
    constructor
    · refine safe_bind (safe_bind (safe_getT x) fun T s2 h2 => ?_) fun j s2 g1 => ?_
      · obtain ⟨-, rfl, rfl⟩ := getT_run_ok.1 h2
        exact safe_needIdx ⟨k, hidx⟩
      · unfold vertexIndex at g1
        obtain ⟨T, s3, g2, g1⟩ := bind_run_ok.1 g1
        obtain ⟨-, rfl, rfl⟩ := getT_run_ok.1 g2
        obtain ⟨g1, rfl⟩ := needIdx_run_ok.1 g1
        rw [hidx] at g1
        cases g1
        refine safe_bind (safe_getT x) fun T s2 g2 => ?_
        obtain ⟨-, rfl, rfl⟩ := getT_run_ok.1 g2
        refine safe_bind (safe_positionAt fun z hz => ?_) fun p s2 g2 => ?_
        · rw [show ccw (dir.fn k) = dir.fn k + 1 from rfl, h1] at hz
          cases hz
          exact h3
        obtain ⟨rfl, rfl⟩ := pos h1 h3 g2
        refine safe_bind (safe_positionAt fun z hz => ?_) fun p s2 g2 => ?_
        · rw [show cw (dir.fn k) = dir.fn k + 2 from rfl, h2] at hz
          cases hz
          exact h4
        obtain ⟨rfl, rfl⟩ := pos h2 h4 g2
        refine safe_bind (safe_lift fun e he => ?_) fun d s2 g3 => ?_
        · unfold psqrt at he
          rw [if_neg (not_lt.2 (add_nonneg (mul_self_nonneg _) (mul_self_nonneg _)))] at he
          cases he
        · obtain ⟨g3, rfl⟩ := lift_run_ok.1 g3
          unfold psqrt at g3
          rw [if_neg (not_lt.2 (add_nonneg (mul_self_nonneg _) (mul_self_nonneg _)))] at g3
          cases g3
          rw [if_neg (hnz _ h5)]
          exact safe_pure _
    · intro u s' g
      dsimp only at g
      obtain ⟨j, s2, g1, g⟩ := bind_run_ok.1 g
      unfold vertexIndex at g1
      obtain ⟨T, s3, g2, g1⟩ := bind_run_ok.1 g1
      obtain ⟨-, rfl, rfl⟩ := getT_run_ok.1 g2
      obtain ⟨g1, rfl⟩ := needIdx_run_ok.1 g1
      rw [hidx] at g1
      cases g1
      obtain ⟨T, s2, g2, g⟩ := bind_run_ok.1 g
      obtain ⟨-, rfl, rfl⟩ := getT_run_ok.1 g2
      obtain ⟨p, s2, g2, g⟩ := bind_run_ok.1 g
      obtain ⟨rfl, rfl⟩ := pos h1 h3 g2
      obtain ⟨q, s3, g3, g'⟩ := bind_run_ok.1 g
      obtain ⟨rfl, rfl⟩ := pos h2 h4 g3
      obtain ⟨d, s2, g4, g5⟩ := bind_run_ok.1 g'
      obtain ⟨g3, rfl⟩ := lift_run_ok.1 g4
      unfold psqrt at g3
      rw [if_neg (not_lt.2 (add_nonneg (mul_self_nonneg _) (mul_self_nonneg _)))] at g3
      cases g3
      rw [if_neg (hnz _ h5)] at g5
      exact (pure_run_ok.1 g5).2.symm

end Grassfire
