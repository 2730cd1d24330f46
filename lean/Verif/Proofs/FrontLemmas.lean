/-
The wavefront links and the triangulation (lemmas for C69): what an edge event does.
-/
import Verif.Proofs.MeshLemmas

set_option linter.unusedSectionVars false

namespace Grassfire

open Spec

/-- How the triangles around a vertex lie between two wavefront sides: `whole` - from the side that ends at the vertex
to the side that starts there; `endDead` - the side that starts there is one between two stopped vertices; `startDead` -
the side that ends there is. -/
inductive Kind where
  | whole
  | endDead
  | startDead
  deriving DecidableEq

variable {K : Type}

/-- The triangles `P`, the kinetic and the running vertices and the links between vertices fit together; `c` and `r`
tell for each corner how its fan ends and in which order the triangles of the fan come. -/
structure Front (tri : TId → KTri K) (P : TId → Prop) (kin run : VId → Prop) (pts : VId → VId → Prop)
    (c : TId → Fin 3 → Kind) (r : TId → Fin 3 → ℕ) : Prop where
  gap : ∀ t, P t → ∀ i, (tri t).neighbours i = none → kin ((tri t).vertices (i + 1)) ∧ kin ((tri t).vertices (i + 2)) ∧
    (c t (i + 1) ≠ .endDead ∧ c t (i + 2) ≠ .startDead ∧ pts ((tri t).vertices (i + 1)) ((tri t).vertices (i + 2)) ∨
      c t (i + 1) = .endDead ∧ c t (i + 2) = .startDead)
  next : ∀ t, P t → ∀ i n j, (tri t).neighbours (i + 2) = some n → (tri n).vertices j = (tri t).vertices i →
    kin ((tri t).vertices i) → c n j = c t i ∧ r n j < r t i
  kind : ∀ t, P t → ∀ i, kin ((tri t).vertices i) → (c t i = .whole ↔ run ((tri t).vertices i))
  unique : ∀ t u, P t → P u → ∀ i j, (tri t).neighbours i = none → (tri u).neighbours j = none →
    c t (i + 1) ≠ .endDead → c u (j + 1) ≠ .endDead → (tri t).vertices (i + 1) = (tri u).vertices (j + 1) →
    (tri t).vertices (i + 2) = (tri u).vertices (j + 2) → t = u

section

variable [Field K] [LinearOrder K] {P : TId → Prop} {s : St K} {kin run : VId → Prop} {pts : VId → VId → Prop}
  {c : TId → Fin 3 → Kind} {r : TId → Fin 3 → ℕ}

/-- from a triangle to the next one around a vertex -/
theorem Front.turn (F : Front s.tri P kin run pts c r) (hC : Consistent P s) {dir : Dir} {x y : TId} {v : VId}
    {i : Fin 3} (px : P x) (hk : kin v) (hi : (s.tri x).vertices i = v)
    (hn : (s.tri x).neighbours (dir.fn i) = some y) : P y ∧ ∃ j, (s.tri y).vertices j = v ∧ c y j = c x i ∧
      (s.tri y).neighbours (dir.rev.fn j) = some x := by
  obtain ⟨py, j, hj, hb⟩ := Grassfire.turn hC dir px hi hn
  refine ⟨py, j, hj, ?_, hb⟩
  cases dir with
  | cw => exact (F.next x px i y j hn (hj.trans hi.symm) (hi ▸ hk)).1
  | ccw => exact (F.next y py j x i hb (hi.trans hj.symm) (hj ▸ hk)).1.symm

/-- a walk around a vertex -/
theorem Front.walk (F : Front s.tri P kin run pts c r) (hC : Consistent P s) {dir : Dir} {v : VId} {ot : Option TId}
    {l : List TId} (hw : FanWalk dir v s.tri ot l) (hk : kin v) : ∀ {t : TId} {j : Fin 3}, P t →
      (s.tri t).vertices j = v → (s.tri t).neighbours (dir.fn j) = ot →
      (∀ x ∈ l, P x ∧ ∃ k, (s.tri x).vertices k = v ∧ c x k = c t j ∧ ∃ y, (s.tri x).neighbours (dir.rev.fn k) = some y) ∧
      ∃ x k, (x = t ∨ x ∈ l) ∧ P x ∧ (s.tri x).vertices k = v ∧ c x k = c t j ∧
        (s.tri x).neighbours (dir.fn k) = none := by
  induction hw with
  | stop => intro t j pt hj hn; exact ⟨nofun, t, j, .inl rfl, pt, hj, rfl, hn⟩
  | @step y i l hi hw ih =>
    intro t j pt hj hn
    obtain ⟨py, k, hk', hc, hb⟩ := F.turn hC pt hk hj hn
    obtain rfl := (hC y py).2.1 (hk'.trans hi.symm)
    obtain ⟨h1, x, m, h2, h3, h4, h5, h6⟩ := ih py hi rfl
    refine ⟨fun z hz => ?_, x, m, .inr ?_, h3, h4, h5.trans hc, h6⟩
    · rcases List.mem_cons.1 hz with rfl | hz
      · exact ⟨py, k, hi, hc, t, hb⟩
      · obtain ⟨q1, k', q2, q3, q4⟩ := h1 z hz
        exact ⟨q1, k', q2, q3.trans hc, q4⟩
    · rcases h2 with rfl | h2
      · exact List.mem_cons_self
      · exact List.mem_cons_of_mem _ h2

/-- the wavefront side that ends at a vertex -/
theorem Front.start (F : Front s.tri P kin run pts c r) {x : TId} {k : Fin 3} (px : P x)
    (hn : (s.tri x).neighbours (k + 1) = none) (hc : c x k ≠ .startDead) :
    c x (k + 2) ≠ .endDead ∧ pts ((s.tri x).vertices (k + 2)) ((s.tri x).vertices k) := by
  have := (F.gap x px (k + 1) hn).2.2
  rw [fin3_add_1_1, fin3_add_1_2] at this
  rcases this with h | h
  · exact ⟨h.1, h.2.2⟩
  · exact absurd h.2 hc

/-- the wavefront side that starts at a vertex -/
theorem Front.stop (F : Front s.tri P kin run pts c r) {x : TId} {k : Fin 3} (px : P x)
    (hn : (s.tri x).neighbours (k + 2) = none) (hc : c x k ≠ .endDead) :
    c x (k + 1) ≠ .startDead ∧ pts ((s.tri x).vertices k) ((s.tri x).vertices (k + 1)) := by
  have := (F.gap x px (k + 2) hn).2.2
  rw [fin3_add_2_1, fin3_add_2_2] at this
  rcases this with h | h
  · exact ⟨h.2.1, h.2.2⟩
  · exact absurd h.1 hc

theorem le_sum3 (f : Fin 3 → ℕ) (j : Fin 3) : f j ≤ f 0 + f 1 + f 2 := by
  match j with
  | 0 => omega
  | 1 => omega
  | 2 => omega

/-- the links after an edge event -/
structure EdgeLinks (kin run kin' run' : VId → Prop) (pts pts' : VId → VId → Prop) (v1 v2 kv : VId) : Prop where
  kin : ∀ w, w ≠ kv → (kin' w ↔ kin w)
  kinNew : kin' kv
  run : ∀ w, w ≠ kv → (run' w ↔ run w ∧ w ≠ v1 ∧ w ≠ v2)
  runNew : run' kv
  start : ∀ a, pts a v1 → pts' a kv
  stop : ∀ b, pts v2 b → pts' kv b
  keep : ∀ a b, pts a b → ¬ pts a v1 → ¬ pts v2 b → pts' a b

theorem front_edge (hC : Consistent P s) (F : Front s.tri P kin run pts c r)
    (hR : ∀ a b b', pts a b → pts a b' → b = b') (hL : ∀ a a' b, pts a b → pts a' b → a = a')
    {s' : St K} {t : TId} {e : Fin 3} {v1 v2 kv : VId} {fanA fanB : List TId} {kin' run' : VId → Prop}
    {pts' : VId → VId → Prop} (pt : P t) (hv1 : (s.tri t).vertices (e + 1) = v1)
    (hv2 : (s.tri t).vertices (e + 2) = v2) (hfresh : ∀ x, P x → ∀ i, (s.tri x).vertices i ≠ kv)
    (hd : ∀ x ∈ fanA, x ∉ fanB) (cA : ClosedFan P s t v2 fanA) (cB : ClosedFan P s t v1 fanB)
    (D : EdgeDone P s s' t e v1 v2 kv fanA fanB) (L : EdgeLinks kin run kin' run' pts pts' v1 v2 kv)
    (k1 : kin v1) (k2 : kin v2)
    (hcond : run v1 ∧ run v2 ∨ (s.tri t).neighbours e = none ∧ ¬ run v1 ∧ ¬ run v2 ∧ ¬ pts v1 v2) :
    ∃ c' r', Front s'.tri (fun x => P x ∧ x ≠ t) kin' run' pts' c' r' ∧
      ∀ x i, P x → x ≠ t → (s'.tri x).neighbours i = none → c' x (i + 1) = .endDead →
        ((s.tri x).neighbours i = none ∧ c x (i + 1) = .endDead ∧
          (s'.tri x).vertices (i + 1) = (s.tri x).vertices (i + 1) ∧
          (s'.tri x).vertices (i + 2) = (s.tri x).vertices (i + 2)) ∨
        ((s.tri t).neighbours e = some x ∧ (s'.tri x).vertices (i + 1) = v2 ∧ (s'.tri x).vertices (i + 2) = v1) := by
  classical
  have hinj := (hC t pt).2.1
  have v12 : v1 ≠ v2 := by rw [← hv1, ← hv2]; exact fun h => fin3_1_ne_2 e (hinj h)
  have v01 : (s.tri t).vertices e ≠ v1 := by rw [← hv1]; exact fun h => fin3_ne_1 e (hinj h)
  have v02 : (s.tri t).vertices e ≠ v2 := by rw [← hv2]; exact fun h => fin3_ne_2 e (hinj h)
  -- the fans of the two vertices
  have hc1 : c t (e + 1) ≠ .startDead ∧ (run v1 ∨ c t (e + 1) = .endDead) := by
    rcases hcond with ⟨h, -⟩ | ⟨h, -, -, h3⟩
    · exact ⟨by rw [(F.kind t pt (e + 1) (by rw [hv1]; exact k1)).2 (by rw [hv1]; exact h)]; nofun, .inl h⟩
    · rcases (F.gap t pt e h).2.2 with q | q
      · exact absurd (by rw [← hv1, ← hv2]; exact q.2.2) h3
      · exact ⟨by rw [q.1]; nofun, .inr q.1⟩
  have hc2 : c t (e + 2) ≠ .endDead ∧ (run v2 ∨ c t (e + 2) = .startDead) := by
    rcases hcond with ⟨-, h⟩ | ⟨h, -, -, h3⟩
    · exact ⟨by rw [(F.kind t pt (e + 2) (by rw [hv2]; exact k2)).2 (by rw [hv2]; exact h)]; nofun, .inl h⟩
    · rcases (F.gap t pt e h).2.2 with q | q
      · exact absurd (by rw [← hv1, ← hv2]; exact q.2.2) h3
      · exact ⟨by rw [q.2]; nofun, .inr q.2⟩
  obtain ⟨wB, xB, kB, xB1, xB2, xB3, xB4, xB5⟩ := F.walk hC D.walkB k1 (j := e + 1) pt hv1 (by
    show (s.tri t).neighbours (e + 1 + 1) = _; rw [fin3_add_1_1])
  obtain ⟨wA, xA, kA, xA1, xA2, xA3, xA4, xA5⟩ := F.walk hC D.walkA k2 (j := e + 2) pt hv2 (by
    show (s.tri t).neighbours (e + 2 + 2) = _; rw [fin3_add_2_2])
  change (s.tri xB).neighbours (kB + 1) = none at xB5
  change (s.tri xA).neighbours (kA + 2) = none at xA5
  obtain ⟨xB6, xB7⟩ := F.start xB2 xB5 (by rw [xB4]; exact hc1.1)
  obtain ⟨xA6, xA7⟩ := F.stop xA2 xA5 (by rw [xA4]; exact hc2.1)
  rw [xB3] at xB7
  rw [xA3] at xA7
  have memB : ∀ x, (s.tri t).neighbours (e + 2) = some x → x ∈ fanB := by
    intro x hx
    have := D.walkB
    rw [hx] at this
    cases this with
    | step _ _ => exact List.mem_cons_self
  have memA : ∀ x, (s.tri t).neighbours (e + 1) = some x → x ∈ fanA := by
    intro x hx
    have := D.walkA
    rw [hx] at this
    cases this with
    | step _ _ => exact List.mem_cons_self
  -- the corners afterwards
  have vA : ∀ x ∈ fanA, ∀ j, ((s.tri x).vertices j = v2 ∧ (s'.tri x).vertices j = kv) ∨
      ((s.tri x).vertices j ≠ v2 ∧ (s.tri x).vertices j ≠ v1 ∧ (s'.tri x).vertices j = (s.tri x).vertices j) := by
    intro x hx j
    rw [D.vertices x, if_pos hx]
    unfold substitute
    by_cases h : (s.tri x).vertices j = v2
    · exact .inl ⟨h, if_pos h⟩
    · exact .inr ⟨h, D.otherA x hx j, if_neg h⟩
  have vB : ∀ x ∈ fanB, ∀ j, ((s.tri x).vertices j = v1 ∧ (s'.tri x).vertices j = kv) ∨
      ((s.tri x).vertices j ≠ v1 ∧ (s.tri x).vertices j ≠ v2 ∧ (s'.tri x).vertices j = (s.tri x).vertices j) := by
    intro x hx j
    rw [D.vertices x, if_neg (fun h => hd x h hx), if_pos hx]
    unfold substitute
    by_cases h : (s.tri x).vertices j = v1
    · exact .inl ⟨h, if_pos h⟩
    · exact .inr ⟨h, D.otherB x hx j, if_neg h⟩
  have vO : ∀ x, x ∉ fanA → x ∉ fanB → (s'.tri x).vertices = (s.tri x).vertices := by
    intro x h1 h2
    rw [D.vertices x, if_neg h1, if_neg h2]
  have newK : ∀ x j, P x → (s'.tri x).vertices j = kv →
      x ∈ fanA ∧ (s.tri x).vertices j = v2 ∨ x ∈ fanB ∧ x ∉ fanA ∧ (s.tri x).vertices j = v1 := by
    intro x j px h
    by_cases h1 : x ∈ fanA
    · rcases vA x h1 j with q | q
      · exact .inl ⟨h1, q.1⟩
      · exact absurd (q.2.2.symm.trans h) (hfresh x px j)
    · by_cases h2 : x ∈ fanB
      · rcases vB x h2 j with q | q
        · exact .inr ⟨h2, h1, q.1⟩
        · exact absurd (q.2.2.symm.trans h) (hfresh x px j)
      · rw [vO x h1 h2] at h
        exact absurd h (hfresh x px j)
  have oldK : ∀ x j, P x → (s'.tri x).vertices j ≠ kv → (s'.tri x).vertices j = (s.tri x).vertices j := by
    intro x j px h
    by_cases h1 : x ∈ fanA
    · rcases vA x h1 j with q | q
      · exact absurd q.2 h
      · exact q.2.2
    · by_cases h2 : x ∈ fanB
      · rcases vB x h2 j with q | q
        · exact absurd q.2 h
        · exact q.2.2
      · rw [vO x h1 h2]
  let M : ℕ := match (s.tri t).neighbours (e + 1) with
    | none => 0
    | some a => r a 0 + r a 1 + r a 2
  have hM : ∀ a, (s.tri t).neighbours (e + 1) = some a → ∀ j, r a j ≤ M := by
    intro a ha j
    show _ ≤ (match (s.tri t).neighbours (e + 1) with
      | none => 0
      | some a => r a 0 + r a 1 + r a 2)
    rw [ha]
    dsimp only
    exact le_sum3 (r a) j
  let c' : TId → Fin 3 → Kind := fun x i =>
    if (s'.tri x).vertices i = kv then .whole
    else if run v1 ∧ (s'.tri x).vertices i = v1 then .startDead
    else if run v2 ∧ (s'.tri x).vertices i = v2 then .endDead
    else c x i
  let r' : TId → Fin 3 → ℕ := fun x i => if x ∈ fanB ∧ (s'.tri x).vertices i = kv then r x i + (M + 1) else r x i
  have c'K : ∀ x i, (s'.tri x).vertices i = kv → c' x i = .whole := fun x i h => if_pos h
  have c'1 : ∀ x i, (s'.tri x).vertices i ≠ kv → run v1 → (s'.tri x).vertices i = v1 → c' x i = .startDead := by
    intro x i h1 h2 h3
    show (if _ then _ else _) = _
    rw [if_neg h1, if_pos ⟨h2, h3⟩]
  have c'2 : ∀ x i, (s'.tri x).vertices i ≠ kv → run v2 → (s'.tri x).vertices i = v2 → c' x i = .endDead := by
    intro x i h1 h2 h3
    show (if _ then _ else _) = _
    rw [if_neg h1, if_neg (fun q => v12 (q.2.symm.trans h3)), if_pos ⟨h2, h3⟩]
  have c'O : ∀ x i, (s'.tri x).vertices i ≠ kv → ¬ (run v1 ∧ (s'.tri x).vertices i = v1) →
      ¬ (run v2 ∧ (s'.tri x).vertices i = v2) → c' x i = c x i := by
    intro x i h1 h2 h3
    show (if _ then _ else _) = _
    rw [if_neg h1, if_neg h2, if_neg h3]
  -- where a wavefront side comes from
  have origin : ∀ x i, P x → x ≠ t → (s'.tri x).neighbours i = none →
      kin' ((s'.tri x).vertices (i + 1)) ∧ kin' ((s'.tri x).vertices (i + 2)) ∧
      ((c' x (i + 1) = .endDead ∧ c' x (i + 2) = .startDead ∧
        (((s.tri x).neighbours i = none ∧ c x (i + 1) = .endDead ∧
          (s'.tri x).vertices (i + 1) = (s.tri x).vertices (i + 1) ∧
          (s'.tri x).vertices (i + 2) = (s.tri x).vertices (i + 2)) ∨
        ((s.tri t).neighbours e = some x ∧ (s'.tri x).vertices (i + 1) = v2 ∧ (s'.tri x).vertices (i + 2) = v1))) ∨
      c' x (i + 1) ≠ .endDead ∧ c' x (i + 2) ≠ .startDead ∧
      ∃ y k, P y ∧ (s.tri y).neighbours k = none ∧ c y (k + 1) ≠ .endDead ∧
        pts ((s.tri y).vertices (k + 1)) ((s.tri y).vertices (k + 2)) ∧
        (y = x ∨ y = t ∧ k = e + 2 ∧ (s.tri t).neighbours (e + 1) = some x ∨
          y = t ∧ k = e + 1 ∧ (s.tri t).neighbours (e + 2) = some x) ∧
        ((s'.tri x).vertices (i + 2) = kv ∧ (s.tri y).vertices (k + 2) = v1 ∧
            (s'.tri x).vertices (i + 1) = (s.tri y).vertices (k + 1) ∨
          (s'.tri x).vertices (i + 1) = kv ∧ (s.tri y).vertices (k + 1) = v2 ∧
            (s'.tri x).vertices (i + 2) = (s.tri y).vertices (k + 2) ∨
          (s'.tri x).vertices (i + 1) = (s.tri y).vertices (k + 1) ∧
            (s'.tri x).vertices (i + 2) = (s.tri y).vertices (k + 2) ∧
            ¬ pts ((s.tri y).vertices (k + 1)) v1 ∧ ¬ pts v2 ((s.tri y).vertices (k + 2)))) := by
    intro x i px hxt hi
    have kq : ∀ w, kin w → (∃ y, P y ∧ ∃ j, (s.tri y).vertices j = w) → kin' w := by
      rintro w hw ⟨y, py, j, hj⟩
      exact (L.kin w (by rw [← hj]; exact hfresh y py j)).2 hw
    by_cases ho : (s.tri x).neighbours i = some t
    · obtain ⟨-, j, j1, j2, j3⟩ := facing hC px ho
      rcases fin3_cases e j with rfl | rfl | rfl
      · -- the neighbour over the side that vanishes
        obtain ⟨nA, nB, -⟩ := D.gapE x i j1 ho
        have hr : run v1 ∧ run v2 := by
          rcases hcond with q | q
          · exact q
          · rw [q.1] at j1; cases j1
        rw [vO x nA nB]
        have w1 : (s.tri x).vertices (i + 1) = v2 := j3.symm.trans hv2
        have w2 : (s.tri x).vertices (i + 2) = v1 := j2.symm.trans hv1
        refine ⟨?_, ?_, .inl ⟨c'2 x _ ?_ hr.2 ?_, c'1 x _ ?_ hr.1 ?_, .inr ⟨j1, w1, w2⟩⟩⟩
        · rw [w1]; exact kq v2 k2 ⟨t, pt, _, hv2⟩
        · rw [w2]; exact kq v1 k1 ⟨t, pt, _, hv1⟩
        all_goals rw [vO x nA nB]
        · exact hfresh x px _
        · exact w1
        · exact hfresh x px _
        · exact w2
      · -- the neighbour at the end
        obtain ⟨hxA, hnx⟩ := D.gapA x i j1 ho
        rw [hnx] at hi
        rw [fin3_add_1_1] at j2
        rw [fin3_add_1_2] at j3
        have w2 : (s'.tri x).vertices (i + 2) = kv := by
          rcases vA x hxA (i + 2) with q | q
          · exact q.2
          · exact absurd (j2.symm.trans hv2) q.1
        have w1 : (s'.tri x).vertices (i + 1) = (s.tri t).vertices e := by
          rcases vA x hxA (i + 1) with q | q
          · exact absurd (j3.trans q.1) v02
          · exact q.2.2.trans j3.symm
        have hg := F.gap t pt (e + 2) hi
        rw [fin3_add_2_1, fin3_add_2_2] at hg
        obtain ⟨g1, g2, g3⟩ := hg
        have g4 : c t e ≠ .endDead ∧ pts ((s.tri t).vertices e) ((s.tri t).vertices (e + 1)) := by
          rcases g3 with q | q
          · exact ⟨q.1, q.2.2⟩
          · exact absurd q.2 hc1.1
        have hcx := (F.next x px (i + 1) t e (by rw [fin3_add_1_2]; exact ho) j3 (j3 ▸ g1)).1
        have hne : (s'.tri x).vertices (i + 1) ≠ kv := by rw [w1]; exact hfresh t pt e
        refine ⟨by rw [w1]; exact kq _ g1 ⟨t, pt, e, rfl⟩, by rw [w2]; exact L.kinNew, .inr ⟨?_, ?_, t, e + 2, pt, hi, ?_,
          ?_, .inr (.inl ⟨rfl, rfl, j1⟩), .inl ⟨w2, ?_, ?_⟩⟩⟩
        · rw [c'O x _ hne (by rw [w1]; exact fun q => v01 q.2) (by rw [w1]; exact fun q => v02 q.2), ← hcx]
          exact g4.1
        · rw [c'K x _ w2]; nofun
        · rw [fin3_add_2_1]; exact g4.1
        · rw [fin3_add_2_1, fin3_add_2_2]; exact g4.2
        · rw [fin3_add_2_2]; exact hv1
        · rw [fin3_add_2_1]; exact w1
      · -- the neighbour at the start
        obtain ⟨hxB, hnx⟩ := D.gapB x i j1 ho
        rw [hnx] at hi
        rw [fin3_add_2_1] at j2
        rw [fin3_add_2_2] at j3
        have w1 : (s'.tri x).vertices (i + 1) = kv := by
          rcases vB x hxB (i + 1) with q | q
          · exact q.2
          · exact absurd (j3.symm.trans hv1) q.1
        have w2 : (s'.tri x).vertices (i + 2) = (s.tri t).vertices e := by
          rcases vB x hxB (i + 2) with q | q
          · exact absurd (j2.trans q.1) v01
          · exact q.2.2.trans j2.symm
        have hg := F.gap t pt (e + 1) hi
        rw [fin3_add_1_1, fin3_add_1_2] at hg
        obtain ⟨g1, g2, g3⟩ := hg
        have g4 : c t e ≠ .startDead ∧ pts ((s.tri t).vertices (e + 2)) ((s.tri t).vertices e) := by
          rcases g3 with q | q
          · exact ⟨q.2.1, q.2.2⟩
          · exact absurd q.1 hc2.1
        have hcx := (F.next t pt e x (i + 2) j1 j2.symm g2).1
        have hne : (s'.tri x).vertices (i + 2) ≠ kv := by rw [w2]; exact hfresh t pt e
        refine ⟨by rw [w1]; exact L.kinNew, by rw [w2]; exact kq _ g2 ⟨t, pt, e, rfl⟩, .inr ⟨?_, ?_, t, e + 1, pt, hi, ?_,
          ?_, .inr (.inr ⟨rfl, rfl, j1⟩), .inr (.inl ⟨w1, ?_, ?_⟩)⟩⟩
        · rw [c'K x _ w1]; nofun
        · rw [c'O x _ hne (by rw [w2]; exact fun q => v01 q.2) (by rw [w2]; exact fun q => v02 q.2), hcx]
          exact g4.1
        · rw [fin3_add_1_1]; exact hc2.1
        · rw [fin3_add_1_1, fin3_add_1_2]; exact g4.2
        · rw [fin3_add_1_1]; exact hv2
        · rw [fin3_add_1_2]; exact w2
    · rw [D.same x i px hxt ho] at hi
      obtain ⟨g1, g2, g3⟩ := F.gap x px i hi
      by_cases hxA : x ∈ fanA
      · obtain ⟨-, k, hk, hck, y, hy⟩ := wA x hxA
        change (s.tri x).neighbours (k + 1) = some y at hy
        have nb : (s.tri x).vertices (i + 2) ≠ v2 := by
          intro h
          obtain rfl := (hC x px).2.1 (hk.trans h.symm)
          rw [fin3_add_2_1, hi] at hy
          cases hy
        have w2 := (vA x hxA (i + 2)).resolve_left fun q => nb q.1
        have e2 : c' x (i + 2) = c x (i + 2) := c'O x _ (by rw [w2.2.2]; exact hfresh x px _)
          (by rw [w2.2.2]; exact fun q => w2.2.1 q.2) (by rw [w2.2.2]; exact fun q => w2.1 q.2)
        rcases vA x hxA (i + 1) with q | q
        · obtain rfl := (hC x px).2.1 (hk.trans q.1.symm)
          have g4 : c x (i + 2) ≠ .startDead ∧ pts ((s.tri x).vertices (i + 1)) ((s.tri x).vertices (i + 2)) := by
            rcases g3 with z | z
            · exact ⟨z.2.1, z.2.2⟩
            · exact absurd (hck.symm.trans z.1) hc2.1
          refine ⟨by rw [q.2]; exact L.kinNew, by rw [w2.2.2]; exact kq _ g2 ⟨x, px, _, rfl⟩, .inr ⟨?_, ?_, x, i, px, hi,
            ?_, g4.2, .inl rfl, .inr (.inl ⟨q.2, q.1, w2.2.2⟩)⟩⟩
          · rw [c'K x _ q.2]; nofun
          · rw [e2]; exact g4.1
          · rw [hck]; exact hc2.1
        · have e1 : c' x (i + 1) = c x (i + 1) := c'O x _ (by rw [q.2.2]; exact hfresh x px _)
            (by rw [q.2.2]; exact fun z => q.2.1 z.2) (by rw [q.2.2]; exact fun z => q.1 z.2)
          rw [e1, e2, q.2.2, w2.2.2]
          refine ⟨kq _ g1 ⟨x, px, _, rfl⟩, kq _ g2 ⟨x, px, _, rfl⟩, ?_⟩
          rcases g3 with z | z
          · refine .inr ⟨z.1, z.2.1, x, i, px, hi, z.1, z.2.2, .inl rfl, .inr (.inr ⟨rfl, rfl, fun p => ?_, fun p => ?_⟩)⟩
            · exact w2.2.1 (hR _ _ _ z.2.2 p)
            · exact q.1 (hL _ _ _ z.2.2 p)
          · exact .inl ⟨z.1, z.2, .inl ⟨hi, z.1, rfl, rfl⟩⟩
      · by_cases hxB : x ∈ fanB
        · obtain ⟨-, k, hk, hck, y, hy⟩ := wB x hxB
          change (s.tri x).neighbours (k + 2) = some y at hy
          have nb : (s.tri x).vertices (i + 1) ≠ v1 := by
            intro h
            obtain rfl := (hC x px).2.1 (hk.trans h.symm)
            rw [fin3_add_1_2, hi] at hy
            cases hy
          have w1 := (vB x hxB (i + 1)).resolve_left fun q => nb q.1
          have e1 : c' x (i + 1) = c x (i + 1) := c'O x _ (by rw [w1.2.2]; exact hfresh x px _)
            (by rw [w1.2.2]; exact fun q => w1.1 q.2) (by rw [w1.2.2]; exact fun q => w1.2.1 q.2)
          rcases vB x hxB (i + 2) with q | q
          · obtain rfl := (hC x px).2.1 (hk.trans q.1.symm)
            have g4 : c x (i + 1) ≠ .endDead ∧ pts ((s.tri x).vertices (i + 1)) ((s.tri x).vertices (i + 2)) := by
              rcases g3 with z | z
              · exact ⟨z.1, z.2.2⟩
              · exact absurd (hck.symm.trans z.2) hc1.1
            refine ⟨by rw [w1.2.2]; exact kq _ g1 ⟨x, px, _, rfl⟩, by rw [q.2]; exact L.kinNew, .inr ⟨?_, ?_, x, i, px, hi,
              g4.1, g4.2, .inl rfl, .inl ⟨q.2, q.1, w1.2.2⟩⟩⟩
            · rw [e1]; exact g4.1
            · rw [c'K x _ q.2]; nofun
          · have e2 : c' x (i + 2) = c x (i + 2) := c'O x _ (by rw [q.2.2]; exact hfresh x px _)
              (by rw [q.2.2]; exact fun z => q.1 z.2) (by rw [q.2.2]; exact fun z => q.2.1 z.2)
            rw [e1, e2, q.2.2, w1.2.2]
            refine ⟨kq _ g1 ⟨x, px, _, rfl⟩, kq _ g2 ⟨x, px, _, rfl⟩, ?_⟩
            rcases g3 with z | z
            · refine .inr ⟨z.1, z.2.1, x, i, px, hi, z.1, z.2.2, .inl rfl, .inr (.inr ⟨rfl, rfl, fun p => ?_, fun p => ?_⟩)⟩
              · exact q.1 (hR _ _ _ z.2.2 p)
              · exact w1.2.1 (hL _ _ _ z.2.2 p)
            · exact .inl ⟨z.1, z.2, .inl ⟨hi, z.1, rfl, rfl⟩⟩
        · have hVx := vO x hxA hxB
          have n1 : (s'.tri x).vertices (i + 1) ≠ kv := by rw [hVx]; exact hfresh x px _
          have n2 : (s'.tri x).vertices (i + 2) ≠ kv := by rw [hVx]; exact hfresh x px _
          refine ⟨by rw [hVx]; exact kq _ g1 ⟨x, px, _, rfl⟩, by rw [hVx]; exact kq _ g2 ⟨x, px, _, rfl⟩, ?_⟩
          rcases g3 with z | z
          · have pn1 : ¬ pts ((s.tri x).vertices (i + 1)) v1 := by
              intro p
              have q1 := hR _ _ _ z.2.2 p
              have q2 := hL _ _ _ p xB7
              have : x = xB := F.unique x xB px xB2 i (kB + 1) hi xB5 z.1 (by rw [fin3_add_1_1]; exact xB6)
                (by rw [fin3_add_1_1]; exact q2) (by rw [fin3_add_1_2, xB3]; exact q1)
              rcases xB1 with h | h
              · exact hxt (this.trans h)
              · exact hxB (this ▸ h)
            have pn2 : ¬ pts v2 ((s.tri x).vertices (i + 2)) := by
              intro p
              have q1 := hL _ _ _ z.2.2 p
              have q2 := hR _ _ _ p xA7
              have : x = xA := F.unique x xA px xA2 i (kA + 2) hi xA5 z.1 (by rw [fin3_add_2_1, xA4]; exact hc2.1)
                (by rw [fin3_add_2_1, xA3]; exact q1) (by rw [fin3_add_2_2]; exact q2)
              rcases xA1 with h | h
              · exact hxt (this.trans h)
              · exact hxA (this ▸ h)
            refine .inr ⟨?_, ?_, x, i, px, hi, z.1, z.2.2, .inl rfl, .inr (.inr ⟨by rw [hVx], by rw [hVx], pn1, pn2⟩)⟩
            · by_cases a1 : run v1 ∧ (s'.tri x).vertices (i + 1) = v1
              · rw [c'1 x _ n1 a1.1 a1.2]; nofun
              · rw [c'O x _ n1 a1 (fun a => pn2 (by
                  have := a.2; rw [hVx] at this; rw [← this]; exact z.2.2))]
                exact z.1
            · by_cases a1 : run v2 ∧ (s'.tri x).vertices (i + 2) = v2
              · rw [c'2 x _ n2 a1.1 a1.2]; nofun
              · rw [c'O x _ n2 (fun a => pn1 (by
                  have := a.2; rw [hVx] at this; rw [← this]; exact z.2.2)) a1]
                exact z.2.1
          · refine .inl ⟨?_, ?_, .inl ⟨hi, z.1, by rw [hVx], by rw [hVx]⟩⟩
            · have nr : ¬ run ((s.tri x).vertices (i + 1)) := by
                intro h
                have := (F.kind x px _ g1).2 h
                rw [z.1] at this; cases this
              rw [c'O x _ n1 (fun a => nr (by rw [← hVx, a.2]; exact a.1)) (fun a => nr (by rw [← hVx, a.2]; exact a.1))]
              exact z.1
            · have nr : ¬ run ((s.tri x).vertices (i + 2)) := by
                intro h
                have := (F.kind x px _ g2).2 h
                rw [z.2] at this; cases this
              rw [c'O x _ n2 (fun a => nr (by rw [← hVx, a.2]; exact a.1)) (fun a => nr (by rw [← hVx, a.2]; exact a.1))]
              exact z.2
  refine ⟨c', r', ⟨?_, ?_, ?_, ?_⟩, fun x i px hxt hi hc => ?_⟩
  · -- wavefront sides
    rintro x ⟨px, hxt⟩ i hi
    obtain ⟨o1, o2, o3⟩ := origin x i px hxt hi
    refine ⟨o1, o2, ?_⟩
    rcases o3 with q | ⟨q1, q2, y, k, -, -, -, q3, -, q4⟩
    · exact .inr ⟨q.1, q.2.1⟩
    · refine .inl ⟨q1, q2, ?_⟩
      rcases q4 with ⟨a, b, d⟩ | ⟨a, b, d⟩ | ⟨a, b, d1, d2⟩
      · rw [a, d]; rw [b] at q3; exact L.start _ q3
      · rw [a, d]; rw [b] at q3; exact L.stop _ q3
      · rw [a, b]; exact L.keep _ _ q3 d1 d2
  · -- the order of the fans
    rintro x ⟨px, hxt⟩ i n j hn hj hk
    have both : ∀ (hx : (s'.tri x).vertices i ≠ kv) (hcr : P n) (h : c n j = c x i ∧ r n j < r x i),
        c' n j = c' x i ∧ r' n j < r' x i := by
      intro hx pn h
      have hnj : (s'.tri n).vertices j ≠ kv := by rw [hj]; exact hx
      refine ⟨?_, ?_⟩
      · show (if _ then _ else _) = (if _ then _ else _)
        rw [hj, h.1]
      · show (if _ then _ else _) < (if _ then _ else _)
        rw [if_neg (fun q => hnj q.2), if_neg (fun q => hx q.2)]
        exact h.2
    by_cases ho : (s.tri x).neighbours (i + 2) = some t
    · obtain ⟨-, m, m1, m2, m3⟩ := facing hC px ho
      rw [fin3_add_2_2] at m2
      rw [fin3_add_2_1] at m3
      rcases fin3_cases e m with rfl | rfl | rfl
      · rw [(D.gapE x _ m1 ho).2.2] at hn; cases hn
      · rw [(D.gapA x _ m1 ho).2] at hn
        rw [fin3_add_1_2] at m3
        have hne : (s'.tri x).vertices i ≠ kv := by
          intro h
          rcases newK x i px h with q | q
          · exact v02 (m3.trans q.2)
          · exact v01 (m3.trans q.2.2)
        have ex := oldK x i px hne
        have pn := (facing hC pt hn).1
        have en := oldK n j pn (by rw [hj]; exact hne)
        have kx : kin ((s.tri x).vertices i) := by rw [← ex]; exact (L.kin _ hne).1 hk
        have f1 := F.next x px i t e ho m3 kx
        have f2 := F.next t pt e n j hn (by rw [← en, hj, ex, m3]) (by rw [m3]; exact kx)
        exact both hne pn ⟨f2.1.trans f1.1, f2.2.trans f1.2⟩
      · obtain ⟨hxB, hnx⟩ := D.gapB x _ m1 ho
        rw [hnx] at hn
        rw [fin3_add_2_2] at m3
        have hxk : (s'.tri x).vertices i = kv := by
          rcases vB x hxB i with q | q
          · exact q.2
          · exact absurd (m3.symm.trans hv1) q.1
        have hnk : (s'.tri n).vertices j = kv := hj.trans hxk
        have hnA := memA n hn
        refine ⟨by rw [c'K x i hxk, c'K n j hnk], ?_⟩
        show (if _ then _ else _) < (if _ then _ else _)
        rw [if_neg (fun q => hd n hnA q.1), if_pos ⟨hxB, hxk⟩]
        have := hM n hn j
        omega
    · rw [D.same x _ px hxt ho] at hn
      have pn := (facing hC px hn).1
      have hnt : n ≠ t := fun h => ho (h ▸ hn)
      by_cases hxk : (s'.tri x).vertices i = kv
      · have hnk : (s'.tri n).vertices j = kv := hj.trans hxk
        refine ⟨by rw [c'K x i hxk, c'K n j hnk], ?_⟩
        rcases newK x i px hxk with q | q
        · have hnA : n ∈ fanA := ((cA x q.1).2.2.2 i q.2 n (.inr hn)).resolve_left hnt
          have hnv : (s.tri n).vertices j = v2 := by
            rcases vA n hnA j with z | z
            · exact z.1
            · exact absurd (z.2.2.symm.trans hnk) (hfresh n pn j)
          have f := F.next x px i n j hn (hnv.trans q.2.symm) (by rw [q.2]; exact k2)
          show (if _ then _ else _) < (if _ then _ else _)
          rw [if_neg (fun z => hd n hnA z.1), if_neg (fun z => hd x q.1 z.1)]
          exact f.2
        · have hnB : n ∈ fanB := ((cB x q.1).2.2.2 i q.2.2 n (.inr hn)).resolve_left hnt
          have hnv : (s.tri n).vertices j = v1 := by
            rcases vB n hnB j with z | z
            · exact z.1
            · exact absurd (z.2.2.symm.trans hnk) (hfresh n pn j)
          have f := F.next x px i n j hn (hnv.trans q.2.2.symm) (by rw [q.2.2]; exact k1)
          show (if _ then _ else _) < (if _ then _ else _)
          rw [if_pos ⟨hnB, hnk⟩, if_pos ⟨q.1, hxk⟩]
          have := f.2
          omega
      · have ex := oldK x i px hxk
        have en := oldK n j pn (by rw [hj]; exact hxk)
        exact both hxk pn (F.next x px i n j hn (by rw [← en, hj, ex]) (by rw [← ex]; exact (L.kin _ hxk).1 hk))
  · -- running vertices
    rintro x ⟨px, hxt⟩ i hk
    by_cases hxk : (s'.tri x).vertices i = kv
    · rw [c'K x i hxk, hxk]
      exact ⟨fun _ => L.runNew, fun _ => rfl⟩
    · have ex := oldK x i px hxk
      rw [L.run _ hxk]
      by_cases a1 : run v1 ∧ (s'.tri x).vertices i = v1
      · rw [c'1 x i hxk a1.1 a1.2]
        exact ⟨nofun, fun q => absurd a1.2 q.2.1⟩
      · by_cases a2 : run v2 ∧ (s'.tri x).vertices i = v2
        · rw [c'2 x i hxk a2.1 a2.2]
          exact ⟨nofun, fun q => absurd a2.2 q.2.2⟩
        · rw [c'O x i hxk a1 a2, F.kind x px i (by rw [← ex]; exact (L.kin _ hxk).1 hk), ← ex]
          exact ⟨fun q => ⟨q, fun z => a1 ⟨z ▸ q, z⟩, fun z => a2 ⟨z ▸ q, z⟩⟩, fun q => q.1⟩
  · -- a side occurs once
    rintro x y ⟨px, hxt⟩ ⟨py, hyt⟩ i j hi hj hci hcj h1 h2
    obtain ⟨-, -, q | ⟨-, -, x0, k, px0, hk, ck, pk, bk, ek⟩⟩ := origin x i px hxt hi
    · exact absurd q.1 hci
    obtain ⟨-, -, q | ⟨-, -, y0, l, py0, hl, cl, pl, bl, el⟩⟩ := origin y j py hyt hj
    · exact absurd q.1 hcj
    have nk : ∀ z, P z → ∀ m, kv ≠ (s.tri z).vertices m := fun z pz m h => hfresh z pz m h.symm
    have same : (s.tri x0).vertices (k + 1) = (s.tri y0).vertices (l + 1) ∧
        (s.tri x0).vertices (k + 2) = (s.tri y0).vertices (l + 2) := by
      rcases ek with ⟨a, b, d⟩ | ⟨a, b, d⟩ | ⟨a, b, -, -⟩ <;> rcases el with ⟨a', b', d'⟩ | ⟨a', b', d'⟩ | ⟨a', b', -, -⟩
      · exact ⟨d.symm.trans (h1.trans d'), b.trans b'.symm⟩
      · exact absurd (a'.symm.trans (h1.symm.trans d)) (nk _ px0 _)
      · exact absurd (a.symm.trans (h2.trans b')) (nk _ py0 _)
      · exact absurd (a.symm.trans (h1.trans d')) (nk _ py0 _)
      · exact ⟨b.trans b'.symm, d.symm.trans (h2.trans d')⟩
      · exact absurd (a.symm.trans (h1.trans a')) (nk _ py0 _)
      · exact absurd (a'.symm.trans (h2.symm.trans b)) (nk _ px0 _)
      · exact absurd (a'.symm.trans (h1.symm.trans a)) (nk _ px0 _)
      · exact ⟨a.symm.trans (h1.trans a'), b.symm.trans (h2.trans b')⟩
    have e0 := F.unique x0 y0 px0 py0 k l hk hl ck cl same.1 same.2
    subst e0
    have ekl : k = l := add_right_cancel ((hC x0 px0).2.1 same.1)
    subst ekl
    have e21 : e + 2 ≠ e + 1 := (fin3_1_ne_2 e).symm
    rcases bk with a | ⟨a, b, d⟩ | ⟨a, b, d⟩ <;> rcases bl with a' | ⟨a', b', d'⟩ | ⟨a', b', d'⟩
    · exact a.symm.trans a'
    · exact absurd (a.symm.trans a') hxt
    · exact absurd (a.symm.trans a') hxt
    · exact absurd (a'.symm.trans a) hyt
    · rw [d] at d'; injection d'
    · exact absurd (b.symm.trans b') e21
    · exact absurd (a'.symm.trans a) hyt
    · exact absurd (b'.symm.trans b) e21
    · rw [d] at d'; injection d'
  · -- dead sides
    obtain ⟨-, -, q | q⟩ := origin x i px hxt hi
    · exact q.2.2
    · exact absurd hc q.1

end

end Grassfire
