/-
The wavefront links and the triangulation (lemmas for C69): what a split event does.
-/
import Verif.Proofs.FrontLemmas

set_option linter.unusedSectionVars false

namespace Grassfire

open Spec

variable {K : Type} [Field K] [LinearOrder K] {P : TId → Prop} {s : St K} {kin run : VId → Prop}
  {pts : VId → VId → Prop} {c : TId → Fin 3 → Kind} {r : TId → Fin 3 → ℕ}

/-- the links after a split event -/
structure SplitLinks (kin run kin' run' : VId → Prop) (pts pts' : VId → VId → Prop) (v v1 v2 va vb : VId) : Prop where
  kin : ∀ w, w ≠ va → w ≠ vb → (kin' w ↔ kin w)
  kinA : kin' va
  kinB : kin' vb
  run : ∀ w, w ≠ va → w ≠ vb → (run' w ↔ run w ∧ w ≠ v)
  runA : run' va
  runB : run' vb
  start : ∀ a, pts a v → pts' a vb
  after : pts' vb v2
  before : pts' v1 va
  stop : ∀ b, pts v b → pts' va b
  keep : ∀ a b, pts a b → ¬ pts a v → ¬ pts v b → a ≠ v1 → b ≠ v2 → pts' a b

theorem front_split (hC : Consistent P s) (F : Front s.tri P kin run pts c r)
    (hR : ∀ a b b', pts a b → pts a b' → b = b') (hL : ∀ a a' b, pts a b → pts a' b → a = a')
    {s' : St K} {t a b : TId} {e : Fin 3} {v v1 v2 va vb : VId} {fanA fanB : List TId} {kin' run' : VId → Prop}
    {pts' : VId → VId → Prop} (pt : P t) (hv : (s.tri t).vertices e = v) (hv1 : (s.tri t).vertices (e + 1) = v1)
    (hv2 : (s.tri t).vertices (e + 2) = v2) (hne : (s.tri t).neighbours e = none)
    (ha : (s.tri t).neighbours (e + 1) = some a) (hb : (s.tri t).neighbours (e + 2) = some b)
    (hfa : ∀ x, P x → ∀ i, (s.tri x).vertices i ≠ va) (hfb : ∀ x, P x → ∀ i, (s.tri x).vertices i ≠ vb)
    (hab : va ≠ vb) (hd : ∀ x ∈ fanB, x ∉ fanA) (_cA : ClosedFan P s t v fanA) (_cB : ClosedFan P s t v fanB)
    (D : SplitDone P s s' t a b v va vb fanA fanB) (L : SplitLinks kin run kin' run' pts pts' v v1 v2 va vb)
    (k0 : kin v) (r0 : run v) (r1 : run v1) (r2 : run v2) :
    ∃ c' r', Front s'.tri (fun x => P x ∧ x ≠ t) kin' run' pts' c' r' ∧
      ∀ x i, P x → x ≠ t → (s'.tri x).neighbours i = none → c' x (i + 1) = .endDead →
        (s.tri x).neighbours i = none ∧ c x (i + 1) = .endDead ∧
          (s'.tri x).vertices (i + 1) = (s.tri x).vertices (i + 1) ∧
          (s'.tri x).vertices (i + 2) = (s.tri x).vertices (i + 2) := by
  classical
  have hinj := (hC t pt).2.1
  have v12 : v1 ≠ v2 := by rw [← hv1, ← hv2]; exact fun h => fin3_1_ne_2 e (hinj h)
  have v01 : v ≠ v1 := by rw [← hv, ← hv1]; exact fun h => fin3_ne_1 e (hinj h)
  have v02 : v ≠ v2 := by rw [← hv, ← hv2]; exact fun h => fin3_ne_2 e (hinj h)
  obtain ⟨k1, k2, hside⟩ := F.gap t pt e hne
  have cw1 : c t (e + 1) = .whole := (F.kind t pt _ k1).2 (by rw [hv1]; exact r1)
  have cw0 : c t e = .whole := (F.kind t pt _ (by rw [hv]; exact k0)).2 (by rw [hv]; exact r0)
  have p12 : pts v1 v2 := by
    rcases hside with q | q
    · rw [← hv1, ← hv2]; exact q.2.2
    · rw [cw1] at q; cases q.1
  rw [hv1] at k1
  rw [hv2] at k2
  obtain ⟨wB, xB, kB, xB1, xB2, xB3, xB4, xB5⟩ := F.walk hC D.walkB k0 (j := e) pt hv ha
  obtain ⟨wA, xA, kA, xA1, xA2, xA3, xA4, xA5⟩ := F.walk hC D.walkA k0 (j := e) pt hv hb
  change (s.tri xB).neighbours (kB + 1) = none at xB5
  change (s.tri xA).neighbours (kA + 2) = none at xA5
  obtain ⟨xB6, xB7⟩ := F.start xB2 xB5 (by rw [xB4, cw0]; nofun)
  obtain ⟨xA6, xA7⟩ := F.stop xA2 xA5 (by rw [xA4, cw0]; nofun)
  rw [xB3] at xB7
  rw [xA3] at xA7
  have memB : a ∈ fanB := FanWalk.head D.walkB
  have memA : b ∈ fanA := FanWalk.head D.walkA
  -- the corners afterwards
  have vB : ∀ x ∈ fanB, ∀ j, ((s.tri x).vertices j = v ∧ (s'.tri x).vertices j = vb) ∨
      ((s.tri x).vertices j ≠ v ∧ (s'.tri x).vertices j = (s.tri x).vertices j) := by
    intro x hx j
    rw [D.vertices x, if_pos hx]
    unfold substitute
    by_cases h : (s.tri x).vertices j = v
    · exact .inl ⟨h, if_pos h⟩
    · exact .inr ⟨h, if_neg h⟩
  have vA : ∀ x ∈ fanA, ∀ j, ((s.tri x).vertices j = v ∧ (s'.tri x).vertices j = va) ∨
      ((s.tri x).vertices j ≠ v ∧ (s'.tri x).vertices j = (s.tri x).vertices j) := by
    intro x hx j
    rw [D.vertices x, if_neg (fun h => hd x h hx), if_pos hx]
    unfold substitute
    by_cases h : (s.tri x).vertices j = v
    · exact .inl ⟨h, if_pos h⟩
    · exact .inr ⟨h, if_neg h⟩
  have vO : ∀ x, x ∉ fanA → x ∉ fanB → (s'.tri x).vertices = (s.tri x).vertices := by
    intro x h1 h2
    rw [D.vertices x, if_neg h2, if_neg h1]
  have newA : ∀ x j, P x → (s'.tri x).vertices j = va → x ∈ fanA ∧ (s.tri x).vertices j = v := by
    intro x j px h
    by_cases h1 : x ∈ fanA
    · rcases vA x h1 j with q | q
      · exact ⟨h1, q.1⟩
      · exact absurd (q.2.symm.trans h) (hfa x px j)
    · by_cases h2 : x ∈ fanB
      · rcases vB x h2 j with q | q
        · exact absurd (h.symm.trans q.2) hab
        · exact absurd (q.2.symm.trans h) (hfa x px j)
      · rw [vO x h1 h2] at h
        exact absurd h (hfa x px j)
  have newB : ∀ x j, P x → (s'.tri x).vertices j = vb → x ∈ fanB ∧ (s.tri x).vertices j = v := by
    intro x j px h
    by_cases h2 : x ∈ fanB
    · rcases vB x h2 j with q | q
      · exact ⟨h2, q.1⟩
      · exact absurd (q.2.symm.trans h) (hfb x px j)
    · by_cases h1 : x ∈ fanA
      · rcases vA x h1 j with q | q
        · exact absurd (q.2.symm.trans h) hab
        · exact absurd (q.2.symm.trans h) (hfb x px j)
      · rw [vO x h1 h2] at h
        exact absurd h (hfb x px j)
  have oldK : ∀ x j, P x → (s'.tri x).vertices j ≠ va → (s'.tri x).vertices j ≠ vb →
      (s'.tri x).vertices j = (s.tri x).vertices j := by
    intro x j px hna hnb
    by_cases h1 : x ∈ fanA
    · rcases vA x h1 j with q | q
      · exact absurd q.2 hna
      · exact q.2
    · by_cases h2 : x ∈ fanB
      · rcases vB x h2 j with q | q
        · exact absurd q.2 hnb
        · exact q.2
      · rw [vO x h1 h2]
  let c' : TId → Fin 3 → Kind := fun x i =>
    if (s'.tri x).vertices i = va ∨ (s'.tri x).vertices i = vb then .whole
    else if (s'.tri x).vertices i = v then .startDead
    else c x i
  have c'K : ∀ x i, (s'.tri x).vertices i = va ∨ (s'.tri x).vertices i = vb → c' x i = .whole := fun x i h => if_pos h
  have c'V : ∀ x i, (s'.tri x).vertices i ≠ va → (s'.tri x).vertices i ≠ vb → (s'.tri x).vertices i = v →
      c' x i = .startDead := by
    intro x i h1 h2 h3
    show (if _ then _ else _) = _
    rw [if_neg (not_or.2 ⟨h1, h2⟩), if_pos h3]
  have c'O : ∀ x i, (s'.tri x).vertices i ≠ va → (s'.tri x).vertices i ≠ vb → (s'.tri x).vertices i ≠ v →
      c' x i = c x i := by
    intro x i h1 h2 h3
    show (if _ then _ else _) = _
    rw [if_neg (not_or.2 ⟨h1, h2⟩), if_neg h3]
  have kq : ∀ w, kin w → (∃ y, P y ∧ ∃ j, (s.tri y).vertices j = w) → kin' w := by
    rintro w hw ⟨y, py, j, hj⟩
    exact (L.kin w (by rw [← hj]; exact hfa y py j) (by rw [← hj]; exact hfb y py j)).2 hw
  -- where a wavefront side comes from
  have origin : ∀ x i, P x → x ≠ t → (s'.tri x).neighbours i = none →
      kin' ((s'.tri x).vertices (i + 1)) ∧ kin' ((s'.tri x).vertices (i + 2)) ∧
      ((c' x (i + 1) = .endDead ∧ c' x (i + 2) = .startDead ∧
        (s.tri x).neighbours i = none ∧ c x (i + 1) = .endDead ∧
          (s'.tri x).vertices (i + 1) = (s.tri x).vertices (i + 1) ∧
          (s'.tri x).vertices (i + 2) = (s.tri x).vertices (i + 2)) ∨
      c' x (i + 1) ≠ .endDead ∧ c' x (i + 2) ≠ .startDead ∧
      ((x = a ∧ (s'.tri x).vertices (i + 1) = vb ∧ (s'.tri x).vertices (i + 2) = v2) ∨
        (x = b ∧ (s'.tri x).vertices (i + 1) = v1 ∧ (s'.tri x).vertices (i + 2) = va) ∨
        (s.tri x).neighbours i = none ∧ c x (i + 1) ≠ .endDead ∧
          pts ((s.tri x).vertices (i + 1)) ((s.tri x).vertices (i + 2)) ∧
          ((s'.tri x).vertices (i + 2) = vb ∧ (s.tri x).vertices (i + 2) = v ∧
              (s'.tri x).vertices (i + 1) = (s.tri x).vertices (i + 1) ∨
            (s'.tri x).vertices (i + 1) = va ∧ (s.tri x).vertices (i + 1) = v ∧
              (s'.tri x).vertices (i + 2) = (s.tri x).vertices (i + 2) ∨
            (s'.tri x).vertices (i + 1) = (s.tri x).vertices (i + 1) ∧
              (s'.tri x).vertices (i + 2) = (s.tri x).vertices (i + 2) ∧
              ¬ pts ((s.tri x).vertices (i + 1)) v ∧ ¬ pts v ((s.tri x).vertices (i + 2)) ∧
              (s.tri x).vertices (i + 1) ≠ v1 ∧ (s.tri x).vertices (i + 2) ≠ v2))) := by
    intro x i px hxt hi
    by_cases ho : (s.tri x).neighbours i = some t
    · obtain ⟨-, j, j1, j2, j3⟩ := facing hC px ho
      rcases fin3_cases e j with rfl | rfl | rfl
      · rw [hne] at j1; cases j1
      · rw [ha] at j1
        injection j1 with j1
        rw [fin3_add_1_1] at j2
        rw [fin3_add_1_2] at j3
        subst j1
        have w1 : (s'.tri a).vertices (i + 1) = vb := by
          rcases vB a memB (i + 1) with q | q
          · exact q.2
          · exact absurd (j3.symm.trans hv) q.1
        have w2 : (s'.tri a).vertices (i + 2) = v2 := by
          rcases vB a memB (i + 2) with q | q
          · exact absurd (q.1.symm.trans (j2.symm.trans hv2)) v02
          · exact q.2.trans (j2.symm.trans hv2)
        refine ⟨by rw [w1]; exact L.kinB, by rw [w2]; exact kq _ k2 ⟨t, pt, _, hv2⟩, .inr ⟨?_, ?_, .inl ⟨rfl, w1, w2⟩⟩⟩
        · rw [c'K a _ (.inr w1)]; nofun
        · rw [c'O a _ (by rw [w2, ← hv2]; exact hfa t pt _) (by rw [w2, ← hv2]; exact hfb t pt _) (by rw [w2]; exact v02.symm),
            (F.kind a px _ (by rw [← j2, hv2]; exact k2)).2 (by rw [← j2, hv2]; exact r2)]
          nofun
      · rw [hb] at j1
        injection j1 with j1
        rw [fin3_add_2_1] at j2
        rw [fin3_add_2_2] at j3
        subst j1
        have w2 : (s'.tri b).vertices (i + 2) = va := by
          rcases vA b memA (i + 2) with q | q
          · exact q.2
          · exact absurd (j2.symm.trans hv) q.1
        have w1 : (s'.tri b).vertices (i + 1) = v1 := by
          rcases vA b memA (i + 1) with q | q
          · exact absurd (q.1.symm.trans (j3.symm.trans hv1)) v01
          · exact q.2.trans (j3.symm.trans hv1)
        refine ⟨by rw [w1]; exact kq _ k1 ⟨t, pt, _, hv1⟩, by rw [w2]; exact L.kinA,
          .inr ⟨?_, ?_, .inr (.inl ⟨rfl, w1, w2⟩)⟩⟩
        · rw [c'O b _ (by rw [w1, ← hv1]; exact hfa t pt _) (by rw [w1, ← hv1]; exact hfb t pt _) (by rw [w1]; exact v01.symm),
            (F.kind b px _ (by rw [← j3, hv1]; exact k1)).2 (by rw [← j3, hv1]; exact r1)]
          nofun
        · rw [c'K b _ (.inl w2)]; nofun
    · rw [D.same x i px hxt ho] at hi
      obtain ⟨g1, g2, g3⟩ := F.gap x px i hi
      have onlyT : c x (i + 1) ≠ .endDead → pts ((s.tri x).vertices (i + 1)) ((s.tri x).vertices (i + 2)) →
          (s.tri x).vertices (i + 1) ≠ v1 ∧ (s.tri x).vertices (i + 2) ≠ v2 := by
        intro hc hp
        have : ¬ ((s.tri x).vertices (i + 1) = v1 ∧ (s.tri x).vertices (i + 2) = v2) := fun q =>
          hxt (F.unique x t px pt i e hi hne hc (by rw [cw1]; nofun) (q.1.trans hv1.symm) (q.2.trans hv2.symm))
        exact ⟨fun q => this ⟨q, hR _ _ _ (q ▸ hp) p12⟩, fun q => this ⟨hL _ _ _ (q ▸ hp) p12, q⟩⟩
      by_cases hxA : x ∈ fanA
      · obtain ⟨-, k, hk, hck, y, hy⟩ := wA x hxA
        change (s.tri x).neighbours (k + 1) = some y at hy
        have nb : (s.tri x).vertices (i + 2) ≠ v := by
          intro h
          obtain rfl := (hC x px).2.1 (hk.trans h.symm)
          rw [fin3_add_2_1, hi] at hy
          cases hy
        have w2 := (vA x hxA (i + 2)).resolve_left fun q => nb q.1
        have e2 : c' x (i + 2) = c x (i + 2) := c'O x _ (by rw [w2.2]; exact hfa x px _) (by rw [w2.2]; exact hfb x px _)
          (by rw [w2.2]; exact w2.1)
        rcases vA x hxA (i + 1) with q | q
        · obtain rfl := (hC x px).2.1 (hk.trans q.1.symm)
          have g4 : c x (i + 2) ≠ .startDead ∧ pts ((s.tri x).vertices (i + 1)) ((s.tri x).vertices (i + 2)) := by
            rcases g3 with z | z
            · exact ⟨z.2.1, z.2.2⟩
            · rw [hck, cw0] at z; cases z.1
          refine ⟨by rw [q.2]; exact L.kinA, by rw [w2.2]; exact kq _ g2 ⟨x, px, _, rfl⟩, .inr ⟨?_, ?_, .inr (.inr ⟨hi,
            ?_, g4.2, .inr (.inl ⟨q.2, q.1, w2.2⟩)⟩)⟩⟩
          · rw [c'K x _ (.inl q.2)]; nofun
          · rw [e2]; exact g4.1
          · rw [hck, cw0]; nofun
        · have e1 : c' x (i + 1) = c x (i + 1) := c'O x _ (by rw [q.2]; exact hfa x px _) (by rw [q.2]; exact hfb x px _)
            (by rw [q.2]; exact q.1)
          rw [e1, e2, q.2, w2.2]
          refine ⟨kq _ g1 ⟨x, px, _, rfl⟩, kq _ g2 ⟨x, px, _, rfl⟩, ?_⟩
          rcases g3 with z | z
          · refine .inr ⟨z.1, z.2.1, .inr (.inr ⟨hi, z.1, z.2.2, .inr (.inr ⟨rfl, rfl, fun p => ?_, fun p => ?_,
              onlyT z.1 z.2.2⟩)⟩)⟩
            · exact nb (hR _ _ _ z.2.2 p)
            · exact q.1 (hL _ _ _ z.2.2 p)
          · exact .inl ⟨z.1, z.2, hi, z.1, rfl, rfl⟩
      · by_cases hxB : x ∈ fanB
        · obtain ⟨-, k, hk, hck, y, hy⟩ := wB x hxB
          change (s.tri x).neighbours (k + 2) = some y at hy
          have nb : (s.tri x).vertices (i + 1) ≠ v := by
            intro h
            obtain rfl := (hC x px).2.1 (hk.trans h.symm)
            rw [fin3_add_1_2, hi] at hy
            cases hy
          have w1 := (vB x hxB (i + 1)).resolve_left fun q => nb q.1
          have e1 : c' x (i + 1) = c x (i + 1) := c'O x _ (by rw [w1.2]; exact hfa x px _) (by rw [w1.2]; exact hfb x px _)
            (by rw [w1.2]; exact w1.1)
          rcases vB x hxB (i + 2) with q | q
          · obtain rfl := (hC x px).2.1 (hk.trans q.1.symm)
            have g4 : c x (i + 1) ≠ .endDead ∧ pts ((s.tri x).vertices (i + 1)) ((s.tri x).vertices (i + 2)) := by
              rcases g3 with z | z
              · exact ⟨z.1, z.2.2⟩
              · rw [hck, cw0] at z; cases z.2
            refine ⟨by rw [w1.2]; exact kq _ g1 ⟨x, px, _, rfl⟩, by rw [q.2]; exact L.kinB, .inr ⟨?_, ?_, .inr (.inr ⟨hi,
              g4.1, g4.2, .inl ⟨q.2, q.1, w1.2⟩⟩)⟩⟩
            · rw [e1]; exact g4.1
            · rw [c'K x _ (.inr q.2)]; nofun
          · have e2 : c' x (i + 2) = c x (i + 2) := c'O x _ (by rw [q.2]; exact hfa x px _) (by rw [q.2]; exact hfb x px _)
              (by rw [q.2]; exact q.1)
            rw [e1, e2, q.2, w1.2]
            refine ⟨kq _ g1 ⟨x, px, _, rfl⟩, kq _ g2 ⟨x, px, _, rfl⟩, ?_⟩
            rcases g3 with z | z
            · refine .inr ⟨z.1, z.2.1, .inr (.inr ⟨hi, z.1, z.2.2, .inr (.inr ⟨rfl, rfl, fun p => ?_, fun p => ?_,
                onlyT z.1 z.2.2⟩)⟩)⟩
              · exact q.1 (hR _ _ _ z.2.2 p)
              · exact nb (hL _ _ _ z.2.2 p)
            · exact .inl ⟨z.1, z.2, hi, z.1, rfl, rfl⟩
        · have hVx := vO x hxA hxB
          have na : ∀ m, (s'.tri x).vertices m ≠ va := fun m => by rw [hVx]; exact hfa x px m
          have nb : ∀ m, (s'.tri x).vertices m ≠ vb := fun m => by rw [hVx]; exact hfb x px m
          refine ⟨by rw [hVx]; exact kq _ g1 ⟨x, px, _, rfl⟩, by rw [hVx]; exact kq _ g2 ⟨x, px, _, rfl⟩, ?_⟩
          rcases g3 with z | z
          · have pn1 : ¬ pts ((s.tri x).vertices (i + 1)) v := by
              intro p
              have q1 := hR _ _ _ z.2.2 p
              have q2 := hL _ _ _ p xB7
              have : x = xB := F.unique x xB px xB2 i (kB + 1) hi xB5 z.1 (by rw [fin3_add_1_1]; exact xB6)
                (by rw [fin3_add_1_1]; exact q2) (by rw [fin3_add_1_2, xB3]; exact q1)
              rcases xB1 with h | h
              · exact hxt (this.trans h)
              · exact hxB (this ▸ h)
            have pn2 : ¬ pts v ((s.tri x).vertices (i + 2)) := by
              intro p
              have q1 := hL _ _ _ z.2.2 p
              have q2 := hR _ _ _ p xA7
              have : x = xA := F.unique x xA px xA2 i (kA + 2) hi xA5 z.1 (by rw [fin3_add_2_1, xA4, cw0]; nofun)
                (by rw [fin3_add_2_1, xA3]; exact q1) (by rw [fin3_add_2_2]; exact q2)
              rcases xA1 with h | h
              · exact hxt (this.trans h)
              · exact hxA (this ▸ h)
            refine .inr ⟨?_, ?_, .inr (.inr ⟨hi, z.1, z.2.2, .inr (.inr ⟨by rw [hVx], by rw [hVx], pn1, pn2,
              onlyT z.1 z.2.2⟩)⟩)⟩
            · rw [c'O x _ (na _) (nb _) (fun a => pn2 (by rw [hVx] at a; rw [← a]; exact z.2.2))]
              exact z.1
            · rw [c'O x _ (na _) (nb _) (fun a => pn1 (by rw [hVx] at a; rw [← a]; exact z.2.2))]
              exact z.2.1
          · have nr : ∀ m, kin ((s.tri x).vertices m) → c x m ≠ .whole → (s'.tri x).vertices m ≠ v := by
              intro m hm hcm h
              rw [hVx] at h
              exact hcm ((F.kind x px _ hm).2 (by rw [h]; exact r0))
            rw [c'O x _ (na _) (nb _) (nr _ g1 (by rw [z.1]; nofun)), c'O x _ (na _) (nb _) (nr _ g2 (by rw [z.2]; nofun))]
            exact .inl ⟨z.1, z.2, hi, z.1, by rw [hVx], by rw [hVx]⟩
  refine ⟨c', r, ⟨?_, ?_, ?_, ?_⟩, fun x i px hxt hi hc => ?_⟩
  · -- wavefront sides
    rintro x ⟨px, hxt⟩ i hi
    obtain ⟨o1, o2, o3⟩ := origin x i px hxt hi
    refine ⟨o1, o2, ?_⟩
    rcases o3 with q | ⟨q1, q2, q⟩
    · exact .inr ⟨q.1, q.2.1⟩
    · refine .inl ⟨q1, q2, ?_⟩
      rcases q with ⟨-, a, b⟩ | ⟨-, a, b⟩ | ⟨-, -, q3, ⟨a, b, d⟩ | ⟨a, b, d⟩ | ⟨a, b, d1, d2, d3, d4⟩⟩
      · rw [a, b]; exact L.after
      · rw [a, b]; exact L.before
      · rw [a, d]; rw [b] at q3; exact L.start _ q3
      · rw [a, d]; rw [b] at q3; exact L.stop _ q3
      · rw [a, b]; exact L.keep _ _ q3 d1 d2 d3 d4
  · -- the order of the fans
    rintro x ⟨px, hxt⟩ i n j hn hj hk
    by_cases ho : (s.tri x).neighbours (i + 2) = some t
    · rw [D.gap x _ px hxt ho] at hn; cases hn
    · rw [D.same x _ px hxt ho] at hn
      have pn := (facing hC px hn).1
      have hnt : n ≠ t := fun h => ho (h ▸ hn)
      have ec : c n j = c x i ∧ r n j < r x i := by
        by_cases hxa : (s'.tri x).vertices i = va
        · have q := newA x i px hxa
          have q' := newA n j pn (hj.trans hxa)
          exact F.next x px i n j hn (q'.2.trans q.2.symm) (by rw [q.2]; exact k0)
        · by_cases hxb : (s'.tri x).vertices i = vb
          · have q := newB x i px hxb
            have q' := newB n j pn (hj.trans hxb)
            exact F.next x px i n j hn (q'.2.trans q.2.symm) (by rw [q.2]; exact k0)
          · have ex := oldK x i px hxa hxb
            have en := oldK n j pn (by rw [hj]; exact hxa) (by rw [hj]; exact hxb)
            exact F.next x px i n j hn (by rw [← en, hj, ex]) (by rw [← ex]; exact (L.kin _ hxa hxb).1 hk)
      refine ⟨?_, ec.2⟩
      show (if _ then _ else _) = (if _ then _ else _)
      rw [hj, ec.1]
  · -- running vertices
    rintro x ⟨px, hxt⟩ i hk
    by_cases hxa : (s'.tri x).vertices i = va
    · rw [c'K x i (.inl hxa), hxa]
      exact ⟨fun _ => L.runA, fun _ => rfl⟩
    · by_cases hxb : (s'.tri x).vertices i = vb
      · rw [c'K x i (.inr hxb), hxb]
        exact ⟨fun _ => L.runB, fun _ => rfl⟩
      · have ex := oldK x i px hxa hxb
        rw [L.run _ hxa hxb]
        by_cases a1 : (s'.tri x).vertices i = v
        · rw [c'V x i hxa hxb a1]
          exact ⟨nofun, fun q => absurd a1 q.2⟩
        · rw [c'O x i hxa hxb a1, F.kind x px i (by rw [← ex]; exact (L.kin _ hxa hxb).1 hk), ← ex]
          exact ⟨fun q => ⟨q, a1⟩, fun q => q.1⟩
  · -- a side occurs once
    rintro x y ⟨px, hxt⟩ ⟨py, hyt⟩ i j hi hj hci hcj h1 h2
    obtain ⟨-, -, q | ⟨-, -, ox⟩⟩ := origin x i px hxt hi
    · exact absurd q.1 hci
    obtain ⟨-, -, q | ⟨-, -, oy⟩⟩ := origin y j py hyt hj
    · exact absurd q.1 hcj
    have fa : ∀ z, P z → ∀ m, va ≠ (s.tri z).vertices m := fun z pz m h => hfa z pz m h.symm
    have fb : ∀ z, P z → ∀ m, vb ≠ (s.tri z).vertices m := fun z pz m h => hfb z pz m h.symm
    rcases ox with ⟨a1, a2, a3⟩ | ⟨a1, a2, a3⟩ | ⟨a1, a2, a3, ox⟩ <;>
      rcases oy with ⟨b1, b2, b3⟩ | ⟨b1, b2, b3⟩ | ⟨b1, b2, b3, oy⟩
    · exact a1.trans b1.symm
    · exact absurd (a2.symm.trans (h1.trans (b2.trans hv1.symm))) (fb _ pt _)
    · exfalso
      rcases oy with ⟨b, b', d⟩ | ⟨b, b', d⟩ | ⟨b, b', -⟩
      · exact fb _ py _ (a2.symm.trans (h1.trans d))
      · exact hab (b.symm.trans (h1.symm.trans a2))
      · exact fb _ py _ (a2.symm.trans (h1.trans b))
    · exact absurd (b2.symm.trans (h1.symm.trans (a2.trans hv1.symm))) (fb _ pt _)
    · exact a1.trans b1.symm
    · exfalso
      rcases oy with ⟨b, b', d⟩ | ⟨b, b', d⟩ | ⟨b, b', -⟩
      · exact hab (a3.symm.trans (h2.trans b))
      · exact fa _ py _ (a3.symm.trans (h2.trans d))
      · exact fa _ py _ (a3.symm.trans (h2.trans b'))
    · exfalso
      rcases ox with ⟨b, b', d⟩ | ⟨b, b', d⟩ | ⟨b, b', -⟩
      · exact fb _ px _ (b2.symm.trans (h1.symm.trans d))
      · exact hab (b.symm.trans (h1.trans b2))
      · exact fb _ px _ (b2.symm.trans (h1.symm.trans b))
    · exfalso
      rcases ox with ⟨b, b', d⟩ | ⟨b, b', d⟩ | ⟨b, b', -⟩
      · exact hab (b3.symm.trans (h2.symm.trans b))
      · exact fa _ px _ (b3.symm.trans (h2.symm.trans d))
      · exact fa _ px _ (b3.symm.trans (h2.symm.trans b'))
    · have same : (s.tri x).vertices (i + 1) = (s.tri y).vertices (j + 1) ∧
          (s.tri x).vertices (i + 2) = (s.tri y).vertices (j + 2) := by
        rcases ox with ⟨a, b, d⟩ | ⟨a, b, d⟩ | ⟨a, b, -⟩ <;> rcases oy with ⟨a', b', d'⟩ | ⟨a', b', d'⟩ | ⟨a', b', -⟩
        · exact ⟨d.symm.trans (h1.trans d'), b.trans b'.symm⟩
        · exact absurd (a'.symm.trans (h1.symm.trans d)) (fa _ px _)
        · exact absurd (a.symm.trans (h2.trans b')) (fb _ py _)
        · exact absurd (a.symm.trans (h1.trans d')) (fa _ py _)
        · exact ⟨b.trans b'.symm, d.symm.trans (h2.trans d')⟩
        · exact absurd (a.symm.trans (h1.trans a')) (fa _ py _)
        · exact absurd (a'.symm.trans (h2.symm.trans b)) (fb _ px _)
        · exact absurd (a'.symm.trans (h1.symm.trans a)) (fa _ px _)
        · exact ⟨a.symm.trans (h1.trans a'), b.symm.trans (h2.trans b')⟩
      exact F.unique x y px py i j a1 b1 a2 b2 same.1 same.2
  · -- dead sides
    obtain ⟨-, -, q | q⟩ := origin x i px hxt hi
    · exact q.2.2
    · exact absurd hc q.1

end Grassfire
