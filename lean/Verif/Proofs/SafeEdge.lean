/-
Progress of the event loop (lemmas for C87): edge events.
-/
import Verif.Proofs.SafeSides
import Verif.Proofs.MeshSteps
import Verif.Proofs.WavefrontBlocks
import Verif.Proofs.FreshQueue

set_option linter.unusedSectionVars false

namespace Grassfire

open Spec

variable {K : Type} [Field K] [LinearOrder K] [IsStrictOrderedRing K] [HasSqrt K]

variable {E : Err → Prop} {s : St K} {P : Line2 K → Prop}

/-! ### new vertices -/

/-- vertex `w` moves along the lines `l` and `r` -/
def Heir (s : St K) (w : VId) (l r : Line2 K) : Prop :=
  ∃ k, s.vert w = .kin k ∧ k.infFast = false ∧ (viewOf s w).ul = some l ∧ (viewOf s w).ur = some r ∧
    ∀ u, AtDistance l u (pointAt k u) ∧ AtDistance r u (pointAt k u)

theorem Heir.congr {s' : St K} {w : VId} {l r : Line2 K} (h : Heir s w l r) (hv : s'.vert w = s.vert w)
    (hl : s'.line = s.line) : Heir s' w l r := by
  obtain ⟨k, h1, h2, h3, h4, h5⟩ := h
  unfold viewOf at h3 h4
  rw [h1] at h3 h4
  refine ⟨k, hv.trans h1, h2, ?_, ?_, h5⟩
  · unfold viewOf; rw [hv, h1, hl]; exact h3
  · unfold viewOf; rw [hv, h1, hl]; exact h4

theorem heir_of_new [SqrtUnit K] [HasTrig K] {a b : LineId} (hl : UnitNormal (s.line a)) (hr : UnitNormal (s.line b))
    (h : Apart (s.line a) (s.line b)) {now : K} {node : NodeId} {info : ℕ} {internal : Bool} {v : VId} {s' : St K}
    (hrun : computeNewKvertex (some a) (some b) now node info internal s = .ok (v, s')) {kn : KVertex K}
    (hk : s'.vert v = .kin kn) {s1 : St K} {w : VId} {k : KVertex K} (hk1 : s1.vert w = .kin k)
    (ho : k.origin = kn.origin) (hv : k.velocity = kn.velocity) (hi : k.infFast = kn.infFast) (hul : k.ul = kn.ul)
    (hur : k.ur = kn.ur) (hline : s1.line = s.line) : Heir s1 w (s.line a) (s.line b) := by
  have hslow := computeNewKvertex_slow hl hr h hrun hk
  obtain ⟨rfl, kv, e, -, -, -, -, e1, e2, -⟩ := C30_attributes _ _ _ _ _ _ _ _ _ hrun
  rw [e] at hk
  dsimp only at hk
  rw [Function.update_self] at hk
  cases hk
  refine ⟨k, hk1, hi.trans hslow, ?_, ?_, fun u => ?_⟩
  · unfold viewOf; rw [hk1, hline]; dsimp only; rw [hul, e1]; rfl
  · unfold viewOf; rw [hk1, hline]; dsimp only; rw [hur, e2]; rfl
  · have hk' : s'.vert s.nV = .kin kn := by rw [e]; dsimp only; rw [Function.update_self]
    have := computeNewKvertex_tracks hrun hk' (by
      rintro c (q | q) <;> cases q
      · exact hl
      · exact hr) hslow (by
      rintro c d q1 q2
      cases q1; cases q2
      exact h.cross) a b rfl rfl u
    unfold pointAt
    rw [ho, hv]
    exact this

theorem Heir.moves {w : VId} {l r : Line2 K} (h : Heir s w l r) : MovesBetween (viewOf s w) l r := by
  obtain ⟨k, h1, h2, h3, h4, h5⟩ := h
  have e : (viewOf s w).kinetic = true ∧ (viewOf s w).infFast = k.infFast ∧ (viewOf s w).origin = k.origin ∧
      (viewOf s w).velocity = k.velocity := by unfold viewOf; rw [h1]; exact ⟨rfl, rfl, rfl, rfl⟩
  refine ⟨e.1, e.2.1.trans h2, h3, h4, fun u => ?_, fun u => ?_⟩
  · rw [e.2.2.1, e.2.2.2]; exact (h5 u).1
  · rw [e.2.2.1, e.2.2.2]; exact (h5 u).2

/-- a vertex that is seen the same moves the same -/
theorem kin_of_view {s1 : St K} {v : VId} {k : KVertex K} (hk : s.vert v = .kin k) (h : viewOf s1 v = viewOf s v) :
    ∃ k1, s1.vert v = .kin k1 ∧ k1.infFast = k.infFast ∧ ∀ u, pointAt k1 u = pointAt k u := by
  unfold viewOf at h
  rw [hk] at h
  cases h1 : s1.vert v with
  | inf o => rw [h1] at h; cases h
  | kin k1 =>
    rw [h1] at h
    dsimp only at h
    injection h with _ e1 e2 e3
    exact ⟨k1, rfl, e3, fun u => by unfold pointAt; rw [e1, e2]⟩

theorem FanWalk.det {dir : Dir} {v : VId} {tri : TId → KTri K} {ot : Option TId} {l : List TId}
    (h : FanWalk dir v tri ot l) : (∀ x ∈ l, ∀ i j, (tri x).vertices i = v → (tri x).vertices j = v → i = j) →
      ∀ l', FanWalk dir v tri ot l' → l' = l := by
  induction h with
  | stop => intro _ l' h'; cases h'; rfl
  | @step t i l hi hw ih =>
    intro hu l' h'
    cases h' with
    | @step _ j l' hj hw' =>
      obtain rfl := hu t List.mem_cons_self i j hi hj
      rw [ih (fun x hx => hu x (List.mem_cons_of_mem _ hx)) l' hw']

theorem stoppable_of_inv {N : Prop} {now : K} (h : Inv N now s) {v : VId} (hv : v < s.nV) (hk : Kinetic s v) :
    Stoppable s v := by
  obtain ⟨-, k, hk⟩ := hk
  have L := h.lives v k hv hk
  obtain ⟨t, h1, -⟩ := L.starts
  obtain ⟨n, -, h2⟩ := L.startNode
  refine ⟨hv, k, hk, by rw [h1]; nofun, by rw [h2]; nofun, fun q => ?_⟩
  have := L.both.1 (Option.isSome_iff_ne_none.2 q)
  exact Option.isSome_iff_ne_none.1 this

theorem Inv.stoppable {N : Prop} {now : K} (h : Inv N now s) {v : VId} (hk : Kinetic s v) : Stoppable s v :=
  stoppable_of_inv h hk.1 hk

section

variable [SqrtUnit K] [HasTrig K]

theorem edgeVertex_mid {t : TId} {e : Fin 3} {now : K} {step : ℤ} (w : Waves P s) {v1 v2 l r : VId}
    (hv1 : (s.tri t).vertices (e + 1) = v1) (hv2 : (s.tri t).vertices (e + 2) = v2)
    (pl : Points s l v1) (pr : Points s v2 r) (hl2 : l ≠ v2)
    (hap : ∀ a b, LeftLine s v1 a → RightLine s v2 b → Apart a b) {kv : VId} {s1 : St K}
    (h : edgeVertex t e now step s = .ok (kv, s1)) :
    kv = s.nV ∧ s1.nV = s.nV + 1 ∧ s1.tri = s.tri ∧ s1.nT = s.nT ∧ s1.line = s.line ∧ s1.immediate = s.immediate ∧
    ∃ a b, LeftLine s v1 a ∧ RightLine s v2 b ∧ (viewOf s v1).ul = some a ∧ (viewOf s v2).ur = some b ∧ Heir s1 kv a b := by
  obtain ⟨k1, k2, a, c, pos, node, s2, kn, R, b1, hk1, b2, hk2, ha, hc, -, hstop, hnew, rfl, hR, hs1, -, hkv⟩ :=
    (edgeVertex_steps h).steps
  change s.vert ((s.tri t).vertices (e + 1)) = _ at hk1
  change s.vert ((s.tri t).vertices (e + 2)) = _ at hk2
  change k1.leftRef ≠ some ((s.tri t).vertices (e + 2)) → _ at hR
  change (s.tri t).vertices (e + 1) < _ at b1
  change (s.tri t).vertices (e + 2) < _ at b2
  rw [hv1] at hk1 b1
  rw [hv2] at hk2 hR b2
  obtain ⟨kl, k1', bl, -, -, hk1', -, ql⟩ := pl
  obtain rfl : k1 = k1' := by rw [hk1] at hk1'; injection hk1'
  obtain ⟨k2', kr, -, br, hk2', -, qr, -⟩ := pr
  obtain rfl : k2 = k2' := by rw [hk2] at hk2'; injection hk2'
  obtain rfl := hR (by rw [ql]; exact fun q => hl2 (Option.some.inj q))
  obtain ⟨-, e2, -⟩ := stopAndRecord_exact hstop
  have n2 : s2.nV = s.nV := by rw [e2]
  have l2 : s2.line = s.line := by rw [e2]
  obtain ⟨l', r', -, -, hkv⟩ := hkv (by rw [ql, n2]; exact fun q => absurd (Option.some.inj q) (Nat.ne_of_lt bl))
    (by rw [qr, n2]; exact fun q => absurd (Option.some.inj q) (Nat.ne_of_lt br))
  have ul := (w.own v1 k1 b1 hk1).1 a ha
  have ur := (w.own v2 k2 b2 hk2).2 c hc
  have u1 := w.good _ (w.linesOf v1 k1 b1 hk1 _ (.inl ul))
  have u2 := w.good _ (w.linesOf v2 k2 b2 hk2 _ (.inr ur))
  have L : LeftLine s v1 (s.line (s.wfLine a)) := ⟨k1, _, hk1, ul, rfl⟩
  have Rr : RightLine s v2 (s.line (s.wfLine c)) := ⟨k2, _, hk2, ur, rfl⟩
  rw [ul, ur] at hnew
  have A := hap _ _ L Rr
  rw [← l2] at u1 u2 A
  have H := heir_of_new u1 u2 A hnew (kn := kn) (by dsimp only; rw [Function.update_self]) hkv rfl rfl rfl rfl rfl
    (by rw [hs1])
  rw [l2] at H
  refine ⟨n2, ?_, ?_, ?_, ?_, ?_, _, _, L, Rr, ?_, ?_, H⟩
  · rw [hs1]; dsimp only; rw [n2]
  · rw [hs1, e2]
  · rw [hs1, e2]
  · rw [hs1, e2]
  · rw [hs1, e2]
  · unfold viewOf; rw [hk1]; dsimp only; rw [ul]; rfl
  · unfold viewOf; rw [hk2]; dsimp only; rw [ur]; rfl

end

/-! ### one of the two sides -/

/-- the vertex beyond `v` on the far side of the fan is `r` -/
def PointsTo (s : St K) : Dir → VId → VId → Prop
  | .cw, v, r => Points s v r
  | .ccw, v, r => Points s r v

theorem safe_edgeSide (R : Ready P s) {dir : Dir} {t : TId} {i : Fin 3} {v : VId} {now : K} (hl : Live s t)
    (hi : (s.tri t).vertices i = v) {o : Option TId} (ho : (s.tri t).neighbours (dir.fn i) = o)
    (huniq : ∀ n, o = some n → ∀ j, (s.tri t).neighbours j = some n → j = dir.fn i) {l : List TId}
    (hA : FanAt dir s t i v l)
    {s1 : St K} (hview : ∀ w, w < s.nV → viewOf s1 w = viewOf s w) (honce : Once v s1)
    (hsame : ∀ x ∈ l, (s1.tri x).vertices = (s.tri x).vertices ∧ (s1.tri x).neighbours = (s.tri x).neighbours)
    {w : VId} {kw : KVertex K} (hkw : s1.vert w = .kin kw) (hslow : kw.infFast = false) (hfresh : s.nV ≤ w)
    (hkeep : KeepsLine dir (viewOf s1 w) (viewOf s v)) {other : Option TId}
    (hother : other = none → NewSide dir (viewOf s1 w) (viewOf s ((s.tri t).vertices (dir.rev.fn i))))
    (hE : ∀ T : TView K, Followable T → Ambiguous T now →
      (∃ x, Substituted s dir t (dir.fn i) other x v (viewOf s1 w) T) → E .valueError)
    (hclear : o ≠ none → ∀ r k, PointsTo s dir v r → s.vert r = .kin k → 1 / 10 ^ 10 < HasSqrt.sqrt
      (((pointAt kw now).1 - (pointAt k now).1) * ((pointAt kw now).1 - (pointAt k now).1) +
        ((pointAt kw now).2 - (pointAt k now).2) * ((pointAt kw now).2 - (pointAt k now).2))) :
    Safe E (edgeSide o t other v w now dir) s1 ∧
      ∀ fan s2, edgeSide o t other v w now dir s1 = .ok (fan, s2) → fan = l ∧ s2.vert = s1.vert ∧ s2.line = s1.line ∧
        s2.node = s1.node ∧ SideDone o t other v w dir s1 s2 fan := by
  have hC := R.mesh.consistent
  have hvw : w ≠ v := by
    rintro rfl
    exact absurd (hi ▸ R.mesh.vertices t hl.1 i) (Nat.not_lt.2 hfresh)
  cases o with
  | none =>
    refine ⟨safe_pure _, fun fan s2 h => ?_⟩
    obtain ⟨rfl, rfl⟩ := pure_run_ok.1 h
    have := hA.walk
    rw [ho] at this
    cases this
    exact ⟨rfl, rfl, rfl, rfl, sideDone_none⟩
  | some n =>
    have S := safe_side R (now := now) (E := E) (other := other) hl hi ho (huniq n rfl) hA hview hsame hkw hslow hkeep
      hother hE
    have T : ∀ u s2 fan s3, relink n t other s1 = .ok (u, s2) → replaceKvertex n v w now dir s2 = .ok (fan, s3) →
        fan = l ∧ (Safe E (scheduleTiny fan w dir now) s3 ∧
          ∀ u s4, scheduleTiny fan w dir now s3 = .ok (u, s4) → s4 = s3) ∧
          SideDone (some n) t other v w dir s1 s3 fan ∧ s3.vert = s1.vert ∧ s3.line = s1.line ∧ s3.node = s1.node := by
      intro u s2 fan s3 h1 h2
      obtain ⟨-, q2, q3⟩ := S.2 u s2 h1
      have D := sideDone_some honce hvw h1 h2
      obtain ⟨j, -, -, d1, d2, d3⟩ := D.cons n rfl
      have d1' : FanWalk dir v s2.tri (some n) fan := by
        refine (C27_fan n v w hvw now dir _ _ _ ?_ h2).1
        obtain ⟨j, -, rfl⟩ := relink_run h1
        intro x hx a b ha hb
        refine honce x hx a b ?_ ?_
        · dsimp only at ha
          by_cases q : x = n
          · subst q; rw [Function.update_self] at ha; exact ha
          · rw [Function.update_of_ne q] at ha; exact ha
        · dsimp only at hb
          by_cases q : x = n
          · subst q; rw [Function.update_self] at hb; exact hb
          · rw [Function.update_of_ne q] at hb; exact hb
      obtain rfl := FanWalk.det q2 q3 _ d1'
      have m1 := mo_relink _ _ _ _ _ _ h1
      have m2 := mo_replaceKvertex _ _ _ _ _ _ _ _ h2
      have eV : s3.vert = s1.vert := by rw [m2, m1]
      refine ⟨rfl, safe_scheduleTiny fun x hx => ?_, D, eV, by rw [m2, m1], by rw [m2, m1]⟩
      have hxl := List.mem_of_getLast? hx
      obtain ⟨lx, -⟩ := hA.mem x hxl
      obtain ⟨k, k1, k2⟩ := FanWalk.getLast hA.walk hx
      have inj := (hC x lx).2.1
      have hb := R.mesh.vertices x lx.1
      have vx : ∀ j, (s3.tri x).vertices j = if j = k then w else (s.tri x).vertices j := by
        intro j
        rw [d2, if_pos hxl, (hsame x hxl).1]
        unfold substitute
        by_cases q : j = k
        · subst q; rw [if_pos k1, if_pos rfl]
        · rw [if_neg q, if_neg fun z => q (inj (z.trans k1.symm))]
      refine ⟨k, by rw [vx, if_pos rfl], fun j hj => ?_, ?_⟩
      · by_contra q
        rw [vx, if_neg q] at hj
        exact absurd (hj ▸ hb j) (Nat.not_lt.2 hfresh)
      · have pt := R.undead.points R.mesh lx k2
        cases dir with
        | cw =>
          change Points s ((s.tri x).vertices (k + 2 + 1)) ((s.tri x).vertices (k + 2 + 2)) at pt
          rw [fin3_add_2_1, fin3_add_2_2, k1] at pt
          obtain ⟨_, kr, -, -, -, hr, -⟩ := id pt
          obtain ⟨kr1, r1, r2, r3⟩ := kin_of_view hr (hview _ (hb _))
          refine ⟨kw, kr1, ?_, ?_, hslow, ?_, ?_⟩
          · show s3.vert ((s3.tri x).vertices (k + 2 + 1)) = _
            rw [fin3_add_2_1, vx, if_pos rfl, eV, hkw]
          · show s3.vert ((s3.tri x).vertices (k + 2 + 2)) = _
            rw [fin3_add_2_2, vx, if_neg (fin3_ne_1 k).symm, eV, r1]
          · rw [r2]; exact R.slow _ _ (hb _) hr
          · rw [r3]; exact hclear nofun _ kr pt hr
        | ccw =>
          change Points s ((s.tri x).vertices (k + 1 + 1)) ((s.tri x).vertices (k + 1 + 2)) at pt
          rw [fin3_add_1_1, fin3_add_1_2, k1] at pt
          obtain ⟨kr, _, -, -, hr, -, -⟩ := id pt
          obtain ⟨kr1, r1, r2, r3⟩ := kin_of_view hr (hview _ (hb _))
          refine ⟨kr1, kw, ?_, ?_, ?_, hslow, ?_⟩
          · show s3.vert ((s3.tri x).vertices (k + 1 + 1)) = _
            rw [fin3_add_1_1, vx, if_neg (fin3_ne_2 k).symm, eV, r1]
          · show s3.vert ((s3.tri x).vertices (k + 1 + 2)) = _
            rw [fin3_add_1_2, vx, if_pos rfl, eV, hkw]
          · rw [r2]; exact R.slow _ _ (hb _) hr
          · rw [r3]
            have := hclear nofun _ kr pt hr
            refine lt_of_lt_of_eq this (congrArg _ ?_)
            ring
    refine ⟨safe_bind S.1 fun u s2 h1 => safe_bind (S.2 u s2 h1).1 fun fan s3 h2 => ?_, fun fan s' h => ?_⟩
    · exact safe_bind (T u s2 fan s3 h1 h2).2.1.1 fun _ _ _ => safe_pure _
    · unfold edgeSide at h
      obtain ⟨u, s2, h1, h⟩ := bind_run_ok.1 h
      obtain ⟨fan', s3, h2, h⟩ := bind_run_ok.1 h
      obtain ⟨u', s4, h3, h⟩ := bind_run_ok.1 h
      obtain ⟨rfl, rfl⟩ := pure_run_ok.1 h
      obtain ⟨q1, q2, q3, q4, q5, q6⟩ := T u s2 fan' s3 h1 h2
      obtain rfl := q2.2 u' s4 h3
      exact ⟨q1, q4, q5, q6, q3⟩

end Grassfire
