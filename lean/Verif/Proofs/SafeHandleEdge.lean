/-
Progress of the event loop (lemmas for C87): `handle_edge_event` in general position.
-/
import Verif.Proofs.SafeEdge

set_option linter.unusedSectionVars false

namespace Grassfire

open Spec

variable {K : Type} [Field K] [LinearOrder K] [IsStrictOrderedRing K] [HasSqrt K]

variable {E : Err → Prop} {s : St K} {P : Line2 K → Prop}

theorem fan_connected {dir : Dir} {v : VId} {t : TId} {ot : Option TId} {l : List TId} (h : FanWalk dir v s.tri ot l) :
    (∀ x ∈ l, Live s x) → (∀ a, ot = some a → Connected s t a) → ∀ x ∈ l, Connected s t x := by
  induction h with
  | stop => intro _ _ x hx; cases hx
  | @step a i l hi hw ih =>
    intro hL ha x hx
    have h1 := ha a rfl
    rcases List.mem_cons.1 hx with rfl | hx
    · exact h1
    · exact ih (fun y hy => hL y (List.mem_cons_of_mem _ hy))
        (fun b hb => h1.tail ⟨hL a List.mem_cons_self, _, hb⟩) x hx

theorem FanAt.connected {dir : Dir} {t : TId} {i : Fin 3} {v : VId} {l : List TId} (h : FanAt dir s t i v l)
    (hl : Live s t) : ∀ x ∈ l, Connected s t x :=
  fan_connected h.walk (fun x hx => (h.mem x hx).1) fun _ ha => .single ⟨hl, _, ha⟩

theorem Undead.fanAt (h : Undead s) (hM : Mesh s) (dir : Dir) {t : TId} (hl : Live s t) {i : Fin 3} {v : VId}
    (hi : (s.tri t).vertices i = v) (hk : Kinetic s v) : ∃ l, FanAt dir s t i v l ∧
      ∃ x k, (x = t ∨ x ∈ l) ∧ Live s x ∧ (s.tri x).vertices k = v ∧ (s.tri x).neighbours (dir.fn k) = none := by
  obtain ⟨l, h1, h2, h3, h4, h5⟩ := h.walk hM dir hl hi hk
  exact ⟨l, ⟨h1, h2, h3, h4⟩, h5⟩

variable [SqrtUnit K] [HasTrig K]

theorem safe_handleEdge (R : Ready P s) {N : Prop} {depth : ℕ} {evt : Event K} (hI : Inv N evt.time s) {step : ℤ}
    {e : Fin 3} (hl : Live s evt.tri)
    (he : evt.side = [e]) (hn : (s.tri evt.tri).neighbours e = none) (hc : Collapsible s evt.tri e)
    (hcl : Clearance s evt.tri e evt.time)
    (hap : ∀ l r, LeftLine s ((s.tri evt.tri).vertices (e + 1)) l → RightLine s ((s.tri evt.tri).vertices (e + 2)) r →
      Apart l r)
    (htp : evt.tp = .edge)
    (hE : ∀ T : TView K, Followable T → Ambiguous T evt.time → Renewed s evt T → E .valueError) :
    Safe E (handleEdge depth evt step) s := by
  unfold handleEdge
  refine safe_bind (safe_singleSide he) fun e' s0 h0 => ?_
  obtain ⟨he', rfl⟩ := singleSide_run_ok h0
  obtain rfl : e' = e := by rw [he] at he'; simpa using he'.symm
  generalize ht : evt.tri = t at *
  generalize hnow : evt.time = now at *
  have hC := R.mesh.consistent
  have inj := (hC t hl).2.1
  have hb := R.mesh.vertices t hl.1
  have p12 := R.undead.points R.mesh hl hn
  have hv : ∀ {a b : Fin 3}, a ≠ b → (s.tri t).vertices a ≠ (s.tri t).vertices b := fun q z => q (inj z)
  generalize hv1 : (s.tri t).vertices (e' + 1) = v1 at *
  generalize hv2 : (s.tri t).vertices (e' + 2) = v2 at *
  have hne : v1 ≠ v2 := by rw [← hv1, ← hv2]; exact hv (fin3_1_ne_2 e')
  have k1 : Kinetic s v1 := by obtain ⟨k, _, b, -, h, -⟩ := p12; exact ⟨b, k, h⟩
  have k2 : Kinetic s v2 := by obtain ⟨_, k, -, b, -, h, -⟩ := p12; exact ⟨b, k, h⟩
  obtain ⟨lB, FB, xB, kB, hxB, lxB, vB, nB⟩ := R.undead.fanAt R.mesh .ccw hl hv1 k1
  obtain ⟨lA, FA, xA, kA, hxA, lxA, vA, nA⟩ := R.undead.fanAt R.mesh .cw hl hv2 k2
  have excl : ∀ x, Live s x → Connected s t x → (∃ i, (s.tri x).vertices i = v1) → (∃ i, (s.tri x).vertices i = v2) →
      x = t := by
    intro x q1 q2 q3 q4
    rcases hc x q1 q2 (hv1 ▸ q3) (hv2 ▸ q4) with q | q
    · exact q
    · rw [hn] at q; cases q.1
  have pl := R.undead.points R.mesh lxB nB
  change Points s ((s.tri xB).vertices (kB + 1 + 1)) ((s.tri xB).vertices (kB + 1 + 2)) at pl
  rw [fin3_add_1_1, fin3_add_1_2, vB] at pl
  have pr := R.undead.points R.mesh lxA nA
  change Points s ((s.tri xA).vertices (kA + 2 + 1)) ((s.tri xA).vertices (kA + 2 + 2)) at pr
  rw [fin3_add_2_1, fin3_add_2_2, vA] at pr
  have hl2 : (s.tri xB).vertices (kB + 2) ≠ v2 := by
    intro q
    rcases hxB with rfl | hx
    · obtain rfl := inj (vB.trans hv1.symm)
      rw [fin3_add_1_2, ← hv2] at q
      exact fin3_ne_2 e' (inj q)
    · have := excl xB lxB (FB.connected hl xB hx) ⟨_, vB⟩ ⟨_, q⟩
      exact FB.ne (this ▸ hx)
  refine safe_bind (safe_edgeVertex R.waves hv1 hv2 hne (hI.stoppable k1) (hI.stoppable k2) R.slow p12 pl pr hl2 hap)
    fun kv s1 h1 => ?_
  obtain ⟨hkv, nV1, t1, nT1, l1, -, a, b, La, Rb, ua, ub, H⟩ := edgeVertex_mid R.waves hv1 hv2 pl pr hl2 hap h1
  have g1 := g_edgeVertex _ _ _ _ _ _ _ h1
  have sv : ∀ w, w < s.nV → viewOf s1 w = viewOf s w := hI.sameVerts g1
  refine safe_bind (safe_getT t) fun T s0 h2 => ?_
  obtain ⟨-, rfl, rfl⟩ := getT_run_ok.1 h2
  rw [t1]
  show Safe E (do
      let fanA ← edgeSide ((s.tri t).neighbours (e' + 1)) t ((s.tri t).neighbours (e' + 2)) ((s.tri t).vertices (e' + 2)) kv now .cw
      let fanB ← edgeSide ((s.tri t).neighbours (e' + 2)) t ((s.tri t).neighbours (e' + 1)) ((s.tri t).vertices (e' + 1)) kv now .ccw
      detachAndSchedule ((s.tri t).neighbours e') t now
      stopTriangle t now
      edgeFan depth kv fanA fanB now step) s1
  rw [hv1, hv2]
  obtain ⟨kw, hkw, hslow, hul, hur, hdist⟩ := id H
  have kw_kin : (viewOf s1 kv).kinetic = true := by unfold viewOf; rw [hkw]
  have huA : ∀ n, (s.tri t).neighbours (e' + 1) = some n → ∀ j, (s.tri t).neighbours j = some n → j = e' + 1 := by
    intro n q j qj
    have hnA : n ∈ lA := FanWalk.head (by
      have := FA.walk
      change FanWalk _ _ _ ((s.tri t).neighbours (e' + 2 + 2)) _ at this
      rw [fin3_add_2_2, q] at this
      exact this)
    obtain ⟨ln, kk, kk1, -⟩ := FA.mem n hnA
    rcases fin3_cases e' j with rfl | rfl | rfl
    · rw [hn] at qj; cases qj
    · rfl
    · obtain ⟨-, j', j1, -, -⟩ := (hC t hl).2.2 _ _ n ⟨e' + 2, rfl, rfl, qj⟩
      rw [fin3_add_2_2, hv1] at j1
      exact absurd (excl n ln (FA.connected hl n hnA) ⟨_, j1⟩ ⟨kk, kk1⟩ ▸ hnA) FA.ne
  have huB : ∀ n, (s.tri t).neighbours (e' + 2) = some n → ∀ j, (s.tri t).neighbours j = some n → j = e' + 2 := by
    intro n q j qj
    rcases fin3_cases e' j with rfl | rfl | rfl
    · rw [hn] at qj; cases qj
    · exact absurd (huA n qj (e' + 2) q) (fin3_1_ne_2 e').symm
    · rfl
  have dis : ∀ x ∈ lA, x ∉ lB := by
    intro x xa xb
    obtain ⟨lx, i, hi, -⟩ := FA.mem x xa
    obtain ⟨-, j, hj, -⟩ := FB.mem x xb
    exact FA.ne (excl x lx (FA.connected hl x xa) ⟨j, hj⟩ ⟨i, hi⟩ ▸ xa)
  have hE1 : ∀ T : TView K, Followable T → Ambiguous T now →
      (∃ x, Substituted s .ccw t (e' + 2) ((s.tri t).neighbours (e' + 1)) x v1 (viewOf s1 kv) T) → E .valueError := by
    intro T f am ⟨x, h⟩
    subst ht
    exact hE T f am (.edgeLeft htp he (hv1 ▸ La) (hv2 ▸ Rb) H.moves (hv1 ▸ h))
  have hE2 : ∀ T : TView K, Followable T → Ambiguous T now →
      (∃ x, Substituted s .cw t (e' + 1) ((s.tri t).neighbours (e' + 2)) x v2 (viewOf s1 kv) T) → E .valueError := by
    intro T f am ⟨x, h⟩
    subst ht
    exact hE T f am (.edgeRight htp he (hv1 ▸ La) (hv2 ▸ Rb) H.moves (hv2 ▸ h))
  have cl := hcl a b (pointAt kw now) (hv1 ▸ La) (hv2 ▸ Rb) (hdist now).1 (hdist now).2
  have SA := safe_edgeSide R (E := E) (dir := .cw) (now := now) hl hv2 (o := (s.tri t).neighbours (e' + 1))
    (show (s.tri t).neighbours (e' + 2 + 2) = _ by rw [fin3_add_2_2])
    (fun n q j qj => (huA n q j qj).trans (fin3_add_2_2 e').symm) FA sv
    (s1 := s1) (mesh_once (mesh_same R.mesh nT1 (nV1 ▸ Nat.le_succ _) t1) v2) (fun x _ => by rw [t1]; exact ⟨rfl, rfl⟩)
    hkw hslow (Nat.le_of_eq hkv.symm) (hur.trans ub.symm) (other := (s.tri t).neighbours (e' + 2)) (fun q => by
      show SideView (viewOf s ((s.tri t).vertices (e' + 2 + 1))) (viewOf s1 kv)
      rw [fin3_add_2_1]
      obtain ⟨c1, -, l, c2, c3⟩ := R.side hl q
      rw [fin3_add_2_1] at c1 c2
      rw [fin3_add_2_2, hv1, ua] at c3
      exact ⟨c1, kw_kin, l, c2, hul.trans c3⟩) (fun T f am h => hE2 T f am (by
        change ∃ x, Substituted s .cw t (e' + 2 + 2) _ x v2 _ T at h
        rwa [fin3_add_2_2] at h)) (fun q r k pt hk => by
        refine cl r (pointAt k now) ?_ (.inl ⟨q, hv2 ▸ pt⟩)
        unfold placeAt; rw [hk])
  refine safe_bind SA.1 fun fanA s2 h3 => ?_
  obtain ⟨rfl, vA2, lA2, nA2, D⟩ := SA.2 fanA s2 h3
  have view2 : ∀ w, viewOf s2 w = viewOf s1 w := fun w => by unfold viewOf; rw [vA2, lA2, nA2]
  have SB := safe_edgeSide R (E := E) (dir := .ccw) (now := now) hl hv1 (o := (s.tri t).neighbours (e' + 2))
    (show (s.tri t).neighbours (e' + 1 + 1) = _ by rw [fin3_add_1_1])
    (fun n q j qj => (huB n q j qj).trans (fin3_add_1_1 e').symm) FB (fun w hw => (view2 w).trans (sv w hw))
    (s1 := s2) (once_none D (mesh_same R.mesh nT1 (nV1 ▸ Nat.le_succ _) t1) (by
      rw [hkv, ← hv1]; exact Nat.ne_of_lt (hb _))) (fun x hx => by
      cases q : (s.tri t).neighbours (e' + 1) with
      | none =>
        have := (D.nil q).2 x
        rw [t1] at this; exact this
      | some n =>
        obtain ⟨j, -, -, d1, d2, d3⟩ := D.cons n q
        have : x ∉ fanA := fun z => dis x z hx
        rw [d2, d3, if_neg this, if_neg (fun z : x = n => this (z ▸ FanWalk.head d1)), t1]
        exact ⟨rfl, rfl⟩)
    (w := kv) (by rw [vA2]; exact hkw) hslow (Nat.le_of_eq hkv.symm) (by rw [view2]; exact hul.trans ua.symm)
    (other := (s.tri t).neighbours (e' + 1)) (fun q => by
      show SideView (viewOf s2 kv) (viewOf s ((s.tri t).vertices (e' + 1 + 2)))
      rw [fin3_add_1_2, view2]
      obtain ⟨-, c1, l, c2, c3⟩ := R.side hl q
      rw [fin3_add_1_2] at c1 c3
      rw [fin3_add_1_1, hv2, ub] at c2
      exact ⟨kw_kin, c1, l, hur.trans c2, c3⟩) (fun T f am h => hE1 T f am (by
        change ∃ x, Substituted s .ccw t (e' + 1 + 1) _ x v1 _ T at h
        rw [view2, fin3_add_1_1] at h
        exact h))
      (fun q r k pt hk => by
        refine cl r (pointAt k now) ?_ (.inr ⟨q, hv1 ▸ pt⟩)
        unfold placeAt; rw [hk])
  refine safe_bind SB.1 fun fanB s3 h4 => ?_
  obtain ⟨rfl, vB3, -⟩ := SB.2 fanB s3 h4
  rw [hn]
  refine safe_bind (safe_pure _) fun _ s4 h5 => ?_
  obtain ⟨-, rfl⟩ := pure_run_ok.1 (show (pure () : M K Unit) _ = _ from h5)
  refine safe_bind (safe_stopTriangle _ _) fun _ s4 h6 => ?_
  obtain ⟨x1, x2, x3, x4⟩ := stopTriangle_fields h6
  unfold edgeFan nextFan
  have hk4 : s4.vert kv = .kin kw := by rw [x3, vB3, vA2]; exact hkw
  refine safe_bind (safe_bind (safe_getK ⟨kw, hk4⟩) fun k s5 h7 => ?_) fun o s5 h7 => ?_
  · split <;> exact safe_pure _
  · obtain ⟨k, s6, h8, h7⟩ := bind_run_ok.1 h7
    obtain ⟨-, hk5, rfl⟩ := getK_run_ok.1 h8
    rw [hk4] at hk5
    cases hk5
    rw [hslow] at h7
    obtain ⟨rfl, -⟩ := pure_run_ok.1 h7
    exact safe_pure _

end Grassfire
