/-
Progress of the event loop (lemmas for C87): stopping and creating vertices.
-/
import Verif.Proofs.ProgressFan
import Verif.Proofs.HandlerLemmas
import Verif.Proofs.InitTotal
import Verif.Spec.Progress

set_option linter.unusedSectionVars false

namespace Grassfire

open Spec

variable {K : Type} [Field K] [LinearOrder K] [IsStrictOrderedRing K]

variable {E : Err → Prop} {s : St K}

theorem safe_stopAndRecord {V : List VId} (hne : V ≠ []) (hnd : V.Nodup) (hV : ∀ v ∈ V, Stoppable s v) (step : ℤ)
    (now : K) (pos : Option (Pt K)) : Safe E (stopAndRecord V step now pos) s := by
  have hok : ∃ r s', stopKvertices V step now pos s = .ok (r, s') := by
    by_cases hex : ∃ v ∈ V, ∃ n, AtNode s now v n
    · obtain ⟨n, s', h, -⟩ := C29_existing_node V step now pos s hnd hV hex
      exact ⟨_, _, h⟩
    · have hp : ∀ v, ∃ p, v ∈ V → IsAt s now v p := by
        intro v
        by_cases hv : v ∈ V
        · obtain ⟨-, k, hk, -, hn, -⟩ := hV v hv
          cases hi : k.infFast with
          | false => exact ⟨_, fun _ => ⟨k, hk, .inl ⟨hi, rfl⟩⟩⟩
          | true =>
            obtain ⟨n, hn⟩ := Option.ne_none_iff_exists'.1 hn
            exact ⟨_, fun _ => ⟨k, hk, .inr ⟨hi, n, hn, rfl⟩⟩⟩
        · exact ⟨(0, 0), fun q => absurd q hv⟩
      choose p hp using hp
      obtain ⟨s', q, h, -⟩ := C29_new_node V hne step now pos s hnd hV (fun v hv n hn => hex ⟨v, hv, n, hn⟩) p
        (fun v hv => hp v hv)
      exact ⟨_, _, h⟩
  obtain ⟨r, s', h⟩ := hok
  refine safe_bind (safe_ok h) fun a s1 _ => safe_bind ?_ fun _ _ _ => safe_pure _
  intro e he
  unfold recordNode at he
  split_ifs at he <;> cases he

theorem Spec.Apart.not_opposed [HasTrig K] {l r : Line2 K} (h : Apart l r) : ¬ Opposed l r := by
  rintro (⟨h1, h2⟩ | h1 | h1)
  · rcases h.sum with q | q
    · exact absurd h1 (not_le.2 q)
    · exact absurd h2 (not_le.2 q)
  · exact absurd h1 (not_le.2 h.angle)
  · exact absurd h1 (not_lt.2 h.cos)

variable [HasSqrt K] [SqrtUnit K]

theorem safe_getBisector {l r : Line2 K} (hl : UnitNormal l) (hr : UnitNormal r) :
    Safe E (lift (getBisector l r) : M K _) s := by
  obtain ⟨b, h⟩ := getBisector_total hl hr
  refine safe_lift fun e he => ?_
  rw [h] at he
  cases he

theorem safe_tryIntersection {l r : Line2 K} (hl : UnitNormal l) (hr : UnitNormal r) (now : K) :
    Safe E (tryIntersection l r now : M K _) s := by
  intro e he
  unfold tryIntersection at he
  by_cases hd : 1 / 10 ^ 10 < |l.w.1 * r.w.2 - r.w.1 * l.w.2|
  · obtain ⟨b, p0, -, -, h⟩ := C13_wavefront_vertex l r hl hr hd
    obtain ⟨p, h, -⟩ := h now
    rw [h] at he
    cases he
  · rw [(C13_parallel_wavefronts l r now hl hr (not_lt.1 hd)).1] at he
    cases he

variable [HasTrig K]

theorem safe_computeNewKvertex {a b : LineId} (hl : UnitNormal (s.line a)) (hr : UnitNormal (s.line b))
    (h : Apart (s.line a) (s.line b)) (now : K) (node : NodeId) (info : ℕ) (internal : Bool) :
    Safe E (computeNewKvertex (some a) (some b) now node info internal) s := by
  by_cases hn : node < s.nN
  · obtain ⟨s', kv, h1, -⟩ := C30_on_both_wavefronts a b now node info internal s hn hl hr h.not_opposed h.cross
    exact safe_ok h1
  · unfold computeNewKvertex
    refine safe_bind (safe_getN _) fun nd s1 h1 => ?_
    exact absurd (getN_run_ok.1 h1).1 hn

/-- and what is made -/
theorem computeNewKvertex_slow {a b : LineId} (hl : UnitNormal (s.line a)) (hr : UnitNormal (s.line b))
    (h : Apart (s.line a) (s.line b)) {now : K} {node : NodeId} {info : ℕ} {internal : Bool} {v : VId} {s' : St K}
    (hrun : computeNewKvertex (some a) (some b) now node info internal s = .ok (v, s')) {k : KVertex K}
    (hk : s'.vert v = .kin k) : k.infFast = false := by
  by_contra hi
  rw [Bool.not_eq_false] at hi
  rcases (C30_inf_fast_iff a b now node info internal s s' v k hl hr hrun hk).1 hi with q | q
  · exact h.not_opposed q
  · exact q.1 h.cross

theorem safe_updateCirc {l r : Option VId} {now : K} (hl : ∀ x, l = some x → ∃ k, s.vert x = .kin k)
    (hr : ∀ x, r = some x → ∃ k, s.vert x = .kin k) : Safe E (updateCirc l r now) s := by
  refine safe_bind ?_ fun _ s1 h1 => ?_
  · cases l with
    | none => exact safe_pure _
    | some l => exact safe_modifyK (hl l rfl)
  · cases r with
    | none => exact safe_pure _
    | some r =>
      refine safe_modifyK ?_
      obtain ⟨k, hk⟩ := hr r rfl
      rcases setRight_run h1 with ⟨-, rfl⟩ | ⟨a, kv, -, ha, hka, rfl⟩
      · exact ⟨k, hk⟩
      · dsimp only
        by_cases q : r = a
        · subst q; exact ⟨_, Function.update_self _ _ _⟩
        · exact ⟨k, by rw [Function.update_of_ne q]; exact hk⟩

theorem safe_checkLinks {v l r : VId} {kv kl kr : KVertex K} (hv : s.vert v = .kin kv) (hl : kv.leftRef = some l)
    (hkl : s.vert l = .kin kl) (h1 : kv.wfl = kl.wfr) (hr : kv.rightRef = some r) (hkr : s.vert r = .kin kr)
    (h2 : kv.wfr = kr.wfl) : Safe E (checkLinks v) s := by
  unfold checkLinks
  refine safe_bind (safe_getK ⟨kv, hv⟩) fun k s1 g1 => ?_
  obtain ⟨-, g, rfl⟩ := getK_run_ok.1 g1
  rw [hv] at g; cases g
  refine safe_bind (safe_need ⟨l, hl⟩) fun x s1 g1 => ?_
  obtain ⟨g, rfl⟩ := need_run_ok.1 g1
  rw [hl] at g; cases g
  refine safe_bind (safe_getK ⟨kl, hkl⟩) fun k s1 g1 => ?_
  obtain ⟨-, g, rfl⟩ := getK_run_ok.1 g1
  rw [hkl] at g; cases g
  refine safe_bind (safe_assertM h1) fun _ s1 g1 => ?_
  obtain ⟨-, rfl⟩ := assertM_run_ok.1 g1
  refine safe_bind (safe_need ⟨r, hr⟩) fun x s1 g1 => ?_
  obtain ⟨g, rfl⟩ := need_run_ok.1 g1
  rw [hr] at g; cases g
  refine safe_bind (safe_getK ⟨kr, hkr⟩) fun k s1 g1 => ?_
  obtain ⟨-, g, rfl⟩ := getK_run_ok.1 g1
  rw [hkr] at g; cases g
  exact safe_assertM h2

omit [IsStrictOrderedRing K] [HasSqrt K] [SqrtUnit K] [HasTrig K] in
theorem stoppable_ne {v : VId} (h : Stoppable s v) : v < s.nV := h.1

variable {P : Line2 K → Prop}

theorem safe_edgeVertex {t : TId} {e : Fin 3} {now : K} {step : ℤ} (w : Waves P s) {v1 v2 l r : VId}
    (hv1 : (s.tri t).vertices (e + 1) = v1) (hv2 : (s.tri t).vertices (e + 2) = v2) (hne : v1 ≠ v2)
    (st1 : Stoppable s v1) (st2 : Stoppable s v2)
    (hslow : ∀ v k, v < s.nV → s.vert v = .kin k → k.infFast = false)
    (p12 : Points s v1 v2) (pl : Points s l v1) (pr : Points s v2 r) (hl2 : l ≠ v2)
    (hap : ∀ a b, LeftLine s v1 a → RightLine s v2 b → Apart a b) : Safe E (edgeVertex t e now step) s := by
  obtain ⟨k1, k2, b1, b2, hk1, hk2, q1, q2⟩ := p12
  obtain ⟨kl, k1', bl, -, hkl, hk1', ql1, ql2⟩ := pl
  obtain rfl : k1 = k1' := by rw [hk1] at hk1'; injection hk1'
  obtain ⟨k2', kr, -, br, hk2', hkr, qr1, qr2⟩ := pr
  obtain rfl : k2 = k2' := by rw [hk2] at hk2'; injection hk2'
  obtain ⟨-, kl', f, g1, g2, g3⟩ := w.leftRef b1 hk1 ql2
  obtain rfl : kl = kl' := by rw [hkl] at g1; injection g1
  obtain ⟨-, kr', g, g4, g5, g6⟩ := w.rightRef b2 hk2 qr1
  obtain rfl : kr = kr' := by rw [hkr] at g4; injection g4
  obtain ⟨-, k2'', h, g7, g8, g9⟩ := w.rightRef b1 hk1 q1
  obtain rfl : k2 = k2'' := by rw [hk2] at g7; injection g7
  have ul1 := (w.own v1 k1 b1 hk1).1 f g2
  have ur2 := (w.own v2 k2 b2 hk2).2 g g5
  have uf : UnitNormal (s.line (s.wfLine f)) := w.good _ (w.linesOf v1 k1 b1 hk1 _ (.inl ul1))
  have ug : UnitNormal (s.line (s.wfLine g)) := w.good _ (w.linesOf v2 k2 b2 hk2 _ (.inr ur2))
  have ap := hap _ _ ⟨k1, _, hk1, ul1, rfl⟩ ⟨k2, _, hk2, ur2, rfl⟩
  unfold edgeVertex
  refine safe_bind (safe_getT t) fun T s1 h1 => ?_
  obtain ⟨-, rfl, rfl⟩ := getT_run_ok.1 h1
  dsimp only
  rw [show (s.tri t).vertices (ccw e) = v1 from hv1, show (s.tri t).vertices (cw e) = v2 from hv2]
  refine safe_bind (safe_getK ⟨k1, hk1⟩) fun k s1 h1 => ?_
  obtain ⟨-, hh, rfl⟩ := getK_run_ok.1 h1
  rw [hk1] at hh; cases hh
  refine safe_bind (safe_getK ⟨k2, hk2⟩) fun k s1 h1 => ?_
  obtain ⟨-, hh, rfl⟩ := getK_run_ok.1 h1
  rw [hk2] at hh; cases hh
  refine safe_bind (safe_assertM fun _ => q1) fun _ s1 h1 => ?_
  obtain ⟨-, rfl⟩ := assertM_run_ok.1 h1
  refine safe_bind (safe_assertM fun _ => q2) fun _ s1 h1 => ?_
  obtain ⟨-, rfl⟩ := assertM_run_ok.1 h1
  refine safe_bind (safe_assertM fun _ => by rw [g8, g9]) fun _ s1 h1 => ?_
  obtain ⟨-, rfl⟩ := assertM_run_ok.1 h1
  refine safe_bind (safe_need ⟨f, g2⟩) fun a s1 h1 => ?_
  obtain ⟨hh, rfl⟩ := need_run_ok.1 h1
  rw [g2] at hh; cases hh
  refine safe_bind (safe_need ⟨g, g5⟩) fun a s1 h1 => ?_
  obtain ⟨hh, rfl⟩ := need_run_ok.1 h1
  rw [g5] at hh; cases hh
  refine safe_bind (safe_getWfLine _) fun a s1 h1 => ?_
  obtain ⟨rfl, rfl⟩ := getWfLine_run_ok.1 h1
  refine safe_bind (safe_getWfLine _) fun a s1 h1 => ?_
  obtain ⟨rfl, rfl⟩ := getWfLine_run_ok.1 h1
  refine safe_bind (safe_getBisector uf ug) fun a s1 h1 => ?_
  obtain ⟨-, rfl⟩ := lift_run_ok.1 h1
  refine safe_bind (safe_tryIntersection uf ug now) fun pos s1 hpos => ?_
  have hs1 : s1 = s := by
    unfold tryIntersection at hpos
    split at hpos <;> simp at hpos
    · exact hpos.2.symm
    · exact hpos.2.symm
  subst hs1
  refine safe_bind (safe_stopAndRecord (by simp) (by simpa using hne) (by
    intro v hv
    rcases List.mem_cons.1 hv with rfl | hv
    · exact st1
    · rw [List.mem_singleton] at hv; subst hv; exact st2) _ _ _) fun node s2 hstop => ?_
  obtain ⟨vs, es, -⟩ := stopAndRecord_exact hstop
  have e_line : s2.line = s1.line := by rw [es]
  have e_nV : s2.nV = s1.nV := by rw [es]
  have kept : ∀ x kx, s1.vert x = .kin kx → ∃ kx', s2.vert x = .kin kx' ∧ kx'.leftRef = kx.leftRef ∧
      kx'.rightRef = kx.rightRef ∧ kx'.wfl = kx.wfl ∧ kx'.wfr = kx.wfr ∧ kx'.infFast = kx.infFast := by
    intro x kx hx
    have := vs x
    rw [hx] at this
    dsimp only at this
    refine ⟨_, this, ?_⟩
    split_ifs <;> exact ⟨rfl, rfl, rfl, rfl, rfl⟩
  refine safe_bind safe_countVertices fun ct s3 h3 => ?_
  obtain ⟨rfl, rfl⟩ := countVertices_run_ok.1 h3
  rw [ul1, ur2]
  refine safe_bind (safe_computeNewKvertex (by rw [e_line]; exact uf) (by rw [e_line]; exact ug)
    (by rw [e_line]; exact ap) _ _ _ _) fun kv s3 hnew => ?_
  obtain ⟨rfl, kn, rfl, -, -, -, -, -, -, -, -, kn1, kn2, -⟩ := C30_attributes _ _ _ _ _ _ _ _ _ hnew
  refine safe_bind (safe_modifyK ⟨kn, Function.update_self _ _ _⟩) fun _ s4 h4 => ?_
  obtain ⟨-, kn', hkn', rfl⟩ := modifyK_run_ok.1 h4
  dsimp only at hkn'
  rw [Function.update_self] at hkn'
  cases hkn'
  have ne : ∀ x, x < s1.nV → x ≠ s2.nV := fun x hx => Nat.ne_of_lt (e_nV ▸ hx)
  obtain ⟨k1', hk1', c1, c2, c3, c4, c5⟩ := kept v1 k1 hk1
  obtain ⟨k2', hk2', d1, d2, d3, d4, d5⟩ := kept v2 k2 hk2
  obtain ⟨kl', hkl', e1, e2, e3, e4, e5⟩ := kept l kl hkl
  obtain ⟨kr', hkr', r1, r2, r3, r4, r5⟩ := kept r kr hkr
  refine safe_bind (safe_getK ⟨k1', ?_⟩) fun k s5 h5 => ?_
  · dsimp only
    rw [Function.update_of_ne (ne v1 b1), Function.update_of_ne (ne v1 b1)]
    exact hk1'
  obtain ⟨-, hh, rfl⟩ := getK_run_ok.1 h5
  dsimp only at hh
  rw [Function.update_of_ne (ne v1 b1), Function.update_of_ne (ne v1 b1), hk1'] at hh
  cases hh
  refine safe_bind (safe_evalPosition fun x hx k hk => ?_) fun _ s5 h5 => ?_
  · rw [c1, ql2] at hx
    cases hx
    dsimp only at hk
    rw [Function.update_of_ne (ne l bl), Function.update_of_ne (ne l bl), hkl'] at hk
    cases hk
    rw [e5]
    exact hslow l kl bl hkl
  obtain rfl := evalPosition_ok h5
  refine safe_bind (safe_getK ⟨k2', ?_⟩) fun k s5 h5 => ?_
  · dsimp only
    rw [Function.update_of_ne (ne v2 b2), Function.update_of_ne (ne v2 b2)]
    exact hk2'
  obtain ⟨-, hh, rfl⟩ := getK_run_ok.1 h5
  dsimp only at hh
  rw [Function.update_of_ne (ne v2 b2), Function.update_of_ne (ne v2 b2), hk2'] at hh
  cases hh
  refine safe_bind (safe_evalPosition fun x hx k hk => ?_) fun _ s5 h5 => ?_
  · rw [d2, qr1] at hx
    cases hx
    dsimp only at hk
    rw [Function.update_of_ne (ne r br), Function.update_of_ne (ne r br), hkr'] at hk
    cases hk
    rw [r5]
    exact hslow r kr br hkr
  obtain rfl := evalPosition_ok h5
  refine safe_bind (safe_appendVertex _) fun _ s5 h5 => ?_
  obtain rfl := appendVertex_run_ok.1 h5
  rw [c1, ql2]
  refine safe_bind (safe_updateCirc (fun x hx => ?_) (fun x hx => ?_)) fun _ s6 h6 => ?_
  · cases hx
    exact ⟨kl', by dsimp only; rw [Function.update_of_ne (ne l bl), Function.update_of_ne (ne l bl)]; exact hkl'⟩
  · cases hx
    exact ⟨_, Function.update_self _ _ _⟩
  obtain ⟨es6, v6⟩ := updateCirc_vertex h6
  have lne : (some l : Option VId) ≠ some s2.nV := fun q => ne l bl (Option.some.inj q)
  have a2 := v6 v2
  dsimp only at a2
  rw [Function.update_of_ne (ne v2 b2), Function.update_of_ne (ne v2 b2), hk2'] at a2
  dsimp only at a2
  rw [if_neg (fun q => hl2 (Option.some.inj q)), if_neg (fun q => ne v2 b2 (Option.some.inj q).symm)] at a2
  have an := v6 s2.nV
  dsimp only at an
  rw [Function.update_self] at an
  dsimp only at an
  rw [if_neg lne, if_pos rfl] at an
  have al := v6 l
  dsimp only at al
  rw [Function.update_of_ne (ne l bl), Function.update_of_ne (ne l bl), hkl'] at al
  dsimp only at al
  have ar := v6 r
  dsimp only at ar
  rw [Function.update_of_ne (ne r br), Function.update_of_ne (ne r br), hkr'] at ar
  dsimp only at ar
  refine safe_bind (safe_getK ⟨_, a2⟩) fun k s7 h7 => ?_
  obtain ⟨-, hh, rfl⟩ := getK_run_ok.1 h7
  rw [a2] at hh
  cases hh
  have hrr : ({ k2' with right := k2'.right, left := k2'.left } : KVertex K).rightRef = some r := by
    rw [← qr1, ← d2]
  rw [hrr]
  refine safe_bind (safe_updateCirc (fun x hx => ?_) (fun x hx => ?_)) fun _ s8 h8 => ?_
  · cases hx; exact ⟨_, an⟩
  · cases hx; exact ⟨_, ar⟩
  obtain ⟨es8, v8⟩ := updateCirc_vertex h8
  have rne : (some r : Option VId) ≠ some s2.nV := fun q => ne r br (Option.some.inj q)
  have bn := v8 s2.nV
  rw [an] at bn
  dsimp only at bn
  rw [if_pos rfl, if_neg rne] at bn
  have bl' := v8 l
  rw [al] at bl'
  dsimp only at bl'
  have br' := v8 r
  rw [ar] at br'
  dsimp only at br'
  refine safe_bind (safe_checkLinks bn ?_ bl' ?_ ?_ br' ?_) fun _ s9 h9 => safe_pure _
  · unfold KVertex.leftRef
    dsimp only
    rw [hist_last_set]
    rfl
  · dsimp only
    rw [g2, e4, g3]
  · unfold KVertex.rightRef
    dsimp only
    rw [hist_last_set]
    rfl
  · dsimp only
    rw [g5, r3, g6]

theorem safe_splitChecks {v v1 v2 l r : VId} {now : K} (w : Waves P s) (p12 : Points s v1 v2) (pl : Points s l v)
    (pr : Points s v r) : Safe E (splitChecks v v1 v2 now) s := by
  obtain ⟨k1, k2, b1, b2, hk1, hk2, q1, q2⟩ := p12
  obtain ⟨kl, k, bl, b, hkl, hk, ql1, ql2⟩ := pl
  obtain ⟨k', kr, -, br, hk', hkr, qr1, qr2⟩ := pr
  obtain rfl : k = k' := by rw [hk] at hk'; injection hk'
  obtain ⟨-, kl', f, g1, g2, g3⟩ := w.leftRef b hk ql2
  obtain ⟨-, kr', g, g4, g5, g6⟩ := w.rightRef b hk qr1
  obtain ⟨-, k2'', h, g7, g8, g9⟩ := w.rightRef b1 hk1 q1
  obtain rfl : k2 = k2'' := by rw [hk2] at g7; injection g7
  have uf : UnitNormal (s.line (s.wfLine f)) := w.good _ (w.linesOf v k b hk _ (.inl ((w.own v k b hk).1 f g2)))
  have ug : UnitNormal (s.line (s.wfLine g)) := w.good _ (w.linesOf v k b hk _ (.inr ((w.own v k b hk).2 g g5)))
  have uh : UnitNormal (s.line (s.wfLine h)) := w.good _ (w.linesOf v1 k1 b1 hk1 _ (.inr ((w.own v1 k1 b1 hk1).2 h g8)))
  unfold splitChecks
  refine safe_bind (safe_getK ⟨k1, hk1⟩) fun k s1 h1 => ?_
  obtain ⟨-, hh, rfl⟩ := getK_run_ok.1 h1
  rw [hk1] at hh; cases hh
  refine safe_bind (safe_getK ⟨k2, hk2⟩) fun k s1 h1 => ?_
  obtain ⟨-, hh, rfl⟩ := getK_run_ok.1 h1
  rw [hk2] at hh; cases hh
  refine safe_bind (safe_assertM (by rw [g8, g9])) fun _ s1 h1 => ?_
  obtain ⟨-, rfl⟩ := assertM_run_ok.1 h1
  refine safe_bind (safe_getK ⟨_, hk⟩) fun k s1 h1 => ?_
  obtain ⟨-, hh, rfl⟩ := getK_run_ok.1 h1
  rw [hk] at hh; cases hh
  refine safe_bind (safe_need ⟨g, g5⟩) fun a s1 h1 => ?_
  obtain ⟨hh, rfl⟩ := need_run_ok.1 h1
  rw [g5] at hh; cases hh
  refine safe_bind (safe_need ⟨h, g8⟩) fun a s1 h1 => ?_
  obtain ⟨hh, rfl⟩ := need_run_ok.1 h1
  rw [g8] at hh; cases hh
  refine safe_bind (safe_getWfLine _) fun a s1 h1 => ?_
  obtain ⟨rfl, rfl⟩ := getWfLine_run_ok.1 h1
  refine safe_bind (safe_getWfLine _) fun a s1 h1 => ?_
  obtain ⟨rfl, rfl⟩ := getWfLine_run_ok.1 h1
  refine safe_bind (safe_getBisector ug uh) fun a s1 h1 => ?_
  obtain ⟨-, rfl⟩ := lift_run_ok.1 h1
  refine safe_bind (safe_need ⟨f, g2⟩) fun a s1 h1 => ?_
  obtain ⟨hh, rfl⟩ := need_run_ok.1 h1
  rw [g2] at hh; cases hh
  refine safe_bind (safe_getWfLine _) fun a s1 h1 => ?_
  obtain ⟨rfl, rfl⟩ := getWfLine_run_ok.1 h1
  refine safe_bind (safe_getBisector ug uf) fun a s1 h1 => ?_
  obtain ⟨-, rfl⟩ := lift_run_ok.1 h1
  refine safe_bind (safe_tryIntersection ug uh now) fun _ s1 h1 => ?_
  refine safe_bind (safe_tryIntersection ug uf now) fun _ s1 h1 => ?_
  refine safe_bind (safe_tryIntersection uh uf now) fun _ s1 h1 => safe_pure _

theorem safe_splitLinks {s : St K} {v v1 v2 vb va l r : VId} {now : K} {k k1 k2 kl kr kb ka : KVertex K}
    (hk : s.vert v = .kin k) (hk1 : s.vert v1 = .kin k1) (hk2 : s.vert v2 = .kin k2) (hkl : s.vert l = .kin kl)
    (hkr : s.vert r = .kin kr) (hka : s.vert va = .kin ka) (hkb : s.vert vb = .kin kb) (ne : v ≠ vb) (ne' : v ≠ va)
    (nlb : l ≠ vb) (nra : r ≠ va) (n1a : v1 ≠ va) (n2b : v2 ≠ vb) (n1 : v1 ≠ v) (n2 : v2 ≠ v) (nl : l ≠ v) (hr : k.rightRef = some r)
    (w1 : kb.wfl = kl.wfr) (w2 : kb.wfr = k2.wfl) (w3 : ka.wfl = k1.wfr) (w4 : ka.wfr = kr.wfl) :
    Safe E (do
      updateCirc (some l) (some vb) now
      updateCirc (some vb) (some v2) now
      checkLinks vb
      updateCirc (some v1) (some va) now
      let k ← getK v
      updateCirc (some va) k.rightRef now
      checkLinks va
      pure (vb, va)) s := by
  have some_ne : ∀ {a b : VId}, a ≠ b → (some a : Option VId) ≠ some b := fun h q => h (Option.some.inj q)
  refine safe_bind (safe_updateCirc (fun x hx => ?_) (fun x hx => ?_)) fun _ s1 h1 => ?_
  · cases hx; exact ⟨_, hkl⟩
  · cases hx; exact ⟨_, hkb⟩
  obtain ⟨-, u⟩ := updateCirc_vertex h1
  have xb := u vb
  rw [hkb] at xb
  dsimp only at xb
  rw [if_neg (some_ne nlb), if_pos rfl] at xb
  have xv := u v
  rw [hk] at xv
  dsimp only at xv
  rw [if_neg (some_ne nl), if_neg (some_ne ne.symm)] at xv
  have x1 := u v1
  rw [hk1] at x1
  dsimp only at x1
  have x2 := u v2
  rw [hk2] at x2
  dsimp only at x2
  have xl := u l
  rw [hkl] at xl
  dsimp only at xl
  have xr := u r
  rw [hkr] at xr
  dsimp only at xr
  have xa := u va
  rw [hka] at xa
  dsimp only at xa
  refine safe_bind (safe_updateCirc (fun x hx => ?_) (fun x hx => ?_)) fun _ s2 h2 => ?_
  · cases hx; exact ⟨_, xb⟩
  · cases hx; exact ⟨_, x2⟩
  obtain ⟨-, u⟩ := updateCirc_vertex h2
  have yb := u vb
  rw [xb] at yb
  dsimp only at yb
  rw [if_pos rfl, if_neg (some_ne n2b)] at yb
  have yv := u v
  rw [xv] at yv
  dsimp only at yv
  rw [if_neg (some_ne ne.symm), if_neg (some_ne n2)] at yv
  have y1 := u v1
  rw [x1] at y1
  dsimp only at y1
  have y2 := u v2
  rw [x2] at y2
  dsimp only at y2
  have yl := u l
  rw [xl] at yl
  dsimp only at yl
  have yr := u r
  rw [xr] at yr
  dsimp only at yr
  have ya := u va
  rw [xa] at ya
  dsimp only at ya
  clear x1 x2 xl xr xa xb xv
  refine safe_bind (safe_checkLinks yb ?_ yl w1 ?_ y2 w2) fun _ s3 h3 => ?_
  · unfold KVertex.leftRef
    dsimp only
    rw [hist_last_set]
    rfl
  · unfold KVertex.rightRef
    dsimp only
    rw [hist_last_set]
    rfl
  obtain rfl := (checkLinks_ok h3).1
  refine safe_bind (safe_updateCirc (fun x hx => ?_) (fun x hx => ?_)) fun _ s4 h4 => ?_
  · cases hx; exact ⟨_, y1⟩
  · cases hx; exact ⟨_, ya⟩
  obtain ⟨-, u⟩ := updateCirc_vertex h4
  have xa := u va
  rw [ya] at xa
  dsimp only at xa
  rw [if_neg (some_ne n1a), if_pos rfl] at xa
  have xv := u v
  rw [yv] at xv
  dsimp only at xv
  rw [if_neg (some_ne n1), if_neg (some_ne ne'.symm)] at xv
  have x1 := u v1
  rw [y1] at x1
  dsimp only at x1
  have xr := u r
  rw [yr] at xr
  dsimp only at xr
  clear y1 y2 yl yr ya yb yv
  refine safe_bind (safe_getK ⟨_, xv⟩) fun x s5 h5 => ?_
  obtain ⟨-, hh, rfl⟩ := getK_run_ok.1 h5
  rw [xv] at hh
  cases hh
  have hrr : ({ k with right := k.right, left := k.left } : KVertex K).rightRef = some r := hr
  rw [hrr]
  refine safe_bind (safe_updateCirc (fun x hx => ?_) (fun x hx => ?_)) fun _ s6 h6 => ?_
  · cases hx; exact ⟨_, xa⟩
  · cases hx; exact ⟨_, xr⟩
  obtain ⟨-, u⟩ := updateCirc_vertex h6
  have ya := u va
  rw [xa] at ya
  dsimp only at ya
  rw [if_pos rfl, if_neg (some_ne nra)] at ya
  have y1 := u v1
  rw [x1] at y1
  dsimp only at y1
  have yr := u r
  rw [xr] at yr
  dsimp only at yr
  refine safe_bind (safe_checkLinks ya ?_ y1 w3 ?_ yr w4) fun _ s7 h7 => safe_pure _
  · unfold KVertex.leftRef
    dsimp only
    rw [hist_last_set]
    rfl
  · unfold KVertex.rightRef
    dsimp only
    rw [hist_last_set]
    rfl

theorem safe_splitVertices {v v1 v2 l r : VId} {now : K} {step : ℤ} (w : Waves P s) (n1 : v1 ≠ v) (n2 : v2 ≠ v)
    (nl : l ≠ v) (st : Stoppable s v) (p12 : Points s v1 v2) (pl : Points s l v) (pr : Points s v r)
    (hapb : ∀ a b, LeftLine s v a → LeftLine s v2 b → Apart a b)
    (hapa : ∀ a b, RightLine s v1 a → RightLine s v b → Apart a b) : Safe E (splitVertices v v1 v2 now step) s := by
  obtain ⟨k1, k2, b1, b2, hk1, hk2, q1, q2⟩ := p12
  obtain ⟨kl, k, bl, b, hkl, hk, ql1, ql2⟩ := pl
  obtain ⟨k', kr, -, br, hk', hkr, qr1, qr2⟩ := pr
  obtain rfl : k = k' := by rw [hk] at hk'; injection hk'
  obtain ⟨-, kl', f, g1, g2, g3⟩ := w.leftRef b hk ql2
  obtain rfl : kl = kl' := by rw [hkl] at g1; injection g1
  obtain ⟨-, kr', g, g4, g5, g6⟩ := w.rightRef b hk qr1
  obtain rfl : kr = kr' := by rw [hkr] at g4; injection g4
  obtain ⟨-, k2'', h, g7, g8, g9⟩ := w.rightRef b1 hk1 q1
  obtain rfl : k2 = k2'' := by rw [hk2] at g7; injection g7
  have ulv := (w.own v k b hk).1 f g2
  have urv := (w.own v k b hk).2 g g5
  have ur1 := (w.own v1 k1 b1 hk1).2 h g8
  have ul2 := (w.own v2 k2 b2 hk2).1 h g9
  have uf : UnitNormal (s.line (s.wfLine f)) := w.good _ (w.linesOf v k b hk _ (.inl ulv))
  have ug : UnitNormal (s.line (s.wfLine g)) := w.good _ (w.linesOf v k b hk _ (.inr urv))
  have uh : UnitNormal (s.line (s.wfLine h)) := w.good _ (w.linesOf v1 k1 b1 hk1 _ (.inr ur1))
  have apb := hapb _ _ ⟨k, _, hk, ulv, rfl⟩ ⟨k2, _, hk2, ul2, rfl⟩
  have apa := hapa _ _ ⟨k1, _, hk1, ur1, rfl⟩ ⟨k, _, hk, urv, rfl⟩
  unfold splitVertices
  refine safe_bind (safe_stopAndRecord (by simp) (by simp) (by
    intro x hx
    rw [List.mem_singleton] at hx; subst hx; exact st) _ _ _) fun node s2 hstop => ?_
  obtain ⟨vs, es, -⟩ := stopAndRecord_exact hstop
  have e_line : s2.line = s.line := by rw [es]
  have e_nV : s2.nV = s.nV := by rw [es]
  have kept : ∀ x kx, s.vert x = .kin kx → ∃ kx', s2.vert x = .kin kx' ∧ kx'.leftRef = kx.leftRef ∧
      kx'.rightRef = kx.rightRef ∧ kx'.wfl = kx.wfl ∧ kx'.wfr = kx.wfr ∧ kx'.ul = kx.ul ∧ kx'.ur = kx.ur := by
    intro x kx hx
    have := vs x
    rw [hx] at this
    dsimp only at this
    refine ⟨_, this, ?_⟩
    split_ifs <;> exact ⟨rfl, rfl, rfl, rfl, rfl, rfl⟩
  obtain ⟨k', hk', c1, c2, c3, c4, c5, c6⟩ := kept v k hk
  obtain ⟨k1', hk1', d1, d2, d3, d4, d5, d6⟩ := kept v1 k1 hk1
  obtain ⟨k2', hk2', e1, e2, e3, e4, e5, e6⟩ := kept v2 k2 hk2
  obtain ⟨kl', hkl', l1, l2, l3, l4, l5, l6⟩ := kept l kl hkl
  obtain ⟨kr', hkr', r1, r2, r3, r4, r5, r6⟩ := kept r kr hkr
  refine safe_bind (safe_getK ⟨k', hk'⟩) fun x s3 h3 => ?_
  obtain ⟨-, hh, rfl⟩ := getK_run_ok.1 h3
  rw [hk'] at hh; cases hh
  refine safe_bind (safe_getK ⟨k1', hk1'⟩) fun x s3 h3 => ?_
  obtain ⟨-, hh, rfl⟩ := getK_run_ok.1 h3
  rw [hk1'] at hh; cases hh
  refine safe_bind (safe_getK ⟨k2', hk2'⟩) fun x s3 h3 => ?_
  obtain ⟨-, hh, rfl⟩ := getK_run_ok.1 h3
  rw [hk2'] at hh; cases hh
  rw [c1, ql2, c3, c4, c5, c6, d4, d6, e3, e5, ulv, urv, ur1, ul2]
  refine safe_bind (safe_assertM rfl) fun _ s3 h3 => ?_
  obtain ⟨-, rfl⟩ := assertM_run_ok.1 h3
  refine safe_bind safe_countVertices fun ct s3 h3 => ?_
  obtain ⟨rfl, rfl⟩ := countVertices_run_ok.1 h3
  refine safe_bind (safe_computeNewKvertex (by rw [e_line]; exact uf) (by rw [e_line]; exact uh)
    (by rw [e_line]; exact apb) _ _ _ _) fun vb s4 hnew => ?_
  obtain ⟨rfl, kb, rfl, -, -, -, -, -, -, -, -, kb1, kb2, -⟩ := C30_attributes _ _ _ _ _ _ _ _ _ hnew
  refine safe_bind (safe_modifyK ⟨kb, Function.update_self _ _ _⟩) fun _ s4 h4 => ?_
  obtain ⟨-, kb', hkb', rfl⟩ := modifyK_run_ok.1 h4
  dsimp only at hkb'
  rw [Function.update_self] at hkb'
  cases hkb'
  refine safe_bind (safe_appendVertex _) fun _ s4 h5 => ?_
  obtain rfl := appendVertex_run_ok.1 h5
  refine safe_bind safe_countVertices fun ct s4 h4 => ?_
  obtain ⟨rfl, rfl⟩ := countVertices_run_ok.1 h4
  refine safe_bind (safe_computeNewKvertex (by dsimp only; rw [e_line]; exact uh) (by dsimp only; rw [e_line]; exact ug)
    (by dsimp only; rw [e_line]; exact apa) _ _ _ _) fun va s4 hnew => ?_
  obtain ⟨rfl, ka, rfl, -, -, -, -, -, -, -, -, ka1, ka2, -⟩ := C30_attributes _ _ _ _ _ _ _ _ _ hnew
  refine safe_bind (safe_modifyK ⟨ka, Function.update_self _ _ _⟩) fun _ s4 h4 => ?_
  obtain ⟨-, ka', hka', rfl⟩ := modifyK_run_ok.1 h4
  dsimp only at hka'
  rw [Function.update_self] at hka'
  cases hka'
  refine safe_bind (safe_appendVertex _) fun _ s4 h5 => ?_
  obtain rfl := appendVertex_run_ok.1 h5
  dsimp only
  have ne : ∀ x, x < s.nV → x ≠ s2.nV := fun x hx => Nat.ne_of_lt (e_nV ▸ hx)
  have ne' : ∀ x, x < s.nV → x ≠ s2.nV + 1 := fun x hx => Nat.ne_of_lt (Nat.lt_succ_of_lt (e_nV ▸ hx))
  have nn : s2.nV ≠ s2.nV + 1 := Nat.ne_of_lt (Nat.lt_succ_self _)
  refine safe_splitLinks (v := v) (kb := { kb with wfl := k.wfl, wfr := k2.wfl }) (k := k') (k1 := k1') (k2 := k2')
    (kl := kl') (kr := kr') ?_ ?_ ?_ ?_ ?_
    (Function.update_self _ _ _) ?_ (ne v b) (ne' v b) (ne l bl) (ne' r br) (ne' v1 b1) (ne v2 b2) n1 n2 nl (c2.trans qr1) ?_ ?_ ?_ ?_
  all_goals dsimp only
  · rw [Function.update_of_ne (ne' v b), Function.update_of_ne (ne' v b), Function.update_of_ne (ne v b),
      Function.update_of_ne (ne v b), hk']
  · rw [Function.update_of_ne (ne' v1 b1), Function.update_of_ne (ne' v1 b1), Function.update_of_ne (ne v1 b1),
      Function.update_of_ne (ne v1 b1), hk1']
  · rw [Function.update_of_ne (ne' v2 b2), Function.update_of_ne (ne' v2 b2), Function.update_of_ne (ne v2 b2),
      Function.update_of_ne (ne v2 b2), hk2']
  · rw [Function.update_of_ne (ne' l bl), Function.update_of_ne (ne' l bl), Function.update_of_ne (ne l bl),
      Function.update_of_ne (ne l bl), hkl']
  · rw [Function.update_of_ne (ne' r br), Function.update_of_ne (ne' r br), Function.update_of_ne (ne r br),
      Function.update_of_ne (ne r br), hkr']
  · rw [Function.update_of_ne nn, Function.update_of_ne nn, Function.update_self]
  · rw [l4, g2, g3]
  · rw [e3]
  · rw [d4]
  · rw [r3, g5, g6]

end Grassfire
