/-
What the handlers for infinitely fast vertices stop, and where (lemmas for C73).
-/
import Verif.Proofs.HandlerLemmas
import Verif.Proofs.Still
import Verif.Proofs.FlipLemmas

set_option linter.unusedSectionVars false

namespace Grassfire

open Spec

variable {K : Type} [Field K] [LinearOrder K]

/-- first loop: a node that is found is the start or the end of one of the vertices -/
theorem stopScan_origin {now : K} {V : List VId} {acc r : Option NodeId} {s s' : St K}
    (h : stopScan now V acc s = .ok (r, s')) :
    s' = { s with vert := s'.vert } ∧
    (∀ w, match s.vert w with
      | .inf o => s'.vert w = .inf o
      | .kin k => ∃ x, s'.vert w = .kin { k with stopsAt := x }) ∧
    (∀ n, r = some n → acc = some n ∨
      ∃ v ∈ V, ∃ k, s.vert v = .kin k ∧ (k.startNode = some n ∨ k.stopNode = some n)) := by
  induction V generalizing acc s with
  | nil =>
    obtain ⟨rfl, rfl⟩ := pure_run_ok.1 h
    refine ⟨rfl, fun w => ?_, fun n hn => .inl hn⟩
    cases hw : s.vert w with
    | inf o => rfl
    | kin k => exact ⟨k.stopsAt, rfl⟩
  | cons v vs ih =>
    unfold stopScan at h
    obtain ⟨k, s1, h1, h⟩ := bind_run_ok.1 h
    obtain ⟨hv, hk, rfl⟩ := getK_run_ok.1 h1
    obtain ⟨st, s1, h1, h⟩ := bind_run_ok.1 h
    obtain ⟨-, rfl⟩ := needNum_run_ok.1 h1
    split_ifs at h with c1 c2
    · obtain ⟨a, b, c⟩ := ih h
      refine ⟨a, b, fun n hn => .inr ?_⟩
      rcases c n hn with c | ⟨x, hx, d⟩
      · exact ⟨v, by simp, k, hk, .inr c⟩
      · exact ⟨x, by simp [hx], d⟩
    · obtain ⟨a, b, c⟩ := ih h
      refine ⟨a, b, fun n hn => .inr ?_⟩
      rcases c n hn with c | ⟨x, hx, d⟩
      · exact ⟨v, by simp, k, hk, .inl c⟩
      · exact ⟨x, by simp [hx], d⟩
    · obtain ⟨_, s1, h1, h⟩ := bind_run_ok.1 h
      obtain ⟨-, k0, hk0, rfl⟩ := modifyK_run_ok.1 h1
      rw [hk] at hk0; injection hk0 with hk0; subst hk0
      obtain ⟨a, b, c⟩ := ih h
      dsimp only at a b c
      refine ⟨a, fun w => ?_, fun n hn => ?_⟩
      · have := b w
        by_cases e : w = v
        · subst e
          rw [Function.update_self] at this
          obtain ⟨x, hx⟩ := this
          rw [hk]
          exact ⟨x, hx⟩
        · rwa [Function.update_of_ne e] at this
      · rcases c n hn with c | ⟨x, hx, d⟩
        · exact .inl c
        · obtain ⟨kx, d1, d2⟩ := d
          refine .inr ⟨x, by simp [hx], ?_⟩
          by_cases e : x = v
          · subst e
            rw [Function.update_self] at d1
            injection d1 with d1
            subst d1
            exact ⟨k, hk, d2⟩
          · rw [Function.update_of_ne e] at d1
            exact ⟨kx, d1, d2⟩

/-- a place is what `position_at` delivers -/
theorem place_positionAt {s s1 : St K} {now : K} {v : VId} {p q : Pt K} {s2 : St K} (hp : Place s now v p)
    (hn : s1.node = s.node)
    (hv : match s.vert v with
      | .inf o => s1.vert v = .inf o
      | .kin k => ∃ x, s1.vert v = .kin { k with stopsAt := x })
    (h : positionAt v now s1 = .ok (q, s2)) : q = p := by
  obtain ⟨k, hk, p1, p2⟩ := hp
  rw [hk] at hv
  obtain ⟨x, hv⟩ := hv
  obtain ⟨-, hq, -⟩ := positionAt_run_ok.1 h
  rw [hv] at hq
  simp only [Vertex.positionAt] at hq
  cases hi : k.infFast with
  | false =>
    rw [hi] at hq
    simp only [if_true, Except.ok.injEq] at hq
    rw [p1 hi, ← hq]
  | true =>
    obtain ⟨n, hn1, hn2⟩ := p2 hi
    rw [hi, hn1, hn] at hq
    simp only [Bool.true_eq_false, if_false, Except.ok.injEq] at hq
    rw [hn2, ← hq]

theorem place_unique {s : St K} {now : K} {v : VId} {p q : Pt K} (hp : Place s now v p) (hq : Place s now v q) :
    p = q := by
  obtain ⟨k, hk, p1, p2⟩ := hp
  obtain ⟨k', hk', q1, q2⟩ := hq
  rw [hk] at hk'; injection hk' with hk'; subst hk'
  cases hi : k.infFast with
  | false => rw [p1 hi, q1 hi]
  | true =>
    obtain ⟨n, a, b⟩ := p2 hi
    obtain ⟨m, c, d⟩ := q2 hi
    rw [a] at c; injection c with c; subst c
    rw [b, d]

/-- all of `positionAt` over a list -/
theorem mapEach_place {s s1 s2 : St K} {now : K} {V : List VId} {l : List (Pt K)}
    (hn : s1.node = s.node)
    (hv : ∀ w, match s.vert w with
      | .inf o => s1.vert w = .inf o
      | .kin k => ∃ x, s1.vert w = .kin { k with stopsAt := x })
    (h : mapEach (fun v => positionAt v now) V s1 = .ok (l, s2)) (P : List (Pt K))
    (hP : List.Forall₂ (Place s now) V P) : l = P := by
  induction hP generalizing l s2 with
  | nil =>
    simp only [mapEach] at h
    exact (pure_run_ok.1 h).1.symm
  | cons hvp _ ih =>
    simp only [mapEach] at h
    obtain ⟨y, s3, h3, h⟩ := bind_run_ok.1 h
    have := place_positionAt hvp hn (hv _) h3
    obtain ⟨-, -, rfl⟩ := positionAt_run_ok.1 h3
    obtain ⟨ys, s4, h4, h⟩ := bind_run_ok.1 h
    obtain ⟨rfl, rfl⟩ := pure_run_ok.1 h
    rw [this, ih h4]

/-- the node at which vertices are stopped -/
theorem stopAndRecord_meet {V : List VId} {step : ℤ} {now : K} {s s' : St K} {n : NodeId}
    (h : stopAndRecord V step now none s = .ok (n, s')) (P : List (Pt K)) (p : Pt K)
    (hP : List.Forall₂ (Place s now) V P) (hp : averagePos P = .ok p) : MeetAt s s' V p n := by
  obtain ⟨-, -, ho, -⟩ := stopAndRecord_exact h
  refine ⟨ho, ?_⟩
  unfold stopAndRecord at h
  obtain ⟨⟨m, new⟩, s1, h1, h⟩ := bind_run_ok.1 h
  obtain ⟨_, s2, h2, h⟩ := bind_run_ok.1 h
  obtain ⟨rfl, rfl⟩ := pure_run_ok.1 h
  obtain ⟨-, -, c3, -, c5, c6⟩ := C29_common_node _ _ _ _ _ _ _ _ h1
  have es : s1.skNodes = s.skNodes := by rw [c3]
  unfold stopKvertices at h1
  obtain ⟨_, s3, h3, h1⟩ := bind_run_ok.1 h1
  obtain rfl := forEach_readVertex_same h3
  obtain ⟨sk, s4, h4, h1⟩ := bind_run_ok.1 h1
  obtain ⟨o1, o2, o3⟩ := stopScan_origin h4
  obtain ⟨res, s5, h5, h1⟩ := bind_run_ok.1 h1
  obtain ⟨_, s6, h6, h1⟩ := bind_run_ok.1 h1
  obtain ⟨rfl, -⟩ := forEach_assertStoppedAt_run h6
  obtain ⟨hres, rfl⟩ := pure_run_ok.1 h1
  subst hres
  cases sk with
  | some x =>
    simp only [stopAtNode, stopAtExisting] at h5
    obtain ⟨_, s7, h7, h8⟩ := bind_run_ok.1 h5
    obtain ⟨hp, rfl⟩ := pure_run_ok.1 h8
    simp only [Prod.mk.injEq] at hp
    obtain ⟨rfl, rfl⟩ := hp
    obtain ⟨-, rfl⟩ := pure_run_ok.1 h2
    refine .inl ⟨c6 rfl, es, ?_⟩
    rcases o3 _ rfl with o | o
    · cases o
    · exact o
  | none =>
    simp only [stopAtNode, stopAtNew] at h5
    obtain ⟨p', s7, h7, h5⟩ := bind_run_ok.1 h5
    have hp' : p' = p := by
      simp only [nodePosition] at h7
      obtain ⟨l, s8, h8, h7⟩ := bind_run_ok.1 h7
      obtain rfl := mapEach_place (by rw [o1]) o2 h8 P hP
      obtain ⟨hl, -⟩ := lift_run_ok.1 h7
      rw [hp] at hl
      injection hl with hl
      exact hl.symm
    obtain rfl := nodePosition_same h7
    obtain ⟨x, s8, h8, h5⟩ := bind_run_ok.1 h5
    obtain ⟨rfl, rfl⟩ := newNode_run_ok.1 h8
    obtain ⟨_, s9, h9, h5⟩ := bind_run_ok.1 h5
    obtain ⟨hq, rfl⟩ := pure_run_ok.1 h5
    simp only [Prod.mk.injEq] at hq
    obtain ⟨rfl, rfl⟩ := hq
    obtain ⟨e1, -⟩ := forEach_modifyK_run h9
    obtain rfl := appendNode_run_ok.1 h2
    obtain ⟨g1, g2⟩ := c5 rfl
    refine .inr ⟨g1, g2, ?_, ?_⟩
    · show _ ++ _ = _
      rw [es]
    · dsimp only
      rw [e1]
      dsimp only
      rw [Function.update_self]
      exact hp'


/-! ### stopping, step by step -/

theorem Keeps.use {α : Type} {R : St K → St K → Prop} {m : M K α} {s s' : St K} {a : α} (h : m s = .ok (a, s'))
    (k : Keeps R m) : R s s' := k _ _ _ h

/-- the vertices given to `stop_kvertices`, and no other ones -/
theorem stopAndRecord_these {V : List VId} {step : ℤ} {now : K} {pos : Option (Pt K)} {s s' : St K} {n : NodeId}
    (h : stopAndRecord V step now pos s = .ok (n, s')) :
    StopsThese s s' V now n ∧ s'.nV = s.nV ∧ s'.tri = s.tri ∧ ∀ v ∈ V, v < s.nV := by
  have g := h
  unfold stopAndRecord at g
  obtain ⟨⟨m, new⟩, s1, h1, g⟩ := bind_run_ok.1 g
  obtain ⟨_, s2, h2, g⟩ := bind_run_ok.1 g
  obtain ⟨rfl, rfl⟩ := pure_run_ok.1 g
  obtain ⟨c1, -, -, -, -, -⟩ := C29_common_node _ _ _ _ _ _ _ _ h1
  have ev : s2.vert = s1.vert := by
    unfold recordNode at h2
    cases new with
    | true => obtain rfl := appendNode_run_ok.1 h2; rfl
    | false => obtain ⟨-, rfl⟩ := pure_run_ok.1 h2; rfl
  obtain ⟨hx, hs, -, -⟩ := stopAndRecord_exact h
  refine ⟨⟨fun v hv => ?_, fun v _ hv => ?_⟩, by rw [hs], by rw [hs], ?_⟩
  · obtain ⟨k, a, b, c⟩ := c1 v hv
    exact ⟨k, ev ▸ a, b, c⟩
  · rw [hx v]
    cases s.vert v with
    | inf o => exact trivial
    | kin k => dsimp only; rw [if_neg hv]; exact ⟨rfl, rfl⟩
  · intro v hv
    unfold stopKvertices at h1
    obtain ⟨_, s3, h3, h1⟩ := bind_run_ok.1 h1
    obtain rfl := forEach_readVertex_same h3
    obtain ⟨sk, s4, h4, h1⟩ := bind_run_ok.1 h1
    obtain ⟨res, s5, h5, h1⟩ := bind_run_ok.1 h1
    obtain ⟨_, s6, h6, h1⟩ := bind_run_ok.1 h1
    obtain ⟨rfl, w⟩ := forEach_assertStoppedAt_run h6
    obtain ⟨-, rfl⟩ := pure_run_ok.1 h1
    have a := (w v hv).1
    have b : s2.nV = s5.nV := by
      unfold recordNode at h2
      cases new with
      | true => obtain rfl := appendNode_run_ok.1 h2; rfl
      | false => obtain ⟨-, rfl⟩ := pure_run_ok.1 h2; rfl
    rw [← b, hs] at a
    exact a

/-- one more vertex -/
theorem stopAt_these {s s1 s2 : St K} {V : List VId} {now : K} {n : NodeId} {x : VId} {u : Unit}
    (hs : StopsThese s s1 V now n) (h : stopAt x n now s1 = .ok (u, s2)) :
    StopsThese s s2 (x :: V) now n ∧ s2 = { s1 with vert := s2.vert } ∧ x < s1.nV := by
  unfold stopAt at h
  obtain ⟨hx, k, hk, rfl⟩ := modifyK_run_ok.1 h
  refine ⟨⟨fun v hv => ?_, fun v hv hn => ?_⟩, rfl, hx⟩
  · by_cases e : v = x
    · subst e
      exact ⟨_, Function.update_self .., rfl, rfl⟩
    · obtain ⟨k', a, b⟩ := hs.these v (by simpa [e] using hv)
      exact ⟨k', by dsimp only; rw [Function.update_of_ne e]; exact a, b⟩
  · simp only [List.mem_cons, not_or] at hn
    dsimp only
    rw [Function.update_of_ne hn.1]
    exact hs.others v hv hn.2

theorem stopTriangle_run {s s2 : St K} {t : TId} {now : K} {u : Unit} (h : stopTriangle t now s = .ok (u, s2)) :
    s2 = { s with tri := s2.tri } ∧ (s2.tri t).stopsAt = some now ∧ ∀ x, x ≠ t → s2.tri x = s.tri x := by
  unfold stopTriangle at h
  obtain ⟨-, rfl⟩ := modifyT_run_ok.1 h
  refine ⟨rfl, ?_, fun x hx => Function.update_of_ne hx ..⟩
  show (Function.update s.tri t _ t).stopsAt = _
  rw [Function.update_self]

theorem Spec.MeetAt.same {s s1 s2 : St K} {V : List VId} {p : Pt K} {n : NodeId} (h : MeetAt s s1 V p n)
    (h1 : s2.node = s1.node) (h2 : s2.nN = s1.nN) (h3 : s2.skNodes = s1.skNodes) : MeetAt s s2 V p n := by
  refine ⟨fun m hm => by rw [h1]; exact h.old m hm, ?_⟩
  rw [h1, h2, h3]
  exact h.which

theorem Spec.StopsThese.same {s s1 s2 : St K} {V : List VId} {now : K} {n : NodeId} (h : StopsThese s s1 V now n)
    (h1 : s2.vert = s1.vert) : StopsThese s s2 V now n := by
  refine ⟨?_, ?_⟩
  · rw [h1]; exact h.these
  · rw [h1]; exact h.others

theorem Spec.StopsThese.still {s s1 s2 : St K} {V : List VId} {now : K} {n : NodeId} (h : StopsThese s s1 V now n)
    (hn : s.nV ≤ s1.nV) (hV : ∀ v ∈ V, v < s1.nV) (q : Still s1 s2) : StopsThese s s2 V now n := by
  refine ⟨fun v hv => ?_, fun v hv hn' => SameStop.trans (h.others v hv hn') (q.vert v (lt_of_lt_of_le hv hn))⟩
  obtain ⟨k, a, b, c⟩ := h.these v hv
  have w := q.vert v (hV v hv)
  rw [a] at w
  cases hk : s2.vert v with
  | inf o => rw [hk] at w; exact w.elim
  | kin k' => rw [hk] at w; exact ⟨k', rfl, w.1.trans b, w.2.trans c⟩

theorem Spec.EndsOnly.still {s s1 s2 : St K} {t : TId} {now : K} (h : EndsOnly s s1 t now) (q : Still s1 s2) :
    EndsOnly s s2 t now :=
  ⟨(q.tri t).trans h.this, fun x hx => (q.tri x).trans (h.others x hx)⟩

variable [HasSqrt K] [HasTrig K]

/-- `handle_parallel_edge_event_shorter_leg`: what it stops and makes, for any list of stopped ends -/
theorem shorterLeg_steps [IsStrictOrderedRing K] [SqrtUnit K] {t : TId} {e : Fin 3} {pivot : VId} {now : K} {step : ℤ} {s s' : St K} {kp k1 k2 : KVertex K}
    {r : VId × List TId × List TId} (h : shorterLeg t e pivot now step s = .ok (r, s'))
    (hp : s.vert pivot = .kin kp)
    (hk1 : s.vert ((s.tri t).vertices (ccw e)) = .kin k1) (hk2 : s.vert ((s.tri t).vertices (cw e)) = .kin k2) :
    ∃ V n s2 k, V = (if k1.infFast then [] else [(s.tri t).vertices (ccw e)]) ++
        (if k2.infFast then [] else [(s.tri t).vertices (cw e)]) ∧
      stopAndRecord V step now none s = .ok (n, s2) ∧ kp.infFast = true ∧
      s'.node = s2.node ∧ s'.nN = s2.nN ∧ s'.skNodes = s2.skNodes ∧
      (∀ kp', s2.vert pivot = .kin kp' → StopsThese s s' (if kp'.stopNode.isNone then pivot :: V else V) now n) ∧
      EndsOnly s s' t now ∧ (s'.nV = s.nV + 1 ∧ s'.skVertices = s.skVertices ++ [s.nV]) ∧ s'.vert s.nV = .kin k ∧
      (k.startsAt = some now ∧ k.startNode = some n ∧ k.stopsAt = none ∧ k.stopNode = none) ∧
      (k.ul = k1.ul ∧ k.ur = k2.ur) ∧ r.1 = s.nV := by
  unfold shorterLeg at h
  obtain ⟨pk, s1, h1, h⟩ := bind_run_ok.1 h
  obtain ⟨-, hpk, rfl⟩ := getK_run_ok.1 h1
  rw [hp] at hpk; injection hpk with hpk; subst hpk
  obtain ⟨_, s1, h1, h⟩ := bind_run_ok.1 h
  obtain ⟨hinf, rfl⟩ := assertM_run_ok.1 h1
  obtain ⟨T, s1, h1, h⟩ := bind_run_ok.1 h
  obtain ⟨-, rfl, rfl⟩ := getT_run_ok.1 h1
  dsimp only at h
  obtain ⟨_, s1, h1, h⟩ := bind_run_ok.1 h
  obtain ⟨-, rfl⟩ := assertM_run_ok.1 h1
  obtain ⟨k1', s1, h1, h⟩ := bind_run_ok.1 h
  obtain ⟨hv1, hk1', rfl⟩ := getK_run_ok.1 h1
  rw [hk1] at hk1'; injection hk1' with hk1'; subst hk1'
  obtain ⟨k2', s1, h1, h⟩ := bind_run_ok.1 h
  obtain ⟨hv2, hk2', rfl⟩ := getK_run_ok.1 h1
  rw [hk2] at hk2'; injection hk2' with hk2'; subst hk2'
  obtain ⟨n, s2, hstop, h⟩ := bind_run_ok.1 h
  obtain ⟨a1, a2, a3, a4⟩ := stopAndRecord_these hstop
  have q2 := q_stopAndRecord _ _ _ _ _ _ _ hstop
  have es := (stopAndRecord_exact hstop).2.1
  have esv : s2.skVertices = s.skVertices := by rw [es]
  generalize hV : ((if k1.infFast then [] else [(s.tri t).vertices (ccw e)]) ++
        (if k2.infFast then [] else [(s.tri t).vertices (cw e)])) = V at hstop a1 a4
  obtain ⟨_, s3, h3, h⟩ := bind_run_ok.1 h
  -- the pivot
  obtain ⟨kq, hkq, -⟩ := q2.kin hp
  have b : StopsThese s s3 (if kq.stopNode.isNone then pivot :: V else V) now n ∧ s3 = { s2 with vert := s3.vert } ∧
      (∀ v ∈ (if kq.stopNode.isNone then pivot :: V else V), v < s3.nV) ∧
      (∀ w k, s2.vert w = .kin k → ∃ k', s3.vert w = .kin k' ∧ k'.ul = k.ul ∧ k'.ur = k.ur) := by
    unfold shorterLeg.stopPivot at h3
    obtain ⟨pk', s4, h4, h3⟩ := bind_run_ok.1 h3
    obtain ⟨-, hpk', rfl⟩ := getK_run_ok.1 h4
    rw [hkq] at hpk'; injection hpk' with hpk'; subst hpk'
    split_ifs at h3 with c
    · obtain ⟨_, s4, h4, h3⟩ := bind_run_ok.1 h3
      obtain ⟨-, rfl⟩ := assertM_run_ok.1 h4
      obtain ⟨b1, b2, b3⟩ := stopAt_these a1 h3
      rw [if_pos c]
      have b4 : s3.nV = s2.nV := by rw [b2]
      refine ⟨b1, b2, ?_, ?_⟩
      · intro v hv
        rw [b4]
        rcases List.mem_cons.1 hv with rfl | hv
        · exact b3
        · rw [a2]; exact a4 v hv
      · intro w k hw
        unfold stopAt at h3
        obtain ⟨-, k0, hk0, rfl⟩ := modifyK_run_ok.1 h3
        by_cases e : w = pivot
        · subst e
          rw [hk0] at hw; injection hw with hw; subst hw
          exact ⟨_, Function.update_self .., rfl, rfl⟩
        · exact ⟨k, by dsimp only; rw [Function.update_of_ne e]; exact hw, rfl, rfl⟩
    · obtain ⟨-, rfl⟩ := pure_run_ok.1 h3
      rw [if_neg c]
      exact ⟨a1, rfl, fun v hv => a2 ▸ a4 v hv, fun w k hw => ⟨k, hw, rfl, rfl⟩⟩
  obtain ⟨b1, b2, b3, b4⟩ := b
  obtain ⟨_, s4, h4, h⟩ := bind_run_ok.1 h
  obtain ⟨d1, d2, d3⟩ := stopTriangle_run h4
  obtain ⟨_, s5, h5, h⟩ := bind_run_ok.1 h
  obtain ⟨-, rfl⟩ := assertM_run_ok.1 h5
  obtain ⟨x1, s5, h5, h⟩ := bind_run_ok.1 h
  obtain ⟨-, hx1, rfl⟩ := getK_run_ok.1 h5
  obtain ⟨x2, s5, h5, h⟩ := bind_run_ok.1 h
  obtain ⟨-, hx2, rfl⟩ := getK_run_ok.1 h5
  obtain ⟨ct, s5, h5, h⟩ := bind_run_ok.1 h
  obtain ⟨rfl, rfl⟩ := countVertices_run_ok.1 h5
  have e4 : s4.vert = s3.vert := by rw [d1]
  rw [e4] at hx1 hx2
  obtain ⟨k1q, hk1q, r1⟩ := q2.kin hk1
  obtain ⟨k2q, hk2q, r2⟩ := q2.kin hk2
  obtain ⟨y1, hy1, l1, -⟩ := b4 _ _ hk1q
  rw [hx1] at hy1; injection hy1 with hy1; subst hy1
  obtain ⟨y2, hy2, -, l2⟩ := b4 _ _ hk2q
  rw [hx2] at hy2; injection hy2 with hy2; subst hy2
  have n4 : s4.nV = s.nV := by rw [d1]; dsimp only; rw [b2]; exact a2
  have sv4 : s4.skVertices = s.skVertices := by rw [d1]; dsimp only; rw [b2]; exact esv
  obtain ⟨kv, s5, h5, h⟩ := bind_run_ok.1 h
  obtain ⟨rfl, kn, rfl, m1, m2, m3, m4, m5, m6, -⟩ := C30_attributes _ _ _ _ _ _ _ _ _ h5
  obtain ⟨l, s6, h6, h⟩ := bind_run_ok.1 h
  obtain ⟨-, rfl⟩ := need_run_ok.1 h6
  obtain ⟨kl, s6, h6, h⟩ := bind_run_ok.1 h
  obtain ⟨-, -, rfl⟩ := getK_run_ok.1 h6
  obtain ⟨rr, s6, h6, h⟩ := bind_run_ok.1 h
  obtain ⟨-, rfl⟩ := need_run_ok.1 h6
  obtain ⟨kr, s6, h6, h⟩ := bind_run_ok.1 h
  obtain ⟨-, -, rfl⟩ := getK_run_ok.1 h6
  obtain ⟨_, s6, h6, h⟩ := bind_run_ok.1 h
  have q6 := Keeps.use h6 (still_setWf _ _ _)
  have g6 := Keeps.use h6 (g_setWf _ _ _)
  obtain ⟨T', s7, h7, h⟩ := bind_run_ok.1 h
  obtain ⟨-, rfl, rfl⟩ := getT_run_ok.1 h7
  obtain ⟨_, s7, h7, h⟩ := bind_run_ok.1 h
  obtain rfl := appendVertex_run_ok.1 h7
  have q := Keeps.use (R := Still) h (by still)
  have g := Keeps.use (R := Grows) h (by grows)
  have hr : r.1 = s4.nV := by
    obtain ⟨_, _, -, h⟩ := bind_run_ok.1 h
    obtain ⟨_, _, -, h⟩ := bind_run_ok.1 h
    obtain ⟨_, _, -, h⟩ := bind_run_ok.1 h
    obtain ⟨_, _, -, h⟩ := bind_run_ok.1 h
    obtain ⟨_, _, -, h⟩ := bind_run_ok.1 h
    obtain ⟨_, _, -, h⟩ := bind_run_ok.1 h
    obtain ⟨rfl, -⟩ := pure_run_ok.1 h
    rfl
  have q7 : Still { s4 with vert := Function.update s4.vert s4.nV (.kin kn), nV := s4.nV + 1 }
      { s' with skVertices := s4.skVertices } := by
    refine stillPre.trans _ _ _ q6 ?_
    exact ⟨q.nV, q.nN, q.node, q.skNodes, q6.skVertices.symm, q.tri, q.vert⟩
  have st3 : StopsThese s { s4 with vert := Function.update s4.vert s4.nV (.kin kn), nV := s4.nV + 1 }
      (if kq.stopNode.isNone then pivot :: V else V) now n := by
    refine ⟨fun v hv => ?_, fun v hv hn => ?_⟩
    · obtain ⟨k, c1, c2⟩ := b1.these v hv
      have n3 : s3.nV = s4.nV := by rw [d1]
      have := b3 v hv
      refine ⟨k, ?_, c2⟩
      dsimp only
      rw [Function.update_of_ne (Nat.ne_of_lt (n3 ▸ this)), e4]
      exact c1
    · dsimp only
      rw [Function.update_of_ne (Nat.ne_of_lt (n4 ▸ hv)), e4]
      exact b1.others v hv hn
  have hb : s4.vert = s3.vert := e4
  have kn' : ∃ k, s'.vert s4.nV = .kin k ∧ k.stopsAt = none ∧ k.stopNode = none ∧ k.startsAt = some now ∧
      k.startNode = some n ∧ k.ul = k1.ul ∧ k.ur = k2.ur := by
    have w := q7.vert s4.nV (Nat.lt_succ_self _)
    have w' := (growsPre.trans _ _ _ g6 (growsPre.trans _ _ _ (by
      have r := growsPre.refl s6
      exact { r with skVertices := List.prefix_append _ _ }) g)).vert s4.nV (Nat.lt_succ_self _)
    dsimp only at w w'
    rw [Function.update_self] at w w'
    cases hk : s'.vert s4.nV with
    | inf o => rw [hk] at w; exact w.elim
    | kin k =>
      rw [hk] at w w'
      exact ⟨k, rfl, w.1.trans m3, w.2.trans m4, w'.startsAt.trans m1, w'.startNode.trans m2,
        w'.ul.trans (m5.trans (l1.trans r1.ul)), w'.ur.trans (m6.trans (l2.trans r2.ur))⟩
  obtain ⟨k, z1, z2, z3, z4, z5, z6, z7⟩ := kn'
  rw [n4] at z1 hr
  have en : s4.node = s2.node ∧ s4.nN = s2.nN ∧ s4.skNodes = s2.skNodes := by rw [d1, b2]; exact ⟨rfl, rfl, rfl⟩
  refine ⟨V, n, s2, k, rfl, hstop, hinf, q7.node.trans en.1, q7.nN.trans en.2.1, q7.skNodes.trans en.2.2, ?_, ?_, ⟨?_, ?_⟩,
    z1, ⟨z4, z5, z2, z3⟩, ⟨z6, z7⟩, hr⟩
  · intro kp' hkp'
    rw [hkq] at hkp'; injection hkp' with hkp'; subst hkp'
    have := st3.still (by dsimp only; rw [n4]; exact Nat.le_succ _) (fun v hv => ?_) q7
    · exact this.same rfl
    · have n3 : s3.nV = s4.nV := by rw [d1]
      have := b3 v hv
      exact Nat.lt_succ_of_lt (n3 ▸ this)
  · refine ⟨(q7.tri t).trans d2, fun x hx => (q7.tri x).trans ?_⟩
    show (s4.tri x).stopsAt = _
    rw [d3 x hx, b2]
    dsimp only
    rw [a3]
  · rw [← n4]; exact q7.nV
  · rw [q.skVertices]
    dsimp only
    rw [q6.skVertices, ← sv4, n4]


theorem legDist_same {t : TId} {leg : Fin 3} {now d : K} {s s' : St K} (h : legDist t leg now s = .ok (d, s')) :
    s = s' := by
  unfold legDist at h
  obtain ⟨T, s1, h1, h⟩ := bind_run_ok.1 h
  obtain ⟨-, rfl, rfl⟩ := getT_run_ok.1 h1
  obtain ⟨_, s1, h1, h⟩ := bind_run_ok.1 h
  obtain ⟨-, -, rfl⟩ := positionAt_run_ok.1 h1
  obtain ⟨_, s1, h1, h⟩ := bind_run_ok.1 h
  obtain ⟨-, -, rfl⟩ := positionAt_run_ok.1 h1
  exact (pure_run_ok.1 h).2

theorem place_self {s : St K} (v : VId) : match s.vert v with
    | .inf o => s.vert v = .inf o
    | .kin k => ∃ x, s.vert v = .kin { k with stopsAt := x } := by
  cases hw : s.vert v with
  | inf o => rfl
  | kin k => exact ⟨k.stopsAt, rfl⟩

/-- a leg is as long as the segment between the places of its ends -/
theorem legDist_run {t : TId} {leg : Fin 3} {now d : K} {s s' : St K} {p q : Pt K}
    (h : legDist t leg now s = .ok (d, s')) (hp : Place s now ((s.tri t).vertices (ccw leg)) p)
    (hq : Place s now ((s.tri t).vertices (cw leg)) q) : d = segLength p q := by
  unfold legDist at h
  obtain ⟨T, s1, h1, h⟩ := bind_run_ok.1 h
  obtain ⟨-, rfl, rfl⟩ := getT_run_ok.1 h1
  obtain ⟨_, s1, h1, h⟩ := bind_run_ok.1 h
  obtain rfl := place_positionAt hp rfl (place_self _) h1
  obtain ⟨-, -, rfl⟩ := positionAt_run_ok.1 h1
  obtain ⟨_, s1, h1, h⟩ := bind_run_ok.1 h
  obtain rfl := place_positionAt hq rfl (place_self _) h1
  obtain ⟨rfl, -⟩ := pure_run_ok.1 h
  rfl

theorem segLength_comm (p q : Pt K) : segLength p q = segLength q p := by
  unfold segLength
  congr 1
  ring

theorem velocityOf_run {v : VId} {u : Pt K} {s s' : St K} {k : KVertex K} (hk : s.vert v = .kin k)
    (h : velocityOf v s = .ok (u, s')) : k.velocity = u ∧ s = s' := by
  unfold velocityOf at h
  obtain ⟨_, s1, h1, h⟩ := bind_run_ok.1 h
  obtain ⟨-, rfl, rfl⟩ := getV_run_ok.1 h1
  obtain ⟨rfl, rfl⟩ := pure_run_ok.1 h
  rw [hk]
  exact ⟨rfl, rfl⟩

theorem forEach_assertVertexStopped_same {V : List VId} {s s' : St K} {u : Unit}
    (h : forEach assertVertexStopped V s = .ok (u, s')) : s = s' := by
  induction V with
  | nil => exact (pure_run_ok.1 h).2
  | cons v vs ih =>
    simp only [forEach] at h
    obtain ⟨_, s1, h1, h2⟩ := bind_run_ok.1 h
    unfold assertVertexStopped at h1
    obtain ⟨_, s2, h3, h1⟩ := bind_run_ok.1 h1
    obtain ⟨_, _, rfl⟩ := getK_run_ok.1 h3
    obtain ⟨-, rfl⟩ := assertM_run_ok.1 h1
    exact ih h2

/-- there is no node for no vertices -/
theorem stopAndRecord_nil {step : ℤ} {now : K} {s s' : St K} {n : NodeId} :
    stopAndRecord [] step now none s ≠ .ok (n, s') := by
  intro h
  unfold stopAndRecord at h
  obtain ⟨r, s1, h1, -⟩ := bind_run_ok.1 h
  unfold stopKvertices at h1
  obtain ⟨_, s3, h3, h1⟩ := bind_run_ok.1 h1
  obtain ⟨sk, s4, h4, h1⟩ := bind_run_ok.1 h1
  obtain ⟨rfl, rfl⟩ := pure_run_ok.1 h4
  obtain ⟨res, s5, h5, -⟩ := bind_run_ok.1 h1
  simp only [stopAtNode, stopAtNew] at h5
  obtain ⟨p', s7, h7, -⟩ := bind_run_ok.1 h5
  simp only [nodePosition] at h7
  obtain ⟨l, s8, h8, h7⟩ := bind_run_ok.1 h7
  obtain ⟨rfl, rfl⟩ := pure_run_ok.1 h8
  obtain ⟨hl, -⟩ := lift_run_ok.1 h7
  simp [averagePos, pdiv, bind, Except.bind] at hl

/-- one end of the collapsing leg is the infinitely fast vertex, the other one is `w` -/
theorem shorterLeg_collapse [IsStrictOrderedRing K] [SqrtUnit K] {t : TId} {e : Fin 3} {pivot w : VId} {now : K}
    {step : ℤ} {s s' : St K} {kp kw : KVertex K} {p : Pt K} {r : VId × List TId × List TId}
    (h : shorterLeg t e pivot now step s = .ok (r, s')) (hp : s.vert pivot = .kin kp) (hw : s.vert w = .kin kw)
    (hpl : Place s now w p) :
    ((s.tri t).vertices (ccw e) = w → (s.tri t).vertices (cw e) = pivot →
      ∃ n k, LegCollapse s s' t pivot w kp now p kw.ul kp.ur n k ∧ r.1 = s.nV) ∧
    ((s.tri t).vertices (ccw e) = pivot → (s.tri t).vertices (cw e) = w →
      ∃ n k, LegCollapse s s' t pivot w kp now p kp.ul kw.ur n k ∧ r.1 = s.nV) := by
  have fin : ∀ {ul ur : Option LineId} {n : NodeId} {s2 : St K} {k : KVertex K} {V : List VId}, kp.infFast = true →
      V = (if kw.infFast then [] else [w]) → stopAndRecord V step now none s = .ok (n, s2) → s'.node = s2.node →
      s'.nN = s2.nN → s'.skNodes = s2.skNodes →
      (∀ kp', s2.vert pivot = .kin kp' → StopsThese s s' (if kp'.stopNode.isNone then pivot :: V else V) now n) →
      EndsOnly s s' t now → (s'.nV = s.nV + 1 ∧ s'.skVertices = s.skVertices ++ [s.nV]) → s'.vert s.nV = .kin k →
      (k.startsAt = some now ∧ k.startNode = some n ∧ k.stopsAt = none ∧ k.stopNode = none) →
      (k.ul = ul ∧ k.ur = ur) → LegCollapse s s' t pivot w kp now p ul ur n k := by
    intro ul ur n s2 k V hinf hV hst e1 e2 e3 hs hE h1 h2 h3 h4
    cases hi : kw.infFast with
    | true =>
      rw [hi, if_pos rfl] at hV
      subst hV
      exact absurd hst stopAndRecord_nil
    | false =>
      rw [hi] at hV
      simp only [Bool.false_eq_true, if_false] at hV
      subst hV
      have hne : pivot ≠ w := by
        rintro rfl
        rw [hp] at hw; injection hw with hw; subst hw
        rw [hi] at hinf; cases hinf
      obtain ⟨hx, -, -, -⟩ := stopAndRecord_exact hst
      have := hx pivot
      rw [hp] at this
      dsimp only at this
      rw [if_neg (by simpa using hne)] at this
      exact ⟨(stopAndRecord_meet hst [p] p (.cons hpl .nil) (by
        simp [averagePos, pdiv, bind, Except.bind])).same e1 e2 e3, hs kp this, hE, h1, h2, h3, h4⟩
  constructor
  · intro h1 h2
    obtain ⟨V, n, s2, k, hV, hst, hinf, e1, e2, e3, hs, hE, g1, g2, g3, g4, g5⟩ :=
      shorterLeg_steps h hp (h1 ▸ hw) (h2 ▸ hp)
    rw [hinf, if_pos rfl, List.append_nil, h1] at hV
    exact ⟨n, k, fin hinf hV hst e1 e2 e3 hs hE g1 g2 g3 g4, g5⟩
  · intro h1 h2
    obtain ⟨V, n, s2, k, hV, hst, hinf, e1, e2, e3, hs, hE, g1, g2, g3, g4, g5⟩ :=
      shorterLeg_steps h hp (h1 ▸ hp) (h2 ▸ hw)
    rw [hinf, if_pos rfl, List.nil_append, h2] at hV
    exact ⟨n, k, fin hinf hV hst e1 e2 e3 hs hE g1 g2 g3 g4, g5⟩

theorem nextFan_run {kv : VId} {a b : List TId} {s s' : St K} {r : Option (List TId × VId × Dir)}
    (h : nextFan kv a b s = .ok (r, s')) : s = s' ∧ ∀ f x d, r = some (f, x, d) → x = kv ∧
      ∃ k, s.vert kv = .kin k ∧ k.infFast = true := by
  unfold nextFan at h
  obtain ⟨k, s1, h1, h⟩ := bind_run_ok.1 h
  obtain ⟨-, hk, rfl⟩ := getK_run_ok.1 h1
  split_ifs at h with c
  · obtain ⟨rfl, rfl⟩ := pure_run_ok.1 h
    refine ⟨rfl, fun f x d hr => ?_⟩
    obtain ⟨y, -, hy⟩ := Option.map_eq_some_iff.1 hr
    simp only [Prod.mk.injEq] at hy
    exact ⟨hy.2.1.symm, k, hk, c⟩
  · obtain ⟨rfl, rfl⟩ := pure_run_ok.1 h
    exact ⟨rfl, nofun⟩

/-- the decision that `handle_parallel_fan` takes -/
theorem parallelStep_legs {fan : List TId} {pivot : VId} {now : K} {dir : Dir} {step : ℤ} {s s' : St K}
    {r : Option (List TId × VId × Dir)} {t₀ tl tr : TId} {i j : Fin 3} {pl p pr : Pt K}
    (h : parallelStep fan pivot now dir step s = .ok (r, s'))
    (hfirst : fan.head? = some t₀) (h3 : ∃ x, (s.tri t₀).neighbours x ≠ none)
    (hl : (if dir = .cw then fan.head? else fan.getLast?) = some tl)
    (hr : (if dir = .cw then fan.getLast? else fan.head?) = some tr)
    (hi : (s.tri tl).vertices i = pivot) (hj : (s.tri tr).vertices j = pivot)
    (hil : Function.Injective (s.tri tl).vertices) (hir : Function.Injective (s.tri tr).vertices)
    (hp : Place s now pivot p) (hpl : Place s now ((s.tri tl).vertices (i + 2)) pl)
    (hpr : Place s now ((s.tri tr).vertices (j + 1)) pr) :
    (if nearZero (segLength p pl - min (segLength p pl) (segLength p pr)) &&
        nearZero (segLength p pr - min (segLength p pl) (segLength p pr)) then do
      parallelEven fan pivot now step
      pure none
    else if nearZero (segLength p pl - min (segLength p pl) (segLength p pr)) then do
      let r ← shorterLeg tl (i + 1) pivot now step
      nextFan r.1 r.2.1 r.2.2
    else do
      let r ← shorterLeg tr (j + 2) pivot now step
      nextFan r.1 r.2.1 r.2.2 : M K (Option (List TId × VId × Dir))) s = .ok (r, s') := by
  cases fan with
  | nil => simp at hfirst
  | cons first rest =>
    simp only [List.head?_cons, Option.some.injEq] at hfirst hl hr
    subst hfirst
    rw [List.getLast?_eq_some_getLast (List.cons_ne_nil _ _)] at hl hr
    simp only [parallelStep] at h
    obtain ⟨pk, s1, h1, h⟩ := bind_run_ok.1 h
    obtain ⟨-, -, rfl⟩ := getK_run_ok.1 h1
    obtain ⟨_, s1, h1, h⟩ := bind_run_ok.1 h
    obtain ⟨-, rfl⟩ := assertM_run_ok.1 h1
    obtain ⟨F, s1, h1, h⟩ := bind_run_ok.1 h
    obtain ⟨-, rfl, rfl⟩ := getT_run_ok.1 h1
    have hc : count3 (s.tri first).neighbours none ≠ 3 := by
      obtain ⟨x, hx⟩ := h3
      unfold count3
      match x, hx with
      | 0, hx => rw [if_neg hx]; split_ifs <;> simp
      | 1, hx => rw [if_neg hx]; split_ifs <;> simp
      | 2, hx => rw [if_neg hx]; split_ifs <;> simp
    rw [if_neg hc] at h
    unfold parallelLegs at h
    obtain ⟨_, s1, h1, h⟩ := bind_run_ok.1 h
    obtain ⟨-, rfl⟩ := assertM_run_ok.1 h1
    have el : (if dir = .cw then first else (first :: rest).getLast (List.cons_ne_nil _ _)) = tl := by
      split_ifs at hl ⊢ <;> exact Option.some.inj hl
    have er : (if dir = .cw then (first :: rest).getLast (List.cons_ne_nil _ _) else first) = tr := by
      split_ifs at hr ⊢ <;> exact Option.some.inj hr
    rw [el, er] at h
    have vi : ∀ {t : TId} {x : Fin 3} {y : Fin 3} {s1 s2 : St K}, (s1.tri t).vertices x = pivot →
        Function.Injective (s1.tri t).vertices → vertexIndex t pivot s1 = .ok (y, s2) → y = x ∧ s1 = s2 := by
      intro t x y s1 s2 hx hinj hy
      unfold vertexIndex at hy
      obtain ⟨T, s3, h3, hy⟩ := bind_run_ok.1 hy
      obtain ⟨-, rfl, rfl⟩ := getT_run_ok.1 h3
      obtain ⟨h4, rfl⟩ := needIdx_run_ok.1 hy
      rw [← hx, index3_of_inj hinj] at h4
      exact ⟨(Option.some.inj h4).symm, rfl⟩
    obtain ⟨li, s1, h1, h⟩ := bind_run_ok.1 h
    obtain ⟨rfl, rfl⟩ := vi hi hil h1
    obtain ⟨dl, s1, h1, h⟩ := bind_run_ok.1 h
    have a1 : dl = segLength pl p := legDist_run h1 (by
      have : ccw (ccw li) = li + 2 := (by decide : ∀ x : Fin 3, ccw (ccw x) = x + 2) li
      rw [this]; exact hpl) (by
      have : cw (ccw li) = li := (by decide : ∀ x : Fin 3, cw (ccw x) = x) li
      rw [this, hi]; exact hp)
    obtain rfl := legDist_same h1
    obtain ⟨ri, s1, h1, h⟩ := bind_run_ok.1 h
    obtain ⟨rfl, rfl⟩ := vi hj hir h1
    obtain ⟨dr, s1, h1, h⟩ := bind_run_ok.1 h
    have a2 : dr = segLength p pr := legDist_run h1 (by
      have : ccw (cw ri) = ri := (by decide : ∀ x : Fin 3, ccw (cw x) = x) ri
      rw [this, hj]; exact hp) (by
      have : cw (cw ri) = ri + 1 := (by decide : ∀ x : Fin 3, cw (cw x) = x + 1) ri
      rw [this]; exact hpr)
    obtain rfl := legDist_same h1
    rw [segLength_comm] at a1
    subst a1 a2
    exact h

end Grassfire
