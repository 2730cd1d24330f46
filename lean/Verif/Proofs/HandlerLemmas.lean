/-
What the handlers do to the vertices (lemmas for C61-C63).
-/
import Verif.Proofs.MeshOnly
import Verif.Proofs.WavefrontBlocks
import Verif.Props.Stop
import Verif.Props.UpdateCirc
import Verif.Props.NewVertex
import Verif.Spec.Handlers
import Verif.Spec.Wavefronts

set_option linter.unusedSectionVars false

namespace Grassfire

open Spec

variable {K : Type} [Field K] [LinearOrder K]

/-! ### histories -/

theorem continues_set (now : K) (h : Hist K (Option VId)) (r : VId) :
    Continues now h r (h.set (some r) now) :=
  ⟨hist_set_last _ _ _, fun _ hx ho => hist_set_at h _ _ _ ho hx⟩

theorem continues_set_twice (now : K) (h : Hist K (Option VId)) (q : Option VId) (r : VId) :
    Continues now h r ((h.set q now).set (some r) now) := by
  refine ⟨hist_set_last _ _ _, fun x hx ho => ?_⟩
  rw [hist_set_at _ _ _ _ (hist_set_open _ _ _) hx, hist_set_at h _ _ _ ho hx]

/-! ### stopping -/

/-- `stop_kvertices`, exactly -/
theorem stopAndRecord_exact {V : List VId} {step : ℤ} {now : K} {pos : Option (Pt K)} {s s' : St K}
    {n : NodeId} (h : stopAndRecord V step now pos s = .ok (n, s')) :
    (∀ w, s'.vert w = match s.vert w with
      | .inf o => .inf o
      | .kin k => .kin (if w ∈ V then { k with stopsAt := some now, stopNode := some n } else k)) ∧
    s' = { s with vert := s'.vert, node := s'.node, nN := s'.nN, skNodes := s'.skNodes } ∧
    (∀ m, m < s.nN → s'.node m = s.node m) ∧
    (s'.nN = s.nN ∧ s'.skNodes = s.skNodes ∨
      n = s.nN ∧ s'.nN = s.nN + 1 ∧ s'.skNodes = s.skNodes ++ [n]) := by
  have q := q_stopAndRecord _ _ _ _ _ _ _ h
  unfold stopAndRecord at h
  obtain ⟨⟨m, new⟩, s1, h1, h⟩ := bind_run_ok.1 h
  obtain ⟨_, s2, h2, h⟩ := bind_run_ok.1 h
  obtain ⟨rfl, rfl⟩ := pure_run_ok.1 h
  obtain ⟨c1, c2, c3, c4, c5, c6⟩ := C29_common_node _ _ _ _ _ _ _ _ h1
  have e : s2 = { s1 with skNodes := s2.skNodes } ∧
      (new = true → s2.skNodes = s1.skNodes ++ [m]) ∧ (new = false → s2.skNodes = s1.skNodes) := by
    unfold recordNode at h2
    cases new with
    | true =>
      obtain rfl := appendNode_run_ok.1 h2
      exact ⟨rfl, fun _ => rfl, by simp⟩
    | false =>
      obtain ⟨-, rfl⟩ := pure_run_ok.1 h2
      exact ⟨rfl, by simp, fun _ => rfl⟩
  obtain ⟨e1, e2, e3⟩ := e
  have ev : s2.vert = s1.vert := by rw [e1]
  have en : s2.node = s1.node := by rw [e1]
  have enN : s2.nN = s1.nN := by rw [e1]
  refine ⟨fun w => ?_, ?_, ?_, ?_⟩
  · have qv := q.vert w
    cases hw : s.vert w with
    | inf o =>
      rw [hw] at qv
      cases hw' : s2.vert w with
      | inf o' => rw [hw'] at qv; exact congrArg _ qv.symm
      | kin k => rw [hw'] at qv; exact qv.elim
    | kin k =>
      by_cases hV : w ∈ V
      · obtain ⟨k', hk', g1, g2⟩ := c1 w hV
        rw [← ev] at hk'
        rw [hw, hk'] at qv
        have r : k' = { k with stopsAt := k'.stopsAt, stopNode := k'.stopNode } := qv
        rw [hk']
        dsimp only
        rw [if_pos hV, r, g1, g2]
      · dsimp only
        rw [ev, c2 w hV, hw, if_neg hV]
  · rw [e1, c3]
  · intro x hx
    rw [en]; exact c4 x hx
  · have es : s1.skNodes = s.skNodes := by rw [c3]
    cases new with
    | true =>
      right
      obtain ⟨g1, g2⟩ := c5 rfl
      refine ⟨g1, enN.trans g2, ?_⟩
      rw [e2 rfl, es]
    | false =>
      left
      exact ⟨enN.trans (c6 rfl), (e3 rfl).trans es⟩

/-- a new node is at the given position -/
theorem stopAndRecord_pos {V : List VId} {step : ℤ} {now : K} {p : Pt K} {s s' : St K}
    {n : NodeId} (h : stopAndRecord V step now (some p) s = .ok (n, s')) (hn : s'.nN = s.nN + 1) :
    (s'.node n).pos = p := by
  unfold stopAndRecord at h
  obtain ⟨⟨m, new⟩, s1, h1, h⟩ := bind_run_ok.1 h
  obtain ⟨_, s2, h2, h⟩ := bind_run_ok.1 h
  obtain ⟨rfl, rfl⟩ := pure_run_ok.1 h
  have e : s2.node = s1.node ∧ s2.nN = s1.nN := by
    unfold recordNode at h2
    cases new with
    | true => obtain rfl := appendNode_run_ok.1 h2; exact ⟨rfl, rfl⟩
    | false => obtain ⟨-, rfl⟩ := pure_run_ok.1 h2; exact ⟨rfl, rfl⟩
  obtain ⟨-, -, -, -, -, c6⟩ := C29_common_node _ _ _ _ _ _ _ _ h1
  unfold stopKvertices at h1
  obtain ⟨_, s3, h3, h1⟩ := bind_run_ok.1 h1
  obtain rfl := forEach_readVertex_same h3
  obtain ⟨sk, s4, h4, h1⟩ := bind_run_ok.1 h1
  obtain ⟨res, s5, h5, h1⟩ := bind_run_ok.1 h1
  obtain ⟨_, s6, h6, h1⟩ := bind_run_ok.1 h1
  obtain ⟨rfl, -⟩ := forEach_assertStoppedAt_run h6
  obtain ⟨hres, rfl⟩ := pure_run_ok.1 h1
  subst hres
  cases sk with
  | some x =>
    simp only [stopAtNode, stopAtExisting] at h5
    obtain ⟨_, s7, h7, h8⟩ := bind_run_ok.1 h5
    obtain ⟨hp, rfl⟩ := pure_run_ok.1 h8
    simp only [Prod.mk.injEq] at hp
    obtain ⟨rfl, rfl⟩ := hp
    have := c6 rfl
    rw [e.2] at hn
    omega
  | none =>
    simp only [stopAtNode, stopAtNew] at h5
    obtain ⟨p', s7, h7, h5⟩ := bind_run_ok.1 h5
    simp only [nodePosition] at h7
    obtain ⟨rfl, rfl⟩ := pure_run_ok.1 h7
    obtain ⟨x, s8, h8, h5⟩ := bind_run_ok.1 h5
    obtain ⟨rfl, rfl⟩ := newNode_run_ok.1 h8
    obtain ⟨_, s9, h9, h5⟩ := bind_run_ok.1 h5
    obtain ⟨hp, rfl⟩ := pure_run_ok.1 h5
    simp only [Prod.mk.injEq] at hp
    obtain ⟨rfl, rfl⟩ := hp
    obtain ⟨e1, -⟩ := forEach_modifyK_run h9
    rw [e.1, e1]
    dsimp only
    rw [Function.update_self]

/-- without given position the node of a single vertex is where the vertex is -/
theorem stopAndRecord_single [IsStrictOrderedRing K] {v : VId} {step : ℤ} {now : K} {s s' : St K} {k : KVertex K}
    {n : NodeId} (h : stopAndRecord [v] step now none s = .ok (n, s')) (hn : s'.nN = s.nN + 1)
    (hk : s.vert v = .kin k) (hi : k.infFast = false) :
    (s'.node n).pos = (k.origin.1 + now * k.velocity.1, k.origin.2 + now * k.velocity.2) := by
  unfold stopAndRecord at h
  obtain ⟨⟨m, new⟩, s1, h1, h⟩ := bind_run_ok.1 h
  obtain ⟨_, s2, h2, h⟩ := bind_run_ok.1 h
  obtain ⟨rfl, rfl⟩ := pure_run_ok.1 h
  have e : s2.node = s1.node ∧ s2.nN = s1.nN := by
    unfold recordNode at h2
    cases new with
    | true => obtain rfl := appendNode_run_ok.1 h2; exact ⟨rfl, rfl⟩
    | false => obtain ⟨-, rfl⟩ := pure_run_ok.1 h2; exact ⟨rfl, rfl⟩
  obtain ⟨-, -, -, -, -, c6⟩ := C29_common_node _ _ _ _ _ _ _ _ h1
  unfold stopKvertices at h1
  obtain ⟨_, s3, h3, h1⟩ := bind_run_ok.1 h1
  obtain rfl := forEach_readVertex_same h3
  obtain ⟨sk, s4, h4, h1⟩ := bind_run_ok.1 h1
  have q4 := q_stopScan _ _ _ _ _ _ h4
  obtain ⟨res, s5, h5, h1⟩ := bind_run_ok.1 h1
  obtain ⟨_, s6, h6, h1⟩ := bind_run_ok.1 h1
  obtain ⟨rfl, -⟩ := forEach_assertStoppedAt_run h6
  obtain ⟨hres, rfl⟩ := pure_run_ok.1 h1
  subst hres
  cases sk with
  | some x =>
    simp only [stopAtNode, stopAtExisting] at h5
    obtain ⟨_, s7, h7, h8⟩ := bind_run_ok.1 h5
    obtain ⟨hp, rfl⟩ := pure_run_ok.1 h8
    simp only [Prod.mk.injEq] at hp
    obtain ⟨rfl, rfl⟩ := hp
    have := c6 rfl
    rw [e.2] at hn
    omega
  | none =>
    simp only [stopAtNode, stopAtNew] at h5
    obtain ⟨p', s7, h7, h5⟩ := bind_run_ok.1 h5
    obtain ⟨k', hk', r⟩ := q4.kin hk
    have hp' : p' = (k.origin.1 + now * k.velocity.1, k.origin.2 + now * k.velocity.2) := by
      simp only [nodePosition, mapEach] at h7
      obtain ⟨l, s8, h8, h7⟩ := bind_run_ok.1 h7
      obtain ⟨y, s9, h9, h8⟩ := bind_run_ok.1 h8
      obtain ⟨-, hy, rfl⟩ := positionAt_run_ok.1 h9
      obtain ⟨ys, s9, h9, h8⟩ := bind_run_ok.1 h8
      obtain ⟨rfl, rfl⟩ := pure_run_ok.1 h9
      obtain ⟨rfl, rfl⟩ := pure_run_ok.1 h8
      obtain ⟨hl, -⟩ := lift_run_ok.1 h7
      rw [hk'] at hy
      simp only [Vertex.positionAt, r.infFast, hi, r.origin, r.velocity, if_true, Except.ok.injEq] at hy
      subst hy
      simp [averagePos, pdiv, bind, Except.bind] at hl
      exact hl.symm
    obtain rfl := nodePosition_same h7
    obtain ⟨x, s8, h8, h5⟩ := bind_run_ok.1 h5
    obtain ⟨rfl, rfl⟩ := newNode_run_ok.1 h8
    obtain ⟨_, s9, h9, h5⟩ := bind_run_ok.1 h5
    obtain ⟨hp, rfl⟩ := pure_run_ok.1 h5
    simp only [Prod.mk.injEq] at hp
    obtain ⟨rfl, rfl⟩ := hp
    obtain ⟨e1, -⟩ := forEach_modifyK_run h9
    rw [e.1, e1]
    dsimp only
    rw [Function.update_self]
    exact hp'

variable [HasSqrt K] [HasTrig K]

/-! ### the edge event -/

/-- `handle_edge_event` up to the replacement of the vertices, step by step -/
structure EdgeSteps (t : TId) (e : Fin 3) (now : K) (step : ℤ) (s s' : St K) (kv : VId) : Prop where
  steps : ∃ (k1 k2 : KVertex K) (a c : WfId) (pos : Option (Pt K)) (node : NodeId) (s2 : St K) (kn : KVertex K)
      (R : Option VId),
    (s.tri t).vertices (ccw e) < s.nV ∧ s.vert ((s.tri t).vertices (ccw e)) = .kin k1 ∧
    (s.tri t).vertices (cw e) < s.nV ∧ s.vert ((s.tri t).vertices (cw e)) = .kin k2 ∧
    k1.wfl = some a ∧ k2.wfr = some c ∧
    tryIntersection (s.line (s.wfLine a)) (s.line (s.wfLine c)) now s = .ok (pos, s) ∧
    stopAndRecord [(s.tri t).vertices (ccw e), (s.tri t).vertices (cw e)] step now pos s = .ok (node, s2) ∧
    computeNewKvertex k1.ul k2.ur now node (s2.skVertices.length + 1) (k1.internal || k2.internal) s2 =
      .ok (s2.nV, { s2 with vert := (Function.update s2.vert s2.nV (.kin kn)), nV := s2.nV + 1 }) ∧
    kv = s2.nV ∧
    (k1.leftRef ≠ some ((s.tri t).vertices (cw e)) → R = k2.rightRef) ∧
    s' = { s2 with vert := s'.vert, nV := s2.nV + 1, skVertices := s2.skVertices ++ [kv] } ∧
    (∀ w, w ≠ kv → s'.vert w = match s2.vert w with
      | .inf o => .inf o
      | .kin k => .kin { k with
          right := if k1.leftRef = some w then k.right.set (some kv) now else k.right
          left := if R = some w then k.left.set (some kv) now else k.left }) ∧
    (k1.leftRef ≠ some kv → R ≠ some kv → ∃ l r, k1.leftRef = some l ∧ R = some r ∧ s'.vert kv = .kin { kn with
      wfl := k1.wfl, wfr := k2.wfr
      left := kn.left.set (some l) now, right := kn.right.set (some r) now })

theorem edgeVertex_steps {t : TId} {e : Fin 3} {now : K} {step : ℤ} {s s' : St K} {kv : VId}
    [IsStrictOrderedRing K] [SqrtUnit K]
    (h : edgeVertex t e now step s = .ok (kv, s')) : EdgeSteps t e now step s s' kv := by
  unfold edgeVertex at h
  obtain ⟨T, s1, h1, h⟩ := bind_run_ok.1 h
  obtain ⟨-, rfl, rfl⟩ := getT_run_ok.1 h1
  dsimp only at h
  obtain ⟨k1, s1, h1, h⟩ := bind_run_ok.1 h
  obtain ⟨hv1, hk1, rfl⟩ := getK_run_ok.1 h1
  obtain ⟨k2, s1, h1, h⟩ := bind_run_ok.1 h
  obtain ⟨hv2, hk2, rfl⟩ := getK_run_ok.1 h1
  obtain ⟨_, s1, h1, h⟩ := bind_run_ok.1 h
  obtain ⟨-, rfl⟩ := assertM_run_ok.1 h1
  obtain ⟨_, s1, h1, h⟩ := bind_run_ok.1 h
  obtain ⟨-, rfl⟩ := assertM_run_ok.1 h1
  obtain ⟨_, s1, h1, h⟩ := bind_run_ok.1 h
  obtain ⟨-, rfl⟩ := assertM_run_ok.1 h1
  obtain ⟨a, s1, h1, h⟩ := bind_run_ok.1 h
  obtain ⟨ha, rfl⟩ := need_run_ok.1 h1
  obtain ⟨c, s1, h1, h⟩ := bind_run_ok.1 h
  obtain ⟨hc, rfl⟩ := need_run_ok.1 h1
  obtain ⟨la, s1, h1, h⟩ := bind_run_ok.1 h
  obtain ⟨rfl, rfl⟩ := getWfLine_run_ok.1 h1
  obtain ⟨lc, s1, h1, h⟩ := bind_run_ok.1 h
  obtain ⟨rfl, rfl⟩ := getWfLine_run_ok.1 h1
  obtain ⟨_, s1, h1, h⟩ := bind_run_ok.1 h
  obtain ⟨-, rfl⟩ := lift_run_ok.1 h1
  obtain ⟨pos, s1, hpos, h⟩ := bind_run_ok.1 h
  have hs1 : s1 = s := by
    have hp := hpos
    unfold tryIntersection at hp
    split at hp <;> simp at hp
    · exact hp.2.symm
    · exact hp.2.symm
  subst hs1
  obtain ⟨node, s2, hstop, h⟩ := bind_run_ok.1 h
  have q2 := q_stopAndRecord _ _ _ _ _ _ _ hstop
  obtain ⟨ct, s3, h3, h⟩ := bind_run_ok.1 h
  obtain ⟨rfl, rfl⟩ := countVertices_run_ok.1 h3
  obtain ⟨k1', hk1', r1⟩ := q2.kin hk1
  obtain ⟨k2', hk2', r2⟩ := q2.kin hk2
  have hv1' := q2.nV ▸ hv1
  have hv2' := q2.nV ▸ hv2
  obtain ⟨v, s3, hnew, h⟩ := bind_run_ok.1 h
  obtain ⟨rfl, kn, rfl, -⟩ := C30_attributes _ _ _ _ _ _ _ _ _ hnew
  obtain ⟨_, s4, h4, h⟩ := bind_run_ok.1 h
  obtain ⟨-, kn', hkn', rfl⟩ := modifyK_run_ok.1 h4
  dsimp only at hkn'
  rw [Function.update_self] at hkn'
  cases hkn'
  obtain ⟨k1'', s5, h5, h⟩ := bind_run_ok.1 h
  obtain ⟨hv1'', hk1'', rfl⟩ := getK_run_ok.1 h5
  have n1 := Nat.ne_of_lt hv1'
  have n2 := Nat.ne_of_lt hv2'
  dsimp only at hk1''
  rw [Function.update_of_ne n1, Function.update_of_ne n1, hk1'] at hk1''
  cases hk1''
  obtain ⟨_, s5, h5, h⟩ := bind_run_ok.1 h
  obtain rfl := evalPosition_ok h5
  obtain ⟨k2'', s5, h5, h⟩ := bind_run_ok.1 h
  obtain ⟨-, -, rfl⟩ := getK_run_ok.1 h5
  obtain ⟨_, s5, h5, h⟩ := bind_run_ok.1 h
  obtain rfl := evalPosition_ok h5
  obtain ⟨_, s5, h5, h⟩ := bind_run_ok.1 h
  obtain rfl := appendVertex_run_ok.1 h5
  obtain ⟨_, s6, h6, h⟩ := bind_run_ok.1 h
  obtain ⟨k2''', s7, h7, h⟩ := bind_run_ok.1 h
  obtain ⟨hv2'', hk2'', rfl⟩ := getK_run_ok.1 h7
  obtain ⟨_, s7, h7, h⟩ := bind_run_ok.1 h
  obtain ⟨_, s8, h8, h⟩ := bind_run_ok.1 h
  obtain ⟨rfl, kk, l, r, g1, g2, g3⟩ := checkLinks_ok h8
  obtain ⟨rfl, rfl⟩ := pure_run_ok.1 h
  obtain ⟨f6, v6⟩ := updateCirc_vertex h6
  obtain ⟨f7, v7⟩ := updateCirc_vertex h7
  dsimp only at f6 v6
  have hvert : ∀ w, w ≠ s2.nV → s7.vert w = match s2.vert w with
      | .inf o => .inf o
      | .kin k => .kin { k with
          right := if k1.leftRef = some w then k.right.set (some s2.nV) now else k.right
          left := if k2'''.rightRef = some w then k.left.set (some s2.nV) now else k.left } := by
    intro w hw
    rw [v7 w, v6 w, Function.update_of_ne hw, Function.update_of_ne hw, r1.leftRef]
    have n : (some s2.nV : Option VId) ≠ some w := fun x => hw (Option.some.inj x).symm
    cases s2.vert w with
    | inf o => rfl
    | kin k => simp only [if_neg n]
  have hkv : ∀ l' r', k1'.leftRef = l' → k2'''.rightRef = r' → l' ≠ some s2.nV → r' ≠ some s2.nV → s7.vert s2.nV = .kin { kn with
      wfl := k1.wfl, wfr := k2.wfr
      left := kn.left.set l' now, right := kn.right.set r' now } := by
    rintro l' r' rfl rfl d1 d2
    rw [v7, v6, Function.update_self]
    simp only [if_neg d1, if_neg d2, if_true]
  refine ⟨k1, k2, a, c, pos, node, s2, kn, k2'''.rightRef, hv1, hk1, hv2, hk2, ha, hc, hpos, hstop, hnew, rfl, ?_, ?_, hvert, ?_⟩
  · intro hne
    rw [v6, Function.update_of_ne n2, Function.update_of_ne n2, hk2'] at hk2''
    dsimp only at hk2''
    rw [r1.leftRef, if_neg hne] at hk2''
    simp only [Vertex.kin.injEq] at hk2''
    rw [← hk2'', ← r2.rightRef]
    rfl
  · rw [f7, f6]
  · intro d1 d2
    rw [← r1.leftRef] at d1
    have e := hkv _ _ rfl rfl d1 d2
    rw [e] at g1
    cases g1
    unfold KVertex.leftRef at g2
    unfold KVertex.rightRef at g3
    dsimp only at g2 g3
    rw [hist_last_set] at g2 g3
    refine ⟨l, r, r1.leftRef.symm.trans g2, g3, ?_⟩
    rw [e]
    have g2' : k1'.leftRef = some l := g2
    have g3' : k2'''.rightRef = some r := g3
    rw [g2', g3']

/-! ### the split event -/

/-- `handle_split_event` up to the replacement of the vertices, step by step -/
structure SplitSteps (v v1 v2 : VId) (now : K) (step : ℤ) (s s' : St K) (r : VId × VId) : Prop where
  steps : ∃ (k k1 k2 : KVertex K) (node : NodeId) (s2 s4 : St K) (kb ka : KVertex K) (R : Option VId),
    stopAndRecord [v] step now none s = .ok (node, s2) ∧
    v < s2.nV ∧ s2.vert v = .kin k ∧ v1 < s2.nV ∧ s2.vert v1 = .kin k1 ∧ v2 < s2.nV ∧ s2.vert v2 = .kin k2 ∧
    k1.ur = k2.ul ∧
    computeNewKvertex k.ul k2.ul now node (s2.skVertices.length + 1) (k.internal || k2.internal) s2 =
      .ok (s2.nV, { s2 with vert := (Function.update s2.vert s2.nV (.kin kb)), nV := s2.nV + 1 }) ∧
    s4 = { s2 with vert := s4.vert, nV := s2.nV + 1, skVertices := s2.skVertices ++ [s2.nV] } ∧
    computeNewKvertex k1.ur k.ur now node (s2.skVertices.length + 1 + 1) (k.internal || k1.internal) s4 =
      .ok (s2.nV + 1, { s4 with vert := (Function.update s4.vert (s2.nV + 1) (.kin ka)), nV := s2.nV + 1 + 1 }) ∧
    r = (s2.nV, s2.nV + 1) ∧
    (v ≠ v1 → k.leftRef ≠ some v → R = k.rightRef) ∧
    s' = { s2 with vert := s'.vert, nV := s2.nV + 1 + 1, skVertices := s2.skVertices ++ [s2.nV] ++ [s2.nV + 1] } ∧
    (∀ w, w ≠ s2.nV → w ≠ s2.nV + 1 → s'.vert w = match s2.vert w with
      | .inf o => .inf o
      | .kin x => .kin { x with
          right := if v1 = w
            then (if k.leftRef = some w then x.right.set (some s2.nV) now else x.right).set (some (s2.nV + 1)) now
            else if k.leftRef = some w then x.right.set (some s2.nV) now else x.right
          left := if R = some w
            then (if v2 = w then x.left.set (some s2.nV) now else x.left).set (some (s2.nV + 1)) now
            else if v2 = w then x.left.set (some s2.nV) now else x.left }) ∧
    ((∀ x, k.leftRef = some x → x < s2.nV) → (∀ x, R = some x → x < s2.nV) →
      ∃ l q, k.leftRef = some l ∧ R = some q ∧
      s'.vert s2.nV = .kin { kb with
        wfl := k.wfl, wfr := k2.wfl
        left := kb.left.set (some l) now, right := kb.right.set (some v2) now } ∧
      s'.vert (s2.nV + 1) = .kin { ka with
        wfl := k1.wfr, wfr := k.wfr
        left := ka.left.set (some v1) now, right := ka.right.set (some q) now })

theorem splitVertices_steps {v v1 v2 : VId} {now : K} {step : ℤ} {s s' : St K} {r : VId × VId}
    [IsStrictOrderedRing K] [SqrtUnit K]
    (h : splitVertices v v1 v2 now step s = .ok (r, s')) : SplitSteps v v1 v2 now step s s' r := by
  unfold splitVertices at h
  obtain ⟨node, s2, hstop, h⟩ := bind_run_ok.1 h
  obtain ⟨k, _, h1, h⟩ := bind_run_ok.1 h
  obtain ⟨hv, hk, rfl⟩ := getK_run_ok.1 h1
  obtain ⟨k1, _, h1, h⟩ := bind_run_ok.1 h
  obtain ⟨hv1, hk1, rfl⟩ := getK_run_ok.1 h1
  obtain ⟨k2, _, h1, h⟩ := bind_run_ok.1 h
  obtain ⟨hv2, hk2, rfl⟩ := getK_run_ok.1 h1
  obtain ⟨_, _, h1, h⟩ := bind_run_ok.1 h
  obtain ⟨hu, rfl⟩ := assertM_run_ok.1 h1
  obtain ⟨ct, _, h1, h⟩ := bind_run_ok.1 h
  obtain ⟨rfl, rfl⟩ := countVertices_run_ok.1 h1
  obtain ⟨vb, s3, hb, h⟩ := bind_run_ok.1 h
  obtain ⟨rfl, kb, rfl, -⟩ := C30_attributes _ _ _ _ _ _ _ _ _ hb
  obtain ⟨_, s4, h4, h⟩ := bind_run_ok.1 h
  obtain ⟨-, kb', hkb', rfl⟩ := modifyK_run_ok.1 h4
  dsimp only at hkb'
  rw [Function.update_self] at hkb'
  cases hkb'
  obtain ⟨_, s5, h5, h⟩ := bind_run_ok.1 h
  obtain rfl := appendVertex_run_ok.1 h5
  obtain ⟨ct, _, h1, h⟩ := bind_run_ok.1 h
  obtain ⟨rfl, rfl⟩ := countVertices_run_ok.1 h1
  obtain ⟨va, s6, ha, h⟩ := bind_run_ok.1 h
  obtain ⟨rfl, ka, rfl, -⟩ := C30_attributes _ _ _ _ _ _ _ _ _ ha
  obtain ⟨_, s7, h7, h⟩ := bind_run_ok.1 h
  obtain ⟨-, ka', hka', rfl⟩ := modifyK_run_ok.1 h7
  dsimp only at hka'
  rw [Function.update_self] at hka'
  cases hka'
  obtain ⟨_, s8, h8, h⟩ := bind_run_ok.1 h
  obtain rfl := appendVertex_run_ok.1 h8
  obtain ⟨_, s9, h9, h⟩ := bind_run_ok.1 h
  obtain ⟨_, s10, h10, h⟩ := bind_run_ok.1 h
  obtain ⟨_, s11, h11, h⟩ := bind_run_ok.1 h
  obtain ⟨rfl, kk, l, r', g1, g2, g3⟩ := checkLinks_ok h11
  obtain ⟨_, s12, h12, h⟩ := bind_run_ok.1 h
  obtain ⟨k9, s13, h13, h⟩ := bind_run_ok.1 h
  obtain ⟨hv9, hk9, rfl⟩ := getK_run_ok.1 h13
  obtain ⟨_, s13, h14, h⟩ := bind_run_ok.1 h
  obtain ⟨_, s14, h15, h⟩ := bind_run_ok.1 h
  obtain ⟨rfl, kk', l', r'', g1', g2', g3'⟩ := checkLinks_ok h15
  obtain ⟨rfl, rfl⟩ := pure_run_ok.1 h
  obtain ⟨f9, v9⟩ := updateCirc_vertex h9
  obtain ⟨f10, v10⟩ := updateCirc_vertex h10
  obtain ⟨f12, v12⟩ := updateCirc_vertex h12
  obtain ⟨f14, v14⟩ := updateCirc_vertex h14
  dsimp only at f9 v9 ha
  simp only [List.length_append, List.length_singleton] at ha
  have nb : s2.nV ≠ s2.nV + 1 := Nat.ne_of_lt (Nat.lt_succ_self _)
  have sne : ∀ {x y : VId}, x ≠ y → (some x : Option VId) ≠ some y := fun hxy e => hxy (Option.some.inj e)
  refine ⟨k, k1, k2, node, s2, _, kb, ka, k9.rightRef, hstop, hv, hk, hv1, hk1, hv2, hk2, hu, hb, ?_, ha, rfl, ?_, ?_, ?_, ?_⟩
  · rfl
  · intro n1 n2
    have nv := Nat.ne_of_lt hv
    have nv' : v ≠ s2.nV + 1 := Nat.ne_of_lt (Nat.lt_succ_of_lt hv)
    rw [v12, v10, v9, Function.update_of_ne nv', Function.update_of_ne nv', Function.update_of_ne nv,
      Function.update_of_ne nv, hk] at hk9
    simp only [if_neg n2, if_neg (sne (Ne.symm n1)), if_neg (sne (Ne.symm nv)), Vertex.kin.injEq] at hk9
    rw [← hk9]
    rfl
  · rw [f14, f12, f10, f9]
  · intro w n1 n2
    rw [v14, v12, v10, v9, Function.update_of_ne n2, Function.update_of_ne n2, Function.update_of_ne n1,
      Function.update_of_ne n1]
    cases s2.vert w with
    | inf o => rfl
    | kin x =>
      have i1 : ∀ (a b : Hist K (Option VId)), (if (some v1 : Option VId) = some w then a else b) = if v1 = w then a else b := by
        intro a b
        by_cases c : v1 = w
        · rw [if_pos c, if_pos (congrArg some c)]
        · rw [if_neg c, if_neg (sne c)]
      have i2 : ∀ (a b : Hist K (Option VId)), (if (some v2 : Option VId) = some w then a else b) = if v2 = w then a else b := by
        intro a b
        by_cases c : v2 = w
        · rw [if_pos c, if_pos (congrArg some c)]
        · rw [if_neg c, if_neg (sne c)]
      simp only [if_neg (sne n1.symm), if_neg (sne n2.symm), i1, i2]
  · intro d1 d2
    have eb : s13.vert s2.nV = .kin { kb with
        wfl := k.wfl, wfr := k2.wfl
        left := kb.left.set k.leftRef now, right := kb.right.set (some v2) now } := by
      have a1 : k.leftRef ≠ some s2.nV := fun x => lt_irrefl _ (d1 _ x)
      have a2 : k9.rightRef ≠ some s2.nV := fun x => lt_irrefl _ (d2 _ x)
      rw [v14, v12, v10, v9, Function.update_of_ne nb, Function.update_of_ne nb, Function.update_self]
      simp only [if_neg a1, if_neg a2, if_neg (sne (Nat.ne_of_lt hv1)), if_neg (sne (Nat.ne_of_lt hv2)),
        if_neg (sne nb.symm), if_true]
    have ea : s13.vert (s2.nV + 1) = .kin { ka with
        wfl := k1.wfr, wfr := k.wfr
        left := ka.left.set (some v1) now, right := ka.right.set k9.rightRef now } := by
      have a1 : k.leftRef ≠ some (s2.nV + 1) := fun x => absurd (d1 _ x) (Nat.not_lt.2 (Nat.le_succ _))
      have a2 : k9.rightRef ≠ some (s2.nV + 1) := fun x => absurd (d2 _ x) (Nat.not_lt.2 (Nat.le_succ _))
      have a3 : v1 ≠ s2.nV + 1 := Nat.ne_of_lt (Nat.lt_succ_of_lt hv1)
      have a4 : v2 ≠ s2.nV + 1 := Nat.ne_of_lt (Nat.lt_succ_of_lt hv2)
      rw [v14, v12, v10, v9, Function.update_self]
      simp only [if_neg a1, if_neg a2, if_neg (sne a3), if_neg (sne a4), if_neg (sne nb), if_true]
    have cl : k.leftRef = some l := by
      have a1 : k.leftRef ≠ some s2.nV := fun x => lt_irrefl _ (d1 _ x)
      rw [v10, v9, Function.update_of_ne nb, Function.update_of_ne nb, Function.update_self] at g1
      simp only [if_neg a1, if_neg (sne (Nat.ne_of_lt hv2)), if_true] at g1
      cases g1
      unfold KVertex.leftRef at g2
      dsimp only at g2
      rw [hist_last_set] at g2
      exact g2
    have cr : k9.rightRef = some r'' := by
      rw [ea] at g1'
      cases g1'
      unfold KVertex.rightRef at g3'
      dsimp only at g3'
      rw [hist_last_set] at g3'
      exact g3'
    rw [cl] at eb
    rw [cr] at ea
    exact ⟨l, r'', cl, cr, eb, ea⟩

/-! ### the whole handlers -/

omit [HasSqrt K] [HasTrig K] in
theorem singleSide_run_ok {l : List (Fin 3)} {e : Fin 3} {s s' : St K} (h : singleSide l s = .ok (e, s')) :
    l = [e] ∧ s = s' := by
  match l, h with
  | [], h => cases h
  | [x], h =>
    obtain ⟨rfl, rfl⟩ := pure_run_ok.1 (show (pure x : M K (Fin 3)) s = _ from h)
    exact ⟨rfl, rfl⟩
  | _ :: _ :: _, h => cases h

omit [HasTrig K] in
theorem tryIntersection_same {l r : Line2 K} {now : K} {s s' : St K} {p : Option (Pt K)}
    (h : tryIntersection l r now s = .ok (p, s')) : s = s' := by
  unfold tryIntersection at h
  split at h <;> simp at h
  · exact h.2
  · exact h.2

omit [HasTrig K] in
theorem splitChecks_same {v v1 v2 : VId} {now : K} {s s' : St K} {u : Unit}
    (h : splitChecks v v1 v2 now s = .ok (u, s')) : s = s' := by
  unfold splitChecks at h
  obtain ⟨k1, s1, h1, h⟩ := bind_run_ok.1 h
  obtain ⟨-, -, rfl⟩ := getK_run_ok.1 h1
  obtain ⟨k2, s1, h1, h⟩ := bind_run_ok.1 h
  obtain ⟨-, -, rfl⟩ := getK_run_ok.1 h1
  obtain ⟨_, s1, h1, h⟩ := bind_run_ok.1 h
  obtain ⟨-, rfl⟩ := assertM_run_ok.1 h1
  obtain ⟨k, s1, h1, h⟩ := bind_run_ok.1 h
  obtain ⟨-, -, rfl⟩ := getK_run_ok.1 h1
  obtain ⟨a, s1, h1, h⟩ := bind_run_ok.1 h
  obtain ⟨-, rfl⟩ := need_run_ok.1 h1
  obtain ⟨b, s1, h1, h⟩ := bind_run_ok.1 h
  obtain ⟨-, rfl⟩ := need_run_ok.1 h1
  obtain ⟨la, s1, h1, h⟩ := bind_run_ok.1 h
  obtain rfl := (getWfLine_run_ok.1 h1).2
  obtain ⟨lb, s1, h1, h⟩ := bind_run_ok.1 h
  obtain rfl := (getWfLine_run_ok.1 h1).2
  obtain ⟨_, s1, h1, h⟩ := bind_run_ok.1 h
  obtain ⟨-, rfl⟩ := lift_run_ok.1 h1
  obtain ⟨c, s1, h1, h⟩ := bind_run_ok.1 h
  obtain ⟨-, rfl⟩ := need_run_ok.1 h1
  obtain ⟨lc, s1, h1, h⟩ := bind_run_ok.1 h
  obtain rfl := (getWfLine_run_ok.1 h1).2
  obtain ⟨_, s1, h1, h⟩ := bind_run_ok.1 h
  obtain ⟨-, rfl⟩ := lift_run_ok.1 h1
  obtain ⟨_, s1, h1, h⟩ := bind_run_ok.1 h
  obtain rfl := tryIntersection_same h1
  obtain ⟨_, s1, h1, h⟩ := bind_run_ok.1 h
  obtain rfl := tryIntersection_same h1
  obtain ⟨_, s1, h1, h⟩ := bind_run_ok.1 h
  obtain rfl := tryIntersection_same h1
  exact (pure_run_ok.1 h).2

/-- an edge event: new vertex, then changes of the mesh, then possibly a parallel fan -/
theorem handleEdge_steps {depth : ℕ} {evt : Event K} {step : ℤ} {s s' : St K} {u : Unit}
    (h : handleEdge depth evt step s = .ok (u, s')) :
    ∃ e kv s1 s2 k, evt.side = [e] ∧ edgeVertex evt.tri e evt.time step s = .ok (kv, s1) ∧ MeshOnly s1 s2 ∧
      s2.vert kv = .kin k ∧ (k.infFast = false → s' = s2) ∧ Grows s2 s' := by
  unfold handleEdge at h
  obtain ⟨e, s1, h1, h⟩ := bind_run_ok.1 h
  obtain ⟨he, rfl⟩ := singleSide_run_ok h1
  dsimp only at h
  obtain ⟨kv, s2, h2, h⟩ := bind_run_ok.1 h
  obtain ⟨T, s3, h3, h⟩ := bind_run_ok.1 h
  obtain ⟨-, -, rfl⟩ := getT_run_ok.1 h3
  obtain ⟨fa, s4, h4, h⟩ := bind_run_ok.1 h
  have m4 := mo_edgeSide _ _ _ _ _ _ _ _ _ _ h4
  obtain ⟨fb, s5, h5, h⟩ := bind_run_ok.1 h
  have m5 := meshPre.trans _ _ _ m4 (mo_edgeSide _ _ _ _ _ _ _ _ _ _ h5)
  obtain ⟨_, s6, h6, h⟩ := bind_run_ok.1 h
  have m6 := meshPre.trans _ _ _ m5 (mo_detachAndSchedule _ _ _ _ _ _ h6)
  obtain ⟨_, s7, h7, h⟩ := bind_run_ok.1 h
  have m7 := meshPre.trans _ _ _ m6 (mo_stopTriangle _ _ _ _ _ h7)
  have g := g_edgeFan _ _ _ _ _ _ _ _ _ h
  unfold edgeFan at h
  obtain ⟨nx, s8, h8, h⟩ := bind_run_ok.1 h
  unfold nextFan at h8
  obtain ⟨k, s9, h9, h8⟩ := bind_run_ok.1 h8
  obtain ⟨-, hk, rfl⟩ := getK_run_ok.1 h9
  refine ⟨e, kv, s2, s7, k, he, h2, m7, hk, fun hi => ?_, g⟩
  rw [hi] at h8
  obtain ⟨rfl, rfl⟩ := pure_run_ok.1 h8
  exact (pure_run_ok.1 h).2.symm

/-- a split event: new vertices, then changes of the mesh, then possibly parallel fans -/
theorem handleSplit_steps {depth : ℕ} {evt : Event K} {step : ℤ} {s s' : St K} {u : Unit}
    (h : handleSplit depth evt step s = .ok (u, s')) :
    ∃ e r s1 s2, evt.side = [e] ∧
      splitVertices ((s.tri evt.tri).vertices e) ((s.tri evt.tri).vertices (ccw e)) ((s.tri evt.tri).vertices (cw e))
        evt.time step s = .ok (r, s1) ∧
      MeshOnly s1 s2 ∧
      ((∀ k, s2.vert r.1 = .kin k → k.infFast = false) → (∀ k, s2.vert r.2 = .kin k → k.infFast = false) →
        s' = s2) ∧ Grows s2 s' := by
  unfold handleSplit at h
  obtain ⟨e, s1, h1, h⟩ := bind_run_ok.1 h
  obtain ⟨he, rfl⟩ := singleSide_run_ok h1
  dsimp only at h
  obtain ⟨T, s3, h3, h⟩ := bind_run_ok.1 h
  obtain ⟨-, rfl, rfl⟩ := getT_run_ok.1 h3
  obtain ⟨_, s3, h3, h⟩ := bind_run_ok.1 h
  obtain ⟨-, rfl⟩ := assertM_run_ok.1 h3
  obtain ⟨_, s3, h3, h⟩ := bind_run_ok.1 h
  obtain rfl := splitChecks_same h3
  obtain ⟨r, s2, h2, h⟩ := bind_run_ok.1 h
  obtain ⟨fb, s4, h4, h⟩ := bind_run_ok.1 h
  have m4 := mo_splitSide _ _ _ _ _ _ _ _ _ h4
  obtain ⟨fa, s5, h5, h⟩ := bind_run_ok.1 h
  have m5 := meshPre.trans _ _ _ m4 (mo_splitSide _ _ _ _ _ _ _ _ _ h5)
  obtain ⟨_, s6, h6, h⟩ := bind_run_ok.1 h
  have m6 := meshPre.trans _ _ _ m5 (mo_stopTriangle _ _ _ _ _ h6)
  obtain ⟨_, s7, h7, h⟩ := bind_run_ok.1 h
  have g7 := g_splitFan _ _ _ _ _ _ _ _ _ h7
  have g := growsPre.trans _ _ _ g7 (g_splitFan _ _ _ _ _ _ _ _ _ h)
  refine ⟨e, r, s2, s6, he, h2, m6, fun hb ha => ?_, g⟩
  unfold splitFan at h7 h
  obtain ⟨ka, s9, h9, h7⟩ := bind_run_ok.1 h7
  obtain ⟨hla, hka, rfl⟩ := getK_run_ok.1 h9
  rw [ha _ hka] at h7
  obtain ⟨-, rfl⟩ := pure_run_ok.1 h7
  obtain ⟨kb, s10, h10, h⟩ := bind_run_ok.1 h
  obtain ⟨hlb', hkb, rfl⟩ := getK_run_ok.1 h10
  rw [hb _ hkb] at h
  exact (pure_run_ok.1 h).2.symm

/-! ### lemmas for the contracts -/

section

variable [IsStrictOrderedRing K] [SqrtUnit K]

/-- an existing node, or a single new one -/
theorem nodeOf_stop {V : List VId} {step : ℤ} {now : K} {pos : Option (Pt K)} {s s2 s' : St K} {n : NodeId}
    (h : stopAndRecord V step now pos s = .ok (n, s2)) (hn : n < s2.nN) (e : s'.node = s2.node) (e1 : s'.nN = s2.nN)
    (e2 : s'.skNodes = s2.skNodes) : NodeOf s s' n := by
  obtain ⟨-, -, ho, hx⟩ := stopAndRecord_exact h
  refine ⟨fun m hm => by rw [e]; exact ho m hm, fun hlt => ?_, fun hge => ?_⟩
  · rcases hx with ⟨a, b⟩ | ⟨a, -, -⟩
    · exact ⟨e1.trans a, e2.trans b⟩
    · exact absurd hlt (a ▸ Nat.lt_irrefl _)
  · rcases hx with ⟨a, b⟩ | ⟨a, b, c⟩
    · exact absurd (a ▸ hn) (Nat.not_lt.2 hge)
    · exact ⟨a, e1.trans b, e2.trans c⟩

/-- the new vertex needs a node -/
theorem computeNewKvertex_node {ul ur : Option LineId} {now : K} {node : NodeId} {info : ℕ} {internal : Bool}
    {s s' : St K} {v : VId} (h : computeNewKvertex ul ur now node info internal s = .ok (v, s')) : node < s.nN := by
  unfold computeNewKvertex at h
  obtain ⟨nd, s1, h1, h⟩ := bind_run_ok.1 h
  exact (getN_run_ok.1 h1).1

/-- collects what has been done to a vertex -/
theorem touched_mk {now : K} {n : NodeId} {k : KVertex K} {R L : Option VId} {rt lf : Hist K (Option VId)} (c : Prop)
    [Decidable c] {V : List VId} {w : VId} (hc : c ↔ w ∈ V)
    (h1 : ∀ r, R = some r → Continues now k.right r rt) (h2 : ∀ l, L = some l → Continues now k.left l lf)
    (h3 : R = none → rt = k.right) (h4 : L = none → lf = k.left) :
    Touched now (if c then some n else none) R L k
      { (if w ∈ V then { k with stopsAt := some now, stopNode := some n } else k) with right := rt, left := lf } := by
  by_cases q : c
  · have q' := hc.1 q
    simp only [q, q', if_true]
    exact ⟨rfl, fun m hm => by injection hm with hm; subst hm; exact ⟨rfl, rfl⟩, nofun, h1, h2, h3, h4⟩
  · have q' : w ∉ V := fun x => q (hc.2 x)
    simp only [q, q', if_false]
    exact ⟨rfl, nofun, fun _ => ⟨rfl, rfl⟩, h1, h2, h3, h4⟩

/-- two crossing lines have one point at given distances -/
theorem cross_unique {l r : Line2 K} {t : K} {p q : Pt K} (hc : Cross l r) (hp : AtDistance l t p)
    (hp' : AtDistance r t p) (hq : AtDistance l t q) (hq' : AtDistance r t q) : p = q := by
  have hne : l.w.1 * r.w.2 - r.w.1 * l.w.2 ≠ 0 := by
    intro e
    unfold Cross at hc
    rw [e, abs_zero] at hc
    have : (0 : K) < 1 / 10 ^ 10 := by positivity
    linarith
  simp only [AtDistance] at *
  refine Prod.ext ?_ ?_
  · refine mul_left_cancel₀ hne ?_
    linear_combination r.w.2 * (hp - hq) - l.w.2 * (hp' - hq')
  · refine mul_left_cancel₀ hne ?_
    linear_combination l.w.1 * (hp' - hq') - r.w.1 * (hp - hq)

end

end Grassfire
