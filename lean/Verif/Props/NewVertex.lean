/-
Property C30: the vertex that continues after an event.
-/
import Verif.Props.Line2d
import Verif.Proofs.Wp
import Verif.Spec.RealTrig
import Verif.Spec.Samples
import Mathlib.Analysis.SpecialFunctions.Trigonometric.Bounds

set_option linter.unusedSectionVars false

namespace Grassfire

section general

variable {K : Type} [Field K] [LinearOrder K] [IsStrictOrderedRing K] [HasSqrt K] [SqrtUnit K]
  [HasTrig K]

/-- The test of lines 171 of events/lib.py, as used in the theorems: the two normals are opposed. -/
def Opposed (l r : Line2 K) : Prop :=
  (|l.w.1 + r.w.1| ≤ 1 / 10 ^ 10 ∧ |l.w.2 + r.w.2| ≤ 1 / 10 ^ 10) ∨
  |HasTrig.acos (max (-1) (min 1 (l.w.1 * r.w.1 + l.w.2 * r.w.2))) - (HasTrig.pi : K)| ≤ 1 / 10 ^ 10 ∨
  max (-1) (min 1 (l.w.1 * r.w.1 + l.w.2 * r.w.2)) < (HasTrig.cosLimit : K)

/-- The lines coincide (within the tolerance). -/
def Coincident (l r : Line2 K) : Prop :=
  |l.w.1 * r.w.2 - r.w.1 * l.w.2| ≤ 1 / 10 ^ 10 ∧
  |l.w.1 * r.b - r.w.1 * l.b| ≤ 1 / 10 ^ 10 ∧ |l.w.2 * r.b - r.w.2 * l.b| ≤ 1 / 10 ^ 10

/-- The normals are linearly independent (beyond the tolerance). -/
def Crossing (l r : Line2 K) : Prop := 1 / 10 ^ 10 < |l.w.1 * r.w.2 - r.w.1 * l.w.2|

theorem newMotion_opposed {l r : Line2 K} (h : Opposed l r) (now : K) (p : Pt K) :
    newMotion l r now p = .ok ((0, 0), none) := by
  unfold newMotion
  rw [if_pos]
  simp only [Bool.or_eq_true, Bool.and_eq_true, nearZero_iff, add2, dot2]
  rcases h with h | h | h
  · exact .inl (.inl h)
  · exact .inl (.inr h)
  · exact .inr (decide_eq_true h)

theorem newMotion_else {l r : Line2 K} (h : ¬ Opposed l r) (now : K) (p : Pt K) :
    newMotion l r now p = (do
      match ← lineLineIntersect l r with
      | .noIntersection => .ok ((0, 0), none)
      | .point p => do
        let ult ← l.translated l.w
        let urt ← r.translated r.w
        match ← lineLineIntersect ult urt with
        | .point q => .ok (sub2 q p, some p)
        | _ => .error .assertionError
      | .line _ => .ok (l.w, some (add2 p (mul2 (mul2 l.w (-1)) now)))) := by
  unfold newMotion
  refine if_neg ?_
  simp only [Bool.or_eq_true, Bool.and_eq_true, nearZero_iff, add2, dot2]
  rintro ((h1 | h1) | h1)
  · exact h (.inl h1)
  · exact h (.inr (.inl h1))
  · exact h (.inr (.inr (of_decide_eq_true h1)))

theorem newMotion_crossing {l r : Line2 K} (hl : UnitNormal l) (hr : UnitNormal r)
    (ho : ¬ Opposed l r) (hc : Crossing l r) (now : K) (p : Pt K) :
    ∃ v q, newMotion l r now p = .ok (v, some q) ∧
      l.w.1 * v.1 + l.w.2 * v.2 = 1 ∧ r.w.1 * v.1 + r.w.2 * v.2 = 1 ∧ OnLine l q ∧ OnLine r q := by
  have hz : ∀ s t : K, nearZero (det2 (⟨l.w, s⟩ : Line2 K) ⟨r.w, t⟩) = false := by
    intro s t; rw [nearZero_false_iff]; exact hc
  have hne : l.w.1 * r.w.2 - r.w.1 * l.w.2 ≠ 0 := by
    intro e
    unfold Crossing at hc
    rw [e, abs_zero] at hc
    have : (0 : K) < 1 / 10 ^ 10 := by positivity
    linarith
  have e1 : dot2 l.w l.w = 1 := by unfold dot2; unfold UnitNormal at hl; nlinarith
  have e2 : dot2 r.w r.w = 1 := by unfold dot2; unfold UnitNormal at hr; nlinarith
  have hrun : newMotion l r now p = .ok (sub2
      ((l.w.2 * (r.b - 1) - r.w.2 * (l.b - 1)) / (l.w.1 * r.w.2 - r.w.1 * l.w.2),
        (r.w.1 * (l.b - 1) - l.w.1 * (r.b - 1)) / (l.w.1 * r.w.2 - r.w.1 * l.w.2))
      ((l.w.2 * r.b - r.w.2 * l.b) / (l.w.1 * r.w.2 - r.w.1 * l.w.2),
        (r.w.1 * l.b - l.w.1 * r.b) / (l.w.1 * r.w.2 - r.w.1 * l.w.2)),
      some ((l.w.2 * r.b - r.w.2 * l.b) / (l.w.1 * r.w.2 - r.w.1 * l.w.2),
        (r.w.1 * l.b - l.w.1 * r.b) / (l.w.1 * r.w.2 - r.w.1 * l.w.2))) := by
    rw [newMotion_else ho, lli_point l r (hz l.b r.b)]
    simp only [bind, Except.bind]
    rw [translated_unit l _ hl, translated_unit r _ hr]
    simp only
    rw [lli_point _ _ (hz _ _)]
    simp only [det2, e1, e2]
  refine ⟨_, _, hrun, ?_⟩
  simp only [sub2, OnLine]
  obtain ⟨D, hD⟩ : ∃ D, D = l.w.1 * r.w.2 - r.w.1 * l.w.2 := ⟨_, rfl⟩
  rw [← hD] at hne ⊢
  refine ⟨?_, ?_, ?_, ?_⟩
  · field_simp; rw [hD]; ring
  · field_simp; rw [hD]; ring
  · field_simp; rw [hD]; ring
  · field_simp; rw [hD]; ring

/-- what the new vertex looks like, in terms of its motion -/
theorem computeNewKvertex_run (ul ur : LineId) (now : K) (node : NodeId) (info : ℕ) (internal : Bool)
    (s : St K) (hn : node < s.nN) {m : Pt K × Option (Pt K)}
    (hm : newMotion (s.line ul) (s.line ur) now (s.node node).pos = .ok m) :
    computeNewKvertex (some ul) (some ur) now node info internal s = .ok (s.nV,
      { s with
        vert := (Function.update s.vert s.nV (.kin {
          origin := if decide (m.1 = (0, 0)) then (s.node node).pos else m.2.getD (s.node node).pos
          velocity := m.1, startsAt := some now, startNode := some node, ul := some ul, ur := some ur
          info := info, infFast := decide (m.1 = (0, 0)), internal := internal }))
        nV := s.nV + 1 }) := by
  unfold computeNewKvertex
  rw [bind_run, getN_run_ok.2 ⟨hn, rfl, rfl⟩]
  dsimp only
  rw [bind_run, need_run_ok.2 ⟨rfl, rfl⟩]
  dsimp only
  rw [bind_run, need_run_ok.2 ⟨rfl, rfl⟩]
  dsimp only
  rw [bind_run, getLine_run_ok.2 ⟨rfl, rfl⟩]
  dsimp only
  rw [bind_run, getLine_run_ok.2 ⟨rfl, rfl⟩]
  dsimp only
  rw [bind_run, lift_run_ok.2 ⟨hm, rfl⟩]
  rfl

/-- C30: whenever it succeeds, the new vertex is a fresh object that starts now at the given node
between the given wavefronts; nothing else changes.  It is marked infinitely fast iff its
velocity is (0, 0), and then its origin is the node. -/
theorem C30_attributes (ul ur : Option LineId) (now : K) (node : NodeId) (info : ℕ) (internal : Bool)
    (s s' : St K) (v : VId)
    (h : computeNewKvertex ul ur now node info internal s = .ok (v, s')) :
    v = s.nV ∧ ∃ kv, s' = { s with vert := (Function.update s.vert s.nV (.kin kv)), nV := s.nV + 1 } ∧
      kv.startsAt = some now ∧ kv.startNode = some node ∧ kv.stopsAt = none ∧ kv.stopNode = none ∧
      kv.ul = ul ∧ kv.ur = ur ∧ kv.info = info ∧ kv.internal = internal ∧
      kv.left = [] ∧ kv.right = [] ∧ (kv.infFast = true ↔ kv.velocity = (0, 0)) ∧
      (kv.infFast = true → kv.origin = (s.node node).pos) := by
  unfold computeNewKvertex at h
  obtain ⟨nd, s1, h1, h⟩ := bind_run_ok.1 h
  obtain ⟨hn, rfl, rfl⟩ := getN_run_ok.1 h1
  obtain ⟨_, s1, h1, h⟩ := bind_run_ok.1 h
  obtain ⟨rfl, rfl⟩ := need_run_ok.1 h1
  obtain ⟨_, s1, h1, h⟩ := bind_run_ok.1 h
  obtain ⟨rfl, rfl⟩ := need_run_ok.1 h1
  obtain ⟨_, s1, h1, h⟩ := bind_run_ok.1 h
  obtain ⟨rfl, rfl⟩ := getLine_run_ok.1 h1
  obtain ⟨_, s1, h1, h⟩ := bind_run_ok.1 h
  obtain ⟨rfl, rfl⟩ := getLine_run_ok.1 h1
  obtain ⟨m, s1, h1, h⟩ := bind_run_ok.1 h
  obtain ⟨hm, rfl⟩ := lift_run_ok.1 h1
  obtain ⟨rfl, rfl⟩ := newK_run_ok.1 h
  refine ⟨rfl, _, rfl, rfl, rfl, rfl, rfl, rfl, rfl, rfl, rfl, rfl, rfl, ?_, ?_⟩
  · simp
  · intro hi
    dsimp only at hi ⊢
    rw [hi]
    rfl

/-- C30: wavefronts that are neither opposed nor parallel.  The new vertex moves with finite speed and
lies on both wavefronts at every time; in particular it passes through the node now if the
wavefronts meet there. -/
theorem C30_on_both_wavefronts (ul ur : LineId) (now : K) (node : NodeId) (info : ℕ) (internal : Bool)
    (s : St K) (hn : node < s.nN) (hl : UnitNormal (s.line ul)) (hr : UnitNormal (s.line ur))
    (ho : ¬ Opposed (s.line ul) (s.line ur)) (hc : Crossing (s.line ul) (s.line ur)) :
    ∃ s' kv, computeNewKvertex (some ul) (some ur) now node info internal s = .ok (s.nV, s') ∧
      s'.vert s.nV = .kin kv ∧ kv.infFast = false ∧
      (∀ t, OnLine (Advanced (s.line ul) t) (kv.origin.1 + t * kv.velocity.1, kv.origin.2 + t * kv.velocity.2) ∧
        OnLine (Advanced (s.line ur) t) (kv.origin.1 + t * kv.velocity.1, kv.origin.2 + t * kv.velocity.2)) ∧
      (OnLine (Advanced (s.line ul) now) (s.node node).pos →
        OnLine (Advanced (s.line ur) now) (s.node node).pos →
        (s.node node).pos = (kv.origin.1 + now * kv.velocity.1, kv.origin.2 + now * kv.velocity.2)) := by
  obtain ⟨v, q, hm, h1, h2, h3, h4⟩ := newMotion_crossing hl hr ho hc now (s.node node).pos
  have hv : v ≠ (0, 0) := by
    rintro rfl
    simp at h1
  have hrun := computeNewKvertex_run ul ur now node info internal s hn hm
  have hdec : decide (v = (0, 0)) = false := by simp [hv]
  simp only [hdec] at hrun
  have hon : ∀ t, OnLine (Advanced (s.line ul) t) (q.1 + t * v.1, q.2 + t * v.2) ∧
      OnLine (Advanced (s.line ur) t) (q.1 + t * v.1, q.2 + t * v.2) := by
    intro t
    simp only [OnLine, Advanced] at *
    exact ⟨by linear_combination h3 + t * h1, by linear_combination h4 + t * h2⟩
  refine ⟨_, _, hrun, Function.update_self _ _ _, rfl, hon, fun g1 g2 => ?_⟩
  have hne : (s.line ul).w.1 * (s.line ur).w.2 - (s.line ur).w.1 * (s.line ul).w.2 ≠ 0 := by
    intro e
    unfold Crossing at hc
    rw [e, abs_zero] at hc
    have : (0 : K) < 1 / 10 ^ 10 := by positivity
    linarith
  obtain ⟨k1, k2⟩ := hon now
  show (s.node node).pos = (q.1 + now * v.1, q.2 + now * v.2)
  generalize (s.node node).pos = p at g1 g2
  obtain ⟨px, py⟩ := p
  simp only [OnLine, Advanced, Prod.mk.injEq] at *
  constructor
  · apply mul_left_cancel₀ hne
    linear_combination (s.line ur).w.2 * (g1 - k1) - (s.line ul).w.2 * (g2 - k2)
  · apply mul_left_cancel₀ hne
    linear_combination (s.line ul).w.1 * (g2 - k2) - (s.line ur).w.1 * (g1 - k1)

/-- C30: both wavefronts on the same line, moving in the same direction.  The new vertex is at the
node now and moves with unit speed along the normal of the wavefront. -/
theorem C30_same_direction (ul ur : LineId) (now : K) (node : NodeId) (info : ℕ) (internal : Bool)
    (s : St K) (hn : node < s.nN) (hl : UnitNormal (s.line ul))
    (ho : ¬ Opposed (s.line ul) (s.line ur)) (hc : Coincident (s.line ul) (s.line ur)) :
    ∃ s' kv, computeNewKvertex (some ul) (some ur) now node info internal s = .ok (s.nV, s') ∧
      s'.vert s.nV = .kin kv ∧ kv.infFast = false ∧ kv.velocity = (s.line ul).w ∧
      (kv.origin.1 + now * kv.velocity.1, kv.origin.2 + now * kv.velocity.2) = (s.node node).pos := by
  have hm : newMotion (s.line ul) (s.line ur) now (s.node node).pos =
      .ok ((s.line ul).w, some (add2 (s.node node).pos (mul2 (mul2 (s.line ul).w (-1)) now))) := by
    rw [newMotion_else ho, ((C12_classification _ _).2.1).2 hc]
    rfl
  have hv : (s.line ul).w ≠ (0, 0) := by
    intro e
    unfold UnitNormal at hl
    rw [e] at hl
    simp at hl
  have hrun := computeNewKvertex_run ul ur now node info internal s hn hm
  have hdec : decide ((s.line ul).w = (0, 0)) = false := by simp [hv]
  simp only [hdec] at hrun
  refine ⟨_, _, hrun, Function.update_self _ _ _, rfl, rfl, ?_⟩
  simp [add2, mul2, mul_comm]

/-- C30: opposed wavefronts, and parallel wavefronts on different lines, give an infinitely fast
vertex that stays at the node. -/
theorem C30_infinitely_fast (ul ur : LineId) (now : K) (node : NodeId) (info : ℕ) (internal : Bool)
    (s : St K) (hn : node < s.nN)
    (h : Opposed (s.line ul) (s.line ur) ∨
      ¬ Crossing (s.line ul) (s.line ur) ∧ ¬ Coincident (s.line ul) (s.line ur)) :
    ∃ s' kv, computeNewKvertex (some ul) (some ur) now node info internal s = .ok (s.nV, s') ∧
      s'.vert s.nV = .kin kv ∧ kv.infFast = true ∧ kv.velocity = (0, 0) ∧
      ∀ t, positionAt s.nV t s' = .ok ((s.node node).pos, s') := by
  have hm : newMotion (s.line ul) (s.line ur) now (s.node node).pos = .ok ((0, 0), none) := by
    by_cases ho : Opposed (s.line ul) (s.line ur)
    · exact newMotion_opposed ho _ _
    · obtain ⟨h1, h2⟩ := h.resolve_left ho
      have hno : lineLineIntersect (s.line ul) (s.line ur) = .ok .noIntersection := by
        rw [(C12_classification _ _).2.2]
        unfold Crossing at h1
        unfold Coincident at h2
        rw [not_lt] at h1
        refine ⟨h1, ?_⟩
        exact fun h3 => h2 ⟨h1, h3⟩
      rw [newMotion_else ho, hno]
      rfl
  have hrun := computeNewKvertex_run ul ur now node info internal s hn hm
  refine ⟨_, _, hrun, Function.update_self _ _ _, decide_eq_true rfl, rfl, fun t => ?_⟩
  refine positionAt_run_ok.2 ⟨Nat.lt_succ_self _, ?_, rfl⟩
  simp [Vertex.positionAt]

/-- C30: a new vertex between unit-normal wavefronts is infinitely fast exactly in the cases of
`C30_infinitely_fast`. -/
theorem C30_inf_fast_iff (ul ur : LineId) (now : K) (node : NodeId) (info : ℕ) (internal : Bool)
    (s s' : St K) (v : VId) (kv : KVertex K) (hl : UnitNormal (s.line ul)) (hr : UnitNormal (s.line ur))
    (h : computeNewKvertex (some ul) (some ur) now node info internal s = .ok (v, s'))
    (hk : s'.vert v = .kin kv) :
    kv.infFast = true ↔ Opposed (s.line ul) (s.line ur) ∨
      ¬ Crossing (s.line ul) (s.line ur) ∧ ¬ Coincident (s.line ul) (s.line ur) := by
  have hn : node < s.nN := by
    unfold computeNewKvertex at h
    obtain ⟨nd, s1, h1, h⟩ := bind_run_ok.1 h
    exact (getN_run_ok.1 h1).1
  constructor
  · intro hi
    by_contra hc
    rw [not_or, not_and_or, not_not, not_not] at hc
    obtain ⟨ho, hx | hx⟩ := hc
    · obtain ⟨s1, k1, g, g1, g2, _⟩ := C30_on_both_wavefronts ul ur now node info internal s hn hl hr ho hx
      rw [h] at g
      cases g
      rw [hk] at g1
      cases g1
      rw [hi] at g2
      cases g2
    · obtain ⟨s1, k1, g, g1, g2, _⟩ := C30_same_direction ul ur now node info internal s hn hl ho hx
      rw [h] at g
      cases g
      rw [hk] at g1
      cases g1
      rw [hi] at g2
      cases g2
  · intro hx
    obtain ⟨s1, k1, g, g1, g2, _⟩ := C30_infinitely_fast ul ur now node info internal s hn hx
    rw [h] at g
    cases g
    rw [hk] at g1
    cases g1
    exact g2

end general

/-- C30, over the reals: for unit normals the test for opposed wavefronts is exactly: the angle between
the normals is more than 179.999999 degrees.  (The other two tests never add anything.) -/
theorem C30_opposed_iff (l r : Line2 ℝ) (hl : UnitNormal l) (hr : UnitNormal r) :
    Opposed l r ↔
      179.999999 * (Real.pi / 180) < Real.arccos (l.w.1 * r.w.1 + l.w.2 * r.w.2) := by
  unfold UnitNormal at hl hr
  obtain ⟨⟨a, b⟩, x⟩ := l
  obtain ⟨⟨c, d⟩, y⟩ := r
  unfold Opposed
  simp only at hl hr ⊢
  have hcs : (a * c + b * d) ^ 2 ≤ 1 := by
    have : (a * c + b * d) ^ 2 + (a * d - b * c) ^ 2 = 1 := by
      have : (a ^ 2 + b ^ 2) * (c ^ 2 + d ^ 2) = 1 := by rw [hl, hr]; ring
      linarith
    nlinarith [sq_nonneg (a * d - b * c)]
  have hle : a * c + b * d ≤ 1 := by nlinarith
  have hge : -1 ≤ a * c + b * d := by nlinarith
  rw [min_eq_right hle, max_eq_right hge]
  have hpi := Real.pi_pos
  have hpi3 := Real.two_le_pi
  have key : a * c + b * d < Real.cos (179.999999 * (Real.pi / 180)) ↔
      179.999999 * (Real.pi / 180) < Real.arccos (a * c + b * d) := by
    constructor
    · intro h
      by_contra hc
      rw [not_lt] at hc
      have := Real.cos_le_cos_of_nonneg_of_le_pi (Real.arccos_nonneg _) (by linarith) hc
      rw [Real.cos_arccos hge hle] at this
      linarith
    · intro h
      have := Real.cos_lt_cos_of_nonneg_of_le_pi (by positivity) (Real.arccos_le_pi _) h
      rwa [Real.cos_arccos hge hle] at this
  show _ ∨ |Real.arccos (a * c + b * d) - Real.pi| ≤ _ ∨
    a * c + b * d < Real.cos (179.999999 * (Real.pi / 180)) ↔ _
  rw [key]
  constructor
  · rintro (⟨h1, h2⟩ | h | h)
    · rw [← key]
      have e1 : (a + c) ^ 2 ≤ (1 / 10 ^ 10) ^ 2 := sq_le_sq' (abs_le.1 h1).1 (abs_le.1 h1).2
      have e2 : (b + d) ^ 2 ≤ (1 / 10 ^ 10) ^ 2 := sq_le_sq' (abs_le.1 h2).1 (abs_le.1 h2).2
      have hd : a * c + b * d ≤ -1 + 1 / 10 ^ 20 := by
        have : (a + c) ^ 2 + (b + d) ^ 2 = 2 + 2 * (a * c + b * d) := by
          linear_combination hl + hr
        norm_num at e1 e2 ⊢
        linarith
      have hx : (179.999999 : ℝ) * (Real.pi / 180) = Real.pi - 0.000001 * (Real.pi / 180) := by ring
      have hcos : Real.cos (0.000001 * (Real.pi / 180)) ≤ 1 - 2 / Real.pi ^ 2 * (0.000001 * (Real.pi / 180)) ^ 2 :=
        Real.cos_le_one_sub_mul_cos_sq (by rw [abs_of_nonneg (by positivity)]; linarith)
      have hval : 2 / Real.pi ^ 2 * (0.000001 * (Real.pi / 180)) ^ 2 = 2 * (0.000001 / 180) ^ 2 := by
        field_simp
      rw [hx, Real.cos_pi_sub]
      rw [hval] at hcos
      norm_num at hcos hd ⊢
      linarith
    · have := (abs_le.1 h).1
      norm_num at this ⊢
      linarith
    · exact h
  · exact fun h => .inr (.inr h)

/-- The hypotheses of `C30_on_both_wavefronts` are met: two sides of the square meet at the right
angle. -/
example : UnitNormal (Sample.square.line 0) ∧ UnitNormal (Sample.square.line 1) ∧
    Crossing (Sample.square.line 0) (Sample.square.line 1) ∧
    ¬ Opposed (Sample.square.line 0) (Sample.square.line 1) := by
  unfold UnitNormal Crossing Opposed; decide +kernel

/-- ... those of `C30_infinitely_fast` -/
example : Opposed (Sample.square.line 0) (Sample.square.line 2) := by
  unfold Opposed; decide +kernel

/-- ... those of `C30_same_direction` -/
example : Coincident (Sample.square.line 0) (Sample.square.line 0) ∧
    ¬ Opposed (Sample.square.line 0) (Sample.square.line 0) := by
  unfold Coincident Opposed; decide +kernel

/-- ... and the vertex that is computed between the first two sides of the rectangle at time 1, when they
meet in (3, 1) -/
example : Sample.outcome (computeNewKvertex (some 0) (some 1) (1 : ℚ) 1 9 true)
    (fun v s => (v, match s.vert v with
      | .kin kv => (kv.origin, kv.velocity, kv.infFast, kv.startNode)
      | .inf _ => ((0, 0), (0, 0), true, none))) Sample.rectangle =
    some (4, (4, 0), (-1, 1), false, some 1) := by
  decide +kernel

end Grassfire
