/-
The wavefronts of the vertices are kept by all handlers (lemmas for C57-C59).
-/
import Verif.Proofs.WavefrontSteps

set_option linter.unusedSectionVars false

namespace Grassfire

open Spec

variable {K : Type} [Field K] [LinearOrder K] {P : Line2 K → Prop}

/-- the kinetic vertices of `s` are still there, between the same wavefronts -/
structure Later (s s' : St K) : Prop where
  nV : s.nV ≤ s'.nV
  line : s'.line = s.line
  wfLine : s'.wfLine = s.wfLine
  vert : ∀ v k, v < s.nV → s.vert v = .kin k → ∃ k', s'.vert v = .kin k' ∧
    k'.wfl = k.wfl ∧ k'.wfr = k.wfr ∧ k'.ul = k.ul ∧ k'.ur = k.ur

theorem Later.refl (s : St K) : Later s s := ⟨le_rfl, rfl, rfl, fun _ k _ h => ⟨k, h, rfl, rfl, rfl, rfl⟩⟩

theorem Later.trans {a b c : St K} (h : Later a b) (g : Later b c) : Later a c := by
  refine ⟨h.nV.trans g.nV, g.line.trans h.line, g.wfLine.trans h.wfLine, fun v k hv hk => ?_⟩
  obtain ⟨k1, hk1, a1, a2, a3, a4⟩ := h.vert v k hv hk
  obtain ⟨k2, hk2, b1, b2, b3, b4⟩ := g.vert v k1 (lt_of_lt_of_le hv h.nV) hk1
  exact ⟨k2, hk2, b1.trans a1, b2.trans a2, b3.trans a3, b4.trans a4⟩

theorem Quiet.later {s s' : St K} (q : Quiet s s') : Later s s' := by
  refine ⟨q.nV.ge, q.line, q.wfLine, fun v k hv hk => ?_⟩
  obtain ⟨k', hk', r⟩ := q.kin hk
  exact ⟨k', hk', r.wfl, r.wfr, r.ul, r.ur⟩

theorem Waves.append {s : St K} (w : Waves P s) (l : List VId) : Waves P { s with skVertices := l } :=
  ⟨⟨w.shared.left, w.shared.right⟩, w.own, w.good, w.lines, w.motion⟩

theorem leftRef_mem {kv : KVertex K} {u : VId} (h : kv.leftRef = some u) : ∃ x ∈ kv.left, x.ref = some u := by
  unfold KVertex.leftRef Hist.last at h
  cases hl : kv.left.getLast? with
  | none => rw [hl] at h; cases h
  | some x => rw [hl] at h; exact ⟨x, List.mem_of_getLast? hl, h⟩

theorem rightRef_mem {kv : KVertex K} {u : VId} (h : kv.rightRef = some u) : ∃ x ∈ kv.right, x.ref = some u := by
  unfold KVertex.rightRef Hist.last at h
  cases hl : kv.right.getLast? with
  | none => rw [hl] at h; cases h
  | some x => rw [hl] at h; exact ⟨x, List.mem_of_getLast? hl, h⟩

theorem Waves.leftRef {s : St K} (w : Waves P s) {v u : VId} {kv : KVertex K} (hv : v < s.nV)
    (hk : s.vert v = .kin kv) (h : kv.leftRef = some u) :
    u < s.nV ∧ ∃ ku f, s.vert u = .kin ku ∧ kv.wfl = some f ∧ ku.wfr = some f := by
  obtain ⟨x, hx, e⟩ := leftRef_mem h
  obtain ⟨u', ku, f, h1, h2, h3, h4, h5⟩ := w.shared.left v kv hv hk x hx
  rw [e] at h1; cases h1
  exact ⟨h2, ku, f, h3, h4, h5⟩

theorem Waves.rightRef {s : St K} (w : Waves P s) {v u : VId} {kv : KVertex K} (hv : v < s.nV)
    (hk : s.vert v = .kin kv) (h : kv.rightRef = some u) :
    u < s.nV ∧ ∃ ku f, s.vert u = .kin ku ∧ kv.wfr = some f ∧ ku.wfl = some f := by
  obtain ⟨x, hx, e⟩ := rightRef_mem h
  obtain ⟨u', ku, f, h1, h2, h3, h4, h5⟩ := w.shared.right v kv hv hk x hx
  rw [e] at h1; cases h1
  exact ⟨h2, ku, f, h3, h4, h5⟩

theorem hist_last_set {R : Type} (h : Hist K R) (r : R) (t : K) : (h.set r t).last = some r := by
  unfold Hist.set Hist.last
  cases h.getLast? with
  | none => rfl
  | some x => simp

/-! ### linking -/

theorem setRight_waves {s s' : St K} {l r : VId} {kl kr : KVertex K} {f : WfId} {now : K} {u : Unit}
    (w : Waves P s) (hr : r < s.nV) (hkl : s.vert l = .kin kl) (hkr : s.vert r = .kin kr)
    (h1 : kl.wfr = some f) (h2 : kr.wfl = some f) (h : setRight (some l) (some r) now s = .ok (u, s')) :
    Waves P s' ∧ Later s s' ∧ s'.nV = s.nV := by
  obtain ⟨hl, k, hk, rfl⟩ := modifyK_run_ok.1 h
  rw [hkl] at hk; cases hk
  refine ⟨w.setRight hl hr hkl hkr h1 h2 now, ⟨le_rfl, rfl, rfl, fun v k hv hk => ?_⟩, rfl⟩
  by_cases e : v = l
  · subst e
    rw [hkl] at hk; cases hk
    exact ⟨_, Function.update_self _ _ _, rfl, rfl, rfl, rfl⟩
  · exact ⟨k, by rw [← hk]; exact Function.update_of_ne e _ _, rfl, rfl, rfl, rfl⟩

theorem setLeft_waves {s s' : St K} {l r : VId} {kl kr : KVertex K} {f : WfId} {now : K} {u : Unit}
    (w : Waves P s) (hl : l < s.nV) (hkl : s.vert l = .kin kl) (hkr : s.vert r = .kin kr)
    (h1 : kl.wfr = some f) (h2 : kr.wfl = some f) (h : setLeft (some r) (some l) now s = .ok (u, s')) :
    Waves P s' ∧ Later s s' ∧ s'.nV = s.nV := by
  obtain ⟨hr, k, hk, rfl⟩ := modifyK_run_ok.1 h
  rw [hkr] at hk; cases hk
  refine ⟨w.setLeft hl hr hkl hkr h1 h2 now, ⟨le_rfl, rfl, rfl, fun v k hv hk => ?_⟩, rfl⟩
  by_cases e : v = r
  · subst e
    rw [hkr] at hk; cases hk
    exact ⟨_, Function.update_self _ _ _, rfl, rfl, rfl, rfl⟩
  · exact ⟨k, by rw [← hk]; exact Function.update_of_ne e _ _, rfl, rfl, rfl, rfl⟩

theorem updateCirc_waves {s s' : St K} {l r : VId} {kl kr : KVertex K} {f : WfId} {now : K} {u : Unit}
    (w : Waves P s) (hl : l < s.nV) (hr : r < s.nV) (hkl : s.vert l = .kin kl) (hkr : s.vert r = .kin kr)
    (h1 : kl.wfr = some f) (h2 : kr.wfl = some f) (h : updateCirc (some l) (some r) now s = .ok (u, s')) :
    Waves P s' ∧ Later s s' ∧ s'.nV = s.nV := by
  unfold updateCirc at h
  obtain ⟨_, s1, g1, g2⟩ := bind_run_ok.1 h
  obtain ⟨w1, l1, n1⟩ := setRight_waves w hr hkl hkr h1 h2 g1
  obtain ⟨kl', hkl', a1, a2, -⟩ := l1.vert l kl hl hkl
  obtain ⟨kr', hkr', b1, b2, -⟩ := l1.vert r kr hr hkr
  obtain ⟨w2, l2, n2⟩ := setLeft_waves w1 (n1 ▸ hl) hkl' hkr' (a2.trans h1) (b1.trans h2) g2
  exact ⟨w2, l1.trans l2, n2.trans n1⟩

/-! ### a new vertex -/

section create

variable [IsStrictOrderedRing K] [HasSqrt K] [SqrtUnit K] [HasTrig K]

theorem computeNewKvertex_lines {ul ur : Option LineId} {now : K} {node : NodeId} {info : ℕ} {internal : Bool}
    {s s' : St K} {v : VId} (h : computeNewKvertex ul ur now node info internal s = .ok (v, s')) :
    ∃ a b, ul = some a ∧ ur = some b := by
  unfold computeNewKvertex at h
  obtain ⟨nd, s1, h1, h⟩ := bind_run_ok.1 h
  obtain ⟨a, s1, h1, h⟩ := bind_run_ok.1 h
  obtain ⟨rfl, rfl⟩ := need_run_ok.1 h1
  obtain ⟨b, s1, h1, h⟩ := bind_run_ok.1 h
  obtain ⟨rfl, rfl⟩ := need_run_ok.1 h1
  exact ⟨a, b, rfl, rfl⟩

/-- the motion of a new vertex -/
theorem computeNewKvertex_tracks {ul ur : Option LineId} {now : K} {node : NodeId} {info : ℕ} {internal : Bool}
    {s s' : St K} {v : VId} (h : computeNewKvertex ul ur now node info internal s = .ok (v, s')) {kv : KVertex K}
    (hk : s'.vert v = .kin kv) (hu : ∀ a, ul = some a ∨ ur = some a → (s.line a).w.1 ^ 2 + (s.line a).w.2 ^ 2 = 1)
    (hi : kv.infFast = false) (hc : ∀ a b, ul = some a → ur = some b → Cross (s.line a) (s.line b)) :
    ∀ a b, ul = some a → ur = some b → ∀ t : K,
    AtDistance (s.line a) t (kv.origin.1 + t * kv.velocity.1, kv.origin.2 + t * kv.velocity.2) ∧
    AtDistance (s.line b) t (kv.origin.1 + t * kv.velocity.1, kv.origin.2 + t * kv.velocity.2) := by
  rintro a b rfl rfl t
  have hn : node < s.nN := by
    unfold computeNewKvertex at h
    obtain ⟨nd, s1, h1, h⟩ := bind_run_ok.1 h
    exact (getN_run_ok.1 h1).1
  have ha : UnitNormal (s.line a) := hu a (.inl rfl)
  have hb : UnitNormal (s.line b) := hu b (.inr rfl)
  have hcr : Crossing (s.line a) (s.line b) := hc a b rfl rfl
  have ho : ¬ Opposed (s.line a) (s.line b) := by
    intro ho
    have := (C30_inf_fast_iff a b now node info internal s s' v kv ha hb h hk).2 (.inl ho)
    rw [hi] at this
    cases this
  obtain ⟨s1, kv1, g1, g2, g3, g4, _⟩ := C30_on_both_wavefronts a b now node info internal s hn ha hb ho hcr
  rw [g1] at h
  cases h
  rw [g2] at hk
  cases hk
  obtain ⟨q1, q2⟩ := g4 t
  unfold OnLine Advanced at q1 q2
  unfold AtDistance
  dsimp only at q1 q2 ⊢
  exact ⟨by linear_combination q1, by linear_combination q2⟩

/-- a new vertex between the wavefronts `a` and `b` -/
theorem new_waves {ul ur : Option LineId} {a b : Option WfId} {now : K} {node : NodeId} {info : ℕ} {internal : Bool}
    {s s1 s' : St K} {v : VId} {u : Unit} (w : Waves P s)
    (h : computeNewKvertex ul ur now node info internal s = .ok (v, s1))
    (h' : modifyK v (fun k => { k with wfl := a, wfr := b }) s1 = .ok (u, s'))
    (hu : ∀ a, ul = some a ∨ ur = some a → P (s.line a))
    (hul : ∀ f, a = some f → ul = some (s.wfLine f)) (hur : ∀ f, b = some f → ur = some (s.wfLine f)) :
    Waves P s' ∧ Later s s' ∧ v = s.nV ∧ s'.nV = s.nV + 1 ∧ (∀ u, u < s.nV → s'.vert u = s.vert u) ∧
      ∃ kv, s'.vert v = .kin kv ∧ kv.wfl = a ∧ kv.wfr = b ∧ kv.left = [] ∧ kv.right = [] := by
  obtain ⟨rfl, k, rfl, e1, e2, e3, e4, e5, e6, e7, e8, e9, e10, e11, e12⟩ := C30_attributes _ _ _ _ _ _ _ _ _ h
  obtain ⟨hv, k', hk', rfl⟩ := modifyK_run_ok.1 h'
  have tr := fun hi hc => computeNewKvertex_tracks h hk' (fun a ha => w.good _ (hu a ha)) hi hc
  dsimp only at hk' hv tr ⊢
  rw [Function.update_self] at hk'
  cases hk'
  rw [Function.update_idem]
  refine ⟨w.create ⟨e9, e10, ?_, ?_, ?_, ?_⟩, ⟨Nat.le_succ _, rfl, rfl, fun v k1 hv hk => ?_⟩, rfl, rfl,
    fun u hu => Function.update_of_ne (Nat.ne_of_lt hu) _ _, _,
    Function.update_self _ _ _, rfl, rfl, e9, e10⟩
  · intro f hf
    exact e5.trans (hul f hf)
  · intro f hf
    exact e6.trans (hur f hf)
  · obtain ⟨x, y, hx, hy⟩ := computeNewKvertex_lines h
    exact ⟨x, y, e5.trans hx, e6.trans hy, hu x (.inl hx), hu y (.inr hy)⟩
  · intro hi hc
    dsimp only at hi hc
    unfold Tracks
    dsimp only
    rw [e5, e6] at hc
    rw [e5, e6]
    exact tr hi hc
  · exact ⟨k1, by rw [← hk]; exact Function.update_of_ne (Nat.ne_of_lt hv) _ _, rfl, rfl, rfl, rfl⟩

/-- a new vertex without wavefronts -/
theorem new_waves_none {ul ur : Option LineId} {now : K} {node : NodeId} {info : ℕ} {internal : Bool}
    {s s' : St K} {v : VId} (w : Waves P s)
    (h : computeNewKvertex ul ur now node info internal s = .ok (v, s'))
    (hu : ∀ a, ul = some a ∨ ur = some a → P (s.line a)) : Waves P s' := by
  obtain ⟨rfl, k, rfl, e1, e2, e3, e4, e5, e6, e7, e8, e9, e10, e11, e12⟩ := C30_attributes _ _ _ _ _ _ _ _ _ h
  have tr := fun hi hc => computeNewKvertex_tracks h (Function.update_self _ _ _) (fun a ha => w.good _ (hu a ha)) hi hc
  have ew : k.wfl = none ∧ k.wfr = none := by
    unfold computeNewKvertex at h
    obtain ⟨nd, s1, h1, h⟩ := bind_run_ok.1 h
    obtain ⟨hn, rfl, rfl⟩ := getN_run_ok.1 h1
    obtain ⟨_, s1, h1, h⟩ := bind_run_ok.1 h
    obtain ⟨rfl, rfl⟩ := need_run_ok.1 h1
    obtain ⟨_, s1, h1, h⟩ := bind_run_ok.1 h
    obtain ⟨rfl, rfl⟩ := need_run_ok.1 h1
    obtain ⟨_, s1, h1, h⟩ := bind_run_ok.1 h
    obtain ⟨rfl, rfl⟩ := getLine_run_ok.1 h1
    obtain ⟨_, s1, h1, h⟩ := bind_run_ok.1 h
    obtain ⟨rfl, rfl⟩ := getLine_run_ok.1 h1
    obtain ⟨m, s1, h1, h⟩ := bind_run_ok.1 h
    obtain ⟨hm, rfl⟩ := lift_run_ok.1 h1
    obtain ⟨-, h⟩ := newK_run_ok.1 h
    have := congrArg (fun x => x.vert s.nV) h
    dsimp only at this
    rw [Function.update_self, Function.update_self] at this
    cases this
    exact ⟨rfl, rfl⟩
  refine w.create ⟨e9, e10, ?_, ?_, ?_, ?_⟩
  · intro f hf
    rw [ew.1] at hf; cases hf
  · intro f hf
    rw [ew.2] at hf; cases hf
  · obtain ⟨x, y, hx, hy⟩ := computeNewKvertex_lines h
    exact ⟨x, y, e5.trans hx, e6.trans hy, hu x (.inl hx), hu y (.inr hy)⟩
  · intro hi hc
    unfold Tracks
    rw [e5, e6] at hc
    rw [e5, e6]
    exact tr hi hc

/-! ### the blocks that create vertices -/

/-- the fact to be proved of all handlers -/
def WavesKept (P : Line2 K → Prop) (s s' : St K) : Prop := Waves P s → Waves P s'

omit [IsStrictOrderedRing K] [HasSqrt K] [SqrtUnit K] [HasTrig K] in
theorem wavesPre : Pre (WavesKept P) where
  refl _ := id
  trans _ _ _ h g w := g (h w)

omit [IsStrictOrderedRing K] [HasSqrt K] [SqrtUnit K] [HasTrig K] in
theorem Keeps.ofQuiet {α : Type} {m : M K α} (h : Keeps (Quiet (K := K)) m) : Keeps (WavesKept P) m :=
  fun s a s' e w => w.quiet (h s a s' e)

omit [IsStrictOrderedRing K] [HasSqrt K] [SqrtUnit K] [HasTrig K] in
theorem checkLinks_ok {v : VId} {s s' : St K} {u : Unit} (h : checkLinks v s = .ok (u, s')) :
    s = s' ∧ ∃ kv l r, s.vert v = .kin kv ∧ kv.leftRef = some l ∧ kv.rightRef = some r := by
  unfold checkLinks at h
  obtain ⟨kv, s1, h1, h⟩ := bind_run_ok.1 h
  obtain ⟨hv, hk, rfl⟩ := getK_run_ok.1 h1
  obtain ⟨l, s1, h1, h⟩ := bind_run_ok.1 h
  obtain ⟨hl, rfl⟩ := need_run_ok.1 h1
  obtain ⟨kl, s1, h1, h⟩ := bind_run_ok.1 h
  obtain ⟨_, _, rfl⟩ := getK_run_ok.1 h1
  obtain ⟨_, s1, h1, h⟩ := bind_run_ok.1 h
  obtain ⟨_, rfl⟩ := assertM_run_ok.1 h1
  obtain ⟨r, s1, h1, h⟩ := bind_run_ok.1 h
  obtain ⟨hr, rfl⟩ := need_run_ok.1 h1
  obtain ⟨kr, s1, h1, h⟩ := bind_run_ok.1 h
  obtain ⟨_, _, rfl⟩ := getK_run_ok.1 h1
  obtain ⟨_, rfl⟩ := assertM_run_ok.1 h
  exact ⟨rfl, kv, l, r, hk, hl, hr⟩

omit [IsStrictOrderedRing K] [HasSqrt K] [SqrtUnit K] [HasTrig K] in
theorem updateCirc_none_left {v : VId} {now : K} {s s' : St K} {u : Unit}
    (h : updateCirc none (some v) now s = .ok (u, s')) :
    v < s.nV ∧ ∃ k, s.vert v = .kin k ∧
      s' = { s with vert := Function.update s.vert v (.kin { k with left := k.left.set none now }) } := by
  unfold updateCirc at h
  obtain ⟨_, s1, g1, g2⟩ := bind_run_ok.1 h
  obtain ⟨-, rfl⟩ := pure_run_ok.1 g1
  exact modifyK_run_ok.1 g2

omit [IsStrictOrderedRing K] [HasSqrt K] [SqrtUnit K] [HasTrig K] in
theorem updateCirc_none_right {v : VId} {now : K} {s s' : St K} {u : Unit}
    (h : updateCirc (some v) none now s = .ok (u, s')) :
    v < s.nV ∧ ∃ k, s.vert v = .kin k ∧
      s' = { s with vert := Function.update s.vert v (.kin { k with right := k.right.set none now }) } := by
  unfold updateCirc at h
  obtain ⟨_, s1, g1, g2⟩ := bind_run_ok.1 h
  obtain ⟨-, rfl⟩ := pure_run_ok.1 g2
  exact modifyK_run_ok.1 g1

/-- the left neighbour of `v` is not touched when `v` gets another right neighbour -/
theorem updateCirc_leftRef {v : VId} {r : Option VId} (hr : r ≠ some v) {now : K} {s s' : St K} {u : Unit}
    (h : updateCirc (some v) r now s = .ok (u, s')) {k : KVertex K} (hk : s.vert v = .kin k) :
    ∃ k', s'.vert v = .kin k' ∧ k'.left = k.left := by
  unfold updateCirc at h
  obtain ⟨_, s1, g1, g2⟩ := bind_run_ok.1 h
  obtain ⟨hv, k0, hk0, rfl⟩ := modifyK_run_ok.1 g1
  rw [hk] at hk0; cases hk0
  cases r with
  | none =>
    obtain ⟨-, rfl⟩ := pure_run_ok.1 g2
    exact ⟨_, Function.update_self _ _ _, rfl⟩
  | some r =>
    obtain ⟨_, k1, hk1, rfl⟩ := modifyK_run_ok.1 g2
    have hne : v ≠ r := fun e => hr (by rw [e])
    refine ⟨{ k with right := k.right.set (some r) now }, ?_, rfl⟩
    dsimp only
    rw [Function.update_of_ne hne, Function.update_self]

theorem evalPosition_ok {v : Option VId} {now : K} {s s' : St K} {u : Unit}
    (h : evalPosition v now s = .ok (u, s')) : s = s' := by
  unfold evalPosition at h
  cases v with
  | none => exact (pure_run_ok.1 h).2
  | some v =>
    obtain ⟨_, s1, h1, h⟩ := bind_run_ok.1 h
    obtain ⟨-, -, rfl⟩ := positionAt_run_ok.1 h1
    exact (pure_run_ok.1 h).2

theorem waves_edgeVertex (t : TId) (e : Fin 3) (now : K) (step : ℤ) :
    Keeps (WavesKept P) (edgeVertex t e now step) := by
  intro s kv s' h w
  unfold edgeVertex at h
  obtain ⟨T, s1, h1, h⟩ := bind_run_ok.1 h
  obtain ⟨-, -, rfl⟩ := getT_run_ok.1 h1
  dsimp only at h
  obtain ⟨k1, s1, h1, h⟩ := bind_run_ok.1 h
  obtain ⟨hv1, hk1, rfl⟩ := getK_run_ok.1 h1
  obtain ⟨k2, s1, h1, h⟩ := bind_run_ok.1 h
  obtain ⟨hv2, hk2, rfl⟩ := getK_run_ok.1 h1
  obtain ⟨_, s1, h1, h⟩ := bind_run_ok.1 h
  obtain ⟨-, rfl⟩ := assertM_run_ok.1 h1
  obtain ⟨_, s1, h1, h⟩ := bind_run_ok.1 h
  obtain ⟨-, rfl⟩ := assertM_run_ok.1 h1
  obtain ⟨_, s1, h1, h⟩ := bind_run_ok.1 h
  obtain ⟨-, rfl⟩ := assertM_run_ok.1 h1
  obtain ⟨a, s1, h1, h⟩ := bind_run_ok.1 h
  obtain ⟨ha, rfl⟩ := need_run_ok.1 h1
  obtain ⟨c, s1, h1, h⟩ := bind_run_ok.1 h
  obtain ⟨hc, rfl⟩ := need_run_ok.1 h1
  obtain ⟨la, s1, h1, h⟩ := bind_run_ok.1 h
  obtain ⟨-, rfl⟩ := getWfLine_run_ok.1 h1
  obtain ⟨lc, s1, h1, h⟩ := bind_run_ok.1 h
  obtain ⟨-, rfl⟩ := getWfLine_run_ok.1 h1
  obtain ⟨_, s1, h1, h⟩ := bind_run_ok.1 h
  obtain ⟨-, rfl⟩ := lift_run_ok.1 h1
  obtain ⟨pos, s1, h1, h⟩ := bind_run_ok.1 h
  have q1 := q_tryIntersection _ _ _ _ _ _ h1
  obtain ⟨node, s2, h2, h⟩ := bind_run_ok.1 h
  have q2 := quietPre.trans _ _ _ q1 (q_stopAndRecord _ _ _ _ _ _ _ h2)
  obtain ⟨ct, s3, h3, h⟩ := bind_run_ok.1 h
  obtain ⟨-, rfl⟩ := countVertices_run_ok.1 h3
  have w2 := w.quiet q2
  clear h1 h2 q1
  obtain ⟨k1', hk1', r1⟩ := q2.kin hk1
  obtain ⟨k2', hk2', r2⟩ := q2.kin hk2
  have hv1' := q2.nV ▸ hv1
  have hv2' := q2.nV ▸ hv2
  obtain ⟨v, s3, h3, h⟩ := bind_run_ok.1 h
  obtain ⟨_, s4, h4, h⟩ := bind_run_ok.1 h
  rw [← r1.ul, ← r2.ur] at h3
  rw [← r1.wfl, ← r2.wfr] at h4
  obtain ⟨w4, l4, rfl, n4, o4, K0, hK0, e1, e2, e3, e4⟩ := new_waves w2 h3 h4
    (fun x hx => by
      rcases hx with hx | hx
      · exact w2.linesOf _ k1' hv1' hk1' x (.inl hx)
      · exact w2.linesOf _ k2' hv2' hk2' x (.inr hx))
    (w2.own _ k1' hv1' hk1').1 (w2.own _ k2' hv2' hk2').2
  obtain ⟨k1'', s5, h5, h⟩ := bind_run_ok.1 h
  obtain ⟨hv1'', hk1'', rfl⟩ := getK_run_ok.1 h5
  obtain ⟨_, s5, h5, h⟩ := bind_run_ok.1 h
  obtain rfl := evalPosition_ok h5
  obtain ⟨k2'', s5, h5, h⟩ := bind_run_ok.1 h
  obtain ⟨-, -, rfl⟩ := getK_run_ok.1 h5
  obtain ⟨_, s5, h5, h⟩ := bind_run_ok.1 h
  obtain rfl := evalPosition_ok h5
  obtain ⟨_, s5, h5, h⟩ := bind_run_ok.1 h
  obtain rfl := appendVertex_run_ok.1 h5
  have w5 := w4.append (s4.skVertices ++ [s2.nV])
  obtain ⟨_, s6, h6, h⟩ := bind_run_ok.1 h
  obtain ⟨k2''', s7, h7, h⟩ := bind_run_ok.1 h
  obtain ⟨hv2'', hk2'', rfl⟩ := getK_run_ok.1 h7
  obtain ⟨_, s7, h7, h⟩ := bind_run_ok.1 h
  obtain ⟨_, s8, h8, h⟩ := bind_run_ok.1 h
  obtain ⟨rfl, kk, l, r, g1, g2, g3⟩ := checkLinks_ok h8
  obtain ⟨-, rfl⟩ := pure_run_ok.1 h
  have hnew : s2.nV < s4.nV := n4 ▸ Nat.lt_succ_self _
  have hc4 : K0.wfr = some c := e2.trans (r2.wfr.trans hc)
  cases hl : k1''.leftRef with
  | none =>
    -- impossible: the new vertex has no left neighbour
    rw [hl] at h6
    obtain ⟨-, k, hk, rfl⟩ := updateCirc_none_left h6
    have hne : k2'''.rightRef ≠ some s2.nV := by
      intro hx
      dsimp only at hk2''
      rw [Function.update_of_ne (Nat.ne_of_lt hv2'), o4 _ hv2'] at hk2''
      exact absurd (w2.rightRef hv2' hk2'' hx).1 (lt_irrefl _)
    obtain ⟨k', hk', e⟩ := updateCirc_leftRef hne h7 (Function.update_self _ _ _)
    rw [g1] at hk'
    cases hk'
    unfold KVertex.leftRef at g2
    rw [e, hist_last_set] at g2
    cases g2
  | some l0 =>
    rw [hl] at h6
    obtain ⟨hl0, kl, f, b1, b2, b3⟩ := w4.leftRef hv1'' hk1'' hl
    have e1' : K0.wfl = some f := by
      have := o4 _ hv1'
      rw [hk1'', hk1'] at this
      cases this
      exact e1.trans b2
    obtain ⟨w6, l6, n6⟩ := updateCirc_waves w5 hl0 hnew b1 hK0 b3 e1' h6
    cases hr : k2'''.rightRef with
    | none =>
      rw [hr] at h7
      obtain ⟨-, k, hk, rfl⟩ := updateCirc_none_right h7
      dsimp only at g1
      rw [Function.update_self] at g1
      cases g1
      unfold KVertex.rightRef at g3
      dsimp only at g3
      rw [hist_last_set] at g3
      cases g3
    | some r0 =>
      rw [hr] at h7
      obtain ⟨hr0, kr, f', c1, c2, c3⟩ := w6.rightRef hv2'' hk2'' hr
      obtain ⟨K0', hK0', d1, d2, -⟩ := l6.vert _ K0 hnew hK0
      have hv2s : s2.nV ≤ s4.nV := hnew.le
      obtain ⟨k2b, hk2b, -, m2, -⟩ := l4.vert _ k2' hv2' hk2'
      obtain ⟨k2c, hk2c, -, m3, -⟩ := l6.vert _ k2b (lt_of_lt_of_le hv2' hv2s) hk2b
      rw [hk2''] at hk2c
      cases hk2c
      have : K0'.wfr = some f' := by
        rw [d2, e2, ← m2, ← m3, c2]
      exact (updateCirc_waves w6 (n6 ▸ hnew) hr0 hK0' c1 this c3 h7).1

theorem waves_shorterLeg (t : TId) (e : Fin 3) (pivot : VId) (now : K) (step : ℤ) :
    Keeps (WavesKept P) (shorterLeg t e pivot now step) := by
  intro s res s' h w
  unfold shorterLeg at h
  obtain ⟨pk, s1, h1, h⟩ := bind_run_ok.1 h
  obtain ⟨-, -, rfl⟩ := getK_run_ok.1 h1
  obtain ⟨_, s1, h1, h⟩ := bind_run_ok.1 h
  obtain ⟨-, rfl⟩ := assertM_run_ok.1 h1
  obtain ⟨T, s1, h1, h⟩ := bind_run_ok.1 h
  obtain ⟨-, -, rfl⟩ := getT_run_ok.1 h1
  dsimp only at h
  obtain ⟨_, s1, h1, h⟩ := bind_run_ok.1 h
  obtain ⟨-, rfl⟩ := assertM_run_ok.1 h1
  obtain ⟨_, s1, h1, h⟩ := bind_run_ok.1 h
  obtain ⟨-, -, rfl⟩ := getK_run_ok.1 h1
  obtain ⟨_, s1, h1, h⟩ := bind_run_ok.1 h
  obtain ⟨-, -, rfl⟩ := getK_run_ok.1 h1
  obtain ⟨node, s1, h1, h⟩ := bind_run_ok.1 h
  replace w := w.quiet (q_stopAndRecord _ _ _ _ _ _ _ h1)
  clear h1
  obtain ⟨_, s2, h1, h⟩ := bind_run_ok.1 h
  replace w := w.quiet (q_stopPivot _ _ _ _ _ _ h1)
  clear h1
  obtain ⟨_, s3, h1, h⟩ := bind_run_ok.1 h
  replace w := w.quiet (q_stopTriangle _ _ _ _ _ h1)
  clear h1
  obtain ⟨_, s4, h1, h⟩ := bind_run_ok.1 h
  obtain ⟨-, rfl⟩ := assertM_run_ok.1 h1
  obtain ⟨k1, s4, h1, h⟩ := bind_run_ok.1 h
  obtain ⟨hv1, hk1, rfl⟩ := getK_run_ok.1 h1
  obtain ⟨k2, s4, h1, h⟩ := bind_run_ok.1 h
  obtain ⟨hv2, hk2, rfl⟩ := getK_run_ok.1 h1
  obtain ⟨ct, s4, h1, h⟩ := bind_run_ok.1 h
  obtain ⟨-, rfl⟩ := countVertices_run_ok.1 h1
  obtain ⟨v, s4, h4, h⟩ := bind_run_ok.1 h
  obtain ⟨rfl, kn, e4, -⟩ := C30_attributes _ _ _ _ _ _ _ _ _ h4
  obtain ⟨l, s5, h1, h⟩ := bind_run_ok.1 h
  obtain ⟨hl, rfl⟩ := need_run_ok.1 h1
  obtain ⟨kl, s5, h1, h⟩ := bind_run_ok.1 h
  obtain ⟨-, hkl, rfl⟩ := getK_run_ok.1 h1
  obtain ⟨r, s5, h1, h⟩ := bind_run_ok.1 h
  obtain ⟨hr, rfl⟩ := need_run_ok.1 h1
  obtain ⟨kr, s5, h1, h⟩ := bind_run_ok.1 h
  obtain ⟨-, hkr, rfl⟩ := getK_run_ok.1 h1
  obtain ⟨hl3, kl3, f, b1, b2, b3⟩ := w.leftRef hv1 hk1 hl
  obtain ⟨hr3, kr3, g, c1, c2, c3⟩ := w.rightRef hv2 hk2 hr
  have e1 : kl = kl3 := by
    rw [e4] at hkl
    dsimp only at hkl
    rw [Function.update_of_ne (Nat.ne_of_lt hl3), b1] at hkl
    cases hkl; rfl
  have e2 : kr = kr3 := by
    rw [e4] at hkr
    dsimp only at hkr
    rw [Function.update_of_ne (Nat.ne_of_lt hr3), c1] at hkr
    cases hkr; rfl
  subst e1 e2
  obtain ⟨_, s5, h5, h⟩ := bind_run_ok.1 h
  obtain ⟨w5, l5, -, n5, o5, K0, hK0, d1, d2, d3, d4⟩ := new_waves w h4 h5
    (fun x hx => by
      rcases hx with hx | hx
      · exact w.linesOf _ k1 hv1 hk1 x (.inl hx)
      · exact w.linesOf _ k2 hv2 hk2 x (.inr hx))
    (fun x hx => (w.own _ k1 hv1 hk1).1 x (by rw [b2, ← b3]; exact hx))
    (fun x hx => (w.own _ k2 hv2 hk2).2 x (by rw [c2, ← c3]; exact hx))
  obtain ⟨T', s6, h6, h⟩ := bind_run_ok.1 h
  obtain ⟨-, -, rfl⟩ := getT_run_ok.1 h6
  obtain ⟨_, s6, h6, h⟩ := bind_run_ok.1 h
  obtain rfl := appendVertex_run_ok.1 h6
  have w6 := w5.append (s5.skVertices ++ [s3.nV])
  have hnew : s3.nV < s5.nV := n5 ▸ Nat.lt_succ_self _
  obtain ⟨_, s7, h7, h⟩ := bind_run_ok.1 h
  obtain ⟨w7, l7, n7⟩ := updateCirc_waves w6 (hl3.trans hnew) hnew
    (by dsimp only; rw [o5 l hl3]; exact b1) hK0 b3 (d1.trans b3) h7
  obtain ⟨k2', s8, h8, h⟩ := bind_run_ok.1 h
  obtain ⟨hv2', hk2', rfl⟩ := getK_run_ok.1 h8
  obtain ⟨_, s8, h8, h⟩ := bind_run_ok.1 h
  have w8 : Waves P s8 := by
    obtain ⟨K1, hK1, m1, m2, -⟩ := l7.vert _ K0 hnew hK0
    obtain ⟨k2b, hk2b, -, m3, -⟩ := l7.vert _ k2 (hv2.trans hnew) (by dsimp only; rw [o5 _ hv2]; exact hk2)
    rw [hk2'] at hk2b
    cases hk2b
    cases hr' : k2'.rightRef with
    | none =>
      -- impossible: the list is not empty
      exfalso
      unfold KVertex.rightRef Hist.last at hr'
      cases hx : k2'.right.getLast? with
      | none =>
        have hgrow := g_updateCirc _ _ _ _ _ _ h7
        have := hgrow.vert _ (hv2.trans hnew)
        rw [hk2'] at this
        dsimp only at this
        rw [o5 _ hv2, hk2] at this
        have hp := this.right
        rw [List.getLast?_eq_none_iff.1 hx] at hp
        have hnil : k2.right = [] := by
          simpa using List.prefix_nil.1 hp
        unfold KVertex.rightRef Hist.last at hr
        rw [hnil] at hr
        cases hr
      | some x =>
        rw [hx] at hr'
        obtain ⟨u, _, _, hu, _⟩ := w7.shared.right _ k2' hv2' hk2' x (List.mem_of_getLast? hx)
        dsimp only [Option.map, Option.join] at hr'
        simp [hu] at hr'
    | some r0 =>
      rw [hr'] at h8
      obtain ⟨hr0, kr0, f', g1, g2, g3⟩ := w7.rightRef hv2' hk2' hr'
      refine (updateCirc_waves w7 (n7 ▸ hnew) hr0 hK1 g1 ?_ g3 h8).1
      rw [m2, d2, c3, ← c2, ← m3, g2]
  obtain ⟨fa, s9, h9, h⟩ := bind_run_ok.1 h
  replace w8 := w8.quiet (q_replaceSide _ _ _ _ _ _ _ _ _ _ h9)
  obtain ⟨fb, s10, h10, h⟩ := bind_run_ok.1 h
  replace w8 := w8.quiet (q_replaceSide _ _ _ _ _ _ _ _ _ _ h10)
  obtain ⟨_, s11, h11, h⟩ := bind_run_ok.1 h
  replace w8 := w8.quiet (q_detachAndSchedule _ _ _ _ _ _ h11)
  obtain ⟨-, rfl⟩ := pure_run_ok.1 h
  exact w8

theorem waves_handleEdge1 (evt : Event K) (step : ℤ) :
    Keeps (WavesKept P) (handleEdge1 evt step) := by
  intro s res s' h w
  unfold handleEdge1 at h
  obtain ⟨e, s1, h1, h⟩ := bind_run_ok.1 h
  replace w := w.quiet (q_singleSide _ _ _ _ h1)
  clear h1
  obtain ⟨T, s2, h1, h⟩ := bind_run_ok.1 h
  obtain ⟨-, -, rfl⟩ := getT_run_ok.1 h1
  obtain ⟨node, s2, h1, h⟩ := bind_run_ok.1 h
  replace w := w.quiet (q_stopAndRecord _ _ _ _ _ _ _ h1)
  clear h1
  obtain ⟨k1, s3, h1, h⟩ := bind_run_ok.1 h
  obtain ⟨hv1, hk1, rfl⟩ := getK_run_ok.1 h1
  obtain ⟨k2, s3, h1, h⟩ := bind_run_ok.1 h
  obtain ⟨hv2, hk2, rfl⟩ := getK_run_ok.1 h1
  obtain ⟨ct, s3, h1, h⟩ := bind_run_ok.1 h
  obtain ⟨-, rfl⟩ := countVertices_run_ok.1 h1
  obtain ⟨v, s4, h4, h⟩ := bind_run_ok.1 h
  replace w := new_waves_none w h4 (fun x hx => by
      rcases hx with hx | hx
      · exact w.linesOf _ k1 hv1 hk1 x (.inl hx)
      · exact w.linesOf _ k2 hv2 hk2 x (.inr hx))
  obtain ⟨_, s5, h5, h⟩ := bind_run_ok.1 h
  obtain rfl := appendVertex_run_ok.1 h5
  replace w := w.append (s4.skVertices ++ [v])
  obtain ⟨_, s6, h6, h⟩ := bind_run_ok.1 h
  replace w := w.quiet (q_stopAndRecord _ _ _ _ _ _ _ h6)
  exact w.quiet (q_stopTriangle _ _ _ _ _ h)

theorem splitChecks_ok {v v1 v2 : VId} {now : K} {s s' : St K} {u : Unit}
    (h : splitChecks v v1 v2 now s = .ok (u, s')) :
    ∃ k k1 k2 a b c, s.vert v = .kin k ∧ s.vert v1 = .kin k1 ∧ s.vert v2 = .kin k2 ∧
      k.wfr = some a ∧ k1.wfr = some b ∧ k2.wfl = some b ∧ k.wfl = some c := by
  unfold splitChecks at h
  obtain ⟨k1, s1, h1, h⟩ := bind_run_ok.1 h
  obtain ⟨hv1, hk1, rfl⟩ := getK_run_ok.1 h1
  obtain ⟨k2, s1, h1, h⟩ := bind_run_ok.1 h
  obtain ⟨hv2, hk2, rfl⟩ := getK_run_ok.1 h1
  obtain ⟨_, s1, h1, h⟩ := bind_run_ok.1 h
  obtain ⟨he, rfl⟩ := assertM_run_ok.1 h1
  obtain ⟨k, s1, h1, h⟩ := bind_run_ok.1 h
  obtain ⟨hv, hk, rfl⟩ := getK_run_ok.1 h1
  obtain ⟨a, s1, h1, h⟩ := bind_run_ok.1 h
  obtain ⟨ha, rfl⟩ := need_run_ok.1 h1
  obtain ⟨b, s1, h1, h⟩ := bind_run_ok.1 h
  obtain ⟨hb, rfl⟩ := need_run_ok.1 h1
  obtain ⟨_, s1, h1, h⟩ := bind_run_ok.1 h
  obtain ⟨-, rfl⟩ := getWfLine_run_ok.1 h1
  obtain ⟨_, s1, h1, h⟩ := bind_run_ok.1 h
  obtain ⟨-, rfl⟩ := getWfLine_run_ok.1 h1
  obtain ⟨_, s1, h1, h⟩ := bind_run_ok.1 h
  obtain ⟨-, rfl⟩ := lift_run_ok.1 h1
  obtain ⟨c, s1, h1, h⟩ := bind_run_ok.1 h
  obtain ⟨hc, rfl⟩ := need_run_ok.1 h1
  exact ⟨k, k1, k2, a, b, c, hk, hk1, hk2, ha, hb, he ▸ hb, hc⟩

theorem splitVertices_waves {v v1 v2 : VId} {now : K} {step : ℤ} {s s' : St K} {r : VId × VId} (w : Waves P s)
    {k1 k2 : KVertex K} {b : WfId} (hk1 : s.vert v1 = .kin k1) (hk2 : s.vert v2 = .kin k2)
    (hb1 : k1.wfr = some b) (hb2 : k2.wfl = some b)
    (h : splitVertices v v1 v2 now step s = .ok (r, s')) : Waves P s' := by
  unfold splitVertices at h
  obtain ⟨node, s1, h1, h⟩ := bind_run_ok.1 h
  have q := q_stopAndRecord _ _ _ _ _ _ _ h1
  replace w := w.quiet q
  clear h1
  obtain ⟨k1', hk1', r1⟩ := q.kin hk1
  obtain ⟨k2', hk2', r2⟩ := q.kin hk2
  rw [← r1.wfr] at hb1
  rw [← r2.wfl] at hb2
  obtain ⟨k, s2, h1, h⟩ := bind_run_ok.1 h
  obtain ⟨hv, hk, rfl⟩ := getK_run_ok.1 h1
  obtain ⟨_, s2, h1, h⟩ := bind_run_ok.1 h
  obtain ⟨hv1, hx, rfl⟩ := getK_run_ok.1 h1
  rw [hk1'] at hx
  cases hx
  obtain ⟨_, s2, h1, h⟩ := bind_run_ok.1 h
  obtain ⟨hv2, hx, rfl⟩ := getK_run_ok.1 h1
  rw [hk2'] at hx
  cases hx
  clear q r1 r2 hk1 hk2
  obtain ⟨_, s2, h1, h⟩ := bind_run_ok.1 h
  obtain ⟨-, rfl⟩ := assertM_run_ok.1 h1
  obtain ⟨ct, s2, h1, h⟩ := bind_run_ok.1 h
  obtain ⟨-, rfl⟩ := countVertices_run_ok.1 h1
  -- the first vertex
  obtain ⟨vb, s2, h1, h⟩ := bind_run_ok.1 h
  obtain ⟨_, s3, h2, h⟩ := bind_run_ok.1 h
  obtain ⟨w3, l3, rfl, n3, o3, B, hB, B1, B2, B3, B4⟩ := new_waves w h1 h2
    (fun x hx => by
      rcases hx with hx | hx
      · exact w.linesOf _ k hv hk x (.inl hx)
      · exact w.linesOf _ k2' hv2 hk2' x (.inl hx))
    (w.own _ k hv hk).1 (w.own _ k2' hv2 hk2').1
  clear h1 h2
  obtain ⟨_, s4, h1, h⟩ := bind_run_ok.1 h
  obtain rfl := appendVertex_run_ok.1 h1
  replace w3 := w3.append (s3.skVertices ++ [s1.nV])
  obtain ⟨ct, s4, h1, h⟩ := bind_run_ok.1 h
  obtain ⟨-, rfl⟩ := countVertices_run_ok.1 h1
  have hnb : s1.nV < s3.nV := n3 ▸ Nat.lt_succ_self _
  -- the second vertex
  obtain ⟨va, s4, h1, h⟩ := bind_run_ok.1 h
  obtain ⟨_, s5, h2, h⟩ := bind_run_ok.1 h
  have hk3 := (o3 _ hv).trans hk
  have hk13 := (o3 _ hv1).trans hk1'
  have hk23 := (o3 _ hv2).trans hk2'
  have hv3 := hv.trans hnb
  have hv13 := hv1.trans hnb
  have hv23 := hv2.trans hnb
  obtain ⟨w5, l5, rfl, n5, o5, A, hA, A1, A2, A3, A4⟩ := new_waves w3 h1 h2
    (fun x hx => by
      rcases hx with hx | hx
      · exact w3.linesOf _ k1' hv13 hk13 x (.inr hx)
      · exact w3.linesOf _ k hv3 hk3 x (.inr hx))
    (w3.own _ k1' hv13 hk13).2 (w3.own _ k hv3 hk3).2
  clear h1 h2
  dsimp only at l5 n5 o5 hA
  have hna : s3.nV < s5.nV := n5 ▸ Nat.lt_succ_self _
  obtain ⟨_, s6, h1, h⟩ := bind_run_ok.1 h
  obtain rfl := appendVertex_run_ok.1 h1
  replace w5 := w5.append (s5.skVertices ++ [s3.nV])
  have hk5 : s5.vert v = .kin k := (o5 _ hv3).trans hk3
  have hk15 : s5.vert v1 = .kin k1' := (o5 _ hv13).trans hk13
  have hk25 : s5.vert v2 = .kin k2' := (o5 _ hv23).trans hk23
  have hB5 : s5.vert s1.nV = .kin B := (o5 _ hnb).trans hB
  obtain ⟨_, s6, h6, h⟩ := bind_run_ok.1 h
  obtain ⟨_, s7, h7, h⟩ := bind_run_ok.1 h
  obtain ⟨_, s8, h8, h⟩ := bind_run_ok.1 h
  obtain ⟨rfl, kk, l, r', g1, g2, g3⟩ := checkLinks_ok h8
  obtain ⟨_, s9, h9, h⟩ := bind_run_ok.1 h
  obtain ⟨k9, s10, h10, h⟩ := bind_run_ok.1 h
  obtain ⟨hv9, hk9, rfl⟩ := getK_run_ok.1 h10
  obtain ⟨_, s10, h10, h⟩ := bind_run_ok.1 h
  obtain ⟨_, s11, h11, h⟩ := bind_run_ok.1 h
  obtain ⟨rfl, kk', l', r'', g1', g2', g3'⟩ := checkLinks_ok h11
  obtain ⟨-, rfl⟩ := pure_run_ok.1 h
  have hB2 : B.wfr = some b := B2.trans hb2
  have hA1 : A.wfl = some b := A1.trans hb1
  cases hl : k.leftRef with
  | none =>
    exfalso
    rw [hl] at h6
    obtain ⟨-, kx, hkx, rfl⟩ := updateCirc_none_left h6
    have hne : (some v2 : Option VId) ≠ some s1.nV := by
      intro e
      cases e
      exact lt_irrefl _ hv2
    obtain ⟨k', hk', e⟩ := updateCirc_leftRef hne h7 (Function.update_self _ _ _)
    rw [g1] at hk'
    cases hk'
    unfold KVertex.leftRef at g2
    rw [e, hist_last_set] at g2
    cases g2
  | some l0 =>
    rw [hl] at h6
    obtain ⟨hl0, kl, f, b1, b2, b3⟩ := w5.leftRef (hv3.trans hna) hk5 hl
    obtain ⟨w6, l6, n6⟩ := updateCirc_waves w5 hl0 (hnb.trans hna) b1 hB5 b3 (B1.trans b2) h6
    obtain ⟨B', hB', c1, c2, -⟩ := l6.vert _ B (hnb.trans hna) hB5
    obtain ⟨k2'', hk2'', c3, c4, -⟩ := l6.vert _ k2' (hv23.trans hna) hk25
    dsimp only at n6
    obtain ⟨w7, l7, n7⟩ := updateCirc_waves w6 (n6.symm ▸ (hnb.trans hna)) (n6.symm ▸ (hv23.trans hna)) hB' hk2''
      (c2.trans hB2) (c3.trans hb2) h7
    have l67 := l6.trans l7
    obtain ⟨A', hA', d1, d2, -⟩ := l67.vert _ A hna hA
    obtain ⟨k1'', hk1'', d3, d4, -⟩ := l67.vert _ k1' (hv13.trans hna) hk15
    have n67 := n7.trans n6
    obtain ⟨w9, l9, n9⟩ := updateCirc_waves w7 (n67.symm ▸ (hv13.trans hna)) (n67.symm ▸ hna) hk1'' hA'
      (d4.trans hb1) (d1.trans hA1) h9
    have l69 := l67.trans l9
    have n69 := n9.trans n67
    cases hr : k9.rightRef with
    | none =>
      exfalso
      rw [hr] at h10
      obtain ⟨-, kx, hkx, rfl⟩ := updateCirc_none_right h10
      dsimp only at g1'
      rw [Function.update_self] at g1'
      cases g1'
      unfold KVertex.rightRef at g3'
      dsimp only at g3'
      rw [hist_last_set] at g3'
      cases g3'
    | some r0 =>
      rw [hr] at h10
      obtain ⟨hr0, kr, f', m1, m2, m3⟩ := w9.rightRef hv9 hk9 hr
      obtain ⟨A'', hA'', i1, i2, -⟩ := l69.vert _ A hna hA
      obtain ⟨k'', hk'', i3, i4, -⟩ := l69.vert _ k (hv3.trans hna) hk5
      rw [hk9] at hk''
      cases hk''
      refine (updateCirc_waves w9 (n69.symm ▸ hna) hr0 hA'' m1 ?_ m3 h10).1
      rw [i2, A2, ← i4, m2]

/-! ### the event loop -/

theorem waves_parallelLegs (fan : List TId) (a b : TId) (pivot : VId) (now : K) (dir : Dir) (step : ℤ) :
    Keeps (WavesKept P) (parallelLegs fan a b pivot now dir step) := by
  unfold parallelLegs
  refine Keeps.bind wavesPre (Keeps.ofQuiet (q_assertM _)) fun _ => ?_
  dsimp only
  refine Keeps.bind wavesPre (Keeps.ofQuiet (q_vertexIndex _ _)) fun _ => ?_
  refine Keeps.bind wavesPre (Keeps.ofQuiet (q_legDist _ _ _)) fun _ => ?_
  refine Keeps.bind wavesPre (Keeps.ofQuiet (q_vertexIndex _ _)) fun _ => ?_
  refine Keeps.bind wavesPre (Keeps.ofQuiet (q_legDist _ _ _)) fun _ => ?_
  refine Keeps.ite (Keeps.ofQuiet (by quiet)) (Keeps.ite ?_ ?_)
  · exact Keeps.bind wavesPre (waves_shorterLeg _ _ _ _ _) fun _ => Keeps.ofQuiet (q_nextFan _ _ _)
  · exact Keeps.bind wavesPre (waves_shorterLeg _ _ _ _ _) fun _ => Keeps.ofQuiet (q_nextFan _ _ _)

theorem waves_parallelStep (fan : List TId) (pivot : VId) (now : K) (dir : Dir) (step : ℤ) :
    Keeps (WavesKept P) (parallelStep fan pivot now dir step) := by
  unfold parallelStep
  cases fan with
  | nil => exact Keeps.raise _
  | cons first rest =>
    dsimp only
    refine Keeps.bind wavesPre (Keeps.ofQuiet (q_getK _)) fun _ => ?_
    refine Keeps.bind wavesPre (Keeps.ofQuiet (q_assertM _)) fun _ => ?_
    refine Keeps.bind wavesPre (Keeps.ofQuiet (q_getT _)) fun _ => ?_
    exact Keeps.ite (Keeps.ofQuiet (by quiet)) (waves_parallelLegs _ _ _ _ _ _ _)

theorem waves_parallelFan (depth : ℕ) (fan : List TId) (pivot : VId) (now : K) (dir : Dir) (step : ℤ) :
    Keeps (WavesKept P) (parallelFan depth fan pivot now dir step) := by
  induction depth generalizing fan pivot dir with
  | zero => exact Keeps.raise _
  | succ d ih =>
    unfold parallelFan
    refine Keeps.bind wavesPre (waves_parallelStep _ _ _ _ _) fun r => ?_
    cases r with
    | none => exact Keeps.pure wavesPre _
    | some r => exact ih _ _ _

theorem waves_edgeFan (depth : ℕ) (kv : VId) (a b : List TId) (now : K) (step : ℤ) :
    Keeps (WavesKept P) (edgeFan depth kv a b now step) := by
  unfold edgeFan
  refine Keeps.bind wavesPre (Keeps.ofQuiet (q_nextFan _ _ _)) fun r => ?_
  cases r with
  | none => exact Keeps.pure wavesPre _
  | some r => exact waves_parallelFan _ _ _ _ _ _

theorem waves_handleEdge (depth : ℕ) (evt : Event K) (step : ℤ) :
    Keeps (WavesKept P) (handleEdge depth evt step) := by
  unfold handleEdge
  refine Keeps.bind wavesPre (Keeps.ofQuiet (q_singleSide _)) fun _ => ?_
  dsimp only
  refine Keeps.bind wavesPre (waves_edgeVertex _ _ _ _) fun _ => ?_
  refine Keeps.bind wavesPre (Keeps.ofQuiet (q_getT _)) fun _ => ?_
  refine Keeps.bind wavesPre (Keeps.ofQuiet (q_edgeSide _ _ _ _ _ _ _)) fun _ => ?_
  refine Keeps.bind wavesPre (Keeps.ofQuiet (q_edgeSide _ _ _ _ _ _ _)) fun _ => ?_
  refine Keeps.bind wavesPre (Keeps.ofQuiet (q_detachAndSchedule _ _ _)) fun _ => ?_
  refine Keeps.bind wavesPre (Keeps.ofQuiet (q_stopTriangle _ _)) fun _ => ?_
  exact waves_edgeFan _ _ _ _ _ _

theorem waves_splitFan (depth : ℕ) (v : VId) (fan : List TId) (now : K) (dir : Dir) (step : ℤ) :
    Keeps (WavesKept P) (splitFan depth v fan now dir step) := by
  unfold splitFan
  refine Keeps.bind wavesPre (Keeps.ofQuiet (q_getK _)) fun _ => ?_
  exact Keeps.ite (waves_parallelFan _ _ _ _ _ _) (Keeps.pure wavesPre _)

theorem waves_handleSplit (depth : ℕ) (evt : Event K) (step : ℤ) :
    Keeps (WavesKept P) (handleSplit depth evt step) := by
  unfold handleSplit
  refine Keeps.bind wavesPre (Keeps.ofQuiet (q_singleSide _)) fun _ => ?_
  dsimp only
  refine Keeps.bind wavesPre (Keeps.ofQuiet (q_getT _)) fun _ => ?_
  refine Keeps.bind wavesPre (Keeps.ofQuiet (q_assertM _)) fun _ => ?_
  intro s a s' h w
  obtain ⟨_, s1, h1, h⟩ := bind_run_ok.1 h
  obtain ⟨k, k1, k2, a, b, c, -, hk1, hk2, -, hb1, hb2, -⟩ := splitChecks_ok h1
  have q := q_splitChecks _ _ _ _ _ _ _ h1
  obtain ⟨k1', hk1', r1⟩ := q.kin hk1
  obtain ⟨k2', hk2', r2⟩ := q.kin hk2
  obtain ⟨r, s2, h2, h⟩ := bind_run_ok.1 h
  have w2 := splitVertices_waves (w.quiet q) hk1' hk2' (r1.wfr.trans hb1) (r2.wfl.trans hb2) h2
  refine Keeps.bind wavesPre (Keeps.ofQuiet (q_splitSide _ _ _ _ _ _)) (fun _ => ?_) _ _ _ h w2
  refine Keeps.bind wavesPre (Keeps.ofQuiet (q_splitSide _ _ _ _ _ _)) fun _ => ?_
  refine Keeps.bind wavesPre (Keeps.ofQuiet (q_stopTriangle _ _)) fun _ => ?_
  exact Keeps.bind wavesPre (waves_splitFan _ _ _ _ _ _) fun _ => waves_splitFan _ _ _ _ _ _

theorem waves_handleEvent (depth : ℕ) (evt : Event K) (step : ℤ) :
    Keeps (WavesKept P) (handleEvent depth evt step) := by
  unfold handleEvent
  refine Keeps.bind wavesPre (Keeps.ofQuiet (q_getT _)) fun T => ?_
  refine Keeps.ite (Keeps.pure wavesPre _) ?_
  cases evt.tp with
  | edge =>
    dsimp only
    refine Keeps.ite (Keeps.ofQuiet (q_handleEdge3 _ _)) (Keeps.ite (waves_handleEdge1 _ _) ?_)
    exact Keeps.ite (Keeps.raise _) (waves_handleEdge _ _ _)
  | flip => exact Keeps.ofQuiet (q_handleFlip _)
  | split => exact waves_handleSplit _ _ _

theorem waves_loopStep (depth : ℕ) (step : ℤ) (now : K) :
    Keeps (WavesKept P) (loopStep depth step now) := by
  unfold loopStep
  refine Keeps.bind wavesPre (Keeps.ofQuiet (q_takeEvent _)) fun r => ?_
  cases r with
  | none => exact Keeps.pure wavesPre _
  | some r => exact Keeps.bind wavesPre (waves_handleEvent _ _ _) fun _ => Keeps.pure wavesPre _

end create

end Grassfire
