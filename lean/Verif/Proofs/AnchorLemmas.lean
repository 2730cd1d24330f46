/-
Vertices run from node to node: the building blocks of the event handlers (lemmas for C75).
-/
import Verif.Spec.Anchors
import Verif.Proofs.ParallelLemmas
import Verif.Proofs.WavefrontInit

set_option linter.unusedSectionVars false

namespace Grassfire

open Spec

variable {K : Type} [Field K] [LinearOrder K]

/-- the invariant: vertices run from node to node, and on their wavefronts -/
structure Arcs (s : St K) : Prop where
  nodes : NodeToNode s
  tracks : ∀ v k, v < s.nV → s.vert v = .kin k → k.infFast = false → Tracks s k

/-- only the links between vertices and wavefronts differ -/
def SameButLinks (a b : KVertex K) : Prop := b = { a with left := b.left, right := b.right, wfl := b.wfl, wfr := b.wfr }

/-- only the links between vertices, the triangles, the events, the queues and the list of vertices differ -/
structure Relinked (s s' : St K) : Prop where
  nV : s'.nV = s.nV
  nN : s'.nN = s.nN
  node : s'.node = s.node
  line : s'.line = s.line
  vert : ∀ v, match s.vert v with
    | .inf o => s'.vert v = .inf o
    | .kin k => ∃ k', s'.vert v = .kin k' ∧ SameButLinks k k'

theorem relinkedPre : Pre (Relinked (K := K)) where
  refl s := ⟨rfl, rfl, rfl, rfl, fun v => by cases s.vert v <;> [exact ⟨_, rfl, rfl⟩; rfl]⟩
  trans s s1 s2 h g := by
    refine ⟨g.nV.trans h.nV, g.nN.trans h.nN, g.node.trans h.node, g.line.trans h.line, fun v => ?_⟩
    have h1 := h.vert v
    have h2 := g.vert v
    cases q : s.vert v with
    | inf o => rw [q] at h1; rw [h1] at h2; exact h2
    | kin k =>
      rw [q] at h1
      obtain ⟨k1, e1, f1⟩ := h1
      rw [e1] at h2
      obtain ⟨k2, e2, f2⟩ := h2
      refine ⟨k2, e2, ?_⟩
      unfold SameButLinks at *
      rw [f2, f1]

theorem Relinked.of_mesh {s s' : St K} (h : MeshOnly s s') : Relinked s s' := by
  refine ⟨by rw [h], by rw [h], by rw [h], by rw [h], fun v => ?_⟩
  have : s'.vert = s.vert := by rw [h]
  rw [this]
  exact (relinkedPre.refl s).vert v

theorem relinked_modifyK (v : VId) (f : KVertex K → KVertex K) (hf : ∀ k, SameButLinks k (f k)) :
    Keeps (Relinked (K := K)) (modifyK v f) := by
  intro s a s' h
  obtain ⟨hv, k, hk, rfl⟩ := modifyK_run_ok.1 h
  refine ⟨rfl, rfl, rfl, rfl, fun w => ?_⟩
  show match s.vert w with
    | .inf o => Function.update s.vert v (.kin (f k)) w = .inf o
    | .kin x => ∃ k', Function.update s.vert v (.kin (f k)) w = .kin k' ∧ SameButLinks x k'
  by_cases e : w = v
  · subst e
    rw [hk, Function.update_self]
    exact ⟨_, rfl, hf k⟩
  · rw [Function.update_of_ne e]
    exact (relinkedPre.refl s).vert w

theorem relinked_appendVertex (v : VId) : Keeps (Relinked (K := K)) (appendVertex v) := by
  intro s a s' h
  obtain rfl := appendVertex_run_ok.1 h
  exact ⟨rfl, rfl, rfl, rfl, (relinkedPre.refl s).vert⟩


theorem relinked_setRight (l r : Option VId) (now : K) : Keeps (Relinked (K := K)) (setRight l r now) := by
  unfold setRight
  cases l with
  | none => exact Keeps.of_same relinkedPre fun _ _ _ h => (pure_run_ok.1 h).2
  | some l => exact relinked_modifyK _ _ fun k => rfl

theorem relinked_setLeft (l r : Option VId) (now : K) : Keeps (Relinked (K := K)) (setLeft l r now) := by
  unfold setLeft
  cases l with
  | none => exact Keeps.of_same relinkedPre fun _ _ _ h => (pure_run_ok.1 h).2
  | some l => exact relinked_modifyK _ _ fun k => rfl

theorem relinked_updateCirc (l r : Option VId) (now : K) : Keeps (Relinked (K := K)) (updateCirc l r now) :=
  Keeps.bind relinkedPre (relinked_setRight _ _ _) fun _ => relinked_setLeft _ _ _

theorem relinked_of_mo {α : Type} {m : M K α} (h : Keeps (MeshOnly (K := K)) m) : Keeps (Relinked (K := K)) m :=
  fun s a s' e => Relinked.of_mesh (h s a s' e)


/-- a vertex keeps what is known of it when only links change and nodes are added -/
theorem Spec.Anchored.frame {s s' : St K} {k k' : KVertex K} (h : Anchored s k) (hn : s.nN ≤ s'.nN)
    (he : ∀ m, m < s.nN → s'.node m = s.node m) (e : SameButLinks k k') : Anchored s' k' := by
  obtain ⟨⟨t, n, a1, a2, a3, a4⟩, b, c⟩ := h
  unfold SameButLinks at e
  rw [e]
  refine ⟨⟨t, n, a1, a2, Nat.lt_of_lt_of_le a3 hn, by rw [he n a3]; exact a4⟩, fun t ht => ?_, c⟩
  obtain ⟨m, b1, b2, b3⟩ := b t ht
  exact ⟨m, b1, Nat.lt_of_lt_of_le b2 hn, by rw [he m b2]; exact b3⟩

theorem Spec.Reaches.relinked {s s' : St K} {now : K} {v : VId} {p : Pt K} (h : Reaches s now v p) (r : Relinked s s') :
    Reaches s' now v p := by
  obtain ⟨k, h1, h2, h3, h4, h5⟩ := h
  have := r.vert v
  rw [h1] at this
  obtain ⟨k', e1, e2⟩ := this
  unfold SameButLinks at e2
  exact ⟨k', e1, by rw [e2]; exact h2, by rw [e2]; exact h3, by rw [e2]; exact h4, by rw [e2]; exact h5⟩

theorem Arcs.relinked {s s' : St K} (h : Arcs s) (r : Relinked s s') : Arcs s' := by
  have key : ∀ v k', v < s'.nV → s'.vert v = .kin k' → ∃ k, v < s.nV ∧ s.vert v = .kin k ∧ SameButLinks k k' := by
    intro v k' hv hk
    have := r.vert v
    cases q : s.vert v with
    | inf o => rw [q, hk] at this; cases this
    | kin k =>
      rw [q, hk] at this
      obtain ⟨k1, e1, e2⟩ := this
      cases e1
      exact ⟨k, r.nV ▸ hv, rfl, e2⟩
  refine ⟨fun v k' hv hk hi => ?_, fun v k' hv hk hi => ?_⟩
  · obtain ⟨k, a, b, c⟩ := key v k' hv hk
    have hi' : k.infFast = false := by unfold SameButLinks at c; rw [c] at hi; exact hi
    exact (h.nodes v k a b hi').frame (Nat.le_of_eq r.nN.symm) (fun m _ => by rw [r.node]) c
  · obtain ⟨k, a, b, c⟩ := key v k' hv hk
    have hi' : k.infFast = false := by unfold SameButLinks at c; rw [c] at hi; exact hi
    have ht := h.tracks v k a b hi'
    unfold SameButLinks at c
    intro x y hx hy t
    rw [c] at hx hy ⊢
    rw [r.line]
    exact ht x y hx hy t

/-! ### stopping vertices -/

/-- where the node comes from at which vertices are stopped -/
theorem stopScan_source [IsStrictOrderedRing K] {now : K} {V : List VId} {acc r : Option NodeId} {s s' : St K}
    (h : stopScan now V acc s = .ok (r, s')) :
    (∀ v ∈ V, v < s.nV) ∧ ∀ n, r = some n → acc = some n ∨
      ∃ v ∈ V, ∃ k, s.vert v = .kin k ∧ (k.stopNode = some n ∨
        k.startNode = some n ∧ ∃ t, k.startsAt = some t ∧ |t - now| ≤ 1 / 10 ^ 10) := by
  induction V generalizing acc s with
  | nil =>
    obtain ⟨rfl, rfl⟩ := pure_run_ok.1 h
    exact ⟨by simp, fun n hn => .inl hn⟩
  | cons v vs ih =>
    unfold stopScan at h
    obtain ⟨k, s1, h1, h⟩ := bind_run_ok.1 h
    obtain ⟨hv, hk, rfl⟩ := getK_run_ok.1 h1
    obtain ⟨st, s1, h1, h⟩ := bind_run_ok.1 h
    obtain ⟨hst, rfl⟩ := needNum_run_ok.1 h1
    split_ifs at h with c1 c2
    · obtain ⟨a, c⟩ := ih h
      refine ⟨List.forall_mem_cons.2 ⟨hv, a⟩, fun n hn => .inr ?_⟩
      rcases c n hn with c | ⟨x, hx, d⟩
      · exact ⟨v, by simp, k, hk, .inl c⟩
      · exact ⟨x, by simp [hx], d⟩
    · obtain ⟨a, c⟩ := ih h
      refine ⟨List.forall_mem_cons.2 ⟨hv, a⟩, fun n hn => .inr ?_⟩
      rcases c n hn with c | ⟨x, hx, d⟩
      · exact ⟨v, by simp, k, hk, .inr ⟨c, st, hst, (nearZero_iff _).1 c2⟩⟩
      · exact ⟨x, by simp [hx], d⟩
    · obtain ⟨_, s1, h1, h⟩ := bind_run_ok.1 h
      obtain ⟨-, k0, hk0, rfl⟩ := modifyK_run_ok.1 h1
      rw [hk] at hk0; injection hk0 with hk0; subst hk0
      obtain ⟨a, c⟩ := ih h
      refine ⟨List.forall_mem_cons.2 ⟨hv, a⟩, fun n hn => ?_⟩
      rcases c n hn with c | ⟨x, hx, d⟩
      · exact .inl c
      · obtain ⟨kx, d1, d2⟩ := d
        refine .inr ⟨x, by simp [hx], ?_⟩
        dsimp only at d1
        by_cases e : x = v
        · subst e
          rw [Function.update_self] at d1
          injection d1 with d1
          subst d1
          exact ⟨k, hk, d2⟩
        · rw [Function.update_of_ne e] at d1
          exact ⟨kx, d1, d2⟩

theorem stopAndRecord_source [IsStrictOrderedRing K] {V : List VId} {step : ℤ} {now : K} {pos : Option (Pt K)} {s s' : St K} {n : NodeId}
    (h : stopAndRecord V step now pos s = .ok (n, s')) :
    (∀ v ∈ V, v < s.nV) ∧ (s'.nN = s.nN + 1 ∨
      ∃ v ∈ V, ∃ k, s.vert v = .kin k ∧ (k.stopNode = some n ∨
        k.startNode = some n ∧ ∃ t, k.startsAt = some t ∧ |t - now| ≤ 1 / 10 ^ 10)) := by
  have hx := (stopAndRecord_exact h).2.2.2
  unfold stopAndRecord at h
  obtain ⟨⟨m, new⟩, s1, h1, h⟩ := bind_run_ok.1 h
  obtain ⟨_, s2, h2, h⟩ := bind_run_ok.1 h
  obtain ⟨rfl, rfl⟩ := pure_run_ok.1 h
  have h1' := h1
  unfold stopKvertices at h1
  obtain ⟨_, s3, h3, h1⟩ := bind_run_ok.1 h1
  obtain rfl := forEach_readVertex_same h3
  obtain ⟨sk, s4, h4, h1⟩ := bind_run_ok.1 h1
  obtain ⟨o1, o2⟩ := stopScan_source h4
  obtain ⟨res, s5, h5, h1⟩ := bind_run_ok.1 h1
  obtain ⟨_, s6, h6, h1⟩ := bind_run_ok.1 h1
  obtain ⟨rfl, -⟩ := forEach_assertStoppedAt_run h6
  obtain ⟨hres, rfl⟩ := pure_run_ok.1 h1
  subst hres
  refine ⟨o1, ?_⟩
  cases sk with
  | some x =>
    right
    simp only [stopAtNode, stopAtExisting] at h5
    obtain ⟨_, s7, h7, h8⟩ := bind_run_ok.1 h5
    obtain ⟨hp, rfl⟩ := pure_run_ok.1 h8
    simp only [Prod.mk.injEq] at hp
    obtain ⟨rfl, rfl⟩ := hp
    rcases o2 _ rfl with o | o
    · cases o
    · exact o
  | none =>
    left
    simp only [stopAtNode, stopAtNew] at h5
    obtain ⟨p', s7, h7, h5⟩ := bind_run_ok.1 h5
    obtain ⟨x, s8, h8, h5⟩ := bind_run_ok.1 h5
    obtain ⟨_, s9, h9, h5⟩ := bind_run_ok.1 h5
    obtain ⟨hq, rfl⟩ := pure_run_ok.1 h5
    simp only [Prod.mk.injEq] at hq
    obtain ⟨rfl, rfl⟩ := hq
    obtain ⟨-, -, -, -, c5, -⟩ := C29_common_node _ _ _ _ _ _ _ _ h1'
    rcases hx with ⟨hx, -⟩ | ⟨-, hx, -⟩
    · obtain rfl := appendNode_run_ok.1 h2
      exact (c5 rfl).2
    · exact hx

theorem averagePos_replicate [IsStrictOrderedRing K] (n : ℕ) (p : Pt K) :
    averagePos (List.replicate (n + 1) p) = .ok p := by
  have h : ((n + 1 : ℕ) : K) ≠ 0 := by exact_mod_cast Nat.succ_ne_zero n
  unfold averagePos
  simp only [List.map_replicate, List.sum_replicate, List.length_replicate, nsmul_eq_mul, pdiv, h, if_false, bind,
    Except.bind, Except.ok.injEq]
  ext <;> field_simp

variable [IsStrictOrderedRing K]

/-- vertices that meet are stopped in a node that is there -/
theorem stop_arcs {V : List VId} {step : ℤ} {now : K} {pos : Option (Pt K)} {s s' : St K} {n : NodeId} {p : Pt K}
    (h : stopAndRecord V step now pos s = .ok (n, s')) (ha : Arcs s) (hV : V ≠ [])
    (hr : ∀ v ∈ V, Reaches s now v p) (hpos : pos = none ∨ pos = some p) :
    n < s'.nN ∧ (s'.node n).pos = p ∧ Arcs s' := by
  obtain ⟨e1, e2, e3, e4⟩ := stopAndRecord_exact h
  obtain ⟨o1, o2⟩ := stopAndRecord_source h
  have hle : s.nN ≤ s'.nN := by
    rcases e4 with ⟨e4, -⟩ | ⟨-, e4, -⟩
    · exact Nat.le_of_eq e4.symm
    · rw [e4]; exact Nat.le_succ _
  have key : n < s'.nN ∧ (s'.node n).pos = p := by
    rcases o2 with o | ⟨v, hv, k, hk, o⟩
    · have hn : n = s.nN := by
        rcases e4 with ⟨e4, -⟩ | ⟨e4, -, -⟩
        · rw [e4] at o; exact absurd o (Nat.ne_of_lt (Nat.lt_succ_self _))
        · exact e4
      refine ⟨by rw [o, hn]; exact Nat.lt_succ_self _, ?_⟩
      rcases hpos with rfl | rfl
      · have hP : List.Forall₂ (Place s now) V (List.replicate V.length p) := by
          clear h e1 o1 hV
          induction V with
          | nil => exact .nil
          | cons v vs ih =>
            rw [List.length_cons, List.replicate_succ]
            refine .cons ?_ (ih fun v hv => hr v (List.mem_cons_of_mem _ hv))
            obtain ⟨k, hk, hi, hp, -, -⟩ := hr v List.mem_cons_self
            exact ⟨k, hk, fun _ => hp, fun q => by rw [hi] at q; cases q⟩
        obtain ⟨m, hm⟩ : ∃ m, V.length = m + 1 := by
          cases V with
          | nil => exact absurd rfl hV
          | cons v vs => exact ⟨vs.length, rfl⟩
        rw [hm] at hP
        obtain ⟨-, hw⟩ := stopAndRecord_meet h _ p hP (averagePos_replicate m p)
        rcases hw with ⟨hw, -⟩ | ⟨-, -, -, hw⟩
        · rw [hw] at o; exact absurd o (Nat.ne_of_lt (Nat.lt_succ_self _))
        · exact hw
      · exact stopAndRecord_pos h o
    · obtain ⟨k', hk', hi, hp, r1, r2⟩ := hr v hv
      rw [hk] at hk'
      cases hk'
      have hA := ha.nodes v k (o1 v hv) hk hi
      rcases o with o | ⟨o, t, ht, hn⟩
      · obtain ⟨t, ht⟩ := Option.isSome_iff_exists.1 (hA.node (by rw [o]; rfl))
        obtain ⟨m, b1, b2, b3⟩ := hA.stop t ht
        rw [o] at b1
        cases b1
        rw [r1 t ht] at b3
        exact ⟨Nat.lt_of_lt_of_le b2 hle, by rw [e3 _ b2, b3, hp]⟩
      · obtain ⟨t', m, a1, a2, a3, a4⟩ := hA.start
        rw [o] at a2
        cases a2
        rw [ht] at a1
        cases a1
        rw [r2 t ht hn] at a4
        exact ⟨Nat.lt_of_lt_of_le a3 hle, by rw [e3 _ a3, a4, hp]⟩
  refine ⟨key.1, key.2, fun v k' hv hk hi => ?_, fun v k' hv hk hi => ?_⟩
  · have := e1 v
    cases q : s.vert v with
    | inf o => rw [q, hk] at this; cases this
    | kin k =>
      rw [q, hk] at this
      dsimp only at this
      have hv' : v < s.nV := by rw [e2] at hv; exact hv
      by_cases hm : v ∈ V
      · rw [if_pos hm] at this
        cases this
        have hA := (ha.nodes v k hv' q hi).frame hle e3 (k' := k) rfl
        obtain ⟨k0, hk0, -, hp, -, -⟩ := hr v hm
        rw [q] at hk0
        cases hk0
        refine ⟨hA.start, fun t ht => ?_, fun _ => rfl⟩
        cases ht
        exact ⟨n, rfl, key.1, by rw [key.2, hp]; rfl⟩
      · rw [if_neg hm] at this
        obtain rfl : k = k' := by injection this with this; exact this.symm
        exact (ha.nodes v k hv' q hi).frame hle e3 rfl
  · have := e1 v
    cases q : s.vert v with
    | inf o => rw [q, hk] at this; cases this
    | kin k =>
      rw [q, hk] at this
      dsimp only at this
      have hv' : v < s.nV := by rw [e2] at hv; exact hv
      have hl : s'.line = s.line := by rw [e2]
      have : k'.infFast = k.infFast ∧ k'.ul = k.ul ∧ k'.ur = k.ur ∧ k'.origin = k.origin ∧ k'.velocity = k.velocity := by
        split at this <;> cases this <;> exact ⟨rfl, rfl, rfl, rfl, rfl⟩
      obtain ⟨f1, f2, f3, f4, f5⟩ := this
      have ht := ha.tracks v k hv' q (f1 ▸ hi)
      intro x y hx hy t
      rw [f4, f5, hl]
      exact ht x y (f2 ▸ hx) (f3 ▸ hy) t

variable [HasSqrt K] [SqrtUnit K] [HasTrig K]

/-- a new vertex starts in its node, and on its wavefronts -/
theorem new_arcs {ul ur : Option LineId} {now : K} {node : NodeId} {info : ℕ} {internal : Bool}
    {s s' : St K} {v : VId} (h : computeNewKvertex ul ur now node info internal s = .ok (v, s')) (ha : Arcs s)
    (hu : ∀ a, ul = some a ∨ ur = some a → (s.line a).w.1 ^ 2 + (s.line a).w.2 ^ 2 = 1)
    (hc : ∀ a b, ul = some a → ur = some b → Cross (s.line a) (s.line b) ∨ (s.line a).w = (s.line b).w ∨
      (s.line a).w = (-(s.line b).w.1, -(s.line b).w.2))
    (hp : ∀ a, ul = some a ∨ ur = some a → AtDistance (s.line a) now (s.node node).pos)
    (hslow : ∀ k, s'.vert v = .kin k → k.infFast = false) :
    Arcs s' ∧ Reaches s' now v (s.node node).pos := by
  have hnode := computeNewKvertex_node h
  obtain ⟨rfl, k, hs, a1, a2, a3, a4, a5, a6, -⟩ := C30_attributes _ _ _ _ _ _ _ _ _ h
  have hk : s'.vert s.nV = .kin k := by rw [hs]; exact Function.update_self _ _ _
  have hi := hslow k hk
  have ho : ∀ w, w ≠ s.nV → s'.vert w = s.vert w := fun w hw => by rw [hs]; exact Function.update_of_ne hw _ _
  have hnV : s'.nV = s.nV + 1 := by rw [hs]
  have hl : s'.line = s.line := by rw [hs]
  have hnd : s'.node = s.node := by rw [hs]
  have hnN : s'.nN = s.nN := by rw [hs]
  obtain ⟨l, r, rfl, rfl⟩ : ∃ l r, ul = some l ∧ ur = some r := by
    unfold computeNewKvertex at h
    obtain ⟨nd, s1, h1, h⟩ := bind_run_ok.1 h
    obtain ⟨-, rfl, rfl⟩ := getN_run_ok.1 h1
    obtain ⟨l, s1, h1, h⟩ := bind_run_ok.1 h
    obtain ⟨hl, rfl⟩ := need_run_ok.1 h1
    obtain ⟨r, s1, h1, h⟩ := bind_run_ok.1 h
    obtain ⟨hr, rfl⟩ := need_run_ok.1 h1
    exact ⟨l, r, hl, hr⟩
  have hul := hu l (.inl rfl)
  have hur := hu r (.inr rfl)
  have hpl := hp l (.inl rfl)
  have hpr := hp r (.inr rfl)
  have hfast := C30_inf_fast_iff l r now node info internal s s' s.nV k hul hur h hk
  have hno : ¬ Opposed (s.line l) (s.line r) := fun q => by
    have := hfast.2 (.inl q)
    rw [hi] at this
    cases this
  have key : Tracks s' k ∧ (s.node node).pos = pointAt k now := by
    by_cases hcr : Cross (s.line l) (s.line r)
    · have ht := computeNewKvertex_tracks h hk hu hi
        (fun a b ea eb => by cases ea; cases eb; exact hcr) l r rfl rfl
      refine ⟨fun a b ea eb t => ?_, cross_unique hcr hpl hpr (ht now).1 (ht now).2⟩
      rw [a5] at ea
      rw [a6] at eb
      cases ea
      cases eb
      rw [hl]
      exact ht t
    · have hw : (s.line l).w = (s.line r).w := by
        rcases hc l r rfl rfl with q | q | q
        · exact absurd q hcr
        · exact q
        · refine absurd (.inl ?_) hno
          rw [q]
          dsimp only
          rw [neg_add_cancel, neg_add_cancel, abs_zero]
          exact ⟨by positivity, by positivity⟩
      have hco : Coincident (s.line l) (s.line r) := by
        by_contra q
        have := hfast.2 (.inr ⟨hcr, q⟩)
        rw [hi] at this
        cases this
      obtain ⟨s1, k1, g1, g2, g3, g4, g5⟩ := C30_same_direction l r now node info internal s hnode hul hno hco
      rw [h] at g1
      cases g1
      rw [hk] at g2
      cases g2
      refine ⟨fun a b ea eb t => ?_, g5.symm⟩
      rw [a5] at ea
      rw [a6] at eb
      cases ea
      cases eb
      rw [hl]
      rw [← g5] at hpl hpr
      unfold AtDistance at hpl hpr ⊢
      dsimp only at hpl hpr ⊢
      have hul' := hul
      rw [g4] at hpl hpr ⊢
      rw [← hw] at hpr ⊢
      exact ⟨by linear_combination hpl + (t - now) * hul, by linear_combination hpr + (t - now) * hul⟩
  refine ⟨⟨fun w kw hw hkw hiw => ?_, fun w kw hw hkw hiw => ?_⟩, k, hk, hi, key.2, fun t ht => ?_, fun t ht _ => ?_⟩
  · by_cases e : w = s.nV
    · subst e
      rw [hk] at hkw
      cases hkw
      refine ⟨⟨now, node, a1, a2, by rw [hnN]; exact hnode, by rw [hnd]; exact key.2⟩, fun t ht => ?_, fun q => ?_⟩
      · rw [a3] at ht; cases ht
      · rw [a4] at q; cases q
    · rw [ho w e] at hkw
      exact (ha.nodes w kw (Nat.lt_of_le_of_ne (Nat.le_of_lt_succ (by rw [hnV] at hw; exact hw)) e) hkw hiw).frame (Nat.le_of_eq hnN.symm)
        (fun m _ => by rw [hnd]) rfl
  · by_cases e : w = s.nV
    · subst e
      rw [hk] at hkw
      cases hkw
      exact key.1
    · rw [ho w e] at hkw
      have := ha.tracks w kw (Nat.lt_of_le_of_ne (Nat.le_of_lt_succ (by rw [hnV] at hw; exact hw)) e) hkw hiw
      intro x y hx hy t
      rw [hl]
      exact this x y hx hy t
  · rw [a3] at ht; cases ht
  · rw [a1] at ht; cases ht; rfl

end Grassfire
