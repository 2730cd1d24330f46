/-
The skeleton as a graph (lemmas for C88): what an event does.
-/
import Verif.Spec.Cubic
import Verif.Proofs.ReadyRun
import Verif.Proofs.AnchorLemmas
import Verif.Proofs.Within

set_option linter.unusedSectionVars false

namespace Grassfire

open Spec

variable {K : Type} [Field K] [LinearOrder K] [IsStrictOrderedRing K] [HasSqrt K] [SqrtUnit K]

variable {s s' : St K} {P : Line2 K → Prop}

/-- no vertex of `V` has been stopped or started just now -/
def Mature (s : St K) (now : K) (V : List VId) : Prop :=
  ∀ v ∈ V, ∀ k, s.vert v = .kin k → k.stopNode = none ∧ ∀ u, k.startsAt = some u → 1 / 10 ^ 10 < |u - now|

theorem stopAndRecord_new {V : List VId} {step : ℤ} {now : K} {pos : Option (Pt K)} {n : NodeId}
    (h : stopAndRecord V step now pos s = .ok (n, s')) (hm : Mature s now V) :
    s'.nN = s.nN + 1 := by
  obtain ⟨-, o | ⟨v, hv, k, hk, o⟩⟩ := stopAndRecord_source h
  · exact o
  · obtain ⟨m1, m2⟩ := hm v hv k hk
    rcases o with o | ⟨-, u, hu, q⟩
    · rw [m1] at o; cases o
    · exact absurd q (not_le.2 (m2 u hu))

theorem endOf_kin {v : VId} {k : KVertex K} (h : s.vert v = .kin k) : endOf s v = k.stopNode := by
  unfold endOf; rw [h]

theorem beginOf_kin {v : VId} {k : KVertex K} (h : s.vert v = .kin k) : beginOf s v = k.startNode := by
  unfold beginOf; rw [h]

theorem running_end {N : Prop} {now : K} (hI : Inv N now s) {v : VId} (h : Running s v) :
    endOf s v = none ∧ ∀ k, s.vert v = .kin k → k.stopNode = none := by
  obtain ⟨hv, k, hk, hs⟩ := h
  have := (hI.lives v k hv hk).both
  rw [hs] at this
  have q : k.stopNode = none := by
    cases z : k.stopNode with
    | none => rfl
    | some n => rw [z] at this; simp at this
  refine ⟨(endOf_kin hk).trans q, fun k' hk' => ?_⟩
  rw [hk] at hk'; cases hk'; exact q

theorem junction_of {N : Prop} {now : K} (hI : Inv N now s) {t : TId} {gone made : List VId} {x : NodeId}
    (hn : NodeOf s s' x) (hnN : s'.nN = s.nN + 1) (hV : s'.skVertices = s.skVertices ++ made)
    (hT : s'.skTriangles = s.skTriangles) (h3 : gone.length + made.length = 3) (h0 : gone ≠ []) (hd : gone.Nodup) (hd' : made.Nodup)
    (hnew : ∀ v ∈ made, s.nV ≤ v) (hg : ∀ v ∈ gone, v ∈ s.skVertices ∧ Running s v)
    (old : ∀ w kw, w < s.nV → s.vert w = .kin kw → ∃ kw', s'.vert w = .kin kw' ∧ kw'.startNode = kw.startNode ∧
      (w ∈ gone → kw'.stopNode = some x) ∧ (w ∉ gone → kw'.stopNode = kw.stopNode))
    (fresh : ∀ v ∈ made, beginOf s' v = some x ∧ endOf s' v = none)
    (hl : ∀ y, Live s' y ↔ Live s y ∧ y ≠ t) : Junction s s' t gone made := by
  have hx : x = s.nN ∧ s'.skNodes = s.skNodes ++ [x] := by
    rcases Nat.lt_or_ge x s.nN with q | q
    · have := (hn.kept q).1
      rw [hnN] at this
      exact absurd this (Nat.succ_ne_self _)
    · obtain ⟨a, -, b⟩ := hn.made q
      exact ⟨a, b⟩
  obtain ⟨rfl, hsk⟩ := hx
  have hkin : ∀ v ∈ s.skVertices, v < s.nV ∧ ∃ k, s.vert v = .kin k := fun v hv => by
    obtain ⟨k, hk, -⟩ := hI.numbered v hv
    exact ⟨hI.refs.skVertices v hv, k, hk⟩
  refine ⟨hnN, hsk, hV, hT, h3, h0, ⟨hd, hd', fun v hv q => ?_⟩, fun v hv => ⟨(hg v hv).1, (running_end hI (hg v hv).2).1⟩,
    fun v hv => ?_, fresh, fun v hv => ?_, fun v hv hne => ?_, hl⟩
  · exact absurd (hkin v q).1 (Nat.not_lt.2 (hnew v hv))
  · obtain ⟨h1, k, hk⟩ := hkin v (hg v hv).1
    obtain ⟨k', hk', -, z, -⟩ := old v k h1 hk
    rw [endOf_kin hk', z hv]
  · obtain ⟨h1, k, hk⟩ := hkin v hv
    obtain ⟨k', hk', z, -, -⟩ := old v k h1 hk
    rw [beginOf_kin hk', beginOf_kin hk, z]
  · obtain ⟨h1, k, hk⟩ := hkin v hv
    obtain ⟨k', hk', -, -, z⟩ := old v k h1 hk
    rw [endOf_kin hk', endOf_kin hk, z hne]

theorem touched_ends {now : K} {c : Prop} [Decidable c] {n : NodeId} {R L : Option VId} {k k' : KVertex K}
    (h : Touched now (if c then some n else none) R L k k') :
    k'.startNode = k.startNode ∧ (c → k'.stopNode = some n) ∧ (¬ c → k'.stopNode = k.stopNode) := by
  refine ⟨by rw [h.rest], fun hc => (h.stopped n (if_pos hc)).2, fun hc => (h.running (if_neg hc)).2⟩

variable {N : Prop} [HasTrig K]

theorem points_kinetic {a b : VId} (h : Points s a b) : Kinetic s a ∧ Kinetic s b := by
  obtain ⟨k, k', b1, b2, h1, h2, -⟩ := h
  exact ⟨⟨b1, k, h1⟩, b2, k', h2⟩

theorem Spec.Running.kinetic' {v : VId} (h : Running s v) : Kinetic s v := by
  obtain ⟨b, k, h, -⟩ := h
  exact ⟨b, k, h⟩

theorem mature_of {now : K} (hI : Inv N now s) {t : TId} {V : List VId}
    (hag : ∀ i k u, s.vert ((s.tri t).vertices i) = .kin k → k.startsAt = some u → 1 / 10 ^ 10 < |u - now|)
    (hV : ∀ v ∈ V, Running s v ∧ ∃ i, (s.tri t).vertices i = v) : Mature s now V := by
  intro v hv k hk
  obtain ⟨h1, i, rfl⟩ := hV v hv
  exact ⟨(running_end hI h1).2 k hk, fun u hu => hag i k u hk hu⟩

/-- a side vanishes -/
theorem junction_handleEdge (R : Ready P s) {depth : ℕ} {evt : Event K} {step : ℤ} {e : Fin 3}
    (hI : Inv N evt.time s) (hl : Live s evt.tri)
    (he : evt.side = [e]) (hn : (s.tri evt.tri).neighbours e = none) (hc : Collapsible s evt.tri e)
    (hap : ∀ l r, LeftLine s ((s.tri evt.tri).vertices (e + 1)) l → RightLine s ((s.tri evt.tri).vertices (e + 2)) r →
      Apart l r)
    (hsk : ∀ i, Kinetic s ((s.tri evt.tri).vertices i) → (s.tri evt.tri).vertices i ∈ s.skVertices)
    (hag : ∀ i k u, s.vert ((s.tri evt.tri).vertices i) = .kin k → k.startsAt = some u → 1 / 10 ^ 10 < |u - evt.time|)
    (h : handleEdge depth evt step s = .ok ((), s')) :
    EdgeMesh s s' evt.tri e s.nV ∧
    Junction s s' evt.tri [(s.tri evt.tri).vertices (e + 1), (s.tri evt.tri).vertices (e + 2)] [s.nV] := by
  obtain ⟨sl, n1⟩ := slow_handleEdge R hl he hn hc hap h
  have sl1 : ∀ k, s'.vert s.nV = .kin k → k.infFast = false := fun k => sl _ k (n1 ▸ Nat.lt_succ_self _)
  have hE := (handleEdge_mesh depth evt step s s' e R.mesh hl he hc h sl1).2
  obtain ⟨l, r, pl, pr, hne⟩ := edge_around R hl hn hc
  have inj := (R.mesh.consistent _ hl).2.1
  have p := points_kinetic (R.undead.points R.mesh hl hn)
  have r1 : Running s ((s.tri evt.tri).vertices (e + 1)) := R.undead.running R.mesh hl p.1
  have r2 : Running s ((s.tri evt.tri).vertices (e + 2)) := R.undead.running R.mesh hl p.2
  have hnN : s'.nN = s.nN + 1 := by
    obtain ⟨e', kv, s1, s2, k, he', hV, hm, hk, hs, -⟩ := handleEdge_steps h
    obtain rfl : e' = e := by rw [he] at he'; simpa using he'.symm
    obtain ⟨hkv, nV1, -, -, -, -, a, b, -, -, -, -, H⟩ := edgeVertex_mid R.waves rfl rfl pl pr hne hap hV
    obtain ⟨kw, hkw, hslow, -⟩ := H
    obtain ⟨_, _, _, _, _, node, s3, _, _, -, -, -, -, -, -, -, hst, -, -, -, hs1, -, -⟩ := (edgeVertex_steps hV).steps
    have hv2 : s2.vert = s1.vert := by rw [hm]
    rw [hv2, hkw] at hk
    cases hk
    have := stopAndRecord_new hst (mature_of hI hag fun v hv => by
      rcases List.mem_pair.1 hv with rfl | rfl
      · exact ⟨r1, _, rfl⟩
      · exact ⟨r2, _, rfl⟩)
    have a1 : s2.nN = s1.nN := by rw [hm]
    rw [hs hslow, a1, hs1]
    exact this
  obtain ⟨kl, k1, bl, b1, hkl, hk1, -, hk1l⟩ := pl
  obtain ⟨k2, kr, b2, br, hk2, hkr, hk2r, -⟩ := pr
  obtain ⟨n, k, l', r', c1, c2, c3, c4, c5, c6, c7, -, -, -, -, -, -, -, -, -, c8⟩ :=
    C61_edge depth evt step s s' e _ _ k1 k2 h he rfl rfl hk1 hk2 (fun x hx => by rw [hk1l] at hx; cases hx; exact bl)
      (fun x hx => by rw [hk2r] at hx; cases hx; exact br) (fun q => hne (by rw [hk1l] at q; exact Option.some.inj q)) sl1
  refine ⟨hE, junction_of hI c3 hnN c2 (g_handleEdge _ _ _ _ _ _ h).skTriangles rfl
    (List.cons_ne_nil _ _) ?_ (List.nodup_singleton _) ?_ ?_ ?_ ?_ hE.live⟩
  · exact List.nodup_cons.2 ⟨fun q => fin3_1_ne_2 e (inj (List.mem_singleton.1 q)), List.nodup_singleton _⟩
  · intro v hv; rw [List.mem_singleton.1 hv]
  · intro v hv
    rcases List.mem_pair.1 hv with rfl | rfl
    · exact ⟨hsk _ r1.kinetic', r1⟩
    · exact ⟨hsk _ r2.kinetic', r2⟩
  · intro w kw hw hkw
    obtain ⟨kw', hkw', ht⟩ := c8 w kw hw hkw
    obtain ⟨t1, t2, t3⟩ := touched_ends ht
    exact ⟨kw', hkw', t1, fun q => t2 (List.mem_pair.1 q), fun q => t3 fun z => q (List.mem_pair.2 z)⟩
  · intro v hv
    rw [List.mem_singleton.1 hv, beginOf_kin c6, endOf_kin c6]
    exact ⟨c7.startNode, c7.stopNode⟩

/-- a vertex hits a side -/
theorem junction_handleSplit (R : Ready P s) {depth : ℕ} {evt : Event K} {step : ℤ} {e : Fin 3}
    (hI : Inv N evt.time s) (hl : Live s evt.tri)
    (he : evt.side = [e]) (hn : (s.tri evt.tri).neighbours e = none) (hk : Kinetic s ((s.tri evt.tri).vertices e))
    (hapb : ∀ a b, LeftLine s ((s.tri evt.tri).vertices e) a → LeftLine s ((s.tri evt.tri).vertices (e + 2)) b → Apart a b)
    (hapa : ∀ a b, RightLine s ((s.tri evt.tri).vertices (e + 1)) a → RightLine s ((s.tri evt.tri).vertices e) b →
      Apart a b)
    (hsk : ∀ i, Kinetic s ((s.tri evt.tri).vertices i) → (s.tri evt.tri).vertices i ∈ s.skVertices)
    (hag : ∀ i k u, s.vert ((s.tri evt.tri).vertices i) = .kin k → k.startsAt = some u → 1 / 10 ^ 10 < |u - evt.time|)
    (h : handleSplit depth evt step s = .ok ((), s')) :
    SplitMesh s s' evt.tri e (s.nV + 1) s.nV ∧
    Junction s s' evt.tri [(s.tri evt.tri).vertices e] [s.nV, s.nV + 1] := by
  obtain ⟨sl, n1⟩ := slow_handleSplit R hl he hn hk hapb hapa h
  have slb : ∀ k, s'.vert s.nV = .kin k → k.infFast = false :=
    fun k => sl _ k (by rw [n1]; exact Nat.lt_add_of_pos_right (by decide))
  have sla : ∀ k, s'.vert (s.nV + 1) = .kin k → k.infFast = false := fun k => sl _ k (by rw [n1]; exact Nat.lt_succ_self _)
  have hE : SplitMesh s s' evt.tri e (s.nV + 1) s.nV := by
    obtain ⟨e', q, z⟩ := (handleSplit_mesh depth evt step s s' R.mesh hl h slb sla).2
    obtain rfl : e' = e := by rw [he] at q; simpa using q.symm
    exact z
  obtain ⟨l, r, pl, pr, hne⟩ := split_around R hl hk
  have inj := (R.mesh.consistent _ hl).2.1
  have p12 := R.undead.points R.mesh hl hn
  have r0 : Running s ((s.tri evt.tri).vertices e) := R.undead.running R.mesh hl hk
  have hnN : s'.nN = s.nN + 1 := by
    obtain ⟨e', x, s1, s2, he', hV, hm, hs, -⟩ := handleSplit_steps h
    obtain rfl : e' = e := by rw [he] at he'; simpa using he'.symm
    obtain ⟨rfl, nV1, -, -, -, ⟨a, b, -, -, -, -, Hb⟩, c, d, -, -, -, -, Ha⟩ :=
      splitVertices_mid R.waves (fun z => fin3_ne_1 e' (inj z).symm) (fun z => fin3_ne_2 e' (inj z).symm) hne
        p12 pl pr hapb hapa hV
    obtain ⟨kb, hkb, sb, -⟩ := Hb
    obtain ⟨ka, hka, sa, -⟩ := Ha
    have hv2 : s2.vert = s1.vert := by rw [hm]
    obtain rfl := hs (fun k q => by rw [hv2, hkb] at q; cases q; exact sb) (fun k q => by rw [hv2, hka] at q; cases q; exact sa)
    obtain ⟨_, _, _, node, s3, _, _, _, _, hst, -, -, -, -, -, -, -, -, -, -, -, -, hs1, -, -⟩ := (splitVertices_steps hV).steps
    have := stopAndRecord_new hst (mature_of hI hag fun v hv => by rw [List.mem_singleton.1 hv]; exact ⟨r0, _, rfl⟩)
    have a1 : s'.nN = s1.nN := by rw [hm]
    rw [a1, hs1]
    exact this
  obtain ⟨kl, k, bl, b1, hkl, hk0, -, hkl'⟩ := pl
  obtain ⟨k', kr, b2, br, hk', hkr, hkr', -⟩ := pr
  obtain rfl : k' = k := by rw [hk0] at hk'; injection hk' with z; exact z.symm
  obtain ⟨k1, k2, -, -, hk1, hk2, -⟩ := p12
  obtain ⟨-, n, kb, ka, l', r', c1, c2, c3, c4, c5, c6, c7, -, -, -, -, -, -, -, -, c8, c9, -, -, -, -, -, -, -, -, -, c10⟩ :=
    C62_split depth evt step s s' e _ _ _ k' k1 k2 h he rfl rfl rfl hk0 hk1 hk2
      (fun x hx => by rw [hkl'] at hx; cases hx; exact bl) (fun x hx => by rw [hkr'] at hx; cases hx; exact br)
      (fun q => fin3_ne_1 e (inj q)) (fun q => hne (by rw [hkl'] at q; exact Option.some.inj q)) slb sla
  refine ⟨hE, junction_of hI c3 hnN c2 (g_handleSplit _ _ _ _ _ _ h).skTriangles rfl
    (List.cons_ne_nil _ _) (List.nodup_singleton _) ?_ ?_ ?_ ?_ ?_ hE.live⟩
  · exact List.nodup_cons.2 ⟨fun q => Nat.succ_ne_self _ (List.mem_singleton.1 q).symm, List.nodup_singleton _⟩
  · intro v hv
    rcases List.mem_pair.1 hv with rfl | rfl
    · exact le_rfl
    · exact Nat.le_succ _
  · intro v hv
    rw [List.mem_singleton.1 hv]
    exact ⟨hsk _ hk, r0⟩
  · intro w kw hw hkw
    obtain ⟨kw', hkw', ht⟩ := c10 w kw hw hkw
    obtain ⟨t1, t2, t3⟩ := touched_ends ht
    exact ⟨kw', hkw', t1, fun q => t2 (List.mem_singleton.1 q), fun q => t3 fun z => q (List.mem_singleton.2 z)⟩
  · intro v hv
    rcases List.mem_pair.1 hv with rfl | rfl
    · rw [beginOf_kin c6, endOf_kin c6]
      exact ⟨c7.startNode, c7.stopNode⟩
    · rw [beginOf_kin c8, endOf_kin c8]
      exact ⟨c9.startNode, c9.stopNode⟩

/-- the last triangle of its part vanishes -/
theorem junction_handleEdge3 (R : Ready P s) {evt : Event K} {step : ℤ} (hI : Inv N evt.time s) (hl : Live s evt.tri)
    (hn : ∀ j, (s.tri evt.tri).neighbours j = none)
    (hsk : ∀ i, Kinetic s ((s.tri evt.tri).vertices i) → (s.tri evt.tri).vertices i ∈ s.skVertices)
    (hag : ∀ i k u, s.vert ((s.tri evt.tri).vertices i) = .kin k → k.startsAt = some u → 1 / 10 ^ 10 < |u - evt.time|)
    (h : handleEdge3 evt step s = .ok ((), s')) :
    Removed s s' evt.tri ∧ Junction s s' evt.tri
      [(s.tri evt.tri).vertices 0, (s.tri evt.tri).vertices 1, (s.tri evt.tri).vertices 2] [] := by
  have hE := (handleEdge3_mesh evt step s s' R.mesh hl (fun i n q => by rw [hn] at q; cases q) h).2
  have inj := (R.mesh.consistent _ hl).2.1
  have run : ∀ i, Running s ((s.tri evt.tri).vertices i) := fun i => by
    have := (points_kinetic (R.undead.points R.mesh hl (hn (i + 2)))).1
    rw [fin3_add_2_1] at this
    exact R.undead.running R.mesh hl this
  have hgone : ∀ v ∈ [(s.tri evt.tri).vertices 0, (s.tri evt.tri).vertices 1, (s.tri evt.tri).vertices 2],
      Running s v ∧ ∃ i, (s.tri evt.tri).vertices i = v := by
    intro v hv
    simp only [List.mem_cons, List.not_mem_nil, or_false] at hv
    rcases hv with rfl | rfl | rfl <;> exact ⟨run _, _, rfl⟩
  have g := g_handleEdge3 _ _ _ _ _ h
  unfold handleEdge3 at h
  obtain ⟨_, s1, h1, h⟩ := bind_run_ok.1 h
  obtain ⟨-, rfl⟩ := assertM_run_ok.1 h1
  obtain ⟨T, s1, h1, h⟩ := bind_run_ok.1 h
  obtain ⟨-, rfl, rfl⟩ := getT_run_ok.1 h1
  obtain ⟨n, s1, h1, h⟩ := bind_run_ok.1 h
  obtain ⟨_, s2, h2, h⟩ := bind_run_ok.1 h
  have mo : MeshOnly s1 s' := meshPre.trans _ _ _
    (Keeps.forEach meshPre (fun i => mo_threeSidesNeighbour evt.tri evt.time i) _ _ _ _ h2) (mo_stopTriangle _ _ _ _ _ h)
  have e1 : s'.vert = s1.vert := by rw [mo]
  have e2 : s'.nN = s1.nN := by rw [mo]
  have e3 : s'.skNodes = s1.skNodes := by rw [mo]
  have e4 : s'.skVertices = s1.skVertices := by rw [mo]
  have e5 : s'.node = s1.node := by rw [mo]
  have hnew := stopAndRecord_new h1 (mature_of hI hag hgone)
  obtain ⟨a1, a2, a3, a4⟩ := stopAndRecord_exact h1
  have hn' : n < s1.nN := by
    rcases a4 with ⟨q, -⟩ | ⟨q, -⟩
    · rw [hnew] at q; exact absurd q (Nat.succ_ne_self _)
    · rw [q, hnew]; exact Nat.lt_succ_self _
  have e6 : s1.skVertices = s.skVertices := by rw [a2]
  refine ⟨hE, junction_of hI (nodeOf_stop h1 hn' e5 e2 e3) (e2.trans hnew) (by rw [e4, e6, List.append_nil]) g.skTriangles
    rfl (List.cons_ne_nil _ _) ?_ List.nodup_nil (fun v hv => by cases hv) (fun v hv => ?_) (fun w kw hw hkw => ?_) (fun v hv => by cases hv) hE.live⟩
  · have e01 : (s.tri evt.tri).vertices 0 ≠ (s.tri evt.tri).vertices 1 := fun q => absurd (inj q) (by decide)
    have e02 : (s.tri evt.tri).vertices 0 ≠ (s.tri evt.tri).vertices 2 := fun q => absurd (inj q) (by decide)
    have e12 : (s.tri evt.tri).vertices 1 ≠ (s.tri evt.tri).vertices 2 := fun q => absurd (inj q) (by decide)
    simp [e01, e02, e12]
  · obtain ⟨r, i, rfl⟩ := hgone v hv
    exact ⟨hsk i r.kinetic', r⟩
  · have := a1 w
    rw [hkw] at this
    dsimp only at this
    rw [← e1] at this
    refine ⟨_, this, by split <;> rfl, fun q => by rw [if_pos q], fun q => by rw [if_neg q]⟩

/-- how the corners change when triangle `t` vanishes: vertices in `made` take the place of vertices in `gone` -/
structure Recast (s s' : St K) (t : TId) (gone made : List VId) : Prop where
  corners : ∀ v ∈ gone, ∃ i, (s.tri t).vertices i = v
  new : ∀ v ∈ made, s.nV ≤ v
  change : ∀ x, Live s x → ∀ i, (s'.tri x).vertices i = (s.tri x).vertices i ∨
    (s'.tri x).vertices i ∈ made ∧ (s.tri x).vertices i ∈ gone
  other : ∀ i, (s.tri t).vertices i ∉ gone → ∃ n j, n ∈ s.skTriangles ∧ Live s n ∧ n ≠ t ∧
    (s.tri n).vertices j = (s.tri t).vertices i ∧ ∃ k, (s'.tri n).vertices k ∈ made

/-- how the corners change when the side between `t` and `n` is flipped -/
structure Flipped (s s' : St K) (t n : TId) : Prop where
  live : Live s n
  ahead : ∀ x, Live s x → ∀ i, ∃ y j, Live s y ∧ (y = x ∨ (x = t ∨ x = n) ∧ (y = t ∨ y = n)) ∧
    (s'.tri y).vertices j = (s.tri x).vertices i
  back : ∀ x, Live s x → ∀ i, ∃ y j, Live s y ∧ (y = x ∨ (x = t ∨ x = n) ∧ (y = t ∨ y = n)) ∧
    (s.tri y).vertices j = (s'.tri x).vertices i
  shared : ∃ i j, (s.tri t).vertices i = (s.tri n).vertices j
  shared' : ∃ i j, (s'.tri t).vertices i = (s'.tri n).vertices j

/-- a flip does not change the skeleton -/
theorem untouched_handleFlip (R : Ready P s) {evt : Event K} {e : Fin 3} (hl : Live s evt.tri) (he : evt.side = [e])
    (hf : ProperSide s evt.tri e) (h : handleFlip evt s = .ok ((), s')) :
    Untouched s s' ∧ ∃ n, (s.tri evt.tri).neighbours e = some n ∧ Flipped s s' evt.tri n := by
  have mo := mo_handleFlip _ _ _ _ h
  obtain ⟨-, n, k, s1, hE, h1, hc⟩ := handleFlip_mesh evt s s' e R.mesh hl he hf h
  obtain ⟨f1, f2, f3, f4⟩ := C26_frame hE h1
  obtain ⟨s2, h2, ⟨v0, v1, v2⟩, ⟨w0, w1, w2⟩, -⟩ := C26_pair hE
  obtain rfl : s2 = s1 := by rw [h1] at h2; cases h2; rfl
  have hst : ∀ x, (s'.tri x).stopsAt = (s.tri x).stopsAt := by
    intro x
    have : (s'.tri x).stopsAt = (s2.tri x).stopsAt := hc.apply (fun y : St K => (y.tri x).stopsAt)
    obtain ⟨vs, ns, q⟩ := f3 x
    rw [this, q]
  have hv : s'.vert = s.vert := by rw [mo]
  have hnT : s'.nT = s.nT := by rw [mo]
  have ln := (R.mesh.consistent _ hl).2.2 _ _ n ⟨e, rfl, rfl, hE.n0⟩ |>.1
  refine ⟨⟨by rw [mo], by rw [mo], by rw [mo], by rw [mo], fun v _ => by unfold beginOf; rw [hv],
    fun v _ => by unfold endOf; rw [hv], fun x => by unfold Live; rw [hst, hnT]⟩, n, hE.n0, ln, fun x hx i => ?_, fun x hx i => ?_,
    ⟨e + 1, k + 2, hE.b1.symm⟩, ⟨0, 2, by rw [hc.vertices, hc.vertices, v0, w2]⟩⟩
  · by_cases hx0 : x = evt.tri
    · subst hx0
      rcases fin3_cases e i with rfl | rfl | rfl
      · exact ⟨_, 0, hl, .inl rfl, by rw [hc.vertices, v0]⟩
      · exact ⟨_, 1, hl, .inl rfl, by rw [hc.vertices, v1]⟩
      · exact ⟨n, 1, ln, .inr ⟨.inl rfl, .inr rfl⟩, by rw [hc.vertices, w1]⟩
    · by_cases hx1 : x = n
      · subst hx1
        rcases fin3_cases k i with rfl | rfl | rfl
        · exact ⟨_, 0, ln, .inl rfl, by rw [hc.vertices, w0]⟩
        · exact ⟨_, 1, ln, .inl rfl, by rw [hc.vertices, w1, hE.d1]⟩
        · exact ⟨_, 1, hl, .inr ⟨.inr rfl, .inl rfl⟩, by rw [hc.vertices, v1, hE.b1]⟩
      · exact ⟨x, i, hx, .inl rfl, by rw [hc.vertices, (f1 x hx hx0 hx1).1]⟩
  · rw [hc.vertices]
    by_cases hx0 : x = evt.tri
    · subst hx0
      match i with
      | 0 => exact ⟨_, e, hl, .inl rfl, v0.symm⟩
      | 1 => exact ⟨_, e + 1, hl, .inl rfl, v1.symm⟩
      | 2 => exact ⟨n, k, ln, .inr ⟨.inl rfl, .inr rfl⟩, v2.symm⟩
    · by_cases hx1 : x = n
      · subst hx1
        match i with
        | 0 => exact ⟨_, k, ln, .inl rfl, w0.symm⟩
        | 1 => exact ⟨_, k + 1, ln, .inl rfl, hE.d1.trans w1.symm⟩
        | 2 => exact ⟨_, e, hl, .inr ⟨.inr rfl, .inl rfl⟩, w2.symm⟩
      · exact ⟨x, i, hx, .inl rfl, by rw [(f1 x hx hx0 hx1).1]⟩

theorem open_iff {now : K} (hI : Inv N now s) {v : VId} (hv : v ∈ s.skVertices) : endOf s v = none ↔ Running s v := by
  refine ⟨fun h => ?_, fun h => (running_end hI h).1⟩
  obtain ⟨k, hk, -⟩ := hI.numbered v hv
  have hlt := hI.refs.skVertices v hv
  refine ⟨hlt, k, hk, ?_⟩
  rw [endOf_kin hk] at h
  have := (hI.lives v k hlt hk).both
  rw [h] at this
  cases z : k.stopsAt with
  | none => rfl
  | some n => rw [z] at this; simp at this

theorem kinetic_old (g : Grows s s') {v : VId} (hv : v < s.nV) : Kinetic s' v ↔ Kinetic s v := by
  have q := g.vert v hv
  have hv' : v < s'.nV := Nat.lt_of_lt_of_le hv g.nV
  constructor
  · rintro ⟨-, k, hk⟩
    refine ⟨hv, ?_⟩
    cases z : s.vert v with
    | kin k0 => exact ⟨k0, rfl⟩
    | inf o => rw [z, hk] at q; exact q.elim
  · rintro ⟨-, k, hk⟩
    refine ⟨hv', ?_⟩
    cases z : s'.vert v with
    | kin k0 => exact ⟨k0, rfl⟩
    | inf o => rw [z, hk] at q; exact q.elim

/-- the corners stay the vertices of the skeleton -/
theorem populated_junction {now now' : K} {t : TId} {gone made : List VId} (hI : Inv N now s) (hI' : Inv N now' s')
    (hM : Mesh s) (g : Grows s s') (hP : Populated s) (hJ : Junction s s' t gone made) (hc : Closed (· ∈ s.skTriangles) s')
    (hR : Recast s s' t gone made)
    (hmade : ∀ v ∈ made, ∃ x ∈ s.skTriangles, ∃ i, Live s' x ∧ (s'.tri x).vertices i = v) : Populated s' := by
  have hold : ∀ x, Live s x → ∀ i, (s.tri x).vertices i ∉ gone → (s'.tri x).vertices i = (s.tri x).vertices i :=
    fun x hx i q => (hR.change x hx i).resolve_right fun z => q z.2
  refine ⟨?_, hJ.triangles ▸ hP.different, hJ.triangles ▸ hc, fun x hx hl i hk => ?_, fun v hv hr => ?_⟩
  · rw [hJ.vertices]
    exact List.nodup_append.2 ⟨hP.once, hJ.different.2.1, fun a ha b hb q => hJ.different.2.2 b hb (q ▸ ha)⟩
  · rw [hJ.triangles] at hx
    have hl' := ((hJ.live x).1 hl).1
    rw [hJ.vertices]
    rcases hR.change x hl' i with q | ⟨q, -⟩
    · rw [q] at hk ⊢
      exact List.mem_append_left _ (hP.corners x hx hl' i ((kinetic_old g (hM.vertices x hl'.1 i)).1 hk))
    · exact List.mem_append_right _ q
  · have hend := (running_end hI' hr).1
    rw [hJ.triangles]
    rw [hJ.vertices] at hv
    rcases List.mem_append.1 hv with hv | hv
    · have hg : v ∉ gone := fun q => by rw [hJ.after v q] at hend; cases hend
      rw [hJ.sameEnd v hv hg] at hend
      obtain ⟨x, hx, hl, i, rfl⟩ := hP.held v hv ((open_iff hI hv).1 hend)
      by_cases hxt : x = t
      · subst hxt
        obtain ⟨n, j, h3, h1, h2, h4, -⟩ := hR.other i hg
        refine ⟨n, h3, (hJ.live n).2 ⟨h1, h2⟩, j, ?_⟩
        rw [hold n h1 j (by rw [h4]; exact hg), h4]
      · exact ⟨x, hx, (hJ.live x).2 ⟨hl, hxt⟩, i, hold x hl i hg⟩
    · obtain ⟨x, hx, i, hl, hi⟩ := hmade v hv
      exact ⟨x, hx, hl, i, hi⟩

theorem neighbour_other (hM : Mesh s) {t n : TId} {i : Fin 3} (hl : Live s t) (hn : (s.tri t).neighbours i = some n) :
    Live s n ∧ n ≠ t ∧ (∃ j, (s.tri n).vertices j = (s.tri t).vertices (i + 1)) ∧
      ∃ j, (s.tri n).vertices j = (s.tri t).vertices (i + 2) := by
  obtain ⟨h1, -, j, h2, h3, -⟩ := hM.consistent.back hl hn
  refine ⟨h1, ?_, ⟨_, h3⟩, ⟨_, h2⟩⟩
  rintro rfl
  have inj := (hM.consistent _ hl).2.1
  have a := inj h2
  have b := inj h3
  revert a b
  unfold ccw cw
  clear h1 h2 h3 hn
  revert i j
  decide

theorem substitute_corner {v w : VId} {f : Fin 3 → VId} (i : Fin 3) :
    (f i = v → substitute v w f i = w) ∧ (f i ≠ v → substitute v w f i = f i) := by
  unfold substitute
  exact ⟨fun h => if_pos h, fun h => if_neg h⟩

/-- what an event does to the skeleton -/
theorem cubic_handleEvent (R : Ready P s) {depth : ℕ} {evt : Event K} {step : ℤ} (hI : Inv N evt.time s)
    (hI' : Inv N evt.time s') (hP : Populated s) (ht : evt.tri ∈ s.skTriangles)
    (hg : Live s evt.tri → Generic s evt ∧ Alone s evt) (h : handleEvent depth evt step s = .ok ((), s')) :
    Populated s' ∧ (¬ Live s evt.tri → s' = s) ∧
    (Live s evt.tri → evt.tp = .flip → Untouched s s' ∧ ∃ n ∈ s.skTriangles, Flipped s s' evt.tri n) ∧
    (Live s evt.tri → evt.tp ≠ .flip → ∃ gone made, Junction s s' evt.tri gone made ∧ Recast s s' evt.tri gone made) := by
  have g := g_handleEvent _ _ _ _ _ _ h
  have hc : Closed (· ∈ s.skTriangles) s' := (w_handleEvent depth evt step ht s () s' hP.closed h).1
  unfold handleEvent at h
  obtain ⟨T, s1, h1, h⟩ := bind_run_ok.1 h
  obtain ⟨htlt, rfl, rfl⟩ := getT_run_ok.1 h1
  by_cases hst : (s.tri evt.tri).stopsAt.isSome = true
  · rw [if_pos hst] at h
    obtain rfl := (pure_run_ok.1 h).2
    have hnl : ¬ Live s evt.tri := fun q => by rw [q.2] at hst; cases hst
    exact ⟨hP, fun _ => rfl, fun q => absurd q hnl, fun q => absurd q hnl⟩
  rw [if_neg hst] at h
  have hl : Live s evt.tri := ⟨htlt, by rw [Option.isSome_iff_ne_none, ne_eq, not_not] at hst; exact hst⟩
  obtain ⟨G, A⟩ := hg hl
  have hsk := hP.corners _ ht hl
  have wrap : evt.tp ≠ .flip → (∃ gone made, Junction s s' evt.tri gone made ∧ Recast s s' evt.tri gone made ∧
        ∀ v ∈ made, ∃ x ∈ s.skTriangles, ∃ i, Live s' x ∧ (s'.tri x).vertices i = v) →
      Populated s' ∧ (¬ Live s evt.tri → s' = s) ∧
      (Live s evt.tri → evt.tp = .flip → Untouched s s' ∧ ∃ n ∈ s.skTriangles, Flipped s s' evt.tri n) ∧
      (Live s evt.tri → evt.tp ≠ .flip → ∃ gone made, Junction s s' evt.tri gone made ∧ Recast s s' evt.tri gone made) :=
    fun hne ⟨x, y, hJ, hR, hm⟩ => ⟨populated_junction hI hI' R.mesh g hP hJ hc hR hm, fun q => absurd hl q,
      fun _ q => absurd q hne, fun _ _ => ⟨x, y, hJ, hR⟩⟩
  have inSk : ∀ {i n}, (s.tri evt.tri).neighbours i = some n → n ∈ s.skTriangles := fun q => hP.closed _ _ _ ht q
  cases htp : evt.tp with
  | edge =>
    have hne : evt.tp ≠ .flip := by rw [htp]; decide
    rw [← htp]
    refine wrap hne ?_
    rw [htp] at h
    dsimp only at h
    have hag := A.aged hne
    rcases G.edge htp with ⟨h3, hn⟩ | ⟨i, hs, hap, hcl⟩
    · rw [if_pos h3] at h
      obtain ⟨hR, hJ⟩ := junction_handleEdge3 R hI hl hn hsk hag h
      refine ⟨_, _, hJ, ⟨fun v hv => ?_, (fun v hv => by cases hv), fun x _ i => .inl (by rw [hR.vertices]), fun i hi => absurd ?_ hi⟩,
        fun v hv => by cases hv⟩
      · simp only [List.mem_cons, List.not_mem_nil, or_false] at hv
        rcases hv with rfl | rfl | rfl <;> exact ⟨_, rfl⟩
      · match i with
        | 0 => simp
        | 1 => simp
        | 2 => simp
    · have hlen : evt.side.length = 1 := by rw [hs]; rfl
      have hall : ¬ ∀ j, (s.tri evt.tri).neighbours j = none := fun q => by
        have := A.whole htp q; rw [hlen] at this; cases this
      rw [if_neg (by rw [hlen]; decide), if_neg fun q => hall (type3.1 q.2), if_neg (by rw [hlen]; decide)] at h
      obtain ⟨hn, h2, -⟩ := hcl.resolve_left hall
      obtain ⟨hE, hJ⟩ := junction_handleEdge R hI hl hs hn h2 hap hsk hag h
      obtain ⟨fanA, fanB, hd, cA, cB, D⟩ := hE.done
      have vert : ∀ x j, ((s.tri x).vertices j = (s.tri evt.tri).vertices (i + 2) → x ∈ fanA →
            (s'.tri x).vertices j = s.nV) ∧
          ((s.tri x).vertices j = (s.tri evt.tri).vertices (i + 1) → x ∈ fanB → (s'.tri x).vertices j = s.nV) ∧
          ((s'.tri x).vertices j = (s.tri x).vertices j ∨ (s'.tri x).vertices j = s.nV ∧
            (s.tri x).vertices j ∈ [(s.tri evt.tri).vertices (i + 1), (s.tri evt.tri).vertices (i + 2)]) := by
        intro x j
        rw [D.vertices x]
        by_cases ha : x ∈ fanA
        · rw [if_pos ha]
          obtain ⟨a, b⟩ := substitute_corner (v := (s.tri evt.tri).vertices (i + 2)) (w := s.nV) (f := (s.tri x).vertices) j
          refine ⟨fun q _ => a q, fun _ q => absurd q (hd x ha), ?_⟩
          by_cases q : (s.tri x).vertices j = (s.tri evt.tri).vertices (i + 2)
          · exact .inr ⟨a q, by rw [q]; simp⟩
          · exact .inl (b q)
        · rw [if_neg ha]
          by_cases hb : x ∈ fanB
          · rw [if_pos hb]
            obtain ⟨a, b⟩ := substitute_corner (v := (s.tri evt.tri).vertices (i + 1)) (w := s.nV) (f := (s.tri x).vertices) j
            refine ⟨fun _ q => absurd q ha, fun q _ => a q, ?_⟩
            by_cases q : (s.tri x).vertices j = (s.tri evt.tri).vertices (i + 1)
            · exact .inr ⟨a q, by rw [q]; simp⟩
            · exact .inl (b q)
          · rw [if_neg hb]
            exact ⟨fun _ q => absurd q ha, fun _ q => absurd q hb, .inl rfl⟩
      have side : (∃ n, (s.tri evt.tri).neighbours (i + 1) = some n) ∨ ∃ n, (s.tri evt.tri).neighbours (i + 2) = some n := by
        by_contra q
        rw [not_or] at q
        refine hall fun j => ?_
        rcases fin3_cases i j with rfl | rfl | rfl
        · exact hn
        · cases z : (s.tri evt.tri).neighbours (i + 1) with
          | none => rfl
          | some n => exact absurd ⟨n, z⟩ q.1
        · cases z : (s.tri evt.tri).neighbours (i + 2) with
          | none => rfl
          | some n => exact absurd ⟨n, z⟩ q.2
      have new : ∃ n ∈ s.skTriangles, ∃ k j, Live s n ∧ n ≠ evt.tri ∧ (s'.tri n).vertices k = s.nV ∧
          (s.tri n).vertices j = (s.tri evt.tri).vertices i := by
        rcases side with ⟨n, q⟩ | ⟨n, q⟩
        · obtain ⟨a, b, ⟨k, c⟩, ⟨k', c'⟩⟩ := neighbour_other R.mesh hl q
          obtain ⟨-, -, j', -, -, hb⟩ := R.mesh.consistent.back hl q
          rw [fin3_add_1_1] at c
          rw [fin3_add_1_2] at c'
          exact ⟨n, inSk q, k, k', a, b, (vert n k).1 c (D.gapA n j' q hb).1, c'⟩
        · obtain ⟨a, b, ⟨k', c'⟩, ⟨k, c⟩⟩ := neighbour_other R.mesh hl q
          obtain ⟨-, -, j', -, -, hb⟩ := R.mesh.consistent.back hl q
          rw [fin3_add_2_2] at c
          rw [fin3_add_2_1] at c'
          exact ⟨n, inSk q, k, k', a, b, (vert n k).2.1 c (D.gapB n j' q hb).1, c'⟩
      obtain ⟨n, n1, k, j, n2, n3, n4, n5⟩ := new
      refine ⟨_, _, hJ, ⟨fun v hv => ?_, fun v hv => (List.mem_singleton.1 hv).ge, fun x _ j => (vert x j).2.2.imp id fun q => ⟨by rw [q.1]; simp, q.2⟩,
        fun j' hj => ?_⟩, fun v hv => ⟨n, n1, k, (hE.live n).2 ⟨n2, n3⟩, by rw [List.mem_singleton.1 hv]; exact n4⟩⟩
      · rcases List.mem_pair.1 hv with rfl | rfl <;> exact ⟨_, rfl⟩
      · rcases fin3_cases i j' with rfl | rfl | rfl
        · exact ⟨n, j, n1, n2, n3, n5, k, by rw [n4]; simp⟩
        · exact absurd (by simp) hj
        · exact absurd (by simp) hj
  | flip =>
    rw [htp] at h
    obtain ⟨i, h1, h2, h3⟩ := G.flip htp
    obtain ⟨hU, n, hn, hF⟩ := untouched_handleFlip R hl h1 h3 h
    have mo := mo_handleFlip _ _ _ _ h
    have hv : s'.vert = s.vert := by rw [mo]
    have hnV : s'.nV = s.nV := by rw [mo]
    have mem : ∀ {x y}, x ∈ s.skTriangles → (y = x ∨ (x = evt.tri ∨ x = n) ∧ (y = evt.tri ∨ y = n)) →
        y ∈ s.skTriangles := by
      rintro x y hx (rfl | ⟨-, rfl | rfl⟩)
      · exact hx
      · exact ht
      · exact inSk hn
    refine ⟨⟨hU.vertices ▸ hP.once, hU.triangles ▸ hP.different, hU.triangles ▸ hc, fun x hx hlx j hk => ?_,
      fun v hv' hr => ?_⟩, fun q => absurd hl q, fun _ _ => ⟨hU, n, inSk hn, hF⟩, fun _ q => absurd rfl q⟩
    · rw [hU.triangles] at hx
      rw [hU.vertices]
      obtain ⟨y, j', y1, y2, y3⟩ := hF.back x ((hU.live x).1 hlx) j
      have hk' : Kinetic s ((s'.tri x).vertices j) := by unfold Kinetic at hk ⊢; rw [← hv, ← hnV]; exact hk
      rw [← y3] at hk' ⊢
      exact hP.corners y (mem hx y2) y1 j' hk'
    · rw [hU.vertices] at hv'
      rw [hU.triangles]
      have hr' : Running s v := by unfold Running at hr ⊢; rw [← hv, ← hnV]; exact hr
      obtain ⟨x, hx, hlx, j, rfl⟩ := hP.held v hv' hr'
      obtain ⟨y, j', y1, y2, y3⟩ := hF.ahead x hlx j
      exact ⟨y, mem hx y2, (hU.live y).2 y1, j', y3⟩
  | split =>
    have hne : evt.tp ≠ .flip := by rw [htp]; decide
    rw [← htp]
    refine wrap hne ?_
    rw [htp] at h
    have hag := A.aged hne
    obtain ⟨i, h1, h2, h3, h4, h5, h6, h7⟩ := G.split htp
    obtain ⟨hE, hJ⟩ := junction_handleSplit R hI hl h1 h2 h5 h6 h7 hsk hag h
    obtain ⟨a, b, fanA, fanB, na, nb, hd, cA, cB, D⟩ := hE.done
    have vert : ∀ x j, ((s.tri x).vertices j = (s.tri evt.tri).vertices i → x ∈ fanB → (s'.tri x).vertices j = s.nV) ∧
        ((s.tri x).vertices j = (s.tri evt.tri).vertices i → x ∈ fanA → (s'.tri x).vertices j = s.nV + 1) ∧
        ((s'.tri x).vertices j = (s.tri x).vertices j ∨ (s'.tri x).vertices j ∈ [s.nV, s.nV + 1] ∧
          (s.tri x).vertices j ∈ [(s.tri evt.tri).vertices i]) := by
      intro x j
      rw [D.vertices x]
      by_cases hb : x ∈ fanB
      · rw [if_pos hb]
        obtain ⟨a, b⟩ := substitute_corner (v := (s.tri evt.tri).vertices i) (w := s.nV) (f := (s.tri x).vertices) j
        refine ⟨fun q _ => a q, fun _ q => absurd q (hd x hb), ?_⟩
        by_cases q : (s.tri x).vertices j = (s.tri evt.tri).vertices i
        · exact .inr ⟨by rw [a q]; simp, by rw [q]; simp⟩
        · exact .inl (b q)
      · rw [if_neg hb]
        by_cases ha : x ∈ fanA
        · rw [if_pos ha]
          obtain ⟨a, b⟩ := substitute_corner (v := (s.tri evt.tri).vertices i) (w := s.nV + 1) (f := (s.tri x).vertices) j
          refine ⟨fun _ q => absurd q hb, fun q _ => a q, ?_⟩
          by_cases q : (s.tri x).vertices j = (s.tri evt.tri).vertices i
          · exact .inr ⟨by rw [a q]; simp, by rw [q]; simp⟩
          · exact .inl (b q)
        · rw [if_neg ha]
          exact ⟨fun _ q => absurd q hb, fun _ q => absurd q ha, .inl rfl⟩
    have hfst : ∀ {d : Dir} {v : VId} {a : TId} {l : List TId}, FanWalk d v s.tri (some a) l → a ∈ l := by
      intro d v a l hw
      cases hw with
      | step _ _ => exact List.mem_cons_self
    obtain ⟨a1, a2, ⟨ka, a3⟩, ⟨ka', a4⟩⟩ := neighbour_other R.mesh hl na
    obtain ⟨b1, b2, ⟨kb, b3⟩, ⟨kb', b4⟩⟩ := neighbour_other R.mesh hl nb
    rw [fin3_add_1_1] at a3
    rw [fin3_add_1_2] at a4
    rw [fin3_add_2_1] at b3
    rw [fin3_add_2_2] at b4
    have eb : (s'.tri a).vertices ka' = s.nV := (vert a ka').1 a4 (hfst D.walkB)
    have ea : (s'.tri b).vertices kb = s.nV + 1 := (vert b kb).2.1 b3 (hfst D.walkA)
    refine ⟨_, _, hJ, ⟨fun v hv => ⟨i, (List.mem_singleton.1 hv).symm⟩, fun v hv => ?_, fun x _ j => (vert x j).2.2, fun j hj => ?_⟩,
      fun v hv => ?_⟩
    · rcases List.mem_pair.1 hv with rfl | rfl
      · exact le_rfl
      · exact Nat.le_succ _
    · rcases fin3_cases i j with rfl | rfl | rfl
      · exact absurd (by simp) hj
      · exact ⟨b, kb', inSk nb, b1, b2, b4, kb, by rw [ea]; simp⟩
      · exact ⟨a, ka, inSk na, a1, a2, a3, ka', by rw [eb]; simp⟩
    · rcases List.mem_pair.1 hv with rfl | rfl
      · exact ⟨a, inSk na, ka', (hE.live a).2 ⟨a1, a2⟩, eb⟩
      · exact ⟨b, inSk nb, kb, (hE.live b).2 ⟨b1, b2⟩, ea⟩

end Grassfire
