/-
The wavefront links and the triangulation (lemmas for C69): what the handlers of the events do.
-/
import Verif.Proofs.FrontSplit
import Verif.Proofs.FrontFlip
import Verif.Proofs.MeshSteps
import Verif.Proofs.InvLoop
import Verif.Proofs.MeshOnly
import Verif.Spec.Links

set_option linter.unusedSectionVars false

namespace Grassfire

open Spec

variable {K : Type}

/-- the links fit the triangles -/
def Fits (s : St K) : Prop := ∃ c r, Front s.tri (Live s) (Kinetic s) (Running s) (Points s) c r

/-- the links fit the triangles; the sides between two stopped vertices are those of triangles `S`, and their ends are
related by `D` -/
def FitsD (S : TId → Prop) (D : VId → VId → Prop) (s : St K) : Prop :=
  ∃ c r, Front s.tri (Live s) (Kinetic s) (Running s) (Points s) c r ∧ ∀ x i, Live s x → (s.tri x).neighbours i = none →
    c x (i + 1) = .endDead → S x ∧ D ((s.tri x).vertices (i + 1)) ((s.tri x).vertices (i + 2))

theorem fitsD_true {s : St K} : FitsD (fun _ => True) (fun _ _ => True) s ↔ Fits s :=
  ⟨fun ⟨c, r, F, _⟩ => ⟨c, r, F⟩, fun ⟨c, r, F⟩ => ⟨c, r, F, fun _ _ _ _ _ => ⟨trivial, trivial⟩⟩⟩

theorem FitsD.fits {S : TId → Prop} {D : VId → VId → Prop} {s : St K} (h : FitsD S D s) : Fits s := by
  obtain ⟨c, r, F, -⟩ := h
  exact ⟨c, r, F⟩

theorem Front.congr {tri tri' : TId → KTri K} {P P' : TId → Prop} {kin kin' run run' : VId → Prop}
    {pts pts' : VId → VId → Prop} {c : TId → Fin 3 → Kind} {r : TId → Fin 3 → ℕ} (F : Front tri P kin run pts c r)
    (hv : ∀ x, (tri' x).vertices = (tri x).vertices) (hn : ∀ x, (tri' x).neighbours = (tri x).neighbours)
    (hP : ∀ x, P' x → P x) (hk : ∀ x, P x → ∀ i, (kin' ((tri x).vertices i) ↔ kin ((tri x).vertices i)))
    (hr : ∀ x, P x → ∀ i, (run' ((tri x).vertices i) ↔ run ((tri x).vertices i)))
    (hp : ∀ a b, pts a b → pts' a b) : Front tri' P' kin' run' pts' c r := by
  refine ⟨fun t pt i hi => ?_, fun t pt i n j hi hj hk' => ?_, fun t pt i hk' => ?_,
    fun t u pt pu i j hi hj q1 q2 q3 q4 => ?_⟩
  · rw [hn] at hi
    rw [hv]
    obtain ⟨a, b, q⟩ := F.gap t (hP t pt) i hi
    refine ⟨(hk t (hP t pt) _).2 a, (hk t (hP t pt) _).2 b, q.imp (fun z => ⟨z.1, z.2.1, hp _ _ z.2.2⟩) id⟩
  · rw [hn] at hi
    rw [hv, hv] at hj
    rw [hv, hk t (hP t pt)] at hk'
    exact F.next t (hP t pt) i n j hi hj hk'
  · rw [hv] at hk' ⊢
    rw [hk t (hP t pt)] at hk'
    rw [hr t (hP t pt)]
    exact F.kind t (hP t pt) i hk'
  · rw [hn] at hi hj
    rw [hv, hv] at q3 q4
    exact F.unique t u (hP t pt) (hP u pu) i j hi hj q1 q2 q3 q4

theorem points_right {s : St K} {a b b' : VId} (h : Points s a b) (h' : Points s a b') : b = b' := by
  obtain ⟨ka, kb, -, -, h1, -, h2, -⟩ := h
  obtain ⟨ka', kb', -, -, h1', -, h2', -⟩ := h'
  rw [h1] at h1'
  injection h1' with h1'
  subst h1'
  rw [h2] at h2'
  injection h2'

theorem points_left {s : St K} {a a' b : VId} (h : Points s a b) (h' : Points s a' b) : a = a' := by
  obtain ⟨ka, kb, -, -, -, h1, -, h2⟩ := h
  obtain ⟨ka', kb', -, -, -, h1', -, h2'⟩ := h'
  rw [h1] at h1'
  injection h1' with h1'
  subst h1'
  rw [h2] at h2'
  injection h2'

theorem Spec.Running.kinetic {s : St K} {v : VId} (h : Running s v) : Kinetic s v :=
  ⟨h.1, h.2.imp fun _ q => q.1⟩

theorem points_kin {s : St K} {a b : VId} (h : Points s a b) : Kinetic s a ∧ Kinetic s b := by
  obtain ⟨ka, kb, h1, h2, h3, h4, -⟩ := h
  exact ⟨⟨h1, ka, h3⟩, h2, kb, h4⟩

/-- What an event at time `now` does to the life spans: the vertices `V` are stopped, others are not, and new vertices
start. -/
structure Halts (now : K) (s s' : St K) (V : VId → Prop) : Prop where
  old : ∀ w kw, w < s.nV → s.vert w = .kin kw → ∃ kw', s'.vert w = .kin kw' ∧ (V w → kw'.stopsAt = some now) ∧
    (¬ V w → kw'.stopsAt = kw.stopsAt)
  new : ∀ w k, s.nV ≤ w → w < s'.nV → s'.vert w = .kin k → k.startsAt = some now

section
variable [LinearOrder K]

theorem Spec.Touched.right_some {now : K} {st : Option NodeId} {r l : Option VId} {k k' : KVertex K}
    (h : Touched now st r l k k') {x : VId} (hx : r = some x) : k'.rightRef = some x := by
  unfold KVertex.rightRef
  rw [(h.newRight x hx).last]
  rfl

theorem Spec.Touched.left_some {now : K} {st : Option NodeId} {r l : Option VId} {k k' : KVertex K}
    (h : Touched now st r l k k') {x : VId} (hx : l = some x) : k'.leftRef = some x := by
  unfold KVertex.leftRef
  rw [(h.newLeft x hx).last]
  rfl

theorem Spec.Touched.right_none {now : K} {st : Option NodeId} {r l : Option VId} {k k' : KVertex K}
    (h : Touched now st r l k k') (hx : r = none) : k'.rightRef = k.rightRef := by
  unfold KVertex.rightRef
  rw [h.sameRight hx]

theorem Spec.Touched.left_none {now : K} {st : Option NodeId} {r l : Option VId} {k k' : KVertex K}
    (h : Touched now st r l k k') (hx : l = none) : k'.leftRef = k.leftRef := by
  unfold KVertex.leftRef
  rw [h.sameLeft hx]

/-- which vertices are kinetic and which are running after an event that stops `S` -/
theorem touched_kin {now : K} {s s' : St K} {m : ℕ} {S : VId → Prop} [DecidablePred S] {n : NodeId} {R L : VId → Option VId}
    (hnV : s'.nV = s.nV + m) (hi : ∀ w o, w < s.nV → s.vert w = .inf o → s'.vert w = .inf o)
    (hk : ∀ w kw, w < s.nV → s.vert w = .kin kw → ∃ kw', s'.vert w = .kin kw' ∧
      Touched now (if S w then some n else none) (R w) (L w) kw kw') (w : VId) (hw : w < s'.nV → w < s.nV) :
    (Kinetic s' w ↔ Kinetic s w) ∧ (Running s' w ↔ Running s w ∧ ¬ S w) := by
  have hlt : w < s'.nV ↔ w < s.nV := ⟨hw, fun h => by rw [hnV]; exact Nat.lt_of_lt_of_le h (Nat.le_add_right _ _)⟩
  unfold Kinetic Running
  rw [hlt]
  by_cases h : w < s.nV
  · cases hv : s.vert w with
    | inf o => rw [hi w o h hv]; simp
    | kin k =>
      obtain ⟨k', e, T⟩ := hk w k h hv
      rw [e]
      refine ⟨by simp [h], ?_⟩
      by_cases hS : S w
      · have := (T.stopped n (if_pos hS)).1
        constructor
        · rintro ⟨-, k2, q1, q2⟩
          injection q1 with q1
          rw [← q1, this] at q2
          cases q2
        · exact fun q => absurd hS q.2
      · have := (T.running (if_neg hS)).1
        constructor
        · rintro ⟨-, k2, q1, q2⟩
          injection q1 with q1
          rw [← q1, this] at q2
          exact ⟨⟨h, k, rfl, q2⟩, hS⟩
        · rintro ⟨⟨-, k2, q1, q2⟩, -⟩
          injection q1 with q1
          subst q1
          exact ⟨h, k', rfl, this.trans q2⟩
  · simp [h]

end

variable [Field K] [LinearOrder K]

/-- the fans at the ends of a collapsing side -/
theorem edge_ends {P : TId → Prop} {s s' : St K} {kin run : VId → Prop} {pts : VId → VId → Prop}
    {c : TId → Fin 3 → Kind} {r : TId → Fin 3 → ℕ} (hC : Consistent P s) (F : Front s.tri P kin run pts c r) {t : TId}
    {e : Fin 3} {v1 v2 kv : VId} {fanA fanB : List TId} (pt : P t) (hv1 : (s.tri t).vertices (e + 1) = v1)
    (hv2 : (s.tri t).vertices (e + 2) = v2) (D : EdgeDone P s s' t e v1 v2 kv fanA fanB) (k1 : kin v1) (k2 : kin v2)
    (hcond : run v1 ∧ run v2 ∨ (s.tri t).neighbours e = none ∧ ¬ run v1 ∧ ¬ run v2 ∧ ¬ pts v1 v2) :
    (∃ x, x ≠ v2 ∧ pts x v1) ∧ ∃ y, pts v2 y := by
  have hinj := (hC t pt).2.1
  have hc1 : c t (e + 1) ≠ .startDead := by
    rcases hcond with ⟨h, -⟩ | ⟨h, -, -, h3⟩
    · rw [(F.kind t pt (e + 1) (by rw [hv1]; exact k1)).2 (by rw [hv1]; exact h)]; nofun
    · rcases (F.gap t pt e h).2.2 with q | q
      · exact absurd (by rw [← hv1, ← hv2]; exact q.2.2) h3
      · rw [q.1]; nofun
  have hc2 : c t (e + 2) ≠ .endDead := by
    rcases hcond with ⟨-, h⟩ | ⟨h, -, -, h3⟩
    · rw [(F.kind t pt (e + 2) (by rw [hv2]; exact k2)).2 (by rw [hv2]; exact h)]; nofun
    · rcases (F.gap t pt e h).2.2 with q | q
      · exact absurd (by rw [← hv1, ← hv2]; exact q.2.2) h3
      · rw [q.2]; nofun
  obtain ⟨wB, xB, kB, xB1, xB2, xB3, xB4, xB5⟩ := F.walk hC D.walkB k1 (j := e + 1) pt hv1 (by
    show (s.tri t).neighbours (e + 1 + 1) = _; rw [fin3_add_1_1])
  obtain ⟨wA, xA, kA, xA1, xA2, xA3, xA4, xA5⟩ := F.walk hC D.walkA k2 (j := e + 2) pt hv2 (by
    show (s.tri t).neighbours (e + 2 + 2) = _; rw [fin3_add_2_2])
  obtain ⟨-, pB⟩ := F.start xB2 xB5 (by rw [xB4]; exact hc1)
  obtain ⟨-, pA⟩ := F.stop xA2 xA5 (by rw [xA4]; exact hc2)
  rw [xB3] at pB
  rw [xA3] at pA
  refine ⟨⟨_, ?_, pB⟩, _, pA⟩
  rcases xB1 with rfl | hm
  · obtain rfl : kB = e + 1 := hinj (xB3.trans hv1.symm)
    rw [fin3_add_1_2, ← hv2]
    exact fun h => fin3_ne_2 e (hinj h)
  · exact D.otherB xB hm _

variable [IsStrictOrderedRing K] [HasSqrt K] [SqrtUnit K] [HasTrig K]

variable {S : TId → Prop} {D D' : VId → VId → Prop}

/-- an edge event -/
theorem fitsD_handleEdge {depth : ℕ} {evt : Event K} {step : ℤ} {s s' : St K} {e : Fin 3}
    (hM : Mesh s) (hl : Live s evt.tri) (he : evt.side = [e]) (hc : Collapsible s evt.tri e)
    (h : handleEdge depth evt step s = .ok ((), s')) (hf : ∀ k, s'.vert s.nV = .kin k → k.infFast = false)
    (hF : FitsD S D s) (hS : ∀ j x, (s.tri evt.tri).neighbours j = some x → S x)
    (hcond : Running s ((s.tri evt.tri).vertices (e + 1)) ∧ Running s ((s.tri evt.tri).vertices (e + 2)) ∨
      (s.tri evt.tri).neighbours e = none ∧ ¬ Running s ((s.tri evt.tri).vertices (e + 1)) ∧
      ¬ Running s ((s.tri evt.tri).vertices (e + 2)) ∧
      ¬ Points s ((s.tri evt.tri).vertices (e + 1)) ((s.tri evt.tri).vertices (e + 2))) :
    Halts evt.time s s' (fun w => w = (s.tri evt.tri).vertices (e + 1) ∨ w = (s.tri evt.tri).vertices (e + 2)) ∧
    ∀ D' : VId → VId → Prop, (∀ a b, D a b → D' a b) →
      ((s.tri evt.tri).neighbours e ≠ none → D' ((s.tri evt.tri).vertices (e + 2)) ((s.tri evt.tri).vertices (e + 1))) →
      FitsD S D' s' := by
  obtain ⟨c, r, F, dead⟩ := hF
  obtain ⟨-, hlive, fanA, fanB, hd, cA, cB, E⟩ := handleEdge_mesh depth evt step s s' e hM hl he hc h hf
  generalize hv1 : (s.tri evt.tri).vertices (e + 1) = v1 at *
  generalize hv2 : (s.tri evt.tri).vertices (e + 2) = v2 at *
  have kin : Kinetic s v1 ∧ Kinetic s v2 := by
    rcases hcond with ⟨a, b⟩ | ⟨a, -⟩
    · exact ⟨a.kinetic, b.kinetic⟩
    · rw [← hv1, ← hv2]
      exact ⟨(F.gap _ hl e a).1, (F.gap _ hl e a).2.1⟩
  obtain ⟨⟨l, hlv, pl⟩, r', pr⟩ := edge_ends hM.consistent F hl hv1 hv2 E kin.1 kin.2 hcond
  obtain ⟨kl, k1, l1, l2, l3, l4, l5, l6⟩ := id pl
  obtain ⟨k2, kr, r1, r2, r3, r4, r5, r6⟩ := id pr
  obtain ⟨n, k, l', r'', hnV, -, -, hl', hr', hk, hb, -, -, -, -, -, -, hleft, hright, hinf, hkin⟩ :=
    C61_edge depth evt step s s' e v1 v2 k1 k2 h he hv1 hv2 l4 r3
      (fun x hx => by rw [l6] at hx; injection hx with hx; rw [← hx]; exact l1)
      (fun x hx => by rw [r5] at hx; injection hx with hx; rw [← hx]; exact r2)
      (by rw [l6]; exact fun q => hlv (by injection q)) hf
  obtain rfl : l = l' := by rw [l6] at hl'; injection hl'
  obtain rfl : r' = r'' := by rw [r5] at hr'; injection hr'
  have hkr := touched_kin (S := fun w => w = v1 ∨ w = v2) hnV hinf hkin
  have hlt : ∀ w, w ≠ s.nV → w < s'.nV → w < s.nV := fun w q1 q2 => by
    rw [hnV] at q2; exact lt_of_le_of_ne (Nat.lt_succ_iff.1 q2) q1
  have up : ∀ w, w < s.nV → w < s'.nV := fun w q => by rw [hnV]; exact Nat.lt_succ_of_lt q
  have new : s.nV < s'.nV := by rw [hnV]; exact Nat.lt_succ_self _
  have L : EdgeLinks (Kinetic s) (Running s) (Kinetic s') (Running s') (Points s) (Points s') v1 v2 s.nV := by
    refine ⟨fun w hw => (hkr w (hlt w hw)).1, ⟨new, k, hk⟩, fun w hw => ?_, ⟨new, k, hk, hb.stopsAt⟩, fun a pa => ?_,
      fun b pb => ?_, fun a b pab na nb => ?_⟩
    · rw [(hkr w (hlt w hw)).2, not_or]
    · obtain rfl := points_left pl pa
      obtain ⟨kl', q, T⟩ := hkin l kl l1 l3
      refine ⟨kl', k, up _ l1, new, q, hk, T.right_some (if_pos rfl), ?_⟩
      unfold KVertex.leftRef
      rw [hleft]
      rfl
    · obtain rfl := points_right pr pb
      obtain ⟨kr', q, T⟩ := hkin r' kr r2 r4
      refine ⟨k, kr', new, up _ r2, hk, q, ?_, T.left_some (if_pos rfl)⟩
      unfold KVertex.rightRef
      rw [hright]
      rfl
    · have hal : a ≠ l := by rintro rfl; exact na pl
      have hbr : b ≠ r' := by rintro rfl; exact nb pr
      obtain ⟨ka, kb, h1, h2, h3, h4, h5, h6⟩ := pab
      obtain ⟨ka', q, T⟩ := hkin a ka h1 h3
      obtain ⟨kb', q', T'⟩ := hkin b kb h2 h4
      exact ⟨ka', kb', up _ h1, up _ h2, q, q', (T.right_none (if_neg hal)).trans h5,
        (T'.left_none (if_neg hbr)).trans h6⟩
  obtain ⟨c', r3, F', dead'⟩ := front_edge hM.consistent F (fun _ _ _ => points_right) (fun _ _ _ => points_left) hl hv1 hv2
    (fun x hx i => Nat.ne_of_lt (hM.vertices x hx.1 i)) hd cA cB E L kin.1 kin.2 hcond
  refine ⟨⟨fun w kw hw hk => ?_, fun w k' hw hw' hk' => ?_⟩, fun D' hDD hD => ⟨c', r3, F'.congr (fun _ => rfl)
    (fun _ => rfl) (fun x hx => (hlive x).1 hx) (fun _ _ _ => Iff.rfl) (fun _ _ _ => Iff.rfl) (fun _ _ q => q),
    fun x i hx hi hc => ?_⟩⟩
  · obtain ⟨kw', q, T⟩ := hkin w kw hw hk
    exact ⟨kw', q, fun z => (T.stopped n (if_pos z)).1, fun z => (T.running (if_neg z)).1⟩
  · obtain rfl : w = s.nV := by rw [hnV] at hw'; exact le_antisymm (Nat.lt_succ_iff.1 hw') hw
    rw [hk] at hk'
    cases hk'
    exact hb.startsAt
  obtain ⟨px, hxt⟩ := (hlive x).1 hx
  rcases dead' x i px hxt hi hc with ⟨q1, q2, q3, q4⟩ | ⟨q1, q2, q3⟩
  · rw [q3, q4]
    exact ⟨(dead x i px q1 q2).1, hDD _ _ (dead x i px q1 q2).2⟩
  · rw [q2, q3]
    exact ⟨hS _ _ q1, hD (by rw [q1]; nofun)⟩

theorem fits_handleEdge {depth : ℕ} {evt : Event K} {step : ℤ} {s s' : St K} {e : Fin 3}
    (hM : Mesh s) (hl : Live s evt.tri) (he : evt.side = [e]) (hc : Collapsible s evt.tri e)
    (h : handleEdge depth evt step s = .ok ((), s')) (hf : ∀ k, s'.vert s.nV = .kin k → k.infFast = false)
    (hF : Fits s)
    (hcond : Running s ((s.tri evt.tri).vertices (e + 1)) ∧ Running s ((s.tri evt.tri).vertices (e + 2)) ∨
      (s.tri evt.tri).neighbours e = none ∧ ¬ Running s ((s.tri evt.tri).vertices (e + 1)) ∧
      ¬ Running s ((s.tri evt.tri).vertices (e + 2)) ∧
      ¬ Points s ((s.tri evt.tri).vertices (e + 1)) ((s.tri evt.tri).vertices (e + 2))) : Fits s' :=
  fitsD_true.1 ((fitsD_handleEdge hM hl he hc h hf (fitsD_true.2 hF) (fun _ _ _ => trivial) hcond).2 _
    (fun _ _ _ => trivial) fun _ => trivial)

/-- a split event -/
theorem fitsD_handleSplit {depth : ℕ} {evt : Event K} {step : ℤ} {s s' : St K}
    (hM : Mesh s) (hl : Live s evt.tri)
    (h : handleSplit depth evt step s = .ok ((), s'))
    (hfb : ∀ k, s'.vert s.nV = .kin k → k.infFast = false)
    (hfa : ∀ k, s'.vert (s.nV + 1) = .kin k → k.infFast = false) (hF : FitsD S D s)
    (hrun : ∀ i, Running s ((s.tri evt.tri).vertices i)) :
    (∃ e, evt.side = [e] ∧ Halts evt.time s s' fun w => w = (s.tri evt.tri).vertices e) ∧
    ∀ D' : VId → VId → Prop, (∀ a b, D a b → D' a b) → FitsD S D' s' := by
  obtain ⟨c, r, F, dead⟩ := hF
  obtain ⟨-, e, he, hlive, hopp, a, b, fanA, fanB, ha, hb, hd, cA, cB, E⟩ :=
    handleSplit_mesh depth evt step s s' hM hl h hfb hfa
  have hinj := (hM.consistent _ hl).2.1
  have r0 := hrun e
  have r1 := hrun (e + 1)
  have r2 := hrun (e + 2)
  have gap := F.gap _ hl e hopp
  generalize hv : (s.tri evt.tri).vertices e = v at *
  generalize hv1 : (s.tri evt.tri).vertices (e + 1) = v1 at *
  generalize hv2 : (s.tri evt.tri).vertices (e + 2) = v2 at *
  have v01 : v ≠ v1 := by rw [← hv, ← hv1]; exact fun q => fin3_ne_1 e (hinj q)
  have v02 : v ≠ v2 := by rw [← hv, ← hv2]; exact fun q => fin3_ne_2 e (hinj q)
  have cw1 : c evt.tri (e + 1) = .whole := (F.kind _ hl _ (by rw [hv1]; exact r1.kinetic)).2 (by rw [hv1]; exact r1)
  have cw0 : c evt.tri e = .whole := (F.kind _ hl _ (by rw [hv]; exact r0.kinetic)).2 (by rw [hv]; exact r0)
  have p12 : Points s v1 v2 := by
    rcases gap.2.2 with q | q
    · exact q.2.2
    · rw [cw1] at q; cases q.1
  obtain ⟨wB, xB, kB, xB1, xB2, xB3, xB4, xB5⟩ := F.walk hM.consistent E.walkB r0.kinetic (j := e) hl hv ha
  obtain ⟨wA, xA, kA, xA1, xA2, xA3, xA4, xA5⟩ := F.walk hM.consistent E.walkA r0.kinetic (j := e) hl hv hb
  obtain ⟨-, pl⟩ := F.start xB2 xB5 (by rw [xB4, cw0]; nofun)
  obtain ⟨-, pr⟩ := F.stop xA2 xA5 (by rw [xA4, cw0]; nofun)
  have hlne : (s.tri xB).vertices (kB + 2) ≠ v := by
    rw [← xB3]; exact fun q => fin3_ne_2 kB ((hM.consistent _ xB2).2.1 q).symm
  rw [xB3] at pl
  rw [xA3] at pr
  generalize (s.tri xB).vertices (kB + 2) = l at *
  generalize (s.tri xA).vertices (kA + 1) = r' at *
  obtain ⟨kl, k, l1, l2, l3, l4, l5, l6⟩ := id pl
  obtain ⟨k', kr, r1', r2', r3', r4', r5', r6'⟩ := id pr
  obtain rfl : k = k' := by rw [l4] at r3'; injection r3'
  obtain ⟨k1, k2, s1, s2, s3, s4, s5, s6⟩ := id p12
  obtain ⟨-, n, kb, ka, l', r'', hnV, -, -, hl', hr', hkb, hbb, -, -, -, -, -, -, bl, br, hka, hba, -, -, -, -, -, -,
    al, ar, hinf, hkin⟩ :=
    C62_split depth evt step s s' e v v1 v2 k k1 k2 h he hv hv1 hv2 l4 s3 s4
      (fun x hx => by rw [l6] at hx; injection hx with hx; rw [← hx]; exact l1)
      (fun x hx => by rw [r5'] at hx; injection hx with hx; rw [← hx]; exact r2') v01
      (by rw [l6]; exact fun q => hlne (by injection q)) hfb hfa
  obtain rfl : l = l' := by rw [l6] at hl'; injection hl'
  obtain rfl : r' = r'' := by rw [r5'] at hr'; injection hr'
  have hlv1 : l ≠ v1 := by rintro rfl; exact v02 (points_right pl p12)
  have hrv2 : v2 ≠ r' := by rintro rfl; exact v01 (points_left pr p12)
  have hkr := touched_kin (S := fun w => w = v) hnV hinf hkin
  have hlt : ∀ w, w ≠ s.nV + 1 → w ≠ s.nV → w < s'.nV → w < s.nV := fun w q0 q1 q2 => by
    rw [hnV] at q2
    exact lt_of_le_of_ne (Nat.lt_succ_iff.1 (lt_of_le_of_ne (Nat.lt_succ_iff.1 q2) q0)) q1
  have up : ∀ w, w < s.nV → w < s'.nV := fun w q => by rw [hnV]; exact Nat.lt_of_lt_of_le q (Nat.le_add_right _ _)
  have newb : s.nV < s'.nV := by rw [hnV]; exact Nat.lt_add_of_pos_right (by decide)
  have newa : s.nV + 1 < s'.nV := by rw [hnV]; exact Nat.lt_succ_self _
  have L : SplitLinks (Kinetic s) (Running s) (Kinetic s') (Running s') (Points s) (Points s') v v1 v2 (s.nV + 1)
      s.nV := by
    refine ⟨fun w q0 q1 => (hkr w (hlt w q0 q1)).1, ⟨newa, ka, hka⟩, ⟨newb, kb, hkb⟩,
      fun w q0 q1 => (hkr w (hlt w q0 q1)).2, ⟨newa, ka, hka, hba.stopsAt⟩, ⟨newb, kb, hkb, hbb.stopsAt⟩,
      fun x px => ?_, ?_, ?_, fun x px => ?_, fun x y pxy nx ny q1 q2 => ?_⟩
    · obtain rfl := points_left pl px
      obtain ⟨kl', q, T⟩ := hkin l kl l1 l3
      refine ⟨kl', kb, up _ l1, newb, q, hkb, T.right_some (by rw [if_neg hlv1, if_pos rfl]), ?_⟩
      unfold KVertex.leftRef
      rw [bl]
      rfl
    · obtain ⟨k2', q, T⟩ := hkin v2 k2 s2 s4
      refine ⟨kb, k2', newb, up _ s2, hkb, q, ?_, T.left_some (by rw [if_neg hrv2, if_pos rfl])⟩
      unfold KVertex.rightRef
      rw [br]
      rfl
    · obtain ⟨k1', q, T⟩ := hkin v1 k1 s1 s3
      refine ⟨k1', ka, up _ s1, newa, q, hka, T.right_some (if_pos rfl), ?_⟩
      unfold KVertex.leftRef
      rw [al]
      rfl
    · obtain rfl := points_right pr px
      obtain ⟨kr', q, T⟩ := hkin r' kr r2' r4'
      refine ⟨ka, kr', newa, up _ r2', hka, q, ?_, T.left_some (if_pos rfl)⟩
      unfold KVertex.rightRef
      rw [ar]
      rfl
    · have hal : x ≠ l := by rintro rfl; exact nx pl
      have hbr : y ≠ r' := by rintro rfl; exact ny pr
      obtain ⟨kx, ky, h1, h2, h3, h4, h5, h6⟩ := pxy
      obtain ⟨kx', q, T⟩ := hkin x kx h1 h3
      obtain ⟨ky', q', T'⟩ := hkin y ky h2 h4
      exact ⟨kx', ky', up _ h1, up _ h2, q, q', (T.right_none (by rw [if_neg q1, if_neg hal])).trans h5,
        (T'.left_none (by rw [if_neg hbr, if_neg q2])).trans h6⟩
  obtain ⟨c', r3, F', dead'⟩ := front_split hM.consistent F (fun _ _ _ => points_right) (fun _ _ _ => points_left) hl hv hv1 hv2
    hopp ha hb (fun x hx i => Nat.ne_of_lt (Nat.lt_succ_of_lt (hM.vertices x hx.1 i)))
    (fun x hx i => Nat.ne_of_lt (hM.vertices x hx.1 i)) (Nat.succ_ne_self _) hd cA cB E L r0.kinetic r0 r1 r2
  refine ⟨⟨e, he, ⟨fun w kw hw hk => ?_, fun w k' hw hw' hk' => ?_⟩⟩, fun D' hDD => ⟨c', r3, F'.congr (fun _ => rfl)
    (fun _ => rfl) (fun x hx => (hlive x).1 hx) (fun _ _ _ => Iff.rfl) (fun _ _ _ => Iff.rfl) (fun _ _ q => q),
    fun x i hx hi hc => ?_⟩⟩
  · obtain ⟨kw', q, T⟩ := hkin w kw hw hk
    rw [hv]
    exact ⟨kw', q, fun z => (T.stopped n (if_pos z)).1, fun z => (T.running (if_neg z)).1⟩
  · by_cases q : w = s.nV
    · subst q
      rw [hkb] at hk'
      cases hk'
      exact hbb.startsAt
    · obtain rfl : w = s.nV + 1 := by
        rw [hnV] at hw'
        exact le_antisymm (Nat.lt_succ_iff.1 hw') (Nat.lt_of_le_of_ne hw (Ne.symm q))
      rw [hka] at hk'
      cases hk'
      exact hba.startsAt
  obtain ⟨px, hxt⟩ := (hlive x).1 hx
  obtain ⟨q1, q2, q3, q4⟩ := dead' x i px hxt hi hc
  rw [q3, q4]
  exact ⟨(dead x i px q1 q2).1, hDD _ _ (dead x i px q1 q2).2⟩

theorem fits_handleSplit {depth : ℕ} {evt : Event K} {step : ℤ} {s s' : St K}
    (hM : Mesh s) (hl : Live s evt.tri)
    (h : handleSplit depth evt step s = .ok ((), s'))
    (hfb : ∀ k, s'.vert s.nV = .kin k → k.infFast = false)
    (hfa : ∀ k, s'.vert (s.nV + 1) = .kin k → k.infFast = false) (hF : Fits s)
    (hrun : ∀ i, Running s ((s.tri evt.tri).vertices i)) : Fits s' :=
  fitsD_true.1 ((fitsD_handleSplit hM hl h hfb hfa (fitsD_true.2 hF) hrun).2 _ fun _ _ _ => trivial)

/-- a flip event -/
theorem fitsD_handleFlip {evt : Event K} {s s' : St K} {e : Fin 3} (hM : Mesh s) (hl : Live s evt.tri)
    (he : evt.side = [e]) (hf : ProperSide s evt.tri e) (h : handleFlip evt s = .ok ((), s')) (hF : FitsD S D s)
    (hDD : ∀ a b, D a b → D' a b) (hS : ∀ j x, (s.tri evt.tri).neighbours j = some x → S x) (hSt : S evt.tri) :
    FitsD S D' s' := by
  obtain ⟨c, r, F, dead⟩ := hF
  obtain ⟨-, n, k, s1, hE, h1, hc⟩ := handleFlip_mesh evt s s' e hM hl he hf h
  obtain ⟨c', r', F', dead'⟩ := front_flip hE h1 F
  obtain ⟨-, -, f3, f4⟩ := C26_frame hE h1
  have n1 : s1.nT = s.nT := by rw [← f4]
  have nV1 : s1.nV = s.nV := by rw [← f4]
  have v1 : s1.vert = s.vert := by rw [← f4]
  have hst : ∀ x, (s'.tri x).stopsAt = (s.tri x).stopsAt := by
    intro x
    have : (s'.tri x).stopsAt = (s1.tri x).stopsAt := hc.apply (fun y : St K => (y.tri x).stopsAt)
    obtain ⟨vs, ns, q⟩ := f3 x
    rw [this, q]
  have hv : s'.vert = s.vert := hc.vert.trans v1
  have hn : s'.nV = s.nV := hc.nV.trans nV1
  have hlive : ∀ x, Live s' x → Live s x := fun x hx =>
    ⟨by rw [← n1, ← hc.nT]; exact hx.1, by rw [← hst]; exact hx.2⟩
  refine ⟨c', r', F'.congr (fun x => hc.vertices x) (fun x => hc.neighbours x) hlive (fun x hx i => ?_)
    (fun x hx i => ?_) (fun a b q => ?_), fun x i hx hi hd => ?_⟩
  · unfold Kinetic; rw [hv, hn]
  · unfold Running; rw [hv, hn]
  · unfold Points at q ⊢; rw [hv, hn]; exact q
  · rw [hc.neighbours x] at hi
    obtain ⟨y, k', y1, y2, y3, y4, y5, y6⟩ := dead' x i (hlive x hx) hi
    rw [hc.vertices x, y3, y4]
    obtain ⟨d1, d2⟩ := dead y k' y1 y2 (y5 ▸ hd)
    refine ⟨?_, hDD _ _ d2⟩
    rcases y6 with rfl | rfl | rfl
    · exact d1
    · exact hSt
    · exact hS _ _ hE.n0

theorem fits_handleFlip {evt : Event K} {s s' : St K} {e : Fin 3} (hM : Mesh s) (hl : Live s evt.tri)
    (he : evt.side = [e]) (hf : ProperSide s evt.tri e) (h : handleFlip evt s = .ok ((), s')) (hF : Fits s) :
    Fits s' :=
  fitsD_true.1 (fitsD_handleFlip hM hl he hf h (fitsD_true.2 hF) (fun _ _ _ => trivial) (fun _ _ _ => trivial) trivial)

/-- a triangle is taken out and all its corners are stopped -/
theorem fitsD_removed {now : K} {s s' : St K} {t : TId} (hM : Mesh s) (hl : Live s t) (hR : Removed s s' t) (hnV : s.nV ≤ s'.nV)
    (hinf : ∀ w o, w < s.nV → s.vert w = .inf o → s'.vert w = .inf o)
    (hkin : ∀ w kw, w < s.nV → s.vert w = .kin kw → ∃ st sn, s'.vert w = .kin { kw with stopsAt := st, stopNode := sn } ∧
      ((∃ i, w = (s.tri t).vertices i) → st = some now) ∧ ((∀ i, w ≠ (s.tri t).vertices i) → st = kw.stopsAt))
    (hnew : ∀ w k, s.nV ≤ w → w < s'.nV → s'.vert w = .kin k → k.startsAt = some now)
    (hF : FitsD S D s) (hS : ∀ j x, (s.tri t).neighbours j = some x → S x)
    (hcond : ∀ i, CornerOk s t i) : Halts now s s' (fun w => ∃ i, w = (s.tri t).vertices i) ∧
    ∀ D' : VId → VId → Prop, (∀ a b, D a b → D' a b) → (∀ j x, (s.tri t).neighbours j = some x →
      D' ((s.tri t).vertices (j + 2)) ((s.tri t).vertices (j + 1))) → FitsD S D' s' := by
  obtain ⟨c, r, F, dead⟩ := hF
  have hk : ∀ i, Kinetic s ((s.tri t).vertices i) := by
    have h1 : ∀ i, (s.tri t).neighbours (i + 1) = none → Kinetic s ((s.tri t).vertices i) := by
      intro i q
      have := (F.gap t hl (i + 1) q).2.1
      rwa [fin3_add_1_2] at this
    have h2 : ∀ i, (s.tri t).neighbours (i + 2) = none → Kinetic s ((s.tri t).vertices i) := by
      intro i q
      have := (F.gap t hl (i + 2) q).1
      rwa [fin3_add_2_1] at this
    intro i
    rcases hcond i with q | q | q | q
    · exact q.kinetic
    · exact h1 i q.1
    · exact h2 i q.1
    · exact h1 i q.1
  have kr : ∀ w, w < s.nV → (Kinetic s' w ↔ Kinetic s w) ∧ (Running s' w ↔ Running s w ∧ ∀ j, w ≠ (s.tri t).vertices j) := by
    intro w hw
    unfold Kinetic Running
    have hw' := Nat.lt_of_lt_of_le hw hnV
    cases hv : s.vert w with
    | inf o => rw [hinf w o hw hv]; simp
    | kin k =>
      obtain ⟨st, sn, q, q1, q2⟩ := hkin w k hw hv
      rw [q]
      refine ⟨by simp [hw, hw'], ?_⟩
      constructor
      · rintro ⟨-, k', e1, e2⟩
        injection e1 with e1
        subst e1
        dsimp only at e2
        subst e2
        have hno : ∀ j, w ≠ (s.tri t).vertices j := fun j hj => by cases q1 ⟨j, hj⟩
        exact ⟨⟨hw, k, rfl, (q2 hno).symm⟩, hno⟩
      · rintro ⟨⟨-, k', e1, e2⟩, hno⟩
        injection e1 with e1
        subst e1
        exact ⟨hw', _, rfl, (q2 hno).trans e2⟩
  obtain ⟨c', F', dead'⟩ := front_remove (s' := s') (run' := fun w => Running s w ∧ ∀ j, w ≠ (s.tri t).vertices j) hM.consistent F
    (fun _ _ _ => points_left) hl (fun x _ _ => hR.vertices x) hR.neighbours hk (fun _ _ _ => Iff.rfl) (fun i => by
      have hki := F.kind t hl i (hk i)
      have gapE : (s.tri t).neighbours (i + 2) = none → ¬ Points s ((s.tri t).vertices i) ((s.tri t).vertices (i + 1)) →
          c t i = .endDead := by
        intro q1 q2
        have := (F.gap t hl (i + 2) q1).2.2
        rw [fin3_add_2_1, fin3_add_2_2] at this
        exact (this.resolve_left fun z => q2 z.2.2).1
      have gapS : (s.tri t).neighbours (i + 1) = none → ¬ Points s ((s.tri t).vertices (i + 2)) ((s.tri t).vertices i) →
          c t i = .startDead := by
        intro q1 q2
        have := (F.gap t hl (i + 1) q1).2.2
        rw [fin3_add_1_1, fin3_add_1_2] at this
        exact (this.resolve_left fun z => q2 z.2.2).2
      rcases hcond i with q | ⟨q1, q2⟩ | ⟨q1, q2⟩ | ⟨q1, q2⟩
      · exact .inl q
      · cases hci : c t i with
        | whole => exact .inl (hki.1 hci)
        | endDead => exact .inr (.inl ⟨rfl, q2⟩)
        | startDead => exact .inr (.inr ⟨rfl, q1⟩)
      · exact .inr (.inl ⟨gapE q1 q2, q1⟩)
      · exact .inr (.inr ⟨gapS q1 q2, q1⟩))
  refine ⟨⟨fun w kw hw q => ?_, hnew⟩, fun D' hDD hD => ⟨c', r, F'.congr (fun _ => rfl) (fun _ => rfl)
    (fun x hx => (hR.live x).1 hx) (fun x hx i => ?_) (fun x hx i => ?_) (fun a b q => ?_), fun x i hx hi hd => ?_⟩⟩
  · obtain ⟨st, sn, q, q1, q2⟩ := hkin w kw hw q
    exact ⟨_, q, q1, fun z => q2 fun i hi => z ⟨i, hi⟩⟩
  · rw [hR.vertices]; exact (kr _ (hM.vertices x hx.1.1 i)).1
  · rw [hR.vertices]; exact (kr _ (hM.vertices x hx.1.1 i)).2
  · obtain ⟨ka, kb, h1, h2, h3, h4, h5, h6⟩ := q
    obtain ⟨st, sn, q, -, -⟩ := hkin a ka h1 h3
    obtain ⟨st', sn', q', -, -⟩ := hkin b kb h2 h4
    exact ⟨_, _, Nat.lt_of_lt_of_le h1 hnV, Nat.lt_of_lt_of_le h2 hnV, q, q', h5, h6⟩
  · obtain ⟨px, hxt⟩ := (hR.live x).1 hx
    rw [hR.vertices]
    rcases dead' x i px hxt hi hd with ⟨q1, q2⟩ | ⟨j, q1, q2, q3⟩
    · exact ⟨(dead x i px q1 q2).1, hDD _ _ (dead x i px q1 q2).2⟩
    · rw [q2, q3]
      exact ⟨hS j x q1, hD j x q1⟩

/-- all sides of a triangle vanish -/
theorem fitsD_handleEdge3 {evt : Event K} {step : ℤ} {s s' : St K} (hM : Mesh s) (hl : Live s evt.tri)
    (hev : ∀ i n, (s.tri evt.tri).neighbours i = some n → (s.tri n).event.isSome)
    (h : handleEdge3 evt step s = .ok ((), s')) (hF : FitsD S D s)
    (hS : ∀ j x, (s.tri evt.tri).neighbours j = some x → S x)
    (hcond : ∀ i, CornerOk s evt.tri i) : Halts evt.time s s' (fun w => ∃ i, w = (s.tri evt.tri).vertices i) ∧
    ∀ D' : VId → VId → Prop, (∀ a b, D a b → D' a b) → (∀ j x, (s.tri evt.tri).neighbours j = some x →
      D' ((s.tri evt.tri).vertices (j + 2)) ((s.tri evt.tri).vertices (j + 1))) → FitsD S D' s' := by
  have hR := (handleEdge3_mesh evt step s s' hM hl hev h).2
  unfold handleEdge3 at h
  obtain ⟨_, s1, h1, h⟩ := bind_run_ok.1 h
  obtain ⟨-, rfl⟩ := assertM_run_ok.1 h1
  obtain ⟨T, s1, h1, h⟩ := bind_run_ok.1 h
  obtain ⟨-, rfl, rfl⟩ := getT_run_ok.1 h1
  obtain ⟨n, s1, h1, h⟩ := bind_run_ok.1 h
  obtain ⟨hv, -, -, -⟩ := stopAndRecord_exact h1
  obtain ⟨-, -, m3⟩ := stopAndRecord_mesh h1
  obtain ⟨_, s2, h2, h⟩ := bind_run_ok.1 h
  have mo : MeshOnly s1 s2 := Keeps.forEach meshPre (fun i => mo_threeSidesNeighbour evt.tri evt.time i) _ _ _ _ h2
  obtain ⟨x1, x2, x3, x4⟩ := stopTriangle_fields h
  have e1 : s'.vert = s1.vert := by rw [x3, mo]
  have e2 : s'.nV = s.nV := by rw [x2, mo]; exact m3
  refine fitsD_removed hM hl hR (Nat.le_of_eq e2.symm) (fun w o hw q => by rw [e1, hv, q]) (fun w k hw q => ?_)
    (fun w k hw hw' => absurd (e2 ▸ hw') (Nat.not_lt.2 hw)) hF hS hcond
  rw [e1, hv, q]
  dsimp only
  by_cases hm : w ∈ [(s.tri evt.tri).vertices 0, (s.tri evt.tri).vertices 1, (s.tri evt.tri).vertices 2]
  · rw [if_pos hm]
    refine ⟨_, _, rfl, fun _ => by simp, fun q => ?_⟩
    simp only [List.mem_cons, List.not_mem_nil, or_false] at hm
    rcases hm with z | z | z
    · exact absurd z (q 0)
    · exact absurd z (q 1)
    · exact absurd z (q 2)
  · rw [if_neg hm]
    refine ⟨k.stopsAt, k.stopNode, rfl, fun ⟨i, hi⟩ => absurd ?_ hm, fun _ => rfl⟩
    rw [hi]
    simp only [List.mem_cons, List.not_mem_nil, or_false]
    match i with
    | 0 => exact .inl rfl
    | 1 => exact .inr (.inl rfl)
    | 2 => exact .inr (.inr rfl)

theorem fits_handleEdge3 {evt : Event K} {step : ℤ} {s s' : St K} (hM : Mesh s) (hl : Live s evt.tri)
    (hev : ∀ i n, (s.tri evt.tri).neighbours i = some n → (s.tri n).event.isSome)
    (h : handleEdge3 evt step s = .ok ((), s')) (hF : Fits s) (hcond : ∀ i, CornerOk s evt.tri i) : Fits s' :=
  fitsD_true.1 ((fitsD_handleEdge3 hM hl hev h (fitsD_true.2 hF) (fun _ _ _ => trivial) hcond).2 _
    (fun _ _ _ => trivial) fun _ _ _ => trivial)

/-- a triangle with three wavefront sides vanishes -/
theorem fitsD_handleEdge1 {evt : Event K} {step : ℤ} {s s' : St K} (hM : Mesh s) (hl : Live s evt.tri)
    (hn : ∀ i, (s.tri evt.tri).neighbours i = none) (h : handleEdge1 evt step s = .ok ((), s'))
    (hF : FitsD S D s) : Halts evt.time s s' (fun w => ∃ i, w = (s.tri evt.tri).vertices i) ∧
    ∀ D' : VId → VId → Prop, (∀ a b, D a b → D' a b) → FitsD S D' s' := by
  have hR := (handleEdge1_mesh evt step s s' hM hn h).2
  have g := g_handleEdge1 _ _ _ _ _ h
  unfold handleEdge1 at h
  obtain ⟨e, s1, h1, h⟩ := bind_run_ok.1 h
  obtain ⟨-, rfl⟩ := singleSide_run_ok h1
  obtain ⟨T, s1, h1, h⟩ := bind_run_ok.1 h
  obtain ⟨-, rfl, rfl⟩ := getT_run_ok.1 h1
  obtain ⟨_, s1, h1, h⟩ := bind_run_ok.1 h
  obtain ⟨hv1, -, -, -⟩ := stopAndRecord_exact h1
  have n1 := (stopAndRecord_mesh h1).2.2
  obtain ⟨_, s2, h2, h⟩ := bind_run_ok.1 h
  obtain ⟨-, -, rfl⟩ := getK_run_ok.1 h2
  obtain ⟨_, s2, h2, h⟩ := bind_run_ok.1 h
  obtain ⟨-, -, rfl⟩ := getK_run_ok.1 h2
  obtain ⟨_, s2, h2, h⟩ := bind_run_ok.1 h
  obtain ⟨-, rfl⟩ := countVertices_run_ok.1 h2
  obtain ⟨_, s2, h2, h⟩ := bind_run_ok.1 h
  obtain ⟨rfl, kn, e2, es, -⟩ := C30_attributes _ _ _ _ _ _ _ _ _ h2
  obtain ⟨_, s3, h3, h⟩ := bind_run_ok.1 h
  obtain rfl := appendVertex_run_ok.1 h3
  obtain ⟨nd, s4, h4, h⟩ := bind_run_ok.1 h
  obtain ⟨hv4, -, -, -⟩ := stopAndRecord_exact h4
  obtain ⟨x1, x2, x3, x4⟩ := stopTriangle_fields h
  have hv : ∀ w, w < s.nV → s'.vert w = match s1.vert w with
      | .inf o => .inf o
      | .kin k => .kin (if w ∈ [(s.tri evt.tri).vertices e, s1.nV] then
        { k with stopsAt := some evt.time, stopNode := some nd } else k) := by
    intro w hw
    rw [x3, hv4 w]
    dsimp only
    rw [e2]
    dsimp only
    rw [Function.update_of_ne (by rw [n1]; exact Nat.ne_of_lt hw)]
    cases s1.vert w <;> rfl
  have e5 : s'.nV = s.nV + 1 := by
    rw [x2, (stopAndRecord_mesh h4).2.2]
    dsimp only
    rw [e2, n1]
  refine And.imp id (fun z D' hDD => z D' hDD fun j x q => by rw [hn j] at q; cases q) (fitsD_removed hM hl hR g.nV
    (fun w o hw q => by rw [hv w hw, hv1, q]) (fun w k hw q => ?_) (fun w k hw hw' hk => ?_) hF
    (fun j x q => by rw [hn j] at q; cases q) fun i => .inr (.inl ⟨hn _, hn _⟩))
  rotate_left
  · obtain rfl : w = s.nV := by rw [e5] at hw'; exact le_antisymm (Nat.lt_succ_iff.1 hw') hw
    rw [x3, hv4 s.nV] at hk
    dsimp only at hk
    rw [e2] at hk
    dsimp only at hk
    rw [n1, Function.update_self] at hk
    dsimp only at hk
    split_ifs at hk <;> (injection hk with hk; rw [← hk]; exact es)
  rw [hv w hw, hv1, q]
  dsimp only
  have three := three_sides e
  by_cases m1 : w ∈ [(s.tri evt.tri).vertices e, s1.nV]
  · have hw0 : w = (s.tri evt.tri).vertices e := by
      simp only [List.mem_cons, List.not_mem_nil, or_false] at m1
      exact m1.resolve_right (by rw [n1]; exact Nat.ne_of_lt hw)
    rw [if_pos m1]
    refine ⟨some evt.time, some nd, ?_, fun _ => rfl, fun z => absurd hw0 (z e)⟩
    split <;> rfl
  · rw [if_neg m1]
    have hw0 : w ≠ (s.tri evt.tri).vertices e := fun z => m1 (by rw [z]; exact List.mem_cons_self)
    by_cases m2 : w ∈ [(s.tri evt.tri).vertices (ccw e), (s.tri evt.tri).vertices (cw e)]
    · rw [if_pos m2]
      refine ⟨_, _, rfl, fun _ => by simp, fun z => ?_⟩
      simp only [List.mem_cons, List.not_mem_nil, or_false] at m2
      rcases m2 with m2 | m2
      · exact absurd m2 (z _)
      · exact absurd m2 (z _)
    · rw [if_neg m2]
      refine ⟨k.stopsAt, k.stopNode, rfl, fun ⟨i, hi⟩ => absurd ?_ m2, fun _ => rfl⟩
      simp only [List.mem_cons, List.not_mem_nil, or_false]
      rcases three i with z | z | z
      · exact absurd (z ▸ hi) hw0
      · exact .inl (z ▸ hi)
      · exact .inr (z ▸ hi)

theorem fits_handleEdge1 {evt : Event K} {step : ℤ} {s s' : St K} (hM : Mesh s) (hl : Live s evt.tri)
    (hn : ∀ i, (s.tri evt.tri).neighbours i = none) (h : handleEdge1 evt step s = .ok ((), s')) (hF : Fits s) :
    Fits s' :=
  fitsD_true.1 ((fitsD_handleEdge1 hM hl hn h (fitsD_true.2 hF)).2 _ fun _ _ _ => trivial)

end Grassfire
