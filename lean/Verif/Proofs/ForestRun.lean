/-
Regions without holes stay regions without holes (lemmas for C71): the iterations of the event loop.
-/
import Verif.Proofs.ForestFlip
import Verif.Proofs.ForestEdge
import Verif.Proofs.LinkRun
import Verif.Proofs.Within

set_option linter.unusedSectionVars false

namespace Grassfire

open Spec

variable {K : Type} [Field K] [LinearOrder K] {S : TId → Prop} {s s' : St K}

/-- the triangles of the regions that have not been stopped -/
def Part (S : TId → Prop) (s : St K) (x : TId) : Prop := Live s x ∧ S x

theorem part_consistent (hM : Mesh s) (hc : Closed S s) : Consistent (Part S s) s := by
  intro t ht
  obtain ⟨h1, h2, h3⟩ := hM.consistent t ht.1
  refine ⟨h1, h2, fun a b n hn => ?_⟩
  obtain ⟨h4, h5⟩ := h3 a b n hn
  obtain ⟨i, -, -, hi⟩ := hn
  exact ⟨⟨h4, hc t i n ht.2 hi⟩, h5⟩

theorem connected_part (hc : Closed S s) {x y : TId} (hx : S x) (h : Connected s x y) : S y ∧ Conn (Part S s) s x y := by
  unfold Connected at h
  induction h with
  | refl => exact ⟨hx, .refl⟩
  | tail _ hb ih =>
    obtain ⟨i, hi⟩ := hb.2
    exact ⟨hc _ i _ ih.1 hi, ih.2.tail ⟨⟨hb.1, ih.1⟩, i, hi⟩⟩

theorem connected_of_part {x y : TId} (h : Conn (Part S s) s x y) : Connected s x y :=
  star_mono h fun _ _ q => ⟨q.1.1, q.2⟩

theorem around_part (hc : Closed S s) {v : VId} {x y : TId} (hx : S x) (h : Relation.ReflTransGen (Beside s v) x y) :
    Relation.ReflTransGen (Bes (Part S s) s v) x y := by
  suffices S y ∧ Relation.ReflTransGen (Bes (Part S s) s v) x y from this.2
  induction h with
  | refl => exact ⟨hx, .refl⟩
  | tail _ hb ih =>
    obtain ⟨hl, i, j, hj, hv, hi⟩ := hb
    exact ⟨hc _ i _ ih.1 hi, ih.2.tail ⟨⟨hl, ih.1⟩, i, j, hj, hv, hi⟩⟩

theorem Spec.NoHoles.simple (h : NoHoles S s) : Simple (Part S s) s := by
  obtain ⟨hc, ⟨rank, hr⟩, hR⟩ := h
  exact ⟨⟨rank, fun t ht => hr t ht.2 ht.1⟩, fun v x y hx hy hxy h1 h2 =>
    around_part hc hx.2 (hR v x y hx.2 hy.2 hx.1 hy.1 (connected_of_part hxy) h1 h2)⟩

theorem Simple.noHoles (hc : Closed S s) (h : Simple (Part S s) s) : NoHoles S s := by
  obtain ⟨⟨rank, hr⟩, hR⟩ := h
  exact ⟨hc, ⟨rank, fun t h1 h2 => hr t ⟨h2, h1⟩⟩, fun v x y sx sy hx hy hxy h1 h2 =>
    star_mono (hR v x y ⟨hx, sx⟩ ⟨hy, sy⟩ (connected_part hc sx hxy).2 h1 h2) fun _ _ q => ⟨q.1.1, q.2⟩⟩

theorem Spec.NoHoles.collapsible (hN : NoHoles S s) (hM : Mesh s) {t : TId} (hl : Live s t) (hS : S t) (e : Fin 3) :
    Collapsible s t e := by
  intro x hx hc h1 h2
  obtain ⟨sx, hc⟩ := connected_part hN.closed hS hc
  exact hN.simple.collapsible (part_consistent hM hN.closed) ⟨hl, hS⟩ e ⟨hx, sx⟩ hc h1 h2

theorem Spec.NoHoles.proper (hN : NoHoles S s) (hM : Mesh s) {t : TId} (hl : Live s t) (hS : S t) (e : Fin 3) :
    ProperSide s t e :=
  hN.simple.proper (part_consistent hM hN.closed) ⟨hl, hS⟩ e

/-- only vertices, neighbours and the times at which triangles stop matter -/
theorem noHoles_same (hN : NoHoles S s) (hL : ∀ x, Live s' x ↔ Live s x) (hv : ∀ x, (s'.tri x).vertices = (s.tri x).vertices)
    (hn : ∀ x, (s'.tri x).neighbours = (s.tri x).neighbours) : NoHoles S s' := by
  obtain ⟨hc, ⟨rank, hr⟩, hR⟩ := hN
  have hA : Adjacent s' = Adjacent s := by
    funext x y
    unfold Adjacent
    rw [hn]
    exact propext (and_congr_left' (hL x))
  have hB : Beside s' = Beside s := by
    funext v x y
    unfold Beside
    rw [hn, hv]
    exact propext (and_congr_left' (hL x))
  refine ⟨fun t i n => ?_, ⟨rank, fun t st ht => ?_⟩, fun v x y sx sy hx hy hxy h1 h2 => ?_⟩
  · rw [hn]; exact hc t i n
  · rw [hn]; exact hr t st ((hL t).1 ht)
  · rw [hv] at h1 h2
    unfold Connected at hxy
    rw [hA] at hxy
    rw [hB]
    exact hR v x y sx sy ((hL x).1 hx) ((hL y).1 hy) hxy h1 h2

theorem noHoles_core (hN : NoHoles S s) (h : SameCore s s') : NoHoles S s' := by
  have hst : ∀ x, (s'.tri x).stopsAt = (s.tri x).stopsAt := fun x => h.apply (fun y : St K => (y.tri x).stopsAt)
  refine noHoles_same hN (fun x => ?_) (fun x => h.vertices x) (fun x => h.neighbours x)
  unfold Live
  rw [hst, show s'.nT = s.nT from h.nT]

/-! ### what the events do -/

theorem noHoles_removed {t : TId} (hM : Mesh s) (hM' : Mesh s') (hN : NoHoles S s) (hc : Closed S s') (h : Removed s s' t) :
    NoHoles S s' :=
  Simple.noHoles hc (simple_removed (part_consistent hM hN.closed) (part_consistent hM' hc) hN.simple
    (fun x hx => ⟨⟨((h.live x).1 hx.1).1, hx.2⟩, ((h.live x).1 hx.1).2⟩) h.vertices
    fun x i px hx => h.neighbours x i px.1 hx)

theorem noHoles_split {t : TId} {e : Fin 3} {va vb : VId} (hM : Mesh s) (hM' : Mesh s') (hN : NoHoles S s) (hc : Closed S s')
    (h : SplitMesh s s' t e va vb) (hfa : ∀ x, Live s x → ∀ i, (s.tri x).vertices i ≠ va)
    (hfb : ∀ x, Live s x → ∀ i, (s.tri x).vertices i ≠ vb) (hne : va ≠ vb) (hl : Live s t) (hS : S t) : NoHoles S s' := by
  obtain ⟨hlive, -, a, b, fanA, fanB, ha, hb, hd, cA, cB, D⟩ := h
  have hC := part_consistent hM hN.closed
  have inA : ∀ x ∈ fanA, Part S s x := fun x hx => (FanWalk.turns hC D.walkA b rfl (facing hC ⟨hl, hS⟩ hb).1 x hx).1
  have inB : ∀ x ∈ fanB, Part S s x := fun x hx => (FanWalk.turns hC D.walkB a rfl (facing hC ⟨hl, hS⟩ ha).1 x hx).1
  exact Simple.noHoles hc (simple_split hC (part_consistent hM' hc) hN.simple
    (fun x hx => ⟨⟨((hlive x).1 hx.1).1, hx.2⟩, ((hlive x).1 hx.1).2⟩) hd
    (fun x hx => ⟨inA x hx, (cA x hx).2⟩) (fun x hx => ⟨inB x hx, (cB x hx).2⟩)
    ⟨D.walkB, D.walkA, D.ne, D.vertices, fun x i px => D.same x i px.1, fun x i px => D.gap x i px.1⟩
    (fun x px => hfa x px.1) (fun x px => hfb x px.1) hne ⟨hl, hS⟩)

theorem noHoles_edge {t : TId} {e : Fin 3} {kv : VId} (hM : Mesh s) (hM' : Mesh s') (hN : NoHoles S s) (hc : Closed S s')
    (hf : ∀ x, Live s x → ∀ i, (s.tri x).vertices i ≠ kv) (hl : Live s t) (hS : S t) (h : EdgeMesh s s' t e kv) :
    NoHoles S s' := by
  obtain ⟨live, fanA, fanB, disj, clA, clB, D⟩ := h
  have hC := part_consistent hM hN.closed
  have fan : ∀ {dir v o l}, FanWalk dir v s.tri o l → (∀ a, o = some a → Part S s a) → ∀ x ∈ l, Part S s x := by
    intro dir v o l hw ho x hx
    cases o with
    | none => cases hw; cases hx
    | some a => exact (FanWalk.turns hC hw a rfl (ho a rfl) x hx).1
  have inA := fan D.walkA fun a ha => (facing hC ⟨hl, hS⟩ ha).1
  have inB := fan D.walkB fun a ha => (facing hC ⟨hl, hS⟩ ha).1
  refine Simple.noHoles hc (simple_edge hC (part_consistent hM' hc) hN.simple (fun x px => hf x px.1) ⟨hl, hS⟩
    (fun x => ?_) disj
    (fun x hx => ⟨inA x hx, (clA x hx).2⟩) (fun x hx => ⟨inB x hx, (clB x hx).2⟩)
    ⟨D.walkA, D.walkB, D.otherA, D.otherB, D.vertices, fun x i px => D.same x i px.1, D.gapA, D.gapB, D.gapE⟩)
  unfold Part
  rw [live]
  exact and_right_comm

theorem noHoles_flip {t0 t1 : TId} {s0 s1 : Fin 3} {A B C D : VId} (hM : Mesh s) (hM' : Mesh s') (hL : Live s' = Live s)
    (hN : NoHoles S s) (hc : Closed S s') (hS : S t0) (h : SharedEdge (Live s) s t0 s0 t1 s1 A B C D)
    (H0 : Half s s' t0 s0 t1 s1) (H1 : Half s s' t1 s1 t0 s0) (frame : Beyond (Live s) s s' t0 t1) : NoHoles S s' := by
  have hP : Part S s' = Part S s := by unfold Part; rw [hL]
  have hC' := part_consistent hM' hc
  have hC := part_consistent hM hN.closed
  refine Simple.noHoles hc ?_
  rw [hP] at hC' ⊢
  exact simple_flip hC hC' { h with consistent := hC, p0 := ⟨h.p0, hS⟩ } H0 H1 (fun u pu => frame u pu.1) hN.simple

theorem fanWalk_last {v : VId} {tri : TId → KTri K} {ot : Option TId} {l : List TId} (h : FanWalk .cw v tri ot l) :
    l ≠ [] → ∃ u ∈ l, ∃ i, (tri u).vertices i = v ∧ (tri u).neighbours (i + 2) = none := by
  induction h with
  | stop => intro q; exact absurd rfl q
  | @step t i l hi hw ih =>
    intro _
    cases hn : (tri t).neighbours (Dir.cw.fn i) with
    | none => exact ⟨t, List.mem_cons_self, i, hi, hn⟩
    | some z =>
      obtain ⟨u, hu, r⟩ := ih (by rw [hn] at hw; cases hw; exact List.cons_ne_nil _ _)
      exact ⟨u, List.mem_cons_of_mem _ hu, r⟩

/-- When every vertex is at the wavefront once, the triangles at it are connected around it. -/
theorem round_of_linked (hM : Mesh s) (hL : Linked s) (hr : ∀ t, S t → Live s t → ∀ i, Running s ((s.tri t).vertices i)) :
    Round S s := by
  intro v x y sx sy hx hy _ ⟨i, hi⟩ ⟨j, hj⟩
  have go : ∀ {x i}, S x → Live s x → (s.tri x).vertices i = v → ∃ u j b, FrontSide s u j v b ∧
      Relation.ReflTransGen (Beside s v) x u := by
    intro x i sx hx hi
    obtain ⟨l, hl⟩ := hL.fans x hx i (hr x sx hx i).kinetic
    rw [hi] at hl
    obtain ⟨u, hu, k, hk, hn⟩ := fanWalk_last hl (by cases hl; exact List.cons_ne_nil _ _)
    have hT := FanWalk.turns hM.consistent hl x rfl hx
    refine ⟨u, k + 2, _, ⟨(hT u hu).1, hn, by rw [fin3_add_2_1]; exact hk, rfl⟩, ?_⟩
    exact hl.around (P' := Live s) (s' := s) (kv := v) (fun _ _ _ q => q) (fun x hx => (hT x hx).1) (fun _ _ _ _ q _ => q) x rfl u hu
  obtain ⟨u, k, b, hf, h1⟩ := go sx hx hi
  obtain ⟨u', k', b', hf', h2⟩ := go sy hy hj
  obtain ⟨w, m, c, -, -, uq⟩ := hL.ahead x hx i (hr x sx hx i)
  rw [hi] at uq
  obtain rfl : u = u' := (uq u k b hf).1.trans (uq u' k' b' hf').1.symm
  exact h1.trans (around_symm hM.consistent h2)

variable [IsStrictOrderedRing K] [HasSqrt K] [SqrtUnit K] [HasTrig K]

/-- in a region without holes a calm event is an ordinary one -/
theorem ordinary_of_calm {e : Event K} (hM : Mesh s) (hN : NoHoles S s) (ht : e.tri < s.nT) (hS : S e.tri) (h : Calm s s' e) :
    Ordinary s s' e := by
  refine ⟨h.slow, fun _ i _ _ => ?_, fun _ i _ hs => hN.proper hM ⟨ht, hs⟩ hS i, h.three⟩
  by_cases hs : (s.tri e.tri).stopsAt = none
  · exact hN.collapsible hM ⟨ht, hs⟩ hS i
  · intro x hx hc _ _
    rcases Relation.ReflTransGen.cases_head hc with q | ⟨y, hy, -⟩
    · exact .inl q.symm
    · exact absurd hy.1.2 hs

theorem noHoles_handleEvent {N : Prop} {depth : ℕ} {e : Event K} {step : ℤ} {a : Unit} (h : Inv N e.time s)
    (ht : e.tri < s.nT) (hS : S e.tri) (hM : Mesh s) (hN : NoHoles S s) (hm : handleEvent depth e step s = .ok (a, s'))
    (ho : Ordinary s s' e) : NoHoles S s' := by
  have hfr : ∀ {v}, s.nV ≤ v → ∀ x, Live s x → ∀ i, (s.tri x).vertices i ≠ v := fun hv x hx i q =>
    absurd (hM.vertices x hx.1 i) (by rw [q]; exact Nat.not_lt.2 hv)
  have hc := (w_handleEvent depth e step hS s a s' hN.closed hm).1
  unfold handleEvent at hm
  obtain ⟨T, s1, h1, hm⟩ := bind_run_ok.1 hm
  obtain ⟨-, rfl, rfl⟩ := getT_run_ok.1 h1
  by_cases hst : (s.tri e.tri).stopsAt.isSome = true
  · rw [if_pos hst] at hm
    obtain rfl := (pure_run_ok.1 hm).2
    exact hN
  · rw [if_neg hst] at hm
    have hl : Live s e.tri := ⟨ht, by cases q : (s.tri e.tri).stopsAt <;> simp_all⟩
    cases htp : e.tp with
    | edge =>
      rw [htp] at hm
      dsimp only at hm
      by_cases h3 : e.side.length = 3
      · rw [if_pos h3] at hm
        obtain ⟨hM', hR⟩ := handleEdge3_mesh e step s s' hM hl (ho.three htp h3 hl.2) hm
        exact noHoles_removed hM hM' hN hc hR
      rw [if_neg h3] at hm
      by_cases h1 : e.side.length = 1 ∧ (s.tri e.tri).type = 3
      · rw [if_pos h1] at hm
        have hn := (count3_three _).1 h1.2
        obtain ⟨hM', hR⟩ := handleEdge1_mesh e step s s' hM (fun i => Option.isNone_iff_eq_none.1 (hn i)) hm
        exact noHoles_removed hM hM' hN hc hR
      rw [if_neg h1] at hm
      by_cases h2 : e.side.length = 2
      · rw [if_pos h2] at hm; cases hm
      rw [if_neg h2] at hm
      have hslow : ∀ k, s'.vert s.nV = .kin k → k.infFast = false :=
        fun k => ho.slow _ k le_rfl (handleEdge_nV h ht hm)
      have hm' := hm
      unfold handleEdge at hm'
      obtain ⟨i, s1, q1, -⟩ := bind_run_ok.1 hm'
      obtain ⟨hi, -⟩ := singleSide_run_ok q1
      obtain ⟨hM', hR⟩ := handleEdge_mesh depth e step s s' i hM hl hi (hN.collapsible hM hl hS i) hm hslow
      exact noHoles_edge hM hM' hN hc (hfr le_rfl) hl hS hR
    | flip =>
      rw [htp] at hm
      dsimp only at hm
      have hm' := hm
      unfold handleFlip at hm'
      obtain ⟨i, s1, q1, -⟩ := bind_run_ok.1 hm'
      obtain ⟨hi, -⟩ := singleSide_run_ok q1
      obtain ⟨hM', n, k, s2, hX, hf, hk⟩ := handleFlip_mesh e s s' i hM hl hi (hN.proper hM hl hS i) hm
      obtain ⟨H0, H1⟩ := flip_halves hX hf
      obtain ⟨frame, -, same, rest⟩ := C26_frame hX hf
      have hnT : s2.nT = s.nT := by have := congrArg St.nT rest; exact this
      have hL : Live s2 = Live s := by
        funext x
        unfold Live
        obtain ⟨vs, ns, q⟩ := same x
        rw [hnT, q]
      have hM2 : Mesh s2 := by
        have hst : ∀ x, (s'.tri x).stopsAt = (s2.tri x).stopsAt := fun x => hk.apply (fun y : St K => (y.tri x).stopsAt)
        have hnT' : s'.nT = s2.nT := hk.nT
        have hnV' : s'.nV = s2.nV := hk.nV
        have hL' : Live s2 = Live s' := by funext x; unfold Live; rw [hst, hnT']
        refine ⟨?_, fun x hx => ?_, fun x hx i => ?_⟩
        · rw [hL']
          refine consistent_same hM'.consistent hnT'.symm fun x => ⟨(hk.vertices x).symm, (hk.neighbours x).symm⟩
        · rw [← hk.vertices x]; exact hM'.distinct x (hnT' ▸ hx)
        · rw [← hk.vertices x, ← hnV']; exact hM'.vertices x (hnT' ▸ hx) i
      have hc2 : Closed S s2 := fun t i n st hn => hc t i n st (by rw [hk.neighbours t]; exact hn)
      exact noHoles_core (noHoles_flip hM hM2 hL hN hc2 hS hX H0 H1 frame) hk
    | split =>
      rw [htp] at hm
      dsimp only at hm
      have hn := handleSplit_nV h ht hm
      obtain ⟨hM', i, hX⟩ := handleSplit_mesh depth e step s s' hM hl hm
        (fun k => ho.slow _ k le_rfl (lt_of_le_of_lt (Nat.le_succ _) hn)) (fun k => ho.slow _ k (Nat.le_succ _) hn)
      exact noHoles_split hM hM' hN hc hX.2 (hfr (Nat.le_succ _)) (hfr le_rfl) (Nat.succ_ne_self _) hl hS

theorem noHoles_loopStep {N : Prop} {depth : ℕ} {step : ℤ} {now now' : K} {e : Event K} (h : Inv N now s)
    (hM : Mesh s) (hN : NoHoles S s) (hp : ∀ e ∈ pending s, S e.tri) (hm : loopStep depth step now s = .ok (some (e, now'), s')) (hc : Calm s s' e) :
    Ordinary s s' e ∧ NoHoles S s' ∧ ∀ e ∈ pending s', S e.tri := by
  obtain ⟨-, -, hp', hS⟩ := w_loopStep hN.closed hp hm
  obtain ⟨s1, h1, h2⟩ := loopStep_some hm
  obtain ⟨i1, ht, -, hlt⟩ := wp_ok (i_takeEvent h) h1
  have hs1 : ∃ q i, s1 = { s with queue := q, immediate := i } := by
    rcases takeEvent_run now s with ⟨x, r, -, hx⟩ | ⟨x, r, -, -, hx⟩ | ⟨-, -, hx⟩ <;> rw [hx] at h1 <;> cases h1
    · exact ⟨_, _, rfl⟩
    · exact ⟨_, _, rfl⟩
  obtain ⟨q, i, rfl⟩ := hs1
  have hM1 : Mesh { s with queue := q, immediate := i } := ⟨hM.consistent, hM.distinct, hM.vertices⟩
  have hN1 : NoHoles S { s with queue := q, immediate := i } := noHoles_same hN (fun _ => Iff.rfl) (fun _ => rfl) fun _ => rfl
  subst ht
  have ho : Ordinary s s' e := ordinary_of_calm hM hN hlt hS hc
  exact ⟨ho, noHoles_handleEvent i1 hlt hS hM1 hN1 h2 ⟨ho.slow, ho.edge, ho.flip, ho.three⟩, hp'⟩

theorem noHoles_start {s0 s1 : St K} (h1 : initEventList s0 = .ok ((), s1)) (hN : NoHoles S s0) :
    NoHoles S { s1 with immediate := [] } := by
  unfold initEventList at h1
  obtain ⟨_, s2, h2, hm⟩ := bind_run_ok.1 h1
  cases h2
  obtain ⟨_, s2, h2, hm⟩ := bind_run_ok.1 hm
  cases h2
  have c : Keeps (SameCore (K := K)) (forEach initEvent s0.skTriangles) := Keeps.forEach sameCorePre (fun t => c_initEvent t) _
  have hc := c _ _ _ hm
  have : NoHoles S s1 := noHoles_core (s := { s0 with queue := [] })
    (noHoles_same hN (fun _ => Iff.rfl) (fun _ => rfl) fun _ => rfl) hc
  exact noHoles_same this (fun _ => Iff.rfl) (fun _ => rfl) fun _ => rfl

theorem region_run {depth n : ℕ} {s0 s : St K} {now : K} {tr : List (Event K × K)}
    (h : RegionExecution S depth s0 n now s tr) : OrdinaryExecution depth s0 n now s tr ∧ Mesh s ∧ NoHoles S s := by
  obtain ⟨hI, hM, hN, hS, s1, h1, hr, hc⟩ := h
  obtain ⟨i1, m1, f1, -⟩ := fresh_start True hI hM h1
  have n1 := noHoles_start h1 hN
  obtain ⟨-, -, p1⟩ := within_start h1 hN.closed hS
  have : ∀ {m : ℕ} {x : K} {u : St K} {tr' : List (Event K × K)}, Run depth { s1 with immediate := [] } 0 m x u tr' →
      m ≤ n → (Mesh u ∧ Fresh True (fun t => t ∉ s0.skTriangles) x u) ∧ NoHoles S u ∧ ∀ e ∈ pending u, S e.tri := by
    intro m x u tr' hr'
    induction hr' with
    | start => intro _; exact ⟨⟨m1, f1⟩, n1, fun e he => p1 e (by simpa [pending] using he)⟩
    | @step m x x' u u' tr' e hr' hs ih =>
      intro hm
      obtain ⟨⟨a, b⟩, c, p⟩ := ih (Nat.le_of_succ_le hm)
      obtain ⟨o, d⟩ := noHoles_loopStep (run_inv hr' i1).1 a c p hs (hc m hm _ _ _ _ _ _ hr' hs)
      exact ⟨fr_loopStep (run_inv hr' i1).1 a b hs o (.inl trivial), d⟩
  refine ⟨⟨hI, hM, s1, h1, hr, fun m hm x u tr' e x' u' hr' hs => ?_⟩, (this hr le_rfl).1.1, (this hr le_rfl).2.1⟩
  obtain ⟨⟨a, b⟩, c, p⟩ := this hr' (Nat.le_of_lt hm)
  exact (noHoles_loopStep (run_inv hr' i1).1 a c p hs (hc m hm _ _ _ _ _ _ hr' hs)).1

end Grassfire
