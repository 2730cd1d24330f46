/-
The wavefront links and the triangulation (lemmas for C69): all iterations of the event loop.
-/
import Verif.Proofs.LinkSteps
import Verif.Props.Freshness

set_option linter.unusedSectionVars false

namespace Grassfire

open Spec

variable {K : Type}

theorem FanWalk.unique {dir : Dir} {v : VId} {tri : TId → KTri K} {P : TId → Prop}
    (hinj : ∀ t i j, (tri t).vertices i = v → (tri t).vertices j = v → P t → i = j)
    (hP : ∀ t i u, P t → (tri t).neighbours i = some u → P u) {ot : Option TId} {l : List TId}
    (h : FanWalk dir v tri ot l) : ∀ {l'}, (∀ t, ot = some t → P t) → FanWalk dir v tri ot l' → l = l' := by
  induction h with
  | stop => intro l' _ h'; cases h'; rfl
  | @step t i l hi _ ih =>
    intro l' hp h'
    cases h' with
    | @step _ j l'' hj hw =>
      obtain rfl := hinj t i j hi hj (hp t rfl)
      rw [ih (fun u hu => hP t _ u (hp t rfl) hu) hw]

variable [Field K] [LinearOrder K]

/-- At the start, no vertex has been stopped. -/
theorem fitsD_of_linked {S : TId → Prop} {D : VId → VId → Prop} {s : St K} (hM : Mesh s) (hL : Linked s)
    (hr : ∀ v, Kinetic s v → Running s v) : FitsD S D s := by
  classical
  have hC := hM.consistent
  let r : TId → Fin 3 → ℕ := fun t i =>
    if h : ∃ l, FanWalk .cw ((s.tri t).vertices i) s.tri (some t) l then h.choose.length else 0
  have pair : ∀ {t u i j}, Live s t → Live s u → (s.tri t).neighbours i = none → (s.tri u).neighbours j = none →
      (s.tri t).vertices (i + 1) = (s.tri u).vertices (j + 1) → t = u := by
    intro t u i j pt pu hi hj h1
    have k1 := hr _ (hL.kinetic t i _ _ ⟨pt, hi, rfl, rfl⟩).1
    obtain ⟨x, m, b, -, -, uq⟩ := hL.ahead t pt (i + 1) k1
    rw [(uq t i _ ⟨pt, hi, rfl, rfl⟩).1, (uq u j _ ⟨pu, hj, h1.symm, rfl⟩).1]
  refine ⟨fun _ _ => .whole, r, ⟨fun t pt i hi => ?_, fun t pt i n j hn hj hk => ?_, fun t pt i hk => ?_, ?_⟩,
    fun _ _ _ _ q => by cases q⟩
  · have := hL.kinetic t i _ _ ⟨pt, hi, rfl, rfl⟩
    refine ⟨this.1, this.2, .inl ⟨nofun, nofun, ?_⟩⟩
    exact (hL.points t i _ _ ⟨pt, hi, rfl, rfl⟩).resolve_right fun q => q.1 (hr _ this.1)
  · refine ⟨rfl, ?_⟩
    have pn := (facing hC pt hn).1
    obtain ⟨l, hl⟩ := hL.fans t pt i hk
    obtain ⟨l', hl'⟩ := hL.fans n pn j (by rw [hj]; exact hk)
    have uq : ∀ {x v l l'}, Live s x → FanWalk .cw v s.tri (some x) l → FanWalk .cw v s.tri (some x) l' → l = l' :=
      fun {x v l l'} px h h' => FanWalk.unique (P := Live s) (fun t i j q1 q2 q => (hC t q).2.1 (q1.trans q2.symm))
        (fun t i u q q' => (facing hC q q').1) h (fun t q => by injection q with q; exact q ▸ px) h'
    have e1 : r t i = l.length := by
      show (if h : ∃ l, FanWalk .cw ((s.tri t).vertices i) s.tri (some t) l then h.choose.length else 0) = _
      have h : ∃ l, FanWalk .cw ((s.tri t).vertices i) s.tri (some t) l := ⟨l, hl⟩
      rw [dif_pos h, uq pt h.choose_spec hl]
    have e2 : r n j = l'.length := by
      show (if h : ∃ l, FanWalk .cw ((s.tri n).vertices j) s.tri (some n) l then h.choose.length else 0) = _
      have h : ∃ l, FanWalk .cw ((s.tri n).vertices j) s.tri (some n) l := ⟨l', hl'⟩
      rw [dif_pos h, uq pn h.choose_spec hl']
    rw [e1, e2]
    rw [hj] at hl'
    cases hl with
    | @step _ m l hm hw =>
      obtain rfl := (hC t pt).2.1 hm
      have : (s.tri t).neighbours (Dir.cw.fn m) = some n := hn
      rw [this] at hw
      rw [uq pn hl' hw]
      exact Nat.lt_succ_self _
  · exact ⟨fun _ => hr _ hk, fun _ => rfl⟩
  · intro t u pt pu i j hi hj _ _ h1 _
    exact pair pt pu hi hj h1

theorem fits_of_linked {s : St K} (hM : Mesh s) (hL : Linked s) (hr : ∀ v, Kinetic s v → Running s v) : Fits s :=
  (fitsD_of_linked (S := fun _ => True) (D := fun _ _ => True) hM hL hr).fits

/-- going around a vertex comes to an end -/
theorem front_fans {s : St K} (hM : Mesh s) {c : TId → Fin 3 → Kind} {r : TId → Fin 3 → ℕ}
    (F : Front s.tri (Live s) (Kinetic s) (Running s) (Points s) c r) :
    ∀ n t i, Live s t → Kinetic s ((s.tri t).vertices i) → r t i = n →
      ∃ l, FanWalk .cw ((s.tri t).vertices i) s.tri (some t) l := by
  have hC := hM.consistent
  intro n
  induction n using Nat.strong_induction_on with
  | _ n ih =>
    intro t i pt hk hr
    cases hn : (s.tri t).neighbours (i + 2) with
    | none => exact ⟨[t], .step rfl (by rw [show (s.tri t).neighbours (Dir.cw.fn i) = none from hn]; exact .stop)⟩
    | some u =>
      obtain ⟨pu, j, hj, -⟩ := turn hC .cw pt rfl hn
      have := F.next t pt i u j hn hj hk
      obtain ⟨l, hl⟩ := ih _ (hr ▸ this.2) u j pu (by rw [hj]; exact hk) rfl
      rw [hj] at hl
      exact ⟨t :: l, .step rfl (by rw [show (s.tri t).neighbours (Dir.cw.fn i) = some u from hn]; exact hl)⟩

/-- at a side that starts there -/
theorem front_last {s : St K} (hM : Mesh s) {c : TId → Fin 3 → Kind} {r : TId → Fin 3 → ℕ}
    (F : Front s.tri (Live s) (Kinetic s) (Running s) (Points s) c r) :
    ∀ t i, Live s t → Kinetic s ((s.tri t).vertices i) → ∃ u j, Live s u ∧ (s.tri u).neighbours j = none ∧
      (s.tri u).vertices (j + 1) = (s.tri t).vertices i ∧ c u (j + 1) = c t i := by
  have hC := hM.consistent
  intro t i pt hk
  obtain ⟨l, hl⟩ := front_fans hM F _ t i pt hk rfl
  cases hl with
  | @step _ m l hm hw =>
    obtain rfl := (hC t pt).2.1 hm
    obtain ⟨-, x, k, -, px, h3, h4, h5⟩ := F.walk hC hw hk pt rfl rfl
    exact ⟨x, k + 2, px, h5, by rw [fin3_add_2_1]; exact h3, by rw [fin3_add_2_1]; exact h4⟩

/-- and at one that ends there -/
theorem front_first {s : St K} (hM : Mesh s) {c : TId → Fin 3 → Kind} {r : TId → Fin 3 → ℕ}
    (F : Front s.tri (Live s) (Kinetic s) (Running s) (Points s) c r) :
    ∀ t i, Live s t → Kinetic s ((s.tri t).vertices i) → ∃ u j, Live s u ∧ (s.tri u).neighbours j = none ∧
      (s.tri u).vertices (j + 2) = (s.tri t).vertices i ∧ c u (j + 2) = c t i := by
  have hC := hM.consistent
  intro t i pt hk
  obtain ⟨y, m, py, -, h3, h4, h5⟩ := F.first hC pt hk
  exact ⟨y, m + 1, py, h5, by rw [fin3_add_1_2]; exact h3, by rw [fin3_add_1_2]; exact h4⟩

/-- a stopped corner is at a side between stopped vertices -/
theorem stopped_side {S : TId → Prop} {D : VId → VId → Prop} {s : St K} (hM : Mesh s) (hF : FitsD S D s) {t : TId}
    (hl : Live s t) {i : Fin 3} (hk : Kinetic s ((s.tri t).vertices i)) (hr : ¬ Running s ((s.tri t).vertices i)) :
    ∃ x j, S x ∧ Live s x ∧ (s.tri x).neighbours j = none ∧
      D ((s.tri x).vertices (j + 1)) ((s.tri x).vertices (j + 2)) ∧
      ((s.tri x).vertices (j + 1) = (s.tri t).vertices i ∨ (s.tri x).vertices (j + 2) = (s.tri t).vertices i) := by
  obtain ⟨c, r, F, dead⟩ := hF
  cases hc : c t i with
  | whole => exact absurd ((F.kind t hl i hk).1 hc) hr
  | endDead =>
    obtain ⟨u, j, pu, hj, h1, h2⟩ := front_last hM F t i hl hk
    obtain ⟨q1, q2⟩ := dead u j pu hj (by rw [h2, hc])
    exact ⟨u, j, q1, pu, hj, q2, .inl h1⟩
  | startDead =>
    obtain ⟨u, j, pu, hj, h1, h2⟩ := front_first hM F t i hl hk
    have hp := (F.gap u pu j hj).2.2.resolve_left (fun q => q.2.1 (by rw [h2, hc]))
    obtain ⟨q1, q2⟩ := dead u j pu hj hp.1
    exact ⟨u, j, q1, pu, hj, q2, .inr h1⟩

theorem linked_of_fits {s : St K} (hM : Mesh s) (hF : Fits s) : Linked s := by
  obtain ⟨c, r, F⟩ := hF
  have hC := hM.consistent
  have dead : ∀ {t i}, Live s t → (s.tri t).neighbours i = none → c t (i + 1) = .endDead → c t (i + 2) = .startDead →
      ¬ Running s ((s.tri t).vertices (i + 1)) ∧ ¬ Running s ((s.tri t).vertices (i + 2)) := by
    intro t i pt hi h1 h2
    obtain ⟨k1, k2, -⟩ := F.gap t pt i hi
    constructor
    · rw [← F.kind t pt _ k1, h1]; nofun
    · rw [← F.kind t pt _ k2, h2]; nofun
  have fans := front_fans hM F
  have last := front_last hM F
  have first := front_first hM F
  have uniq : ∀ {t u i j}, Live s t → Live s u → (s.tri t).neighbours i = none → (s.tri u).neighbours j = none →
      c t (i + 1) ≠ .endDead → c u (j + 1) ≠ .endDead → (s.tri t).vertices (i + 1) = (s.tri u).vertices (j + 1) →
      (s.tri t).vertices (i + 2) = (s.tri u).vertices (j + 2) → u = t ∧ j = i := by
    intro t u i j pt pu hi hj c1 c2 h1 h2
    obtain rfl := F.unique t u pt pu i j hi hj c1 c2 h1 h2
    exact ⟨rfl, by have := (hC t pt).2.1 h1; exact (add_right_cancel this).symm⟩
  refine ⟨?_, ?_, fun t pt i hk => fans _ t i pt hk rfl, fun t pt i hrun => ?_, fun t pt i hrun => ?_,
    fun t pt i hk hrun => ?_⟩
  · rintro t i a b ⟨pt, hi, rfl, rfl⟩
    exact ⟨(F.gap t pt i hi).1, (F.gap t pt i hi).2.1⟩
  · rintro t i a b ⟨pt, hi, rfl, rfl⟩
    exact (F.gap t pt i hi).2.2.imp (fun q => q.2.2) fun q => dead pt hi q.1 q.2
  · obtain ⟨u, j, pu, hj, h1, h2⟩ := last t i pt hrun.kinetic
    have hw : c t i = .whole := (F.kind t pt i hrun.kinetic).2 hrun
    have hp := (F.gap u pu j hj).2.2.resolve_right (fun q => by rw [h2, hw] at q; cases q.1)
    rw [h1] at hp
    refine ⟨u, j, _, ⟨pu, hj, h1, rfl⟩, hp.2.2, ?_⟩
    rintro u' j' b' ⟨pu', hj', h1', rfl⟩
    have hw' : c u' (j' + 1) = .whole := (F.kind u' pu' _ (by rw [h1']; exact hrun.kinetic)).2 (by rw [h1']; exact hrun)
    have hp' := (F.gap u' pu' j' hj').2.2.resolve_right (fun q => by rw [hw'] at q; cases q.1)
    rw [h1'] at hp'
    exact uniq pu pu' hj hj' hp.1 hp'.1 (h1.trans h1'.symm) (points_right hp.2.2 hp'.2.2)
  · obtain ⟨u, j, pu, hj, h1, h2⟩ := first t i pt hrun.kinetic
    have hw : c t i = .whole := (F.kind t pt i hrun.kinetic).2 hrun
    have hp := (F.gap u pu j hj).2.2.resolve_right (fun q => by rw [h2, hw] at q; cases q.2)
    rw [h1] at hp
    refine ⟨u, j, _, ⟨pu, hj, rfl, h1⟩, hp.2.2, ?_⟩
    rintro u' j' b' ⟨pu', hj', rfl, h1'⟩
    have hw' : c u' (j' + 2) = .whole := (F.kind u' pu' _ (by rw [h1']; exact hrun.kinetic)).2 (by rw [h1']; exact hrun)
    have hp' := (F.gap u' pu' j' hj').2.2.resolve_right (fun q => by rw [hw'] at q; cases q.2)
    rw [h1'] at hp'
    exact uniq pu pu' hj hj' hp.1 hp'.1 (points_left hp.2.2 hp'.2.2) (h1.trans h1'.symm)
  · cases hc : c t i with
    | whole => exact absurd ((F.kind t pt i hk).1 hc) hrun
    | endDead =>
      obtain ⟨u, j, pu, hj, h1, h2⟩ := last t i pt hk
      have hp := (F.gap u pu j hj).2.2.resolve_left (fun q => q.1 (by rw [h2, hc]))
      have := dead pu hj hp.1 hp.2
      exact ⟨u, j, _, _, ⟨pu, hj, rfl, rfl⟩, this.1, this.2, .inl h1⟩
    | startDead =>
      obtain ⟨u, j, pu, hj, h1, h2⟩ := first t i pt hk
      have hp := (F.gap u pu j hj).2.2.resolve_left (fun q => q.2.1 (by rw [h2, hc]))
      have := dead pu hj hp.1 hp.2
      exact ⟨u, j, _, _, ⟨pu, hj, rfl, rfl⟩, this.1, this.2, .inr h1⟩

variable [IsStrictOrderedRing K] [HasSqrt K] [SqrtUnit K] [HasTrig K]

theorem fits_handleEvent {N : Prop} {depth : ℕ} {e : Event K} {step : ℤ} {s s' : St K} {a : Unit} (h : Inv N e.time s)
    (ht : e.tri < s.nT) (hM : Mesh s) (hF : Fits s) (hm : handleEvent depth e step s = .ok (a, s'))
    (ho : Ordinary s s' e) (hp : (s.tri e.tri).stopsAt = none → Plain s e) : Fits s' := by
  unfold handleEvent at hm
  obtain ⟨T, s1, h1, hm⟩ := bind_run_ok.1 hm
  obtain ⟨-, rfl, rfl⟩ := getT_run_ok.1 h1
  by_cases hst : (s.tri e.tri).stopsAt.isSome = true
  · rw [if_pos hst] at hm
    obtain rfl := (pure_run_ok.1 hm).2
    exact hF
  · rw [if_neg hst] at hm
    have hl : Live s e.tri := ⟨ht, by cases q : (s.tri e.tri).stopsAt <;> simp_all⟩
    have hp := hp hl.2
    cases htp : e.tp with
    | edge =>
      rw [htp] at hm
      dsimp only at hm
      by_cases h3 : e.side.length = 3
      · rw [if_pos h3] at hm
        exact fits_handleEdge3 hM hl (ho.three htp h3 hl.2) hm hF (hp.three htp h3)
      rw [if_neg h3] at hm
      by_cases h1 : e.side.length = 1 ∧ (s.tri e.tri).type = 3
      · rw [if_pos h1] at hm
        have hn := (count3_three _).1 h1.2
        exact fits_handleEdge1 hM hl (fun i => Option.isNone_iff_eq_none.1 (hn i)) hm hF
      rw [if_neg h1] at hm
      by_cases h2 : e.side.length = 2
      · rw [if_pos h2] at hm; cases hm
      rw [if_neg h2] at hm
      have hslow : ∀ k, s'.vert s.nV = .kin k → k.infFast = false :=
        fun k => ho.slow _ k le_rfl (handleEdge_nV h ht hm)
      have hm' := hm
      unfold handleEdge at hm'
      obtain ⟨i, s1, q1, -⟩ := bind_run_ok.1 hm'
      obtain ⟨hi, -⟩ := singleSide_run_ok q1
      have hne : ∃ j, (s.tri e.tri).neighbours j ≠ none := by
        by_contra q
        push Not at q
        exact h1 ⟨by rw [hi]; rfl, (count3_three _).2 fun i => by rw [q i]; rfl⟩
      exact fits_handleEdge hM hl hi (ho.edge htp i hi hne) hm hslow hF (hp.edge htp i hi hne)
    | flip =>
      rw [htp] at hm
      dsimp only at hm
      have hm' := hm
      unfold handleFlip at hm'
      obtain ⟨i, s1, q1, -⟩ := bind_run_ok.1 hm'
      obtain ⟨hi, -⟩ := singleSide_run_ok q1
      exact fits_handleFlip hM hl hi (ho.flip htp i hi hl.2) hm hF
    | split =>
      rw [htp] at hm
      dsimp only at hm
      have hn := handleSplit_nV h ht hm
      exact fits_handleSplit hM hl hm (fun k => ho.slow _ k le_rfl (lt_of_le_of_lt (Nat.le_succ _) hn))
        (fun k => ho.slow _ k (Nat.le_succ _) hn) hF (hp.split htp)

theorem fits_loopStep {N : Prop} {depth : ℕ} {step : ℤ} {now now' : K} {e : Event K} {s s' : St K} (h : Inv N now s)
    (hM : Mesh s) (hF : Fits s) (hm : loopStep depth step now s = .ok (some (e, now'), s')) (ho : Ordinary s s' e)
    (hp : (s.tri e.tri).stopsAt = none → Plain s e) : Fits s' := by
  obtain ⟨s1, h1, h2⟩ := loopStep_some hm
  obtain ⟨i1, ht, -, hlt⟩ := wp_ok (i_takeEvent h) h1
  have hs1 : ∃ q i, s1 = { s with queue := q, immediate := i } := by
    rcases takeEvent_run now s with ⟨x, r, -, hx⟩ | ⟨x, r, -, -, hx⟩ | ⟨-, -, hx⟩ <;> rw [hx] at h1 <;> cases h1
    · exact ⟨_, _, rfl⟩
    · exact ⟨_, _, rfl⟩
  obtain ⟨q, i, rfl⟩ := hs1
  have hM1 : Mesh { s with queue := q, immediate := i } := ⟨hM.consistent, hM.distinct, hM.vertices⟩
  subst ht
  exact fits_handleEvent i1 hlt hM1 hF h2 ⟨ho.slow, ho.edge, ho.flip, ho.three⟩
    fun z => ⟨(hp z).edge, (hp z).split, (hp z).three⟩

/-- `init_event_list` leaves vertices and neighbours alone -/
theorem fitsD_start {S : TId → Prop} {D : VId → VId → Prop} {s0 s1 : St K} (h1 : initEventList s0 = .ok ((), s1))
    (hF : FitsD S D s0) : FitsD S D { s1 with immediate := [] } := by
  unfold initEventList at h1
  obtain ⟨_, s2, h2, hm⟩ := bind_run_ok.1 h1
  cases h2
  obtain ⟨_, s2, h2, hm⟩ := bind_run_ok.1 hm
  cases h2
  have c : Keeps (SameCore (K := K)) (forEach initEvent s0.skTriangles) := Keeps.forEach sameCorePre (fun t => c_initEvent t) _
  have hc := c _ _ _ hm
  obtain ⟨c, r, F, dead⟩ := hF
  have hv : s1.vert = s0.vert := hc.vert
  have hn : s1.nV = s0.nV := hc.nV
  have hst : ∀ x, (s1.tri x).stopsAt = (s0.tri x).stopsAt := fun x => hc.apply (fun y : St K => (y.tri x).stopsAt)
  have hlive : ∀ x, Live { s1 with immediate := [] } x → Live s0 x := fun x hx =>
    ⟨by rw [← show s1.nT = s0.nT from hc.nT]; exact hx.1, by rw [← hst]; exact hx.2⟩
  refine ⟨c, r, F.congr (fun x => hc.vertices x) (fun x => hc.neighbours x) hlive (fun x hx i => ?_)
    (fun x hx i => ?_) (fun a b q => ?_), fun x i hx hi hd => ?_⟩
  · unfold Kinetic; dsimp only; rw [hv, hn]
  · unfold Running; dsimp only; rw [hv, hn]
  · unfold Points at q ⊢; dsimp only; rw [hv, hn]; exact q
  · have e1 : (s1.tri x).vertices = (s0.tri x).vertices := hc.vertices x
    have e2 : (s1.tri x).neighbours = (s0.tri x).neighbours := hc.neighbours x
    dsimp only at hi ⊢
    rw [e1]
    exact dead x i (hlive x hx) (by rw [← e2]; exact hi) hd

theorem fits_start {s0 s1 : St K} (h1 : initEventList s0 = .ok ((), s1)) (hF : Fits s0) :
    Fits { s1 with immediate := [] } := (fitsD_start h1 (fitsD_true.2 hF)).fits

theorem plain_fits {depth n : ℕ} {s0 s : St K} {now : K} {tr : List (Event K × K)}
    (h : PlainExecution depth s0 n now s tr) : Mesh s ∧ Fits s := by
  obtain ⟨hO, hL, hp⟩ := h
  obtain ⟨hI, hM, s1, h1, hr, ho⟩ := hO
  obtain ⟨i1, m1, f1, -⟩ := fresh_start True hI hM h1
  have ff : Fits { s1 with immediate := [] } :=
    fits_start h1 (fits_of_linked hM hL fun v ⟨hv, k, hk⟩ => ⟨hv, k, hk, (hI.lives v k hv hk).2.2.1⟩)
  have : ∀ {m : ℕ} {x : K} {u : St K} {tr' : List (Event K × K)}, Run depth { s1 with immediate := [] } 0 m x u tr' →
      m ≤ n → (Mesh u ∧ Fresh True (fun t => t ∉ s0.skTriangles) x u) ∧ Fits u := by
    intro m x u tr' hr'
    induction hr' with
    | start => intro _; exact ⟨⟨m1, f1⟩, ff⟩
    | @step m x x' u u' tr' e hr' hs ih =>
      intro hm
      obtain ⟨⟨a, b⟩, c⟩ := ih (Nat.le_of_succ_le hm)
      have o := ho m hm _ _ _ _ _ _ hr' hs
      exact ⟨fr_loopStep (run_inv hr' i1).1 a b hs o (.inl trivial),
        fits_loopStep (run_inv hr' i1).1 a c hs o (hp s1 h1 m hm _ _ _ _ _ _ hr' hs)⟩
  exact ⟨(this hr le_rfl).1.1, (this hr le_rfl).2⟩

end Grassfire
