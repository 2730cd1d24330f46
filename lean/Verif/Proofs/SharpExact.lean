/-
In executions that are not blurred by tolerances, what events announce happens exactly (lemmas for C84).
-/
import Verif.Proofs.SharpRun
import Verif.Props.Meetings

set_option linter.unusedSectionVars false

namespace Grassfire

open Spec

variable {K : Type} [Field K] [LinearOrder K] [IsStrictOrderedRing K] [HasSqrt K]

theorem vertexCrashTime_lines {org dst apx : VView K} {r : Option K} (h : vertexCrashTime org dst apx = .ok r) :
    org.ur = dst.ul := by
  unfold vertexCrashTime at h
  dsimp only at h
  split at h
  · cases h
  · rename_i l hl
    split at h
    · cases h
    · rename_i m hm
      split_ifs at h with q
      all_goals rw [hl, hm, not_not.1 q]

/-- the ends of a side that is hit have the line of the side in common -/
theorem split_lines {T : TView K} {t0 : K} {sv : Sieve} {e : EvCore K} (h : computeCollapse T t0 sv = .ok (some e))
    (hf : T.isFinite = true) (hs : e.tp = .split) {i : Fin 3} (hi : i ∈ e.side) :
    (T.v (i + 1)).ur = (T.v (i + 2)).ul := by
  obtain ⟨hact, ok⟩ := computeCollapse_evOk T t0 sv e h
  obtain ⟨s, hs1, hs2⟩ := ok.split hs
  rw [hs1] at hi
  obtain rfl := List.mem_singleton.1 hi
  replace h := computeCollapse_finite h hact hf
  unfold computeFinite at h
  split_ifs at h with c0 c1 c2 c3
  · rw [type_zero T c0 i] at hs2; cases hs2
  · unfold computeEvent1 at h
    simp only [bind_ok_iff, passert_ok_iff, decide_eq_true_eq] at h
    obtain ⟨-, -, ws, hws, tv, htv, -⟩ := h
    have := vertexCrashTime_lines htv
    have hw : T.noNeighbour ws = true := (indexE_ok hws).1
    by_cases q : i = ws
    · rw [q]; exact this
    · rw [type_one T c1 ws i hw q] at hs2; cases hs2
  · unfold computeEvent2 at h
    simp only [bind_ok_iff, passert_ok_iff, decide_eq_true_eq] at h
    obtain ⟨-, -, times, -, h⟩ := h
    exfalso
    split at h
    · cases h
    · simp only [bind_ok_iff] at h
      obtain ⟨d, -, h⟩ := h
      split at h
      · rw [← ok_some_inj h] at hs; cases hs
      · cases h
      · simp only [bind_ok_iff] at h
        obtain ⟨_, -, h⟩ := h
        rw [← ok_some_inj h] at hs; cases hs
      · cases h
  · unfold computeEvent3 at h
    simp only [bind_ok_iff, passert_ok_iff, decide_eq_true_eq] at h
    obtain ⟨d, -, d', -, -, -, h⟩ := h
    exfalso
    split at h
    · rw [← ok_some_inj h] at hs; cases hs
    · split at h
      · rw [← ok_some_inj h] at hs; cases hs
      · cases h
  · cases h

theorem all_of_three {l : List (Fin 3)} (hn : l.Nodup) (h : l.length = 3) (i : Fin 3) : i ∈ l := by
  have : l.toFinset = Finset.univ := Finset.eq_univ_of_card _ (by rw [List.toFinset_card_of_nodup hn, h]; rfl)
  exact List.mem_toFinset.1 (this ▸ Finset.mem_univ i)

variable [SqrtUnit K] [HasTrig K]

/-- the events are at the same time, or nothing is left of the stopped vertices -/
theorem crisp_advance {depth : ℕ} {s0 : St K} {n : ℕ} {now now' : K} {s s' : St K} {tr : List (Event K × K)} {e : Event K}
    (h : SteadyExecution depth s0 n now s tr) (hT : Standing (· ∈ s0.skTriangles) n now s)
    (hsol : s.immediate = [] → ∀ t ∈ s0.skTriangles, Live s t → (∀ i, Kinetic s ((s.tri t).vertices i)) →
      Solvable (viewT s t)) (hm : loopStep depth (n + 1 : ℕ) now s = .ok (some (e, now'), s'))
    (hg : now' = now ∨ now + 1 / 10 ^ 10 < now') (C : Crisp (· ∈ s0.skTriangles) now s) :
    Crisp (· ∈ s0.skTriangles) now' s ∧ (now' ≠ now → FitsD (· ∈ s0.skTriangles) (fun _ _ => False) s) := by
  rcases hg with rfl | hg
  · exact ⟨C, fun q => absurd rfl q⟩
  obtain ⟨hi, hM, -⟩ := ordinary_inv h.ordinary
  have hlt : now < now' := lt_of_le_of_lt (le_add_of_nonneg_right (by positivity)) hg
  obtain ⟨him, hmin⟩ := (taken_min hi hm).resolve_left hlt.ne'
  have hclear : ∀ t ∈ s0.skTriangles, Live s t → (∀ i, Kinetic s ((s.tri t).vertices i)) →
      ClearTriangle (¬ Tidy depth s0 n) s t := by
    obtain ⟨s1, h1, hr⟩ := h.exact.execution.run
    exact h.clear s1 h1 n le_rfl _ _ _ hr him
  have F : FitsD (· ∈ s0.skTriangles) (fun _ _ => False) s := by
    obtain ⟨c, r, F, dead⟩ := C.fits
    refine ⟨c, r, F, fun t i hl hn hd => ⟨(dead t i hl hn hd).1, ?_⟩⟩
    obtain ⟨hS, ka, kb, h1, h2, h3, h4, -, -, h5⟩ := dead t i hl hn hd
    have hk := C.kinetic t hS hl
    have hmob : Mobile s t := fun j => by
      obtain ⟨q1, k, q2⟩ := hk j
      exact ⟨k, q2, hT.slow _ _ q1 q2⟩
    have hz : areaAt (viewT s t) now = 0 := area_of_meet (i := i) (by rw [corner_place h3, corner_place h4]; exact h5)
    obtain ⟨y, hy⟩ := (hsol him t hS hl hk).nonzero
    exact hy (area_stays hl hmob ((C66_events_current_partial depth n s0 s now tr h.ordinary).2 t hS hl.2)
      (hclear t hS hl hk) him hmin (hT.late t hS hl hmob) now le_rfl hlt hz y)
  refine ⟨⟨C.kinetic, fun v k t hv hk ht => ?_, ?_, fun f hf => by rw [him] at hf; cases hf⟩, fun _ => F⟩
  · rcases C.started v k t hv hk ht with rfl | q
    · exact .inr hg
    · exact .inr (q.trans hlt)
  · obtain ⟨c, r, F, dead⟩ := F
    exact ⟨c, r, F, fun t i hl hn hd => ⟨(dead t i hl hn hd).1, (dead t i hl hn hd).2.elim⟩⟩

/-- when no corner has been stopped, events are plain -/
theorem plain_running {s : St K} {e : Event K} (h : ∀ i, Running s ((s.tri e.tri).vertices i)) : Plain s e :=
  ⟨fun _ _ _ _ => .inl ⟨h _, h _⟩, fun _ => h, fun _ _ i => .inl (h i)⟩

/-- where the corners of a triangle are is reached by them -/
theorem crisp_reaches {S : TId → Prop} {now : K} {s : St K} (hM : Mesh s) (C : Crisp S now s) {t : TId} (hS : S t)
    (hl : Live s t) (hslow : ∀ v k, v < s.nV → s.vert v = .kin k → k.infFast = false) (i : Fin 3) :
    Reaches s now ((s.tri t).vertices i) (cornerAt (viewT s t) i now) := by
  have hk := C.kinetic t hS hl i
  obtain ⟨hv, k, q⟩ := id hk
  refine ⟨k, q, hslow _ _ hv q, corner_place q _, fun x hx => ?_, fun x hx hle => ?_⟩
  · have hr : ¬ Running s ((s.tri t).vertices i) := by
      rintro ⟨-, k', q', hn⟩
      rw [q] at q'
      cases q'
      rw [hn] at hx
      cases hx
    obtain ⟨_, j, -, -, -, ⟨ka, kb, -, -, h1, h2, h3, h4, -⟩, hab⟩ := stopped_side hM C.fits hl hk hr
    rcases hab with q' | q'
    · rw [q', q] at h1; cases h1; rw [hx] at h3; exact Option.some.inj h3
    · rw [q', q] at h2; cases h2; rw [hx] at h4; exact Option.some.inj h4
  · rcases C.started _ k x hv q hx with rfl | hlt
    · rfl
    · rw [abs_sub_comm, abs_of_nonneg (sub_nonneg.2 (le_of_lt (lt_of_le_of_lt (le_add_of_nonneg_right (by positivity)) hlt)))]
        at hle
      exact absurd (lt_sub_iff_add_lt'.2 hlt) (not_lt.2 hle)

/-- what the event that is taken announces happens -/
structure Announced (s : St K) (e : Event K) : Prop where
  happens : Happens (viewT s e.tri) e.toEvCore
  nonempty : e.side ≠ []
  nodup : e.side.Nodup
  split : e.tp = .split → ∀ i ∈ e.side, ((viewT s e.tri).v (i + 1)).ur = ((viewT s e.tri).v (i + 2)).ul
  clear : e.tp = .split → ClearMotion (viewT s e.tri)
  early : e.tp ≠ .edge → s.immediate = []

theorem announced {W : Prop} {depth : ℕ} {s0 : St K} {n : ℕ} {now now' : K} {s s' : St K} {tr : List (Event K × K)} {e : Event K}
    (ho : OrdinaryExecution depth s0 n now s tr)
    (hclear : s.immediate = [] → ∀ t ∈ s0.skTriangles, Live s t → (∀ i, Kinetic s ((s.tri t).vertices i)) →
      ClearTriangle W s t ∧ Solvable (viewT s t)) (hm : loopStep depth (n + 1 : ℕ) now s = .ok (some (e, now'), s'))
    (hslow : ∀ v k, v < s.nV → s.vert v = .kin k → k.infFast = false)
    (hS : e.tri ∈ s0.skTriangles) (hl : Live s e.tri) (hx : SharpStep s e now now')
    (C : Crisp (· ∈ s0.skTriangles) now s) : Announced s e := by
  obtain ⟨hi, hM, -⟩ := ordinary_inv ho
  have hk := C.kinetic e.tri hS hl
  have hmob : Mobile s e.tri := fun j => by
    obtain ⟨q1, k, q2⟩ := hk j
    exact ⟨k, q2, hslow _ _ q1 q2⟩
  have hf : (viewT s e.tri).isFinite = true := by
    unfold TView.isFinite
    rw [(hmob.view 0).1, (hmob.view 1).1, (hmob.view 2).1]
    rfl
  rcases taken_certified hi hm ((C66_events_current_partial depth n s0 s now tr ho).2 e.tri hS hl.2) with
    ⟨him, ⟨t0, -, sv, -, hc⟩, ht, -⟩ | ⟨⟨c, hc, he⟩, ht, hn, hem⟩
  · obtain ⟨-, ok⟩ := computeCollapse_evOk _ _ _ _ hc
    obtain ⟨cl, sol⟩ := hclear him e.tri hS hl hk
    have cl := cl _ (.inl fun _ => rfl)
    refine ⟨C78_computed _ _ _ _ hc hmob.view cl sol ?_ ?_, ok.nonempty, ok.nodup,
      fun htp i hi => split_lines hc hf htp hi, fun _ => cl, fun _ => him⟩
    · show SharpAt (viewT s e.tri) e.time
      rw [ht]
      exact hx.sharp hl
    · show 0 ≤ e.time
      rw [ht]
      exact le_of_lt (lt_trans (by positivity) hx.late)
  · subst hn
    have hj : ∃ j, cornerAt (viewT s e.tri) (j + 1) now' = cornerAt (viewT s e.tri) (j + 2) now' := by
      obtain ⟨j, q | q⟩ := C.tight e hem
      · exact ⟨j, q⟩
      · exact ⟨j, hx.tiny hl j q⟩
    rw [show e.toEvCore.time = now' from ht] at hc
    obtain ⟨-, c1, c2, c3⟩ := C78_immediate _ _ _ hc hmob.view (hx.sharp hl) hj
    have e1 : e.tp = .edge := by
      have := congrArg EvCore.tp he
      exact this.trans c2
    have e2 : ∀ i ∈ e.side, cornerAt (viewT s e.tri) (i + 1) now' = cornerAt (viewT s e.tri) (i + 2) now' := by
      intro i hi
      have hs := congrArg EvCore.side he
      dsimp only at hs
      rw [hs] at hi
      split_ifs at hi with q
      · obtain ⟨j, hj⟩ := hj
        have a := hx.three hl (fun i => Option.isNone_iff_eq_none.1 (q i))
        have a1 := a j hj
        have : ∀ z, cornerAt (viewT s e.tri) z now' = cornerAt (viewT s e.tri) j now' := by
          intro z
          rcases (by decide : ∀ z j : Fin 3, z = j ∨ z = j + 1 ∨ z = j + 2) z j with rfl | rfl | rfl
          · rfl
          · exact a1.symm
          · rw [← hj]; exact a1.symm
        rw [this, this (i + 2)]
      · exact (c3 i).1 hi
    refine ⟨⟨fun _ i hi => ?_, fun q => ?_, fun q => ?_⟩, ?_, ?_, fun q => ?_, fun q => ?_, fun q => absurd e1 q⟩
    · show cornerAt _ _ e.time = cornerAt _ _ e.time
      rw [ht]
      exact e2 i hi
    · rw [show e.toEvCore.tp = .edge from e1] at q; cases q
    · rw [show e.toEvCore.tp = .edge from e1] at q; cases q
    · have hs := congrArg EvCore.side he
      dsimp only at hs
      rw [hs]
      split_ifs
      · nofun
      · obtain ⟨j, hj⟩ := hj
        exact List.ne_nil_of_mem ((c3 j).2 hj)
    · have hs := congrArg EvCore.side he
      dsimp only at hs
      rw [hs]
      split_ifs
      · decide
      · unfold newEdgeCollapse at hc
        obtain ⟨d, -, hc⟩ := bind_ok_iff.1 hc
        rw [← Except.ok.inj hc]
        dsimp only
        exact where3_nodup _
    · rw [e1] at q; cases q
    · rw [e1] at q; cases q

/-- so the event is exact -/
theorem exact_announced {S : TId → Prop} {s s' : St K} {e : Event K} {now : K} (hM : Mesh s) (A : Announced s e)
    (ho : Ordinary s s' e) (ht : e.time = now) (hS : S e.tri) (hl : Live s e.tri)
    (hslow : ∀ v k, v < s.nV → s.vert v = .kin k → k.infFast = false) (hx : (∀ i, (s.tri e.tri).neighbours i = none) → ∀ i,
      cornerAt (viewT s e.tri) (i + 1) now = cornerAt (viewT s e.tri) (i + 2) now →
      cornerAt (viewT s e.tri) i now = cornerAt (viewT s e.tri) (i + 1) now)
    (C : Crisp S now s) : Exact s s' e ∧ FlipOnSide s e := by
  subst ht
  have hr := crisp_reaches hM C hS hl hslow
  have meet : e.tp = .edge → ∀ i ∈ e.side, cornerAt (viewT s e.tri) (i + 1) e.time = cornerAt (viewT s e.tri) (i + 2) e.time :=
    A.happens.edge
  refine ⟨⟨ho.slow, fun htp i hi => ?_, fun htp h3 => ?_, fun htp i hi => ?_⟩, fun htp i hi => ?_⟩
  · have hm := meet htp i (by rw [hi]; exact List.mem_singleton_self i)
    refine ⟨cornerAt (viewT s e.tri) (i + 1) e.time, fun j hj => ?_⟩
    rcases (by decide : ∀ z j : Fin 3, z ≠ j → z = j + 1 ∨ z = j + 2) j i hj with rfl | rfl
    · exact hr _
    · rw [hm]; exact hr _
  · have hall : ∀ z, cornerAt (viewT s e.tri) z e.time = cornerAt (viewT s e.tri) 0 e.time := by
      rcases h3 with h3 | h3
      · have m := fun i => meet htp i (all_of_three A.nodup h3 i)
        intro z
        fin_cases z
        · rfl
        · exact (m 2).symm
        · exact m 1
      · obtain ⟨j, hj⟩ := List.exists_mem_of_ne_nil _ A.nonempty
        have hm := meet htp j hj
        have a1 := hx h3 j hm
        have : ∀ z, cornerAt (viewT s e.tri) z e.time = cornerAt (viewT s e.tri) j e.time := by
          intro z
          rcases (by decide : ∀ z j : Fin 3, z = j ∨ z = j + 1 ∨ z = j + 2) z j with rfl | rfl | rfl
          · rfl
          · exact a1.symm
          · rw [← hm]; exact a1.symm
        intro z
        rw [this z, this 0]
    exact ⟨cornerAt (viewT s e.tri) 0 e.time, fun j => by rw [← hall j]; exact hr j⟩
  · refine ⟨_, hr i, fun k a hk ha => ?_⟩
    have him : i ∈ e.side := by rw [hi]; exact List.mem_singleton_self i
    obtain ⟨l, h1, h2⟩ := C78_split _ _ (A.clear htp) A.happens htp i him
    rw [A.split htp i him] at h1
    have : ((viewT s e.tri).v (i + 2)).ul = some (s.line a) := by
      unfold viewT viewOf
      dsimp only
      rw [hk]
      dsimp only
      rw [ha]
      rfl
    rw [this] at h1
    rw [Option.some.inj h1]
    exact h2
  · obtain ⟨r, r0, r1, hr'⟩ := A.happens.flip htp i (by rw [hi]; exact List.mem_singleton_self i)
    have hp : ∀ z, placeAt s ((s.tri e.tri).vertices z) e.time = some (cornerAt (viewT s e.tri) z e.time) := by
      intro z
      obtain ⟨-, k, q⟩ := C.kinetic _ hS hl z
      unfold placeAt
      rw [q, corner_place q]
    exact ⟨_, _, _, r, hp _, hp _, hp _, r0, r1, hr'⟩

/-! ### the whole execution -/

theorem Spec.SharpExecution.prefix {depth : ℕ} {s0 : St K} {n : ℕ} {now : K} {s : St K} {tr : List (Event K × K)}
    (h : SharpExecution depth s0 n now s tr) {m : ℕ} (hm : m ≤ n) {s1 : St K} (h1 : initEventList s0 = .ok ((), s1))
    {x : K} {u : St K} {tr' : List (Event K × K)} (hr : Run depth { s1 with immediate := [] } 0 m x u tr') :
    SharpExecution depth s0 m x u tr' := by
  obtain ⟨⟨o1, o2, s1', o3, -, o4⟩, hl, hc, hf, hs, hst, hcl, hsh⟩ := h
  obtain rfl : s1' = s1 := by rw [h1] at o3; cases o3; rfl
  exact ⟨⟨o1, o2, s1', h1, hr, fun k hk => o4 k (Nat.lt_of_lt_of_le hk hm)⟩, hl, hc, hf, hs, hst,
    fun z hz k hk x u tr hr hi t ht hl hf => (hcl z hz k (hk.trans hm) x u tr hr hi t ht hl hf).imp_left
      (·.prefix hm), fun z hz k hk => hsh z hz k (Nat.lt_of_lt_of_le hk hm)⟩

theorem crisp_start {s0 s1 : St K} (hI : Initial s0) (hM : Mesh s0) (hL : Linked s0)
    (hf : ∀ t ∈ s0.skTriangles, Live s0 t → ∀ i, Kinetic s0 ((s0.tri t).vertices i))
    (h1 : initEventList s0 = .ok ((), s1)) : Crisp (· ∈ s0.skTriangles) 0 { s1 with immediate := [] } := by
  obtain ⟨f1, f2, f3, f4, f5, f6⟩ := start_frame h1
  refine ⟨fun t ht hl i => ?_, fun v k t hv hk ht => ?_, ?_, fun f hf => by cases hf⟩
  · have := hf t ht ⟨f3 ▸ hl.1, (f5 t).symm.trans hl.2⟩ i
    unfold Kinetic at this ⊢
    dsimp only
    rw [f1, f2, f4]
    exact this
  · dsimp only at hv hk
    rw [f1] at hk
    rw [f2] at hv
    rw [(hI.lives v k hv hk).1] at ht
    exact .inl (Option.some.inj ht).symm
  · have := fitsD_start h1 (fitsD_of_linked (S := (· ∈ s0.skTriangles)) (D := fun _ _ => False) hM hL
      fun v ⟨hv, k, hk⟩ => ⟨hv, k, hk, (hI.lives v k hv hk).2.2.1⟩)
    obtain ⟨c, r, F, dead⟩ := this
    exact ⟨c, r, F, fun t i hl hn hd => ⟨(dead t i hl hn hd).1, (dead t i hl hn hd).2.elim⟩⟩

theorem sharp_steady {P : Line2 K → Prop} (hP : Clear P) {depth : ℕ} {s0 : St K} (w : Waves P s0) (a : Arcs s0) :
    ∀ {n : ℕ} {now : K} {s : St K} {tr : List (Event K × K)}, SharpExecution depth s0 n now s tr →
      SteadyExecution depth s0 n now s tr ∧ PlainExecution depth s0 n now s tr ∧ Crisp (· ∈ s0.skTriangles) now s := by
  intro n
  induction n with
  | zero =>
    intro now s tr h
    obtain ⟨hI, hM, s1, h1, hr, -⟩ := id h.ordinary
    refine ⟨⟨h.ordinary, ⟨⟨hI, s1, h1, hr⟩, fun _ _ m hm => absurd hm (Nat.not_lt_zero m)⟩, h.closed, h.slow, h.start,
      fun z hz m hm x u tr' hr' hi t ht hl hk => (h.clear z hz m hm x u tr' hr' hi t ht hl hk).1,
      fun _ _ m hm => absurd hm (Nat.not_lt_zero m)⟩, ⟨h.ordinary, h.linked, fun _ _ m hm => absurd hm (Nat.not_lt_zero m)⟩, ?_⟩
    cases hr
    exact crisp_start hI hM h.linked h.finite h1
  | succ n ih =>
    intro now' s' tr h
    obtain ⟨hI, hM0, s1, h1, hr, ho⟩ := id h.ordinary
    have hr0 := hr
    cases hr with
    | @step _ now _ s _ tr' e hr hs =>
      obtain ⟨hT, hpl, C⟩ := ih (h.prefix (Nat.le_succ n) h1 hr)
      have hSt := steady_standing hP w a hT
      obtain ⟨hi, hM, -⟩ := ordinary_inv hT.ordinary
      obtain ⟨c1, -, -, c4⟩ := w_loopStep hSt.closed hSt.events hs
      have o := ho n (Nat.lt_succ_self n) _ _ _ _ _ _ hr hs
      have sh := h.sharp s1 h1 n (Nat.lt_succ_self n) _ _ _ _ _ _ hr hs
      have ha := execution_arcs hP w a hT.exact
      have hw := execution_waves w hT.exact.execution
      have het : e.time = now' := (wp_ok (i_loopStep depth (n + 1 : ℕ) hi) hs).2.1
      obtain ⟨C', adv⟩ := crisp_advance hT hSt
        (fun q t ht hl hk => (h.clear s1 h1 n (Nat.le_succ n) _ _ _ hr q t ht hl hk).2) hs sh.gaps C
      have ann : Live s e.tri → Announced s e := fun hl => announced hT.ordinary
        (h.clear s1 h1 n (Nat.le_succ n) _ _ _ hr) hs hSt.slow c4 hl sh C
      have hlt : e.tri < s.nT := by
        obtain ⟨s2, h2, -⟩ := loopStep_some hs
        have := (wp_ok (i_takeEvent hi) h2).2.2.2
        rcases takeEvent_run now s with ⟨x, r, -, hx⟩ | ⟨x, r, -, -, hx⟩ | ⟨-, -, hx⟩ <;> rw [hx] at h2 <;> cases h2 <;>
          exact this
      have exf : (s.tri e.tri).stopsAt = none → Exact s s' e ∧ FlipOnSide s e := fun hl =>
        exact_announced hM (ann ⟨hlt, hl⟩) o het c4 ⟨hlt, hl⟩ hSt.slow (sh.three ⟨hlt, hl⟩) C'
      have pl : (s.tri e.tri).stopsAt = none → Plain s e := by
        intro hl
        by_cases q : now' = now
        · exact sh.plain q hl
        · refine plain_running fun i => ?_
          by_contra hn
          obtain ⟨-, -, -, -, -, hd, -⟩ := stopped_side hM (adv q) ⟨hlt, hl⟩ (C.kinetic _ c4 ⟨hlt, hl⟩ i) hn
          exact hd
      -- the iteration that has been looked at is the only one with its number
      have last : ∀ {z m x u tr'' e' x' u'}, initEventList s0 = .ok ((), z) → m < n + 1 →
          Run depth { z with immediate := [] } 0 m x u tr'' → loopStep depth (m + 1 : ℕ) x u = .ok (some (e', x'), u') →
          m < n ∨ x = now ∧ u = s ∧ e' = e ∧ x' = now' ∧ u' = s' := by
        intro z m x u tr'' e' x' u' hz hm hr' hs'
        rcases Nat.lt_succ_iff_lt_or_eq.1 hm with q | rfl
        · exact .inl q
        · rw [h1] at hz
          cases hz
          obtain ⟨rfl, rfl, -⟩ := run_unique hr' hr
          rw [hs] at hs'
          cases hs'
          exact .inr ⟨rfl, rfl, rfl, rfl, rfl⟩
      refine ⟨⟨h.ordinary, ⟨⟨hI, s1, h1, hr0⟩, fun z hz m hm x u tr'' e' x' u' hr' hs' hl => ?_⟩, h.closed, h.slow, h.start,
        fun z hz m hm x u tr' hr' hi t ht hl hk => (h.clear z hz m hm x u tr' hr' hi t ht hl hk).1,
        fun z hz m hm x u tr'' e' x' u' hr' hs' => ?_⟩,
        ⟨h.ordinary, h.linked, fun z hz m hm x u tr'' e' x' u' hr' hs' hl => ?_⟩, ?_⟩
      · rcases last hz hm hr' hs' with q | ⟨rfl, rfl, rfl, rfl, rfl⟩
        · exact hT.exact.exact z hz m q _ _ _ _ _ _ hr' hs' hl
        · exact (exf hl).1
      · rcases last hz hm hr' hs' with q | ⟨rfl, rfl, rfl, rfl, rfl⟩
        · exact hT.events z hz m q _ _ _ _ _ _ hr' hs'
        · exact ⟨fun hl => (exf hl).2, sh.late⟩
      · rcases last hz hm hr' hs' with q | ⟨rfl, rfl, rfl, rfl, rfl⟩
        · exact hpl.plain z hz m q _ _ _ _ _ _ hr' hs' hl
        · exact pl hl
      · have g := g_loopStep _ _ _ _ _ _ hs
        have slow' : ∀ v k, v < s'.nV → s'.vert v = .kin k → k.infFast = false := by
          intro v k hv hk
          by_cases hlt : v < s.nV
          · have hb := g.vert v hlt
            rw [hk] at hb
            cases q : s.vert v with
            | inf o => rw [q] at hb; exact hb.elim
            | kin k0 =>
              rw [q] at hb
              have hb : SameBirth k0 k := hb
              rw [hb.infFast]
              exact hSt.slow v k0 hlt q
          · exact o.slow v k (Nat.le_of_not_lt hlt) hv hk
        obtain ⟨s2, h2, h3⟩ := loopStep_some hs
        obtain ⟨i1, -, -, -⟩ := wp_ok (i_takeEvent hi) h2
        obtain ⟨q, i, rfl, hsub⟩ : ∃ q i, s2 = { s with queue := q, immediate := i } ∧ ∀ f ∈ i, f ∈ s.immediate := by
          rcases takeEvent_run now s with ⟨x, r, hq, hx⟩ | ⟨x, r, -, -, hx⟩ | ⟨-, -, hx⟩ <;> rw [hx] at h2 <;> cases h2
          · exact ⟨_, _, rfl, fun f hf => by rw [hq]; exact List.mem_cons_of_mem _ hf⟩
          · exact ⟨_, _, rfl, fun f hf => hf⟩
        have hM1 : Mesh { s with queue := q, immediate := i } := ⟨hM.consistent, hM.distinct, hM.vertices⟩
        have C1 : Crisp (· ∈ s0.skTriangles) now' { s with queue := q, immediate := i } :=
          ⟨C'.kinetic, C'.started, C'.fits, fun f hf => C'.tight f (hsub f hf)⟩
        subst het
        exact crisp_handleEvent hP i1 hlt c4 hM1 hSt.closed (ha.relinked (Relinked.of_mesh rfl))
          (hw.quiet (quiet_queues s q i)) h3 ⟨o.slow, o.edge, o.flip, o.three⟩
          (fun z => by obtain ⟨a1, a2, a3, a4⟩ := (exf z).1; exact ⟨a1, a2, a3, a4⟩)
          (fun z => ⟨(pl z).edge, (pl z).split, (pl z).three⟩)
          (fun z y => List.eq_nil_iff_forall_not_mem.2 fun f hf => by
            have := hsub f hf
            rw [(ann ⟨hlt, z⟩).early y] at this
            cases this) slow' C1

end Grassfire
