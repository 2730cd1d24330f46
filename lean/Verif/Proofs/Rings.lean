/-
The wavefront at a given time (lemmas for C94).
-/
import Verif.Proofs.Since
import Verif.Proofs.Euler
import Verif.Props.Ending
import Verif.Spec.Rings

set_option linter.unusedSectionVars false

namespace Grassfire

open Spec

variable {K : Type} [Field K] [LinearOrder K] [IsStrictOrderedRing K] [HasSqrt K] [SqrtUnit K] [HasTrig K]

/-! ### histories -/

/-- in terms of what is kept, a history tells the last neighbour that was assigned in time -/
theorem histOk_at {now : K} {h : Hist K (Option VId)} (hh : HistOk now h) (t : K) :
    h.at t = (((h.map fun i => (i.start, i.ref)).filter fun x => decide (x.1 ≤ t)).getLast?).map (·.2) := by
  have e := histOk_mkHist hh.gapless hh.openEnded
  conv_lhs => rw [e]
  rw [mkHist_at _ (by rw [List.pairwise_map]; exact hh.ordered)]

/-- what is appended later does not matter -/
theorem hist_at_append {now now' : K} {h h' : Hist K (Option VId)} (hh : HistOk now h) (hh' : HistOk now' h') {x : K}
    {l : List (K × Option VId)} (e : (h'.map fun i => (i.start, i.ref)) = (h.map fun i => (i.start, i.ref)) ++ l)
    (hl : ∀ i ∈ l, x < i.1) : h'.at x = h.at x := by
  rw [histOk_at hh, histOk_at hh', e, List.filter_append]
  have : l.filter (fun i => decide (i.1 ≤ x)) = [] := by
    rw [List.filter_eq_nil_iff]
    intro i hi
    simpa using hl i hi
  rw [this, List.append_nil]

/-- from now on, the history tells the present neighbour -/
theorem hist_at_now {now : K} {h : Hist K (Option VId)} (hh : HistOk now h) {x : K} (hx : now ≤ x) : h.at x = h.last := by
  rw [histOk_at hh, List.filter_eq_self.2, List.getLast?_map, Option.map_map]
  · rfl
  · intro a ha
    obtain ⟨i, hi, rfl⟩ := List.mem_map.1 ha
    simpa using (hh.past i hi).trans hx

/-- one iteration of the loop does everything at its time -/
theorem si_iteration {depth : ℕ} {step : ℤ} {now now' : K} {s s' : St K} {e : Event K} {N : Prop} (hI : Inv N now s)
    (h : loopStep depth step now s = .ok (some (e, now'), s')) : Since (· = now') s s' := by
  have ht : e.time = now' := (wp_ok (i_loopStep depth step hI) h).2.1
  obtain ⟨s1, h1, h2⟩ := loopStep_some h
  have a : Since (· = now') s s1 := by
    rcases takeEvent_run now s with ⟨x, r, -, hx⟩ | ⟨x, r, -, -, hx⟩ | ⟨-, -, hx⟩ <;> rw [hx] at h1 <;> cases h1 <;>
      exact since_same rfl rfl
  have b := si_handleEvent depth e step s1 _ s' h2
  rw [ht] at b
  exact sincePre.trans _ _ _ a b

/-- The last state up to time `x`: nothing is due until after `x`, and all that is done later is done after `x`. -/
theorem settled_state {depth : ℕ} {s0 : St K} {n : ℕ} {now : K} {s : St K} {tr : List (Event K × K)} {N : Prop}
    (hr : Run depth s0 0 n now s tr) (hI : Inv N 0 s0) {x : K} (hx : 0 ≤ x) (hs : Settled s now x) :
    ∃ m ≤ n, ∃ y u tr', Run depth s0 0 m y u tr' ∧ y ≤ x ∧ u.immediate = [] ∧ (∀ f ∈ u.queue, x < f.time) ∧
      Since (x < ·) u s ∧ Grows u s := by
  induction hr with
  | start =>
    obtain ⟨h1, h2⟩ := hs.resolve_left (not_lt.2 hx)
    exact ⟨0, le_rfl, 0, s0, [], .start, hx, h1, h2, sincePre.refl _, growsPre.refl _⟩
  | @step n now now' s s' tr e hr h ih =>
    have hI1 := (run_inv hr hI).1
    have hS := si_iteration hI1 h
    have hG := g_loopStep _ _ _ _ _ _ h
    by_cases c : now' ≤ x
    · obtain ⟨h1, h2⟩ := hs.resolve_left (not_lt.2 c)
      exact ⟨n + 1, le_rfl, now', s', _, .step hr h, c, h1, h2, sincePre.refl _, growsPre.refl _⟩
    · push Not at c
      have hs' : Settled s now x := by
        rcases taken_min hI1 h with q | ⟨q1, q2⟩
        · exact .inl (q ▸ c)
        · exact .inr ⟨q1, fun f hf => lt_of_lt_of_le c (q2 f hf)⟩
      obtain ⟨m, hm, y, u, tr', r1, r2, r3, r4, r5, r6⟩ := ih hs'
      exact ⟨m, hm.trans (Nat.le_succ n), y, u, tr', r1, r2, r3, r4,
        sincePre.trans _ _ _ r5 (hS.mono fun t q => by rw [q]; exact c), growsPre.trans _ _ _ r6 hG⟩

/-! ### general position -/

/-- Of the moving vertices of the skeleton each has one on its left and one on its right, and these agree. -/
theorem front_rings {s : St K} (hM : Mesh s) (hL : Linked s) (hP : Populated s)
    (hr : ∀ t ∈ s.skTriangles, Live s t → ∀ i, Running s ((s.tri t).vertices i)) {v : VId} (hv : v ∈ s.skVertices)
    (hv' : Running s v) :
    (∃ t ∈ s.skTriangles, ∃ i b, FrontSide s t i v b ∧ b ∈ s.skVertices ∧ Running s b ∧ Points s v b) ∧
    (∃ t ∈ s.skTriangles, ∃ i a, FrontSide s t i a v ∧ a ∈ s.skVertices ∧ Running s a ∧ Points s a v) := by
  classical
  have next : ∀ v ∈ s.skVertices, Running s v →
      ∃ t ∈ s.skTriangles, ∃ i b, FrontSide s t i v b ∧ b ∈ s.skVertices ∧ Running s b ∧ Points s v b := by
    intro v hv hv'
    obtain ⟨t, ht, hl, i, hi⟩ := hP.held v hv hv'
    obtain ⟨l, hw⟩ := hL.fans t hl i (hr t ht hl i).kinetic
    rw [hi] at hw
    obtain ⟨u, hu, k, hk, hn⟩ := fanWalk_last hw (by cases hw; exact List.cons_ne_nil _ _)
    have hT := FanWalk.turns hM.consistent hw t rfl hl
    have har := hw.around (P' := Live s) (s' := s) (kv := v) (fun _ _ _ q => q) (fun x hx => (hT x hx).1)
      (fun _ _ _ _ q _ => q) t rfl u hu
    have hmem : u ∈ s.skTriangles := by
      have : ∀ x y, Relation.ReflTransGen (Beside s v) x y → x ∈ s.skTriangles → y ∈ s.skTriangles := by
        intro x y h hx
        induction h with
        | refl => exact hx
        | tail _ h ih =>
          obtain ⟨-, i, j, -, -, h⟩ := h
          exact hP.closed _ i _ ih h
      exact this t u har ht
    have hlu := (hT u hu).1
    have hf : FrontSide s u (k + 2) v ((s.tri u).vertices (k + 2 + 2)) := by
      refine ⟨hlu, hn, ?_, rfl⟩
      rw [fin3_add_2_1]
      exact hk
    refine ⟨u, hmem, k + 2, _, hf, hP.corners u hmem hlu _ (hr u hmem hlu _).kinetic, hr u hmem hlu _, ?_⟩
    exact (hL.points _ _ _ _ hf).resolve_right fun q => q.1 hv'
  refine ⟨next v hv hv', ?_⟩
  let A := {v // v ∈ s.skVertices ∧ Running s v}
  have hfin : Finite A := by
    have : Finite {v // v ∈ s.skVertices} := (List.finite_toSet s.skVertices).to_subtype
    exact Finite.of_injective (fun a : A => (⟨a.1, a.2.1⟩ : {v // v ∈ s.skVertices})) fun a b h => by
      have := congrArg Subtype.val h
      exact Subtype.ext this
  have nx : ∀ a : A, ∃ b : A, (∃ t ∈ s.skTriangles, ∃ i, FrontSide s t i a.1 b.1) ∧ Points s a.1 b.1 := fun a => by
    obtain ⟨t, ht, i, b, h1, h2, h3, h4⟩ := next a.1 a.2.1 a.2.2
    exact ⟨⟨b, h2, h3⟩, ⟨t, ht, i, h1⟩, h4⟩
  choose f hf using nx
  have inj : Function.Injective f := by
    intro a b h
    obtain ⟨-, kb, -, -, -, e1, -, e2⟩ := (hf a).2
    obtain ⟨-, kb', -, -, -, e1', -, e2'⟩ := (hf b).2
    rw [← h, e1] at e1'
    cases e1'
    rw [e2] at e2'
    exact Subtype.ext (Option.some.inj e2')
  obtain ⟨a, ha⟩ := (Finite.injective_iff_surjective.1 inj) ⟨v, hv, hv'⟩
  obtain ⟨⟨t, ht, i, h1⟩, h2⟩ := hf a
  rw [ha] at h1 h2
  exact ⟨t, ht, i, a.1, h1, a.2.1, a.2.2, h2⟩

variable {dt : Dt K} {depth : ℕ} {skel s0 : St K} {n : ℕ} {now : K} {s s1 : St K} {trace : List (Event K × K)}

/-- from one state of a run to a later one -/
theorem run_between {depth : ℕ} {s0 : St K} {now0 x : K} {m : ℕ} {u : St K} {tr' : List (Event K × K)}
    (hu : Run depth s0 now0 m x u tr') : ∀ {n : ℕ} {now : K} {w : St K} {tr : List (Event K × K)},
      Run depth s0 now0 n now w tr → m ≤ n → Grows u w := by
  intro n now w tr hr hm
  induction hr with
  | start =>
    obtain rfl : m = 0 := Nat.le_zero.1 hm
    cases hu
    exact growsPre.refl _
  | @step n now now' a b tr e hr hs ih =>
    by_cases c : m = n + 1
    · subst c
      obtain ⟨-, rfl, -⟩ := run_unique (Run.step hr hs) hu
      exact growsPre.refl _
    · exact growsPre.trans _ _ _ (ih (by omega)) (g_loopStep _ _ _ _ _ _ hs)

/-- what has been decided about the ends and the number of the arcs stays -/
theorem arcs_kept {depth n m : ℕ} {s0 s s1 u : St K} {now x : K} {tr tr' : List (Event K × K)}
    (h : LoneExecution depth s0 n now s tr) (h1 : initEventList s0 = .ok ((), s1)) (hm : m ≤ n)
    (hu : Run depth { s1 with immediate := [] } 0 m x u tr') :
    (∀ v ∈ u.skVertices, ∀ b, endOf u v = some b → endOf s v = some b) ∧
    (∀ v ∈ s.skVertices, v < u.nV → v ∈ u.skVertices) := by
  obtain ⟨s1', h1', hr, hg⟩ := h.generic.run
  rw [h1] at h1'
  cases h1'
  induction n generalizing now s tr with
  | zero =>
    obtain rfl : m = 0 := Nat.le_zero.1 hm
    obtain ⟨-, rfl, -⟩ := run_unique hr hu
    exact ⟨fun _ _ _ q => q, fun _ q _ => q⟩
  | succ n ih =>
    by_cases c : m = n + 1
    · subst c
      obtain ⟨-, rfl, -⟩ := run_unique hr hu
      exact ⟨fun _ _ _ q => q, fun _ q _ => q⟩
    cases hr with
    | @step _ now0 _ w _ tr0 e hr hs =>
      have hw : LoneExecution depth s0 n now0 w tr0 :=
        ⟨⟨h.generic.start, s1, h1, hr, fun k hk => hg k (hk.trans (Nat.le_succ n))⟩, h.populated,
          fun z hz k hk => h.alone z hz k (hk.trans (Nat.le_succ n))⟩
      have hmn : m ≤ n := by omega
      obtain ⟨i1, i2⟩ := ih hw hmn hr fun k hk => hg k (hk.trans (Nat.le_succ n))
      obtain ⟨-, hI, -⟩ := hw.generic.ready
      have hnV : u.nV ≤ w.nV := by
        exact (run_between hu hr hmn).nV
      obtain ⟨j1, j2⟩ := C88_event hw hs
      have sub : ∀ v ∈ u.skVertices, v ∈ w.skVertices := by
        exact fun v hv => (run_between hu hr hmn).skVertices.subset hv
      by_cases q : ¬ Live w e.tri ∨ e.tp = .flip
      · have U := j1 q
        exact ⟨fun v hv b hb => by rw [U.sameEnd v (sub v hv)]; exact i1 v hv b hb,
          fun v hv hlt => i2 v (by rw [← U.vertices]; exact hv) hlt⟩
      · push Not at q
        obtain ⟨gone, made, J⟩ := j2 q.1 q.2
        refine ⟨fun v hv b hb => ?_, fun v hv hlt => ?_⟩
        · have e1 := i1 v hv b hb
          rw [J.sameEnd v (sub v hv) fun hg' => ?_]
          · exact e1
          · rw [(J.before v hg').2] at e1; cases e1
        · rw [J.vertices] at hv
          rcases List.mem_append.1 hv with hv | hv
          · exact i2 v hv hlt
          · exfalso
            have f1 := (J.fresh v hv).1
            have hG := (g_loopStep _ _ _ _ _ _ hs).vert v (lt_of_lt_of_le hlt hnV)
            unfold beginOf at f1
            cases e1 : s.vert v with
            | inf o => rw [e1] at f1; cases f1
            | kin k =>
              rw [e1] at f1 hG
              cases e2 : w.vert v with
              | inf o => rw [e2] at hG; exact hG.elim
              | kin k' =>
                rw [e2] at hG
                obtain ⟨-, ⟨a, ha, q⟩, -⟩ := hI.lives v k' (lt_of_lt_of_le hlt hnV) e2
                dsimp only at f1
                rw [SameBirth.startNode hG, q] at f1
                cases f1
                exact absurd (hI.refs.skNodes _ ha) (lt_irrefl _)

end Grassfire
