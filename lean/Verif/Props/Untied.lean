/-
C104: when no two events compete, the ids of the triangles have no influence on the skeleton.
-/
import Verif.Proofs.Paired
import Verif.Props.Ids

set_option linter.unusedSectionVars false

namespace Grassfire

open Spec

variable {K : Type} [Field K] [LinearOrder K] {p q : TId → ℕ} {s s' : St K}

/-- the first event of a queue is not after any other -/
theorem ordered_notAfter {e : Event K} {l : List (Event K)} (h : Ordered p (e :: l)) : ∀ f ∈ e :: l, NotAfter e f := by
  intro f hf
  rcases List.mem_cons.1 hf with rfl | hf
  · exact .inr ⟨rfl, le_rfl⟩
  · rcases (C31_compare_iff p e f).1.1 ((List.pairwise_cons.1 h).1 f hf) with g | ⟨g, g'⟩
    · exact .inl g
    · refine .inr ⟨g, ?_⟩
      rcases g' with g' | ⟨g', -⟩
      · exact g'.le
      · exact g'.ge

theorem alike_takeEvent (h : Twin p q s s') (hu : Untied s) (now : K) :
    Alike p q (takeEvent now s) (takeEvent now s') := by
  obtain ⟨same, hp, perm, ord, ord'⟩ := h
  generalize hQ : s'.queue = Q at *
  subst same
  unfold takeEvent
  dsimp only
  cases hi : s.immediate with
  | cons e r => exact .ok ⟨rfl, hp, perm, ord, ord'⟩
  | nil =>
    dsimp only
    cases hs : s.queue with
    | nil =>
      rw [hs] at perm
      obtain rfl := perm.eq_nil
      exact .ok ⟨by rw [hi], hp, by rw [hs], by rw [hs]; exact .nil, .nil⟩
    | cons e r =>
      cases Q with
      | nil =>
        rw [hs] at perm
        cases perm.symm.eq_nil
      | cons e' r' =>
        have h1 := ordered_notAfter (hs ▸ ord)
        have h2 := ordered_notAfter ord'
        have m1 : e ∈ s.queue := by rw [hs]; exact List.mem_cons_self ..
        have m2 : e' ∈ s.queue := perm.mem_iff.1 (List.mem_cons_self ..)
        have he : e' = e := hu hi e m1 e' m2 (fun f hf => h1 f (hs ▸ hf)) fun f hf => h2 f (perm.mem_iff.2 hf)
        subst he
        rw [hs] at perm ord
        exact .ok ⟨rfl, hp, perm.cons_inv, (List.pairwise_cons.1 ord).2, (List.pairwise_cons.1 ord').2⟩

variable [HasSqrt K] [HasTrig K]

theorem alike_loopStep (hp : p.Injective) (hq : q.Injective) (h : Twin p q s s') (hu : Untied s) (depth : ℕ) (step : ℤ)
    (now : K) : Alike p q (loopStep depth step now s) (loopStep depth step now s') := by
  unfold loopStep
  refine (alike_takeEvent h hu now).bind fun a t t' _ ht => ?_
  cases a with
  | none => exact .ok ht
  | some x => exact (Paired.bind (tw_handleEvent _ _ _) fun _ => Paired.pure _) p q hp hq t t' ht

theorem alike_loop (hp : p.Injective) (hq : q.Injective) {depth : ℕ} {s0 : St K}
    (hu : ∀ n now s tr, Run depth s0 0 n now s tr → Untied s) (fuel : ℕ) {n : ℕ} {now : K} {s s' : St K}
    {tr : List (Event K × K)} (hr : Run depth s0 0 n now s tr) (h : Twin p q s s') :
    Alike p q (loop depth fuel (n : ℤ) now s) (loop depth fuel (n : ℤ) now s') := by
  induction fuel generalizing n now s s' tr with
  | zero =>
    have e1 : s'.immediate = s.immediate := (congrArg St.immediate h.same).trans rfl
    unfold loop
    rw [e1, h.perm.isEmpty_eq]
    split
    · exact .ok h
    · exact .error
  | succ fuel ih =>
    unfold loop
    refine (alike_loopStep hp hq h (hu _ _ _ _ hr) depth _ now).bind fun a t t' hm ht => ?_
    cases a with
    | none => exact .ok ht
    | some x =>
      obtain ⟨e, x⟩ := x
      have hr' := Run.step hr (by exact_mod_cast hm)
      have := ih hr' ht
      push_cast at this
      exact this

theorem alike_runEvents (hp : p.Injective) (hq : q.Injective) {depth : ℕ} (hu : UntiedRun depth s) (h : Twin p q s s') :
    Alike p q (runEvents depth s) (runEvents depth s') := by
  unfold runEvents
  have h1 := tw_initEventList p q hp hq s s' h
  generalize hs1 : initEventList s = x at *
  generalize initEventList s' = y at *
  cases h1 with
  | error => exact .error
  | @ok a s1 s1' ht =>
    dsimp only
    unfold eventLoop
    refine (tw_clearImmediate p q hp hq _ _ ht).bind fun _ s2 s2' e1 ht => ?_
    refine (tw_skelTriangles p q hp hq _ _ ht).bind fun _ s3 s3' e2 ht => ?_
    refine (tw_checkBisectors _ _ p q hp hq _ _ ht).bind fun _ s4 s4' e3 ht => ?_
    refine (tw_checkOrientation _ _ p q hp hq _ _ ht).bind fun _ s5 s5' e4 ht => ?_
    simp only [clearImmediate, Except.ok.injEq, Prod.mk.injEq, true_and] at e1
    simp only [skelTriangles, Except.ok.injEq, Prod.mk.injEq] at e2
    obtain rfl := checkBisectors_same e3
    obtain rfl := checkOrientation_same e4
    obtain ⟨-, rfl⟩ := e2
    subst e1
    have hl := alike_loop hp hq (hu s1 hs1) 50000 (n := 0) Run.start ht
    refine Alike.bind (by exact_mod_cast hl) fun now t t' _ ht => ?_
    refine (tw_skelTriangles p q hp hq _ _ ht).bind fun _ _ _ _ ht => ?_
    exact ((tw_checkAllStopped _ p q hp hq _ _ ht).bind fun _ _ _ _ ht => .ok ht)

/-- C104: if it is always clear which event is the next, then python may number the triangles as it likes:
the same fault occurs, or the same skeleton results. -/
theorem C104_events (hp : s.pyid.Injective) (hq : q.Injective) {depth : ℕ} (hs : s.queue = [])
    (hu : UntiedRun depth s) :
    runEvents depth { s with pyid := q } = (runEvents depth s).map fun r => (r.1, { r.2 with pyid := q }) := by
  have h := alike_runEvents (s' := { s with pyid := q }) hp hq hu
    ⟨rfl, rfl, .refl _, by rw [hs]; exact .nil, by show Ordered q s.queue; rw [hs]; exact .nil⟩
  generalize hx : runEvents depth s = x at *
  generalize hy : runEvents depth { s with pyid := q } = y at *
  cases h with
  | error => rfl
  | @ok now t t' ht =>
    have hq0 : t.queue = [] := by
      unfold runEvents at hx
      split at hx
      · cases hx
      · exact (eventLoop_run hx).2.2.1
    have e : t'.queue = t.queue := by
      have := ht.perm
      rw [hq0] at this
      rw [this.eq_nil, hq0]
    refine congrArg (fun z => Except.ok (now, z)) ?_
    rw [ht.same, e]

theorem initSkeleton_queue {dt : Dt K} {skel : St K} (h : initSkeleton dt p = .ok skel) : skel.queue = [] := by
  obtain ⟨ts, vs, nbr, unwanted, sorted, hd⟩ := initSkeleton_ok h
  rw [hd.state]; rfl

theorem prepare_queue (internal : Bool) (tr : Option (Transform K)) (s : St K) :
    (prepare internal tr s).queue = s.queue := by
  cases internal <;> cases tr <;> rfl

variable [IsStrictOrderedRing K]

/-- C104: for `calc_skel`. -/
theorem C104_calc_skel (hp : p.Injective) (hq : q.Injective) (depth : ℕ)
    (triangulate : List (Pt K) → Except Err (Dt K)) (points : List (Pt K)) (shrink internal : Bool)
    (hu : ∀ pts tr dt skel, shrinkPoints shrink points = .ok (pts, tr) → triangulate pts = .ok dt →
      initSkeleton dt p = .ok skel → UntiedRun depth (prepare internal tr skel)) :
    calcSkel depth q triangulate points shrink internal =
      (calcSkel depth p triangulate points shrink internal).map fun r => (r.1, { r.2 with pyid := q }) := by
  unfold calcSkel
  simp only [bind, Except.bind]
  cases h1 : shrinkPoints shrink points with
  | error e => rfl
  | ok x =>
    simp only [liftE]
    cases h2 : triangulate x.1 with
    | error e => rfl
    | ok dt =>
      simp only [initSkeleton_ids dt p q]
      cases h3 : initSkeleton dt p with
      | error e => rfl
      | ok skel =>
        have hid : (prepare internal x.2 skel).pyid = p := (prepare_pyid internal x.2 skel).trans (initSkeleton_pyid h3)
        simp only [Except.map, prepare_ids]
        have ec : checkStart { prepare internal x.2 skel with pyid := q } = checkStart (prepare internal x.2 skel) := rfl
        simp only [ec]
        cases allE (checkStart (prepare internal x.2 skel)) (prepare internal x.2 skel).skVertices with
        | error e => rfl
        | ok u =>
          exact C104_events (hid ▸ hp) hq ((prepare_queue internal x.2 skel).trans (initSkeleton_queue h3))
            (hu x.1 x.2 dt skel h1 h2 h3)

/-! ### the hypotheses are met -/

theorem untied_of_pairwise {s : St K} (h : s.queue.Pairwise fun e f => e.time ≠ f.time ∨ e.triTp ≠ f.triTp) : Untied s := by
  intro _ e he e' he' h1 h2
  by_contra hne
  have : Std.Symm fun e f : Event K => e.time ≠ f.time ∨ e.triTp ≠ f.triTp :=
    ⟨fun _ _ hR => hR.imp Ne.symm Ne.symm⟩
  have := h.forall he he' (Ne.symm hne)
  rcases h1 e' he' with a | ⟨a, b⟩
  · rcases h2 e he with c | ⟨c, -⟩
    · exact absurd c a.not_gt
    · exact a.ne' c
  · rcases h2 e he with c | ⟨-, d⟩
    · exact c.ne' a
    · rcases this with t | t
      · exact t a
      · exact t (le_antisymm d b)

theorem stateAt_none {depth : ℕ} {s1 : St ℚ} {m n : ℕ} (h : stateAt depth s1 m = none) (hmn : m ≤ n) :
    stateAt depth s1 n = none := by
  induction n, hmn using Nat.le_induction with
  | base => exact h
  | succ n _ ih => unfold stateAt; rw [ih]

/-- check that it is clear which event is next, in the first `n` iterations, which are all -/
theorem untiedRun_of_check {depth n : ℕ} {s0 : St ℚ} (h : (List.range n).all (fun m =>
      ((stateAt depth { Sample.after initEventList s0 with immediate := [] } m).all fun r =>
        decide (r.2.queue.Pairwise fun e f => e.time ≠ f.time ∨ e.triTp ≠ f.triTp))) = true)
    (hn : (stateAt depth { Sample.after initEventList s0 with immediate := [] } n).isNone = true) :
    UntiedRun depth s0 := by
  intro s1 h1 m now s tr hr
  have e1 : Sample.after initEventList s0 = s1 := by unfold Sample.after; rw [h1]
  rw [e1] at h hn
  have hs := stateAt_run hr
  by_cases hm : m < n
  · have := List.all_eq_true.1 h m (List.mem_range.2 hm)
    rw [hs] at this
    exact untied_of_pairwise (of_decide_eq_true this)
  · rw [stateAt_none (Option.isNone_iff_eq_none.1 hn) (not_lt.1 hm)] at hs
    cases hs

/-- the opposite order for the first 100 triangles -/
def Sample.backwards (t : ℕ) : ℕ := if t < 100 then 99 - t else t

theorem Sample.backwards_injective : Function.Injective Sample.backwards := by
  intro a b h
  unfold Sample.backwards at h
  split_ifs at h <;> omega

/-- the pentagon with a notch: all events are at different times, and it does not matter where the triangles are -/
example : UntiedRun 100 Sample.notchStart ∧
    runEvents 100 { Sample.notchStart with pyid := Sample.backwards } =
      (runEvents 100 Sample.notchStart).map fun r => (r.1, { r.2 with pyid := Sample.backwards }) := by
  have hu : UntiedRun 100 Sample.notchStart := untiedRun_of_check (n := 5) (by decide +kernel) (by decide +kernel)
  have hp : Sample.notchStart.pyid = id := (prepare_pyid true none _).trans (initSkeleton_pyid Sample.notchSkeleton_ok)
  refine ⟨hu, C104_events (hp ▸ Function.injective_id) Sample.backwards_injective ?_ hu⟩
  exact (prepare_queue true none _).trans (initSkeleton_queue Sample.notchSkeleton_ok)

/-- the wedge, by `calc_skel` -/
example : ∃ now s, calcSkel 100 Sample.backwards Sample.triangulate Sample.wedgePoints true true = .ok (now, s) ∧
    (segments s).toOption.map (·.map (·.1)) =
      some [((0, 0), (1, 1)), ((3, 0), (5 / 2, 1 / 2)), ((3, 3 / 4), (5 / 2, 1 / 2)), ((0, 3), (1, 1)), ((5 / 2, 1 / 2), (1, 1))] := by
  have hu : UntiedRun 100 Sample.smallStart := untiedRun_of_check (n := 3) (by decide +kernel) (by decide +kernel)
  have hc := C104_calc_skel (p := id) (fun a b h => h) Sample.backwards_injective 100 Sample.triangulate
    Sample.wedgePoints true true fun pts tr dt skel h1 h2 h3 => by
      rw [Sample.small_points] at h1
      obtain ⟨rfl, rfl⟩ := Prod.mk.inj (Except.ok.inj h1)
      rw [Sample.small_triangulate] at h2
      obtain rfl := Except.ok.inj h2
      rw [Sample.smallSkeleton_ok] at h3
      obtain rfl := Except.ok.inj h3
      exact hu
  have hok : (match calcSkel 100 id Sample.triangulate Sample.wedgePoints true true with
    | .ok (_, s) => (segments { s with pyid := Sample.backwards }).toOption.map (·.map (·.1))
    | .error _ => none) = some [((0, 0), (1, 1)), ((3, 0), (5 / 2, 1 / 2)), ((3, 3 / 4), (5 / 2, 1 / 2)), ((0, 3), (1, 1)), ((5 / 2, 1 / 2), (1, 1))] := by decide +kernel
  rw [hc]
  split at hok
  · rename_i now s e
    rw [e]
    exact ⟨now, _, rfl, hok⟩
  · cases hok

end Grassfire
