/-
Progress of the event loop (lemmas for C87): executions.
-/
import Verif.Proofs.ReadyRun
import Verif.Proofs.WavefrontInit
import Verif.Proofs.InvLoop
import Verif.Proofs.LinkRun
import Verif.Proofs.SharpExact

set_option linter.unusedSectionVars false

namespace Grassfire

open Spec

variable {K : Type} [Field K] [LinearOrder K] [IsStrictOrderedRing K] [HasSqrt K]

variable {s s' : St K} {P : Line2 K → Prop}

theorem Ready.queues (R : Ready P s) (q i : List (Event K)) : Ready P { s with queue := q, immediate := i } :=
  ⟨mesh_same R.mesh rfl le_rfl rfl, R.undead, R.waves.quiet (quiet_queues s q i), R.slow⟩

theorem Spec.GoodStart.ready (h : GoodStart s) : Ready (fun l => l.w.1 ^ 2 + l.w.2 ^ 2 = 1) s :=
  ⟨h.mesh, fitsD_of_linked h.mesh h.linked fun v ⟨hv, k, hk⟩ => ⟨hv, k, hk, (h.initial.lives v k hv hk).2.2.1⟩,
    ⟨h.shared, h.own, fun _ q => q, h.lines, h.motion⟩, h.slow⟩

theorem Ready.follow (R : Ready P s) {t : TId} (hl : Live s t) : Followable (viewT s t) := by
  refine ⟨fun i => R.slowView (R.mesh.vertices t hl.1 i), fun i hi => ?_, fun i hi => ?_⟩
  · change (viewOf s ((s.tri t).vertices i)).kinetic = false at hi
    show (viewOf s ((s.tri t).vertices i)).velocity = (0, 0)
    unfold viewOf at hi ⊢
    cases q : s.vert ((s.tri t).vertices i) with
    | inf o => rfl
    | kin k => rw [q] at hi; cases hi
  · have := R.side hl (Option.isNone_iff_eq_none.1 hi)
    exact this

variable [HasTrig K]

theorem Spec.Generic.queues {e : Event K} (h : Generic s e) (q i : List (Event K)) :
    Generic { s with queue := q, immediate := i } e :=
  ⟨h.edge, h.split, h.flip⟩

theorem Spec.Substituted.queues {q i : List (Event K)} {d : Dir} {t x : TId} {j : Fin 3} {o : Option TId} {w : VId} {V : VView K}
    {T : TView K} (h : Substituted { s with queue := q, immediate := i } d t j o x w V T) : Substituted s d t j o x w V T :=
  ⟨h.fan, h.live, h.distinct, h.corner, h.vertices, h.neighbours⟩

theorem Spec.Renewed.queues {q i : List (Event K)} {e : Event K} {T : TView K}
    (h : Renewed { s with queue := q, immediate := i } e T) : Renewed s e T := by
  cases h with
  | edgeLeft h1 h2 h3 h4 h5 h6 => exact .edgeLeft h1 h2 h3 h4 h5 h6.queues
  | edgeRight h1 h2 h3 h4 h5 h6 => exact .edgeRight h1 h2 h3 h4 h5 h6.queues
  | splitLeft h1 h2 h3 h4 h5 h6 => exact .splitLeft h1 h2 h3 h4 h5 h6.queues
  | splitRight h1 h2 h3 h4 h5 h6 => exact .splitRight h1 h2 h3 h4 h5 h6.queues
  | flipFirst h1 h2 h3 h4 h5 h6 h7 h8 h9 h10 => exact .flipFirst h1 h2 h3 h4 h5 h6 h7 h8 h9 h10
  | flipSecond h1 h2 h3 h4 h5 h6 h7 h8 h9 h10 => exact .flipSecond h1 h2 h3 h4 h5 h6 h7 h8 h9 h10

theorem takeEvent_next (now : K) (s : St K) :
    takeEvent now s = .ok (none, s) ∧ s.immediate = [] ∧ s.queue = [] ∨
    ∃ e now' q i, NextEvent s e ∧ takeEvent now s = .ok (some (e, now'), { s with queue := q, immediate := i }) := by
  rcases takeEvent_run now s with ⟨e, r, hi, he⟩ | ⟨e, r, hi, hq, he⟩ | ⟨h1, h2, he⟩
  · exact .inr ⟨e, now, s.queue, r, .inl (by rw [hi]; rfl), he⟩
  · refine .inr ⟨e, e.time, r, s.immediate, .inr ⟨hi, by rw [hq]; rfl⟩, he⟩
  · exact .inl ⟨he, h1, h2⟩

theorem nextEvent_unique {e f : Event K} (he : NextEvent s e) (hf : NextEvent s f) : e = f := by
  rcases he with h | ⟨h1, h2⟩ <;> rcases hf with g | ⟨g1, g2⟩
  · rw [h] at g; exact Option.some.inj g
  · rw [g1] at h; cases h
  · rw [h1] at g; cases g
  · rw [h2] at g2; exact Option.some.inj g2

variable [SqrtUnit K]

theorem safe_initEventList (R : Ready P s) (hsk : ∀ t ∈ s.skTriangles, t < s.nT) {E : Err → Prop}
    (hE : ∀ t ∈ s.skTriangles, Ambiguous (viewT s t) 0 → E .valueError) : Safe E initEventList s := by
  have all : ∀ (l : List TId) (s1 : St K), SameCore s s1 → (∀ t ∈ l, t ∈ s.skTriangles) →
      Safe E (forEach initEvent l) s1 := by
    intro l
    induction l with
    | nil => intro s1 _ _; exact safe_pure _
    | cons t l ih =>
      intro s1 hc hl
      have ht := hl t List.mem_cons_self
      refine safe_bind ?_ fun u s2 h2 => ih s2 (sameCorePre.trans _ _ _ hc (c_initEvent t _ _ _ h2))
        fun x hx => hl x (List.mem_cons_of_mem _ hx)
      refine safe_bind ?_ fun _ _ _ => safe_addEvent _
      have e := viewT_core hc t
      by_cases q : (s.tri t).stopsAt = none
      · exact safe_computeCollapseTime (by rw [e]; exact R.follow ⟨hsk t ht, q⟩) (by rw [e]; exact hE t ht)
      · refine safe_bind (safe_triView t) fun T s2 h2 => ?_
        obtain ⟨-, rfl, rfl⟩ := triView_run_ok.1 h2
        refine safe_bind (safe_lift fun err he => ?_) fun c s2 h2 => safe_storeEvent _ _
        exfalso
        have hst : (viewT s1 t).stopped = true := by
          rw [e]
          show (s.tri t).stopsAt.isSome = true
          exact Option.isSome_iff_ne_none.2 q
        change computeCollapse (viewT s1 t) 0 .gt = _ at he
        unfold computeCollapse at he
        rw [if_pos hst] at he
        cases he
  refine safe_bind (safe_ok rfl) fun _ s1 h1 => ?_
  cases h1
  refine safe_bind (safe_ok rfl) fun _ s1 h1 => ?_
  cases h1
  exact all _ _ rfl fun t ht => ht

theorem ready_loopStep (R : Ready P s) {depth : ℕ} {step : ℤ} {now : K}
    (hg : ∀ e, NextEvent s e → Live s e.tri → Generic s e) {x : Option (Event K × K)}
    (h : loopStep depth step now s = .ok (x, s')) : Ready P s' := by
  unfold loopStep at h
  obtain ⟨a, s1, h1, h⟩ := bind_run_ok.1 h
  rcases takeEvent_next now s with ⟨q, -, -⟩ | ⟨e, now', q, i, hn, ht⟩
  · rw [q] at h1
    cases h1
    obtain ⟨-, rfl⟩ := pure_run_ok.1 h
    exact R
  · rw [ht] at h1
    cases h1
    obtain ⟨u, s2, h2, h⟩ := bind_run_ok.1 h
    obtain ⟨-, rfl⟩ := pure_run_ok.1 h
    exact ready_handleEvent (R.queues q i) (fun hl => (hg e hn hl).queues q i) h2

theorem loopStep_progress (R : Ready P s) {N : Prop} {depth : ℕ} {step : ℤ} {now : K} (hI : Inv N now s)
    (hg : ∀ e, NextEvent s e → Live s e.tri → Generic s e) {f : Fault} (h : loopStep depth step now s = .error f) :
    f = .py .valueError ∧ ∃ e T, NextEvent s e ∧ Live s e.tri ∧ Renewed s e T ∧ Followable T ∧ Ambiguous T e.time := by
  have hw := i_loopStep depth step hI
  unfold wp at hw
  rw [h] at hw
  cases f with
  | py err =>
    have hS : Safe (fun x => x = .valueError ∧ ∃ e T, NextEvent s e ∧ Live s e.tri ∧ Renewed s e T ∧ Followable T ∧
        Ambiguous T e.time) (loopStep depth step now) s := by
      unfold loopStep
      rcases takeEvent_next now s with ⟨q, -, -⟩ | ⟨e, now', q, i, hn, ht⟩
      · refine safe_bind (safe_ok q) fun a s1 h1 => ?_
        rw [q] at h1
        cases h1
        exact safe_pure _
      · refine safe_bind (safe_ok ht) fun a s1 h1 => ?_
        have hI1 := wp_ok (i_takeEvent hI) ht
        obtain ⟨hI1, htime, -, hlt⟩ := hI1
        rw [ht] at h1
        cases h1
        refine safe_bind ?_ fun _ _ _ => safe_pure _
        subst htime
        by_cases hl : Live s e.tri
        · exact safe_handleEvent (R.queues q i) hI1 (fun hl => (hg e hn hl).queues q i)
            fun T hf ha hr => ⟨rfl, e, T, hn, hl, hr.queues, hf, ha⟩
        · intro err herr
          exfalso
          unfold handleEvent at herr
          rw [bind_run, show getT e.tri { s with queue := q, immediate := i } = .ok (s.tri e.tri, _) from
            getT_run_ok.2 ⟨hlt, rfl, rfl⟩] at herr
          dsimp only at herr
          rw [if_pos (by
            by_contra z
            exact hl ⟨hlt, by rw [Option.isSome_iff_ne_none, ne_eq, not_not] at z; exact z⟩)] at herr
          cases herr
    obtain ⟨rfl, q⟩ := hS err h
    exact ⟨rfl, q⟩
  | _ => cases hw

theorem ready_run {depth : ℕ} {s0 : St K} {now0 : K} {n : ℕ} {now : K} {s : St K} {tr : List (Event K × K)}
    (hr : Run depth s0 now0 n now s tr) (R : Ready P s0)
    (hg : ∀ m < n, ∀ x u tr' e, Run depth s0 now0 m x u tr' → NextEvent u e → Live u e.tri → Generic u e) :
    Ready P s := by
  induction hr with
  | start => exact R
  | @step n now now' s s' tr e hr hs ih =>
    exact ready_loopStep (ih fun m hm => hg m (Nat.lt_succ_of_lt hm)) (fun f => hg n (Nat.lt_succ_self n) _ _ _ f hr) hs

theorem ready_start {s0 s1 : St K} (h : GoodStart s0) (h1 : initEventList s0 = .ok ((), s1)) :
    Ready (fun l => l.w.1 ^ 2 + l.w.2 ^ 2 = 1) { s1 with immediate := [] } ∧
    Inv (Numbered s0) 0 { s1 with immediate := [] } := by
  obtain ⟨f1, f2, f3, f4, f5, f6⟩ := start_frame h1
  have R := h.ready
  obtain ⟨hI1, hM1, -, -⟩ := fresh_start True h.initial h.mesh h1
  refine ⟨⟨?_, fitsD_start h1 R.undead, ?_, fun v k hv hk => ?_⟩, ?_⟩
  · exact hM1
  · exact (R.waves.quiet (q_initEventList _ _ _ h1)).quiet (quiet_queues s1 s1.queue [])
  · dsimp only at hv hk
    exact R.slow v k (f2 ▸ hv) (f1 ▸ hk)
  · exact hI1

end Grassfire
