/-
Checks by evaluation of `GoodStart`, `Generic` and `Unambiguous` for concrete states.  Only for examples.
-/
import Verif.Proofs.LinkCheck
import Verif.Proofs.ProgressRun

namespace Grassfire

open Spec

/-- line `ul` of vertex `v` -/
def leftLineOf (s : St ℚ) (v : VId) : Option (Line2 ℚ) :=
  match s.vert v with
  | .kin k => k.ul.map s.line
  | .inf _ => none

/-- line `ur` of vertex `v` -/
def rightLineOf (s : St ℚ) (v : VId) : Option (Line2 ℚ) :=
  match s.vert v with
  | .kin k => k.ur.map s.line
  | .inf _ => none

theorem leftLine_iff {s : St ℚ} {v : VId} {l : Line2 ℚ} : LeftLine s v l ↔ leftLineOf s v = some l := by
  unfold LeftLine leftLineOf
  cases s.vert v with
  | inf o => simp
  | kin k => simp

theorem rightLine_iff {s : St ℚ} {v : VId} {l : Line2 ℚ} : RightLine s v l ↔ rightLineOf s v = some l := by
  unfold RightLine rightLineOf
  cases s.vert v with
  | inf o => simp
  | kin k => simp

def apartCheck [HasTrig ℚ] (a b : Option (Line2 ℚ)) : Bool :=
  match a, b with
  | some l, some r =>
    decide (1 / 10 ^ 10 < |l.w.1 * r.w.2 - r.w.1 * l.w.2|) &&
    decide (1 / 10 ^ 10 < |l.w.1 + r.w.1| ∨ 1 / 10 ^ 10 < |l.w.2 + r.w.2|) &&
    decide (1 / 10 ^ 10 < |HasTrig.acos (max (-1) (min 1 (l.w.1 * r.w.1 + l.w.2 * r.w.2))) - (HasTrig.pi : ℚ)|) &&
    decide ((HasTrig.cosLimit : ℚ) ≤ max (-1) (min 1 (l.w.1 * r.w.1 + l.w.2 * r.w.2)))
  | _, _ => true

theorem apart_of_check [HasTrig ℚ] {a b : Option (Line2 ℚ)} (h : apartCheck a b = true) {l r : Line2 ℚ} (ha : a = some l)
    (hb : b = some r) : Apart l r := by
  subst ha hb
  unfold apartCheck at h
  simp only [Bool.and_eq_true, decide_eq_true_eq] at h
  exact ⟨h.1.1.1, h.1.1.2, h.1.2, h.2⟩

/-- the point at distance `t` of both lines -/
def meetAt (l r : Line2 ℚ) (t : ℚ) : Pt ℚ :=
  (((t - l.b) * r.w.2 - (t - r.b) * l.w.2) / (l.w.1 * r.w.2 - r.w.1 * l.w.2),
   (l.w.1 * (t - r.b) - r.w.1 * (t - l.b)) / (l.w.1 * r.w.2 - r.w.1 * l.w.2))

theorem meetAt_unique {l r : Line2 ℚ} {t : ℚ} {p : Pt ℚ} (h : l.w.1 * r.w.2 - r.w.1 * l.w.2 ≠ 0) (h1 : AtDistance l t p)
    (h2 : AtDistance r t p) : p = meetAt l r t := by
  unfold AtDistance at h1 h2
  refine Prod.ext ?_ ?_
  · show p.1 = _ / _
    rw [eq_div_iff h]
    linear_combination r.w.2 * h1 - l.w.2 * h2
  · show p.2 = _ / _
    rw [eq_div_iff h]
    linear_combination l.w.1 * h2 - r.w.1 * h1

def clearanceCheck (s : St ℚ) (t : TId) (i : Fin 3) (now : ℚ) : Bool :=
  match leftLineOf s ((s.tri t).vertices (i + 1)), rightLineOf s ((s.tri t).vertices (i + 2)) with
  | some l, some r => decide (l.w.1 * r.w.2 - r.w.1 * l.w.2 ≠ 0) &&
    decide (∀ x < s.nV, ((s.tri t).neighbours (i + 1) ≠ none ∧ Points s ((s.tri t).vertices (i + 2)) x ∨
        (s.tri t).neighbours (i + 2) ≠ none ∧ Points s x ((s.tri t).vertices (i + 1))) →
      (match placeAt s x now with
        | some q => decide (1 / 10 ^ 10 < HasSqrt.sqrt (((meetAt l r now).1 - q.1) * ((meetAt l r now).1 - q.1) +
            ((meetAt l r now).2 - q.2) * ((meetAt l r now).2 - q.2)))
        | none => true) = true)
  | _, _ => true

theorem clearance_of_check {s : St ℚ} {t : TId} {i : Fin 3} {now : ℚ} (h : clearanceCheck s t i now = true) :
    Clearance s t i now := by
  intro l r p hl hr p1 p2 x q hq hx
  rw [leftLine_iff] at hl
  rw [rightLine_iff] at hr
  unfold clearanceCheck at h
  rw [hl, hr] at h
  simp only [Bool.and_eq_true, decide_eq_true_eq] at h
  have hb : x < s.nV := by
    rcases hx with ⟨-, _, _, -, b, -⟩ | ⟨-, _, _, b, -⟩ <;> exact b
  have := h.2 x hb hx
  rw [hq] at this
  rw [meetAt_unique h.1 p1 p2]
  simpa using this

def genericCheck [HasTrig ℚ] (s : St ℚ) (e : Event ℚ) : Bool :=
  match e.tp with
  | .edge => (decide (e.side.length = 3) && decide (∀ j, (s.tri e.tri).neighbours j = none)) ||
    (match e.side with
    | [i] => apartCheck (leftLineOf s ((s.tri e.tri).vertices (i + 1))) (rightLineOf s ((s.tri e.tri).vertices (i + 2))) &&
        (decide (∀ j, (s.tri e.tri).neighbours j = none) || (decide ((s.tri e.tri).neighbours i = none) &&
          collapsibleCheck s e.tri i && clearanceCheck s e.tri i e.time))
    | _ => false)
  | .split =>
    (match e.side with
    | [i] => decide ((s.tri e.tri).neighbours i = none ∧ (s.tri e.tri).neighbours (i + 1) ≠ none ∧
          (s.tri e.tri).neighbours (i + 2) ≠ none ∧ Kinetic s ((s.tri e.tri).vertices i)) &&
        apartCheck (leftLineOf s ((s.tri e.tri).vertices i)) (leftLineOf s ((s.tri e.tri).vertices (i + 2))) &&
        apartCheck (rightLineOf s ((s.tri e.tri).vertices (i + 1))) (rightLineOf s ((s.tri e.tri).vertices i))
    | _ => false)
  | .flip =>
    (match e.side with
    | [i] => (match (s.tri e.tri).neighbours i with
      | none => false
      | some n => decide (∀ j, (s.tri n).vertices j ≠ (s.tri e.tri).vertices i))
    | _ => false)

theorem generic_of_check [HasTrig ℚ] {s : St ℚ} {e : Event ℚ} (h : genericCheck s e = true) : Generic s e := by
  unfold genericCheck at h
  refine ⟨fun htp => ?_, fun htp => ?_, fun htp => ?_⟩
  · rw [htp] at h
    simp only [Bool.or_eq_true, Bool.and_eq_true, decide_eq_true_eq] at h
    rcases h with ⟨h1, h2⟩ | h
    · exact .inl ⟨h1, h2⟩
    · split at h
      · rename_i i hi
        simp only [Bool.or_eq_true, Bool.and_eq_true, decide_eq_true_eq] at h
        refine .inr ⟨i, hi, fun l r hl hr => apart_of_check h.1 (leftLine_iff.1 hl) (rightLine_iff.1 hr), h.2.imp_right ?_⟩
        exact fun ⟨⟨q1, q2⟩, q3⟩ => ⟨q1, collapsible_of_check q2, clearance_of_check q3⟩
      · cases h
  · rw [htp] at h
    dsimp only at h
    split at h
    · rename_i i hi
      simp only [Bool.and_eq_true, decide_eq_true_eq] at h
      obtain ⟨⟨⟨a, b, c, d⟩, q1⟩, q2⟩ := h
      exact ⟨i, hi, a, b, c, d, fun l r hl hr => apart_of_check q1 (leftLine_iff.1 hl) (leftLine_iff.1 hr),
        fun l r hl hr => apart_of_check q2 (rightLine_iff.1 hl) (rightLine_iff.1 hr)⟩
    · cases h
  · rw [htp] at h
    dsimp only at h
    split at h
    · rename_i i hi
      split at h
      · cases h
      · rename_i n hn
        refine ⟨i, hi, by rw [hn]; nofun, fun m hm => ?_⟩
        rw [hn] at hm
        cases hm
        exact of_decide_eq_true h
    · cases h

/-- the triangles around `w` have wavefront edges only, after the event -/
def frontOnly (s : St ℚ) (dir : Dir) (t : TId) (j : Fin 3) (other : Option TId) (w : VId) : ℕ → Option TId → Bool
  | _, none => true
  | 0, some _ => false
  | n + 1, some x => decide (∀ i, (if (s.tri t).neighbours j = some x ∧ (s.tri x).neighbours i = some t then other
      else (s.tri x).neighbours i).isNone = true) &&
    decide (∀ k, (s.tri x).vertices k = w → frontOnly s dir t j other w n ((s.tri x).neighbours (dir.fn k)) = true)

/-- the same, starting beyond side `j` -/
def frontFan (s : St ℚ) (dir : Dir) (t : TId) (j : Fin 3) (other : Option TId) (w : VId) : Bool :=
  frontOnly s dir t j other w s.nT ((s.tri t).neighbours j)

/-- all triangles that change have wavefront edges only, after the event -/
def unambiguousCheck (s : St ℚ) (e : Event ℚ) : Bool :=
  match e.tp, e.side with
  | .edge, [i] => frontFan s .ccw e.tri (i + 2) ((s.tri e.tri).neighbours (i + 1)) ((s.tri e.tri).vertices (i + 1)) &&
      frontFan s .cw e.tri (i + 1) ((s.tri e.tri).neighbours (i + 2)) ((s.tri e.tri).vertices (i + 2))
  | .split, [i] => frontFan s .ccw e.tri (i + 1) none ((s.tri e.tri).vertices i) &&
      frontFan s .cw e.tri (i + 2) none ((s.tri e.tri).vertices i)
  | .flip, [_] => false
  | _, _ => true

theorem not_ambiguous_of_front {T : TView ℚ} {now : ℚ} (h : ∀ i, T.noNeighbour i = true) : ¬ Ambiguous T now := by
  rintro ⟨-, -, h0 | h2⟩
  · have := h0.inner 0
    rw [h 0] at this
    cases this
  · obtain ⟨k, hk⟩ := h2.two
    have := (hk k).2 rfl
    rw [h k] at this
    cases this

theorem frontOnly_sound {s : St ℚ} {dir : Dir} {t : TId} {j : Fin 3} {other : Option TId} {w : VId} {ot : Option TId}
    {l : List TId} (hw : FanWalk dir w s.tri ot l) : ∀ n, frontOnly s dir t j other w n ot = true → ∀ x ∈ l, ∀ i,
      (if (s.tri t).neighbours j = some x ∧ (s.tri x).neighbours i = some t then other
        else (s.tri x).neighbours i).isNone = true := by
  induction hw with
  | stop => intro _ _ x hx; cases hx
  | @step y k l hk _ ih =>
    intro n h x hx
    cases n with
    | zero => cases h
    | succ n =>
      unfold frontOnly at h
      rw [Bool.and_eq_true, decide_eq_true_eq, decide_eq_true_eq] at h
      rcases List.mem_cons.1 hx with rfl | hx
      · exact h.1
      · exact ih n (h.2 k hk) x hx

theorem front_of_check {s : St ℚ} {dir : Dir} {t x : TId} {j : Fin 3} {other : Option TId} {w : VId}
    (h : frontFan s dir t j other w = true) {V : VView ℚ} {T : TView ℚ} (hs : Substituted s dir t j other x w V T) {now : ℚ} :
    ¬ Ambiguous T now := by
  refine not_ambiguous_of_front fun i => ?_
  rw [hs.neighbours]
  obtain ⟨l, hl, hx⟩ := hs.fan
  exact frontOnly_sound hl _ h x hx i

theorem unambiguous_of_check {s : St ℚ} {e : Event ℚ} (h : unambiguousCheck s e = true) : Unambiguous s e := by
  intro T hT _
  unfold unambiguousCheck at h
  cases hT with
  | edgeLeft h1 h2 _ _ _ h6 => rw [h1, h2] at h; exact front_of_check (Bool.and_eq_true _ _ ▸ h).1 h6
  | edgeRight h1 h2 _ _ _ h6 => rw [h1, h2] at h; exact front_of_check (Bool.and_eq_true _ _ ▸ h).2 h6
  | splitLeft h1 h2 _ _ _ h6 => rw [h1, h2] at h; exact front_of_check (Bool.and_eq_true _ _ ▸ h).1 h6
  | splitRight h1 h2 _ _ _ h6 => rw [h1, h2] at h; exact front_of_check (Bool.and_eq_true _ _ ▸ h).2 h6
  | flipFirst h1 h2 => rw [h1, h2] at h; cases h
  | flipSecond h1 h2 => rw [h1, h2] at h; cases h

/-- the event that is next -/
def nextOf (s : St ℚ) : Option (Event ℚ) :=
  match s.immediate with
  | e :: _ => some e
  | [] => s.queue.head?

theorem nextOf_eq {s : St ℚ} {e : Event ℚ} (h : NextEvent s e) : nextOf s = some e := by
  unfold nextOf
  rcases h with h | ⟨h1, h2⟩
  · cases q : s.immediate with
    | nil => rw [q] at h; cases h
    | cons a l => rw [q] at h; exact h
  · rw [h1]; exact h2

/-- run `n` iterations from number `m` on, checking the event before each iteration, and the one after the last -/
def genericRun [HasTrig ℚ] (check : St ℚ → Event ℚ → Bool) (depth : ℕ) : ℕ → ℕ → ℚ → St ℚ → Bool
  | 0, _, _, s =>
    (match nextOf s with
      | none => true
      | some e => (s.tri e.tri).stopsAt.isSome || check s e)
  | n + 1, m, now, s =>
    (match nextOf s with
      | none => true
      | some e => (s.tri e.tri).stopsAt.isSome || check s e) &&
    (match loopStep depth (m + 1 : ℕ) now s with
    | .ok (some (_, now'), s') => genericRun check depth n (m + 1) now' s'
    | _ => true)

theorem genericRun_head [HasTrig ℚ] {check : St ℚ → Event ℚ → Bool} {depth n m : ℕ} {now : ℚ} {s : St ℚ}
    (h : genericRun check depth n m now s = true) {e : Event ℚ} (he : NextEvent s e) (hl : Live s e.tri) :
    check s e = true := by
  have key : (match nextOf s with
      | none => true
      | some e => (s.tri e.tri).stopsAt.isSome || check s e) = true := by
    cases n with
    | zero => exact h
    | succ n => unfold genericRun at h; exact (Bool.and_eq_true _ _ ▸ h).1
  rw [nextOf_eq he] at key
  dsimp only at key
  rw [hl.2] at key
  exact key

theorem genericRun_run [HasTrig ℚ] {check : St ℚ → Event ℚ → Bool} {depth : ℕ} {s0 : St ℚ} :
    ∀ (n m : ℕ) {now : ℚ} {s : St ℚ} {tr : List (Event ℚ × ℚ)},
    Run depth s0 0 m now s tr → genericRun check depth n m now s = true → ∀ k, m ≤ k → k ≤ m + n →
      ∀ x u tr' e, Run depth s0 0 k x u tr' → NextEvent u e → Live u e.tri → check u e = true
  | n, m, now, s, tr, hr, h, k, h1, h2 => by
    intro x u tr' e hr' he hl
    rcases Nat.lt_or_eq_of_le h1 with q | rfl
    · cases n with
      | zero => omega
      | succ n =>
        have hex : ∃ e y s', loopStep depth (m + 1 : ℕ) now s = .ok (some (e, y), s') := by
          have : ∀ {k : ℕ} {x : ℚ} {u : St ℚ} {tr' : List (Event ℚ × ℚ)}, Run depth s0 0 k x u tr' → m < k →
              ∃ e y s', loopStep depth (m + 1 : ℕ) now s = .ok (some (e, y), s') := by
            intro k x u tr' hr'
            induction hr' with
            | start => intro q; exact absurd q (Nat.not_lt_zero _)
            | @step k x x' u u' tr' e hr' hs ih =>
              intro q
              rcases Nat.lt_succ_iff_lt_or_eq.1 q with q | rfl
              · exact ih q
              · obtain ⟨rfl, rfl, -⟩ := run_unique hr hr'
                exact ⟨e, x', u', hs⟩
          exact this hr' q
        obtain ⟨e1, y, s1, hs1⟩ := hex
        unfold genericRun at h
        rw [hs1] at h
        rw [Bool.and_eq_true] at h
        exact genericRun_run n (m + 1) (hr.step hs1) h.2 k q (by omega) x u tr' e hr' he hl
    · obtain ⟨rfl, rfl, rfl⟩ := run_unique hr hr'
      exact genericRun_head h he hl

/-! ### the start -/

/-- the left or right neighbour shares the wavefront -/
def sharedCheck (s : St ℚ) (w : Option WfId) (f : KVertex ℚ → Option WfId) (h : Hist ℚ (Option VId)) : Bool :=
  h.all fun x => match x.ref with
    | none => false
    | some u => decide (u < s.nV) && (match s.vert u with
      | .inf _ => false
      | .kin ku => w.isSome && decide (w = f ku))

theorem shared_of_check {s : St ℚ} {w : Option WfId} {f : KVertex ℚ → Option WfId} {h : Hist ℚ (Option VId)}
    (hc : sharedCheck s w f h = true) : ∀ x ∈ h, ∃ u ku z, x.ref = some u ∧ u < s.nV ∧ s.vert u = .kin ku ∧ w = some z ∧
      f ku = some z := by
  intro x hx
  unfold sharedCheck at hc
  rw [List.all_eq_true] at hc
  have := hc x hx
  split at this
  · cases this
  · rename_i u hu
    rw [Bool.and_eq_true, decide_eq_true_eq] at this
    obtain ⟨h1, h2⟩ := this
    split at h2
    · cases h2
    · rename_i ku hk
      rw [Bool.and_eq_true, decide_eq_true_eq] at h2
      obtain ⟨z, hz⟩ := Option.isSome_iff_exists.1 h2.1
      exact ⟨u, ku, z, hu, h1, hk, hz, h2.2 ▸ hz⟩

/-- the vertex stays on the line -/
def trackCheck (l : Line2 ℚ) (k : KVertex ℚ) : Bool :=
  decide (l.w.1 ^ 2 + l.w.2 ^ 2 = 1) && decide (l.w.1 * k.origin.1 + l.w.2 * k.origin.2 + l.b = 0) &&
    decide (l.w.1 * k.velocity.1 + l.w.2 * k.velocity.2 = 1)

theorem track_of_check {l : Line2 ℚ} {k : KVertex ℚ} (h : trackCheck l k = true) :
    l.w.1 ^ 2 + l.w.2 ^ 2 = 1 ∧ ∀ t, AtDistance l t (k.origin.1 + t * k.velocity.1, k.origin.2 + t * k.velocity.2) := by
  unfold trackCheck at h
  simp only [Bool.and_eq_true, decide_eq_true_eq] at h
  refine ⟨h.1.1, fun t => ?_⟩
  unfold AtDistance
  dsimp only
  linear_combination h.1.2 + t * h.2

def motionCheck (s : St ℚ) (k : KVertex ℚ) : Bool :=
  sharedCheck s k.wfl (·.wfr) k.left && sharedCheck s k.wfr (·.wfl) k.right && !k.infFast &&
  (match k.wfl, k.wfr, k.ul, k.ur with
  | some a, some b, some c, some d => decide (c = s.wfLine a) && decide (d = s.wfLine b) && trackCheck (s.line c) k &&
      trackCheck (s.line d) k
  | _, _, _, _ => false)

def goodCheck (s : St ℚ) : Bool :=
  Sample.initialOk s && meshCheck s && linkedCheck s &&
  (List.range s.nV).all fun v => match s.vert v with
    | .inf _ => true
    | .kin k => motionCheck s k

theorem good_of_check {s : St ℚ} (h : goodCheck s = true) : GoodStart s := by
  unfold goodCheck at h
  simp only [Bool.and_eq_true] at h
  obtain ⟨⟨⟨h1, h2⟩, h3⟩, h4⟩ := h
  rw [List.all_eq_true] at h4
  have key : ∀ v k, v < s.nV → s.vert v = .kin k → (sharedCheck s k.wfl (·.wfr) k.left = true ∧
      sharedCheck s k.wfr (·.wfl) k.right = true ∧ k.infFast = false) ∧ ∃ a b c d, k.wfl = some a ∧ k.wfr = some b ∧
      k.ul = some c ∧ k.ur = some d ∧ c = s.wfLine a ∧ d = s.wfLine b ∧ trackCheck (s.line c) k = true ∧
      trackCheck (s.line d) k = true := by
    intro v k hv hk
    have := h4 v (List.mem_range.2 hv)
    rw [hk] at this
    dsimp only at this
    unfold motionCheck at this
    simp only [Bool.and_eq_true, Bool.not_eq_true'] at this
    obtain ⟨⟨⟨q1, q2⟩, q3⟩, q4⟩ := this
    refine ⟨⟨q1, q2, q3⟩, ?_⟩
    split at q4
    · rename_i a b c d z1 z2 z3 z4
      simp only [Bool.and_eq_true, decide_eq_true_eq] at q4
      exact ⟨a, b, c, d, z1, z2, z3, z4, q4.1.1.1, q4.1.1.2, q4.1.2, q4.2⟩
    · cases q4
  refine ⟨Sample.initialOk_sound h1, mesh_of_check h2, linked_of_check h3, ⟨?_, ?_⟩, ?_, ?_, ?_, ?_⟩
  · intro v k hv hk x hx
    obtain ⟨u, ku, z, a, b, c, d, e⟩ := shared_of_check (key v k hv hk).1.1 x hx
    exact ⟨u, ku, z, a, b, c, d, e⟩
  · intro v k hv hk x hx
    obtain ⟨u, ku, z, a, b, c, d, e⟩ := shared_of_check (key v k hv hk).1.2.1 x hx
    exact ⟨u, ku, z, a, b, c, d, e⟩
  · intro v k hv hk
    obtain ⟨-, a, b, c, d, z1, z2, z3, z4, z5, z6, -⟩ := key v k hv hk
    refine ⟨fun w hw => ?_, fun w hw => ?_⟩
    · rw [z1] at hw; cases hw; rw [z3, z5]
    · rw [z2] at hw; cases hw; rw [z4, z6]
  · intro v k hv hk
    obtain ⟨-, a, b, c, d, z1, z2, z3, z4, z5, z6, z7, z8⟩ := key v k hv hk
    exact ⟨c, d, z3, z4, (track_of_check z7).1, (track_of_check z8).1⟩
  · intro v k hv hk _ _ x y hx hy t
    obtain ⟨-, a, b, c, d, z1, z2, z3, z4, z5, z6, z7, z8⟩ := key v k hv hk
    rw [z3] at hx; cases hx
    rw [z4] at hy; cases hy
    exact ⟨(track_of_check z7).2 t, (track_of_check z8).2 t⟩
  · exact fun v k hv hk => (key v k hv hk).1.2.2

end Grassfire
