/-
Checks by evaluation of `Linked` and `Plain` for concrete states.  Only for examples.
-/
import Verif.Props.Freshness
import Verif.Spec.Links

namespace Grassfire

open Spec

/-- the vertex is kinetic and runs -/
def runs (x : Vertex ℚ) : Bool :=
  match x with
  | .kin k => k.stopsAt.isNone
  | .inf _ => false

/-- `a.right is b` and `b.left is a`, for the contents of `a` and `b` -/
def pointing (a b : VId) (x y : Vertex ℚ) : Bool :=
  match x, y with
  | .kin ka, .kin kb => decide (ka.rightRef = some b) && decide (kb.leftRef = some a)
  | _, _ => false

theorem running_iff (s : St ℚ) (v : VId) : (v < s.nV ∧ runs (s.vert v) = true) ↔ Running s v := by
  unfold Running runs
  cases s.vert v <;> simp

theorem kinetic_iff (s : St ℚ) (v : VId) : (v < s.nV ∧ (s.vert v).isKinetic = true) ↔ Kinetic s v := by
  unfold Kinetic Vertex.isKinetic
  cases s.vert v <;> simp

theorem points_iff (s : St ℚ) (a b : VId) :
    (a < s.nV ∧ b < s.nV ∧ pointing a b (s.vert a) (s.vert b) = true) ↔ Points s a b := by
  unfold Points pointing
  cases s.vert a <;> cases s.vert b <;> simp

instance (s : St ℚ) (v : VId) : Decidable (Running s v) := decidable_of_iff _ (running_iff s v)
instance (s : St ℚ) (v : VId) : Decidable (Kinetic s v) := decidable_of_iff _ (kinetic_iff s v)
instance (s : St ℚ) (a b : VId) : Decidable (Points s a b) := decidable_of_iff _ (points_iff s a b)
instance (s : St ℚ) (t : TId) : Decidable (Live s t) := by unfold Live; infer_instance
instance (s : St ℚ) (t : TId) (i : Fin 3) : Decidable (CornerOk s t i) := by unfold CornerOk; infer_instance

/-- the walk around `v` ends -/
def walkEnds (v : VId) (tri : TId → KTri ℚ) : ℕ → Option TId → Bool
  | _, none => true
  | 0, some _ => false
  | n + 1, some t => match index3 (tri t).vertices v with
    | none => false
    | some i => walkEnds v tri n ((tri t).neighbours (cw i))

theorem walkEnds_sound {v : VId} {tri : TId → KTri ℚ} : ∀ {n : ℕ} {ot : Option TId}, walkEnds v tri n ot = true →
    ∃ l, FanWalk .cw v tri ot l
  | _, none, _ => ⟨[], .stop⟩
  | 0, some _, h => by cases h
  | n + 1, some t, h => by
    unfold walkEnds at h
    cases hi : index3 (tri t).vertices v with
    | none => rw [hi] at h; cases h
    | some i =>
      rw [hi] at h
      obtain ⟨l, hl⟩ := walkEnds_sound h
      refine ⟨t :: l, .step (i := i) ?_ hl⟩
      unfold index3 at hi
      split_ifs at hi with h0 h1 h2 <;> cases hi
      · exact h0
      · exact h1
      · exact h2

/-- `v` is corner `j + k` of exactly one triangle at a side `j` without neighbour -/
def oneSide (s : St ℚ) (k : Fin 3) (v : VId) : Prop :=
  ∃ u ∈ List.range s.nT, ∃ j : Fin 3, (Live s u ∧ (s.tri u).neighbours j = none ∧ (s.tri u).vertices (j + k) = v) ∧
    ∀ u' ∈ List.range s.nT, ∀ j' : Fin 3,
      (Live s u' ∧ (s.tri u').neighbours j' = none ∧ (s.tri u').vertices (j' + k) = v) → u' = u ∧ j' = j

instance (s : St ℚ) (k : Fin 3) (v : VId) : Decidable (oneSide s k v) := by unfold oneSide; infer_instance

/-- what `linkedCheck` asks of a corner -/
def cornerCheck (s : St ℚ) (t : TId) (i : Fin 3) : Prop :=
  (Running s ((s.tri t).vertices i) ∧ walkEnds ((s.tri t).vertices i) s.tri (s.nT + 1) (some t) = true) ∧
  (Live s t → (s.tri t).neighbours i = none → Points s ((s.tri t).vertices (i + 1)) ((s.tri t).vertices (i + 2))) ∧
  oneSide s 1 ((s.tri t).vertices i) ∧ oneSide s 2 ((s.tri t).vertices i)

instance (s : St ℚ) (t : TId) (i : Fin 3) : Decidable (cornerCheck s t i) := by unfold cornerCheck; infer_instance

/-- a check of `Linked` for states in which all corners are kinetic and none has been stopped -/
def linkedCheck (s : St ℚ) : Bool := decide (∀ t ∈ List.range s.nT, ∀ i : Fin 3, cornerCheck s t i)

theorem linked_of_check {s : St ℚ} (h : linkedCheck s = true) : Linked s := by
  have h : ∀ t, t < s.nT → ∀ i, cornerCheck s t i := fun t ht => of_decide_eq_true h t (List.mem_range.2 ht)
  have run : ∀ {t}, Live s t → ∀ i, Running s ((s.tri t).vertices i) := fun pt i => (h _ pt.1 i).1.1
  have pts : ∀ {t}, Live s t → ∀ i, (s.tri t).neighbours i = none →
      Points s ((s.tri t).vertices (i + 1)) ((s.tri t).vertices (i + 2)) := fun pt i => (h _ pt.1 i).2.1 pt
  refine ⟨?_, ?_, fun t pt i _ => walkEnds_sound (h t pt.1 i).1.2, fun t pt i _ => ?_, fun t pt i _ => ?_,
    fun t pt i _ hn => absurd (run pt i) hn⟩
  · rintro t i a b ⟨pt, hi, rfl, rfl⟩
    exact ⟨⟨(run pt _).1, (run pt _).2.imp fun _ q => q.1⟩, (run pt _).1, (run pt _).2.imp fun _ q => q.1⟩
  · rintro t i a b ⟨pt, hi, rfl, rfl⟩
    exact .inl (pts pt i hi)
  · obtain ⟨u, hu, j, ⟨pu, hj, h1⟩, h2⟩ := (h t pt.1 i).2.2.1
    refine ⟨u, j, _, ⟨pu, hj, h1, rfl⟩, h1 ▸ pts pu j hj, ?_⟩
    rintro u' j' b' ⟨pu', hj', h1', rfl⟩
    exact h2 u' (List.mem_range.2 pu'.1) j' ⟨pu', hj', h1'⟩
  · obtain ⟨u, hu, j, ⟨pu, hj, h1⟩, h2⟩ := (h t pt.1 i).2.2.2
    refine ⟨u, j, _, ⟨pu, hj, rfl, h1⟩, h1 ▸ pts pu j hj, ?_⟩
    rintro u' j' a' ⟨pu', hj', rfl, h1'⟩
    exact h2 u' (List.mem_range.2 pu'.1) j' ⟨pu', hj', h1'⟩

/-- a check of `Plain` -/
def plainCheck (s : St ℚ) (e : Event ℚ) : Bool :=
  match e.tp with
  | .flip => true
  | .split => decide (∀ i, Running s ((s.tri e.tri).vertices i))
  | .edge =>
    (match e.side with
    | [i] => decide ((∃ j, (s.tri e.tri).neighbours j ≠ none) →
        Running s ((s.tri e.tri).vertices (i + 1)) ∧ Running s ((s.tri e.tri).vertices (i + 2)) ∨
        (s.tri e.tri).neighbours i = none ∧ ¬ Running s ((s.tri e.tri).vertices (i + 1)) ∧
          ¬ Running s ((s.tri e.tri).vertices (i + 2)) ∧
          ¬ Points s ((s.tri e.tri).vertices (i + 1)) ((s.tri e.tri).vertices (i + 2)))
    | _ => true) && (decide (e.side.length ≠ 3) || decide (∀ i, CornerOk s e.tri i))

theorem plain_of_check {s : St ℚ} {e : Event ℚ} (h : plainCheck s e = true) : Plain s e := by
  unfold plainCheck at h
  refine ⟨fun htp i hi => ?_, fun htp => ?_, fun htp h3 => ?_⟩
  · rw [htp] at h
    simp only [hi, Bool.and_eq_true] at h
    exact of_decide_eq_true h.1
  · rw [htp] at h
    exact of_decide_eq_true h
  · rw [htp] at h
    simp only [Bool.and_eq_true, Bool.or_eq_true, decide_eq_true_eq] at h
    exact h.2.resolve_left fun q => q h3

/-- run `n` iterations from number `m` on, checking that they are plain -/
def plainRun (depth : ℕ) : ℕ → ℕ → ℚ → St ℚ → Bool
  | 0, _, _, _ => true
  | n + 1, m, now, s =>
    match loopStep depth (m + 1 : ℕ) now s with
    | .ok (some (e, now'), s') => ((s.tri e.tri).stopsAt.isSome || plainCheck s e) && plainRun depth n (m + 1) now' s'
    | _ => true

theorem plainRun_run {depth : ℕ} {s0 : St ℚ} : ∀ (n m : ℕ) {now : ℚ} {s : St ℚ} {tr : List (Event ℚ × ℚ)},
    Run depth s0 0 m now s tr → plainRun depth n m now s = true → ∀ k, m ≤ k → k < m + n →
      ∀ x u tr' e x' u', Run depth s0 0 k x u tr' →
      loopStep depth (k + 1 : ℕ) x u = .ok (some (e, x'), u') → (u.tri e.tri).stopsAt = none → Plain u e
  | 0, m, now, s, tr, _, _, k, h1, h2 => absurd h1 (Nat.not_le.2 h2)
  | n + 1, m, now, s, tr, hr, h, k, h1, h2 => by
    intro x u tr' e x' u' hr' hs hst
    unfold plainRun at h
    rcases Nat.lt_or_eq_of_le h1 with q | rfl
    · have hex : ∃ e y s', loopStep depth (m + 1 : ℕ) now s = .ok (some (e, y), s') := by
        have : ∀ {k : ℕ} {x : ℚ} {u : St ℚ} {tr' : List (Event ℚ × ℚ)}, Run depth s0 0 k x u tr' → m < k →
            ∃ e y s', loopStep depth (m + 1 : ℕ) now s = .ok (some (e, y), s') := by
          intro k x u tr' hr'
          induction hr' with
          | start => intro q; exact absurd q (Nat.not_lt_zero _)
          | @step k x x' u u' tr' e hr' hs ih =>
            intro q
            rcases Nat.lt_succ_iff_lt_or_eq.1 q with q | rfl
            · exact ih q
            · obtain ⟨rfl, rfl, -⟩ := run_unique hr hr'
              exact ⟨e, x', u', hs⟩
        exact this hr' q
      obtain ⟨e1, y, s1, hs1⟩ := hex
      rw [hs1] at h
      simp only [Bool.and_eq_true] at h
      exact plainRun_run n (m + 1) (hr.step hs1) h.2 k q (by omega) x u tr' e x' u' hr' hs hst
    · obtain ⟨rfl, rfl, rfl⟩ := run_unique hr hr'
      rw [hs] at h
      simp only [Bool.and_eq_true, Bool.or_eq_true] at h
      refine plain_of_check (h.1.resolve_left fun z => ?_)
      rw [hst] at z
      cases z

/-- a plain execution, by evaluation -/
theorem plain_execution {depth n : ℕ} {s0 : St ℚ} (h1 : Sample.initialOk s0 = true) (h2 : meshCheck s0 = true)
    (h3 : Sample.outcome initEventList (fun _ _ => ()) s0 = some ())
    (h4 : (ordinaryRun depth n 0 0 { Sample.after initEventList s0 with immediate := [] }).isSome = true)
    (h5 : linkedCheck s0 = true)
    (h6 : plainRun depth n 0 0 { Sample.after initEventList s0 with immediate := [] } = true) :
    ∃ now s tr, ordinaryRun depth n 0 0 { Sample.after initEventList s0 with immediate := [] } = some (now, s) ∧
      PlainExecution depth s0 n now s tr := by
  obtain ⟨now, s, tr, q, h⟩ := ordinary_execution h1 h2 h3 h4
  refine ⟨now, s, tr, q, h, linked_of_check h5, fun s1 hs1 m hm x u tr' e x' u' hr => ?_⟩
  have h3' : initEventList s0 = .ok ((), Sample.after initEventList s0) := by
    refine Sample.after_run ?_
    unfold Sample.outcome at h3 ⊢
    split at h3
    · rfl
    · cases h3
  rw [h3'] at hs1
  cases hs1
  exact plainRun_run n 0 .start h6 m (Nat.zero_le _) (by omega) x u tr' e x' u' hr

end Grassfire
