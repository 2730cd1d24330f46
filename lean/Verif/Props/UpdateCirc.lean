/-
Property C28: linking two wavefront vertices.
-/
import Verif.Proofs.Wp
import Verif.Spec.Samples

set_option linter.unusedSectionVars false

namespace Grassfire

variable {K : Type}

/-- Specification: the last entry of a history is still open. -/
def OpenEnded {R : Type} (h : Hist K R) : Prop := ∀ x ∈ h.getLast?, x.stop = none

theorem hist_set_last {R : Type} (h : Hist K R) (r : R) (t : K) : (h.set r t).last = some r := by
  unfold Hist.set Hist.last
  cases h.getLast? <;> simp

theorem hist_set_open {R : Type} (h : Hist K R) (r : R) (t : K) : OpenEnded (h.set r t) := by
  unfold Hist.set OpenEnded
  cases h.getLast? <;> simp

theorem hist_set_at [LinearOrder K] {R : Type} (h : Hist K R) (r : R) (t x : K)
    (ho : OpenEnded h) (hx : x < t) : (h.set r t).at x = h.at x := by
  rcases List.eq_nil_or_concat h with rfl | ⟨init, last, rfl⟩
  · simp [Hist.set, Hist.at, hx]
  · have hl : last.stop = none := ho last (by simp)
    obtain ⟨start, stop, ref⟩ := last
    simp only at hl
    subst hl
    simp only [Hist.set, Hist.at, List.concat_eq_append, List.getLast?_append_of_ne_nil _
      (List.cons_ne_nil _ _), List.getLast?_singleton, List.dropLast_append_of_ne_nil
      (List.cons_ne_nil _ _), List.dropLast_singleton, List.append_nil, List.find?_append]
    cases init.find? _ with
    | some y => simp
    | none =>
      by_cases hs : start ≤ x
      · simp [List.find?, hs, hx]
      · simp [List.find?, hs, not_le.2 hx]

variable [Field K] [LinearOrder K]

theorem setRight_run {l r : Option VId} {now : K} {s s' : St K} {u : Unit}
    (h : setRight l r now s = .ok (u, s')) :
    (l = none ∧ s' = s) ∨ ∃ a kv, l = some a ∧ a < s.nV ∧ s.vert a = .kin kv ∧
      s' = { s with vert := (Function.update s.vert a
        (.kin { kv with right := kv.right.set r now })) } := by
  cases l with
  | none => exact .inl ⟨rfl, (pure_run_ok.1 h).2.symm⟩
  | some a =>
    obtain ⟨ha, kv, hk, hs⟩ := modifyK_run_ok.1 h
    exact .inr ⟨a, kv, rfl, ha, hk, hs⟩

theorem setLeft_run {l r : Option VId} {now : K} {s s' : St K} {u : Unit}
    (h : setLeft r l now s = .ok (u, s')) :
    (r = none ∧ s' = s) ∨ ∃ a kv, r = some a ∧ a < s.nV ∧ s.vert a = .kin kv ∧
      s' = { s with vert := (Function.update s.vert a
        (.kin { kv with left := kv.left.set l now })) } := by
  cases r with
  | none => exact .inl ⟨rfl, (pure_run_ok.1 h).2.symm⟩
  | some a =>
    obtain ⟨ha, kv, hk, hs⟩ := modifyK_run_ok.1 h
    exact .inr ⟨a, kv, rfl, ha, hk, hs⟩

/-- How one vertex is changed by `update_circ(l, r, now)`: a new right neighbour if it is `l`, a
new left neighbour if it is `r`, nothing else. -/
theorem updateCirc_vertex {l r : Option VId} {now : K} {s s' : St K} {u : Unit}
    (h : updateCirc l r now s = .ok (u, s')) :
    s' = { s with vert := s'.vert } ∧
    ∀ v, s'.vert v = match s.vert v with
      | .inf o => .inf o
      | .kin kv => .kin { kv with
          right := if l = some v then kv.right.set r now else kv.right
          left := if r = some v then kv.left.set l now else kv.left } := by
  unfold updateCirc at h
  obtain ⟨_, s1, h1, h2⟩ := bind_run_ok.1 h
  have e1 : s1 = { s with vert := s1.vert } ∧ ∀ v, s1.vert v = match s.vert v with
      | .inf o => .inf o
      | .kin kv => .kin { kv with right := if l = some v then kv.right.set r now else kv.right } := by
    rcases setRight_run h1 with ⟨rfl, rfl⟩ | ⟨a, kv, rfl, ha, hk, rfl⟩
    · refine ⟨rfl, fun v => ?_⟩
      cases hv : s1.vert v <;> simp
    · refine ⟨rfl, fun v => ?_⟩
      by_cases hva : v = a
      · subst hva; simp [hk]
      · simp only [Function.update_of_ne hva]
        cases hv : s.vert v with
        | inf o => rfl
        | kin k => simp [Ne.symm hva]
  have e2 : s' = { s1 with vert := s'.vert } ∧ ∀ v, s'.vert v = match s1.vert v with
      | .inf o => .inf o
      | .kin kv => .kin { kv with left := if r = some v then kv.left.set l now else kv.left } := by
    rcases setLeft_run h2 with ⟨rfl, rfl⟩ | ⟨a, kv, rfl, ha, hk, rfl⟩
    · refine ⟨rfl, fun v => ?_⟩
      cases hv : s'.vert v <;> simp
    · refine ⟨rfl, fun v => ?_⟩
      by_cases hva : v = a
      · subst hva; simp [hk]
      · simp only [Function.update_of_ne hva]
        cases hv : s1.vert v with
        | inf o => rfl
        | kin k => simp [Ne.symm hva]
  refine ⟨?_, fun v => ?_⟩
  · rw [e2.1, e1.1]
  · rw [e2.2 v, e1.2 v]
    cases s.vert v <;> rfl

/-- C28: after `update_circ(l, r, now)` the two vertices point at each other (whichever of the two
is not None). -/
theorem C28_linked (l r : Option VId) (now : K) (s s' : St K)
    (h : updateCirc l r now s = .ok ((), s')) :
    (∀ a, l = some a → ∃ kv, s'.vert a = .kin kv ∧ kv.rightRef = r) ∧
    (∀ b, r = some b → ∃ kv, s'.vert b = .kin kv ∧ kv.leftRef = l) := by
  have hv := (updateCirc_vertex h).2
  have h' := h
  unfold updateCirc at h'
  obtain ⟨_, s1, h1, h2⟩ := bind_run_ok.1 h'
  constructor
  · rintro a rfl
    obtain ⟨_, kv, hk, _⟩ := modifyK_run_ok.1 h1
    refine ⟨_, by rw [hv a, hk], ?_⟩
    simp [KVertex.rightRef, hist_set_last]
  · rintro b rfl
    obtain ⟨_, kv, hk, hs'⟩ := modifyK_run_ok.1 h2
    have := hv b
    cases hb : s.vert b with
    | inf o =>
      rw [hb] at this
      simp only [hs', Function.update_self] at this
      cases this
    | kin k =>
      rw [hb] at this
      refine ⟨_, this, ?_⟩
      simp [KVertex.leftRef, hist_set_last]

/-- C28: it works for all existing kinetic vertices, present or not. -/
theorem C28_succeeds (l r : Option VId) (now : K) (s : St K)
    (hl : ∀ a, l = some a → a < s.nV ∧ ∃ kv, s.vert a = .kin kv)
    (hr : ∀ b, r = some b → b < s.nV ∧ ∃ kv, s.vert b = .kin kv) :
    ∃ s', updateCirc l r now s = .ok ((), s') := by
  unfold updateCirc
  rw [bind_run]
  have h1 : ∃ s1, setRight l r now s = .ok ((), s1) ∧ s1.nV = s.nV ∧
      ∀ b, (∃ kv, s.vert b = .kin kv) → ∃ kv, s1.vert b = .kin kv := by
    cases l with
    | none => exact ⟨s, rfl, rfl, fun _ h => h⟩
    | some a =>
      obtain ⟨ha, kv, hk⟩ := hl a rfl
      refine ⟨_, modifyK_run_ok.2 ⟨ha, kv, hk, rfl⟩, rfl, fun b hb => ?_⟩
      by_cases hba : b = a
      · subst hba; exact ⟨_, Function.update_self _ _ _⟩
      · simpa [hba] using hb
  obtain ⟨s1, h1, hn, hk⟩ := h1
  rw [h1]
  cases r with
  | none => exact ⟨s1, rfl⟩
  | some b =>
    obtain ⟨hb, hkb⟩ := hr b rfl
    obtain ⟨kv, hkv⟩ := hk b hkb
    exact ⟨_, modifyK_run_ok.2 ⟨hn ▸ hb, kv, hkv, rfl⟩⟩

/-- C28: neighbours looked up for earlier times are unchanged. -/
theorem C28_past_fixed (l r : Option VId) (now : K) (s s' : St K)
    (h : updateCirc l r now s = .ok ((), s')) (v : VId) (kv : KVertex K)
    (hk : s.vert v = .kin kv) (hl : OpenEnded kv.left) (hr : OpenEnded kv.right) :
    ∃ kv', s'.vert v = .kin kv' ∧
      (∀ t < now, kv'.left.at t = kv.left.at t ∧ kv'.right.at t = kv.right.at t) ∧
      OpenEnded kv'.left ∧ OpenEnded kv'.right := by
  have hv := (updateCirc_vertex h).2 v
  rw [hk] at hv
  refine ⟨_, hv, fun t ht => ⟨?_, ?_⟩, ?_, ?_⟩
  · dsimp only; split_ifs
    · exact hist_set_at _ _ _ _ hl ht
    · rfl
  · dsimp only; split_ifs
    · exact hist_set_at _ _ _ _ hr ht
    · rfl
  · dsimp only; split_ifs
    · exact hist_set_open _ _ _
    · exact hl
  · dsimp only; split_ifs
    · exact hist_set_open _ _ _
    · exact hr

/-- C28: nothing else changes: other vertices, and all attributes but `left` and `right`. -/
theorem C28_frame (l r : Option VId) (now : K) (s s' : St K)
    (h : updateCirc l r now s = .ok ((), s')) :
    s' = { s with vert := s'.vert } ∧
    (∀ v, l ≠ some v → r ≠ some v → s'.vert v = s.vert v) ∧
    (∀ v kv, s.vert v = .kin kv → ∃ kv', s'.vert v = .kin kv' ∧
      kv' = { kv with left := kv'.left, right := kv'.right } ∧
      (r ≠ some v → kv'.left = kv.left) ∧ (l ≠ some v → kv'.right = kv.right)) := by
  have hv := (updateCirc_vertex h).2
  refine ⟨(updateCirc_vertex h).1, fun v h1 h2 => ?_, fun v kv hk => ?_⟩
  · rw [hv v]
    cases s.vert v <;> simp [h1, h2]
  · have := hv v
    rw [hk] at this
    refine ⟨_, this, rfl, fun h2 => if_neg h2, fun h1 => if_neg h1⟩

/-- The hypotheses are met: vertices 1 and 3 of the square are linked at time 1. -/
example : Sample.outcome (updateCirc (some 1) (some 3) (1 : ℚ))
      (fun _ s => match s.vert 1, s.vert 3 with
        | .kin a, .kin b => (a.rightRef, a.right.at (1 / 2), a.leftRef, b.leftRef, b.left.at (1 / 2))
        | _, _ => (none, none, none, none, none)) Sample.square =
    some (some 3, some (some 2), some 0, some 1, some (some 2)) := by
  decide +kernel

end Grassfire
