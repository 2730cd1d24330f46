/-
A decision procedure for `Initial`, for the examples: the concrete states of
Verif/Spec/Samples.lean are of the kind that `init_skeleton` delivers.
-/
import Verif.Spec.Invariants
import Verif.Spec.Samples

namespace Grassfire.Sample

open Spec

/-- all that `Initial` asks of a vertex -/
def vertexOk (s : St ℚ) (v : VId) : Bool :=
  match s.vert v with
  | .inf _ => true
  | .kin kv =>
    let hist (h : Hist ℚ (Option VId)) : Bool :=
      match h with
      | [] => true
      | [x] => decide (x.start ≤ 0) && x.stop.isNone && (match x.ref with | none => true | some u => decide (u < s.nV))
      | _ => false
    decide (kv.startsAt = some 0) && kv.stopsAt.isNone && kv.stopNode.isNone &&
    (match kv.startNode with | none => false | some n => s.skNodes.contains n) &&
    hist kv.left && hist kv.right

/-- all that `Initial` asks -/
def initialOk (s : St ℚ) : Bool :=
  decide (∀ t < s.nT, ∀ i : Fin 3, (s.tri t).vertices i < s.nV) &&
  decide (∀ t < s.nT, ∀ i : Fin 3, ∀ n ∈ (s.tri t).neighbours i, n < s.nT) &&
  decide (∀ n ∈ s.skNodes, n < s.nN) &&
  decide (∀ v ∈ s.skVertices, v < s.nV) &&
  decide (∀ t ∈ s.skTriangles, t < s.nT) &&
  decide (∀ v < s.nV, vertexOk s v = true) &&
  decide (∀ v ∈ s.skVertices, (infoOf s v).isSome = true) &&
  decide s.skTriangles.Nodup &&
  s.immediate.isEmpty &&
  decide (∀ t < s.nT, (s.tri t).event.isNone = true) &&
  decide (∀ t < s.nT, ∀ u < s.nT, s.pyid t = s.pyid u → t = u)

theorem vertexOk_sound {s : St ℚ} {v : VId} (h : vertexOk s v = true) {kv : KVertex ℚ}
    (hk : s.vert v = .kin kv) :
    (kv.startsAt = some 0 ∧ (∃ n ∈ s.skNodes, kv.startNode = some n) ∧
      kv.stopsAt = none ∧ kv.stopNode = none) ∧
    (HistOk 0 kv.left ∧ HistOk 0 kv.right) ∧
    (∀ x ∈ kv.left, ∀ u, x.ref = some u → u < s.nV) ∧
    (∀ x ∈ kv.right, ∀ u, x.ref = some u → u < s.nV) := by
  unfold vertexOk at h
  rw [hk] at h
  simp only [Bool.and_eq_true, decide_eq_true_eq, Option.isNone_iff_eq_none] at h
  obtain ⟨⟨⟨⟨⟨h1, h2⟩, h3⟩, h4⟩, h5⟩, h6⟩ := h
  refine ⟨⟨h1, ?_, h2, h3⟩, ?_⟩
  · cases hn : kv.startNode with
    | none => rw [hn] at h4; cases h4
    | some n => rw [hn] at h4; exact ⟨n, by simpa using h4, rfl⟩
  · have key : ∀ h : Hist ℚ (Option VId), (match h with
        | [] => true
        | [x] => decide (x.start ≤ 0) && x.stop.isNone &&
          (match x.ref with | none => true | some u => decide (u < s.nV))
        | _ => false) = true →
        HistOk 0 h ∧ ∀ x ∈ h, ∀ u, x.ref = some u → u < s.nV := by
      intro h hh
      match h, hh with
      | [], _ =>
        exact ⟨⟨by simp, List.Pairwise.nil, List.IsChain.nil, by simp⟩, by simp⟩
      | [x], hh =>
        simp only [Bool.and_eq_true, decide_eq_true_eq, Option.isNone_iff_eq_none] at hh
        obtain ⟨⟨a, b⟩, c⟩ := hh
        refine ⟨⟨by simpa using a, List.pairwise_singleton _ _, List.IsChain.singleton _, by simpa using b⟩, ?_⟩
        intro y hy u hu
        rw [List.mem_singleton.1 hy] at hu
        rw [hu] at c
        exact of_decide_eq_true c
    exact ⟨⟨(key _ h5).1, (key _ h6).1⟩, (key _ h5).2, (key _ h6).2⟩

theorem infoOf_isSome {s : St ℚ} {v : VId} (h : (infoOf s v).isSome = true) :
    ∃ kv, s.vert v = .kin kv := by
  unfold infoOf at h
  cases hv : s.vert v with
  | kin kv => exact ⟨kv, rfl⟩
  | inf o => rw [hv] at h; cases h

theorem initialOk_sound {s : St ℚ} (h : initialOk s = true) : Initial s := by
  unfold initialOk at h
  simp only [Bool.and_eq_true, decide_eq_true_eq] at h
  obtain ⟨⟨⟨⟨⟨⟨⟨⟨⟨⟨h1, h2⟩, h3⟩, h4⟩, h5⟩, h6⟩, h7⟩, h8⟩, h9⟩, h10⟩, h11⟩ := h
  exact {
    refs := {
      vertices := h1
      neighbours := fun t ht i n hn => h2 t ht i n hn
      left := fun v kv hv hk => (vertexOk_sound (h6 v hv) hk).2.2.1
      right := fun v kv hv hk => (vertexOk_sound (h6 v hv) hk).2.2.2
      skNodes := h3
      skVertices := h4
      skTriangles := h5 }
    lives := fun v kv hv hk => (vertexOk_sound (h6 v hv) hk).1
    hist := fun v kv hv hk => (vertexOk_sound (h6 v hv) hk).2.1
    kinetic := fun v hv => infoOf_isSome (h7 v hv)
    triangles := h8
    immediate := List.isEmpty_iff.1 h9
    events := fun t ht => Option.isNone_iff_eq_none.1 (h10 t ht)
    ids := fun t u ht hu => h11 t ht u hu }

/-- a complete run of an example -/
theorem completed_of_outcome {β : Type} {f : ℚ → St ℚ → β} {b : β} {s0 : St ℚ} (hi : Initial s0)
    (h : outcome complete f s0 = some b) : ∃ now s, Completed 100 s0 now s ∧ f now s = b := by
  unfold outcome at h
  split at h
  · rename_i a s' hm
    unfold complete at hm
    change (StateT.bind initEventList fun _ => eventLoop 100) s0 = _ at hm
    unfold StateT.bind at hm
    cases hm1 : initEventList s0 with
    | error e => rw [hm1] at hm; cases hm
    | ok x =>
      obtain ⟨u, s1⟩ := x
      rw [hm1] at hm
      exact ⟨a, s', ⟨hi, s1, hm1, hm⟩, Option.some.inj h⟩
  · cases h

theorem triangle_initial : Initial triangle := initialOk_sound (by decide +kernel)
theorem square_initial : Initial square := initialOk_sound (by decide +kernel)
theorem rectangle_initial : Initial rectangle := initialOk_sound (by decide +kernel)
theorem rectangle_numbered : Numbered rectangle := by unfold Numbered; decide +kernel

end Grassfire.Sample
