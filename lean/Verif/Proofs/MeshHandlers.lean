/-
The mesh of triangles before and after the events (lemmas for C38).
-/
import Verif.Proofs.MeshLemmas
import Verif.Proofs.HandlerLemmas

set_option linter.unusedSectionVars false

namespace Grassfire

open Spec

variable {K : Type} [Field K] [LinearOrder K]

theorem consistent_congr {P Q : TId → Prop} {s : St K} (h : Consistent P s) (hpq : ∀ x, Q x ↔ P x) : Consistent Q s := by
  intro x hx
  obtain ⟨a, b, c⟩ := h x ((hpq x).1 hx)
  exact ⟨a, b, fun p q n hs => ⟨(hpq n).2 (c p q n hs).1, (c p q n hs).2⟩⟩

/-- only the corners and neighbours matter -/
theorem consistent_same {P : TId → Prop} {s s' : St K} (h : Consistent P s) (hn : s'.nT = s.nT)
    (ht : ∀ x, (s'.tri x).vertices = (s.tri x).vertices ∧ (s'.tri x).neighbours = (s.tri x).neighbours) :
    Consistent P s' := by
  intro x hx
  obtain ⟨a, b, c⟩ := h x hx
  refine ⟨hn ▸ a, (ht x).1 ▸ b, ?_⟩
  rintro p q n ⟨i, h1, h2, h3⟩
  rw [(ht x).1] at h1 h2
  rw [(ht x).2] at h3
  obtain ⟨pn, j, k1, k2, k3⟩ := c p q n ⟨i, h1, h2, h3⟩
  exact ⟨pn, j, by rw [(ht n).1]; exact k1, by rw [(ht n).1]; exact k2, by rw [(ht n).2]; exact k3⟩

theorem mesh_without {s s' : St K} {t : TId} (hM : Mesh s) (hnT : s'.nT = s.nT) (hnV : s.nV ≤ s'.nV)
    (hstop : ∀ x, (s'.tri x).stopsAt = none ↔ (s.tri x).stopsAt = none ∧ x ≠ t)
    (hC : Consistent (fun x => Live s x ∧ x ≠ t) s')
    (hV1 : ∀ x i, (s'.tri x).vertices i = (s.tri x).vertices i ∨ (s'.tri x).vertices i < s'.nV)
    (hV2 : ∀ x, ¬ (Live s x ∧ x ≠ t) → (s'.tri x).vertices = (s.tri x).vertices) : Mesh s' := by
  refine ⟨consistent_congr hC fun x => ?_, fun x hx => ?_, fun x hx i => ?_⟩
  · unfold Live
    rw [hnT, hstop]
    exact and_assoc.symm
  · by_cases hl : Live s x ∧ x ≠ t
    · exact (hC x hl).2.1
    · rw [hV2 x hl]; exact hM.distinct x (hnT ▸ hx)
  · rcases hV1 x i with h | h
    · rw [h]; exact Nat.lt_of_lt_of_le (hM.vertices x (hnT ▸ hx) i) hnV
    · exact h

theorem mesh_once {s : St K} (h : Mesh s) (v : VId) : Once v s :=
  fun t ht _ _ hi hj => h.distinct t ht (hi.trans hj.symm)

theorem mesh_same {s s' : St K} (h : Mesh s) (hnT : s'.nT = s.nT) (hnV : s.nV ≤ s'.nV) (ht : s'.tri = s.tri) : Mesh s' := by
  refine ⟨consistent_congr (consistent_same h.consistent hnT fun x => by rw [ht]; exact ⟨rfl, rfl⟩) fun x => ?_,
    fun x hx => ?_, fun x hx i => ?_⟩
  · unfold Live; rw [ht, hnT]
  · rw [ht]; exact h.distinct x (hnT ▸ hx)
  · rw [ht]; exact Nat.lt_of_lt_of_le (h.vertices x (hnT ▸ hx) i) hnV

theorem mesh_core {s s' : St K} (h : Mesh s) (hc : SameCore s s') : Mesh s' := by
  refine ⟨consistent_congr (consistent_same h.consistent hc.nT fun x => ⟨hc.vertices x, hc.neighbours x⟩) fun x => ?_,
    fun x hx => ?_, fun x hx i => ?_⟩
  · have : (s'.tri x).stopsAt = (s.tri x).stopsAt := hc.apply (fun y : St K => (y.tri x).stopsAt)
    unfold Live; rw [hc.nT, this]
  · rw [hc.vertices]; exact h.distinct x (hc.nT ▸ hx)
  · rw [hc.vertices, hc.nV]; exact h.vertices x (hc.nT ▸ hx) i

/-! ### sides -/

theorem SideDone.corner {o : Option TId} {t : TId} {other : Option TId} {v kv : VId} {dir : Dir} {s s' : St K}
    {fan : List TId} (h : SideDone o t other v kv dir s s' fan) (x : TId) :
    (∀ i, (s'.tri x).vertices i = (s.tri x).vertices i ∨ (s'.tri x).vertices i = kv) ∧
    (x ∉ fan → (s'.tri x).vertices = (s.tri x).vertices) := by
  cases o with
  | none =>
    have := ((h.nil rfl).2 x).1
    rw [this]
    exact ⟨fun _ => .inl rfl, fun _ => rfl⟩
  | some n =>
    obtain ⟨i, h1, h2, h3, h4, h5⟩ := h.cons n rfl
    refine ⟨fun j => ?_, fun hx => by rw [h4, if_neg hx]⟩
    rw [h4]
    by_cases hx : x ∈ fan
    · rw [if_pos hx]
      unfold substitute
      split
      · exact .inr rfl
      · exact .inl rfl
    · rw [if_neg hx]; exact .inl rfl

theorem stopTriangle_eq {t : TId} {now : K} {s s' : St K} {u : Unit} (h : stopTriangle t now s = .ok (u, s')) :
    s' = { s with tri := Function.update s.tri t { s.tri t with stopsAt := some now } } := (modifyT_run_ok.1 h).2

theorem stopTriangle_fields {t : TId} {now : K} {s s' : St K} {u : Unit} (h : stopTriangle t now s = .ok (u, s')) :
    s'.nT = s.nT ∧ s'.nV = s.nV ∧ s'.vert = s.vert ∧ (∀ x, (s'.tri x).vertices = (s.tri x).vertices ∧
      (s'.tri x).neighbours = (s.tri x).neighbours ∧
      ((s'.tri x).stopsAt = none ↔ (s.tri x).stopsAt = none ∧ x ≠ t)) := by
  have := stopTriangle_eq h
  subst this
  refine ⟨rfl, rfl, rfl, fun x => ?_⟩
  by_cases hx : x = t
  · subst hx; simp
  · simp [hx]

/-- what has been done when a triangle has been taken out -/
structure Removed (s s' : St K) (t : TId) : Prop where
  live : ∀ x, Live s' x ↔ Live s x ∧ x ≠ t
  vertices : ∀ x, (s'.tri x).vertices = (s.tri x).vertices
  neighbours : ∀ x i, Live s x → x ≠ t → (s'.tri x).neighbours i =
    if (s.tri x).neighbours i = some t then none else (s.tri x).neighbours i

/-- what has been done when a triangle has collapsed -/
structure EdgeMesh (s s' : St K) (t : TId) (e : Fin 3) (kv : VId) : Prop where
  live : ∀ x, Live s' x ↔ Live s x ∧ x ≠ t
  done : ∃ fanA fanB, (∀ x ∈ fanA, x ∉ fanB) ∧ ClosedFan (Live s) s t ((s.tri t).vertices (e + 2)) fanA ∧
    ClosedFan (Live s) s t ((s.tri t).vertices (e + 1)) fanB ∧
    EdgeDone (Live s) s s' t e ((s.tri t).vertices (e + 1)) ((s.tri t).vertices (e + 2)) kv fanA fanB

/-- what has been done when a triangle has been split -/
structure SplitMesh (s s' : St K) (t : TId) (e : Fin 3) (va vb : VId) : Prop where
  live : ∀ x, Live s' x ↔ Live s x ∧ x ≠ t
  opposite : (s.tri t).neighbours e = none
  done : ∃ a b fanA fanB, (s.tri t).neighbours (e + 1) = some a ∧ (s.tri t).neighbours (e + 2) = some b ∧
    (∀ x ∈ fanB, x ∉ fanA) ∧ ClosedFan (Live s) s t ((s.tri t).vertices e) fanA ∧
    ClosedFan (Live s) s t ((s.tri t).vertices e) fanB ∧
    SplitDone (Live s) s s' t a b ((s.tri t).vertices e) va vb fanA fanB

theorem live_same {s s1 : St K} (ht : s1.tri = s.tri) (hn : s1.nT = s.nT) : Live s1 = Live s := by
  funext x; unfold Live; rw [ht, hn]

theorem closedFan_same {s s1 : St K} {P : TId → Prop} {t : TId} {v : VId} {F : List TId} (ht : s1.tri = s.tri)
    (h : ClosedFan P s1 t v F) : ClosedFan P s t v F := by
  unfold ClosedFan at h ⊢; rw [← ht]; exact h

theorem EdgeMesh.same {s s1 s' : St K} {t : TId} {e : Fin 3} {kv : VId} (h : EdgeMesh s1 s' t e kv)
    (ht : s1.tri = s.tri) (hn : s1.nT = s.nT) : EdgeMesh s s' t e kv := by
  obtain ⟨h1, fanA, fanB, hd, cA, cB, D⟩ := h
  rw [live_same ht hn] at h1 cA cB D
  rw [ht] at cA cB D
  obtain ⟨d1, d2, d3, d4, d5, d6, d7, d8, d9⟩ := D
  rw [ht] at d1 d2 d3 d4 d5 d6 d7 d8 d9
  exact ⟨h1, fanA, fanB, hd, closedFan_same ht cA, closedFan_same ht cB, d1, d2, d3, d4, d5, d6, d7, d8, d9⟩

theorem SplitMesh.same {s s1 s' : St K} {t : TId} {e : Fin 3} {va vb : VId} (h : SplitMesh s1 s' t e va vb)
    (ht : s1.tri = s.tri) (hn : s1.nT = s.nT) : SplitMesh s s' t e va vb := by
  obtain ⟨h1, h2, a, b, fanA, fanB, ha, hb, hd, cA, cB, D⟩ := h
  rw [live_same ht hn] at h1 cA cB D
  rw [ht] at h2 ha hb cA cB D
  obtain ⟨d1, d2, d3, d4, d5, d6⟩ := D
  rw [ht] at d1 d2 d4 d5 d6
  exact ⟨h1, h2, a, b, fanA, fanB, ha, hb, hd, closedFan_same ht cA, closedFan_same ht cB, d1, d2, d3, d4, d5, d6⟩

theorem Removed.same {s s1 s' : St K} {t : TId} (h : Removed s1 s' t) (ht : s1.tri = s.tri) (hn : s1.nT = s.nT) :
    Removed s s' t := by
  obtain ⟨h1, h2, h3⟩ := h
  rw [live_same ht hn] at h1 h3
  rw [ht] at h2 h3
  exact ⟨h1, h2, h3⟩

theorem live_without {s s' : St K} {t : TId} (hnT : s'.nT = s.nT)
    (hstop : ∀ x, (s'.tri x).stopsAt = none ↔ (s.tri x).stopsAt = none ∧ x ≠ t) (x : TId) :
    Live s' x ↔ Live s x ∧ x ≠ t := by
  unfold Live
  rw [hnT, hstop]
  exact and_assoc.symm

/-- an edge event, the part that concerns the mesh -/
theorem edge_event_mesh {s sA sB sC sD : St K} {t : TId} {e : Fin 3} {kv : VId} {fanA fanB : List TId}
    (hM : Mesh s) (hl : Live s t) (hc : Collapsible s t e) (hf : ∀ x < s.nT, ∀ i, (s.tri x).vertices i ≠ kv)
    (hkv : kv < s.nV)
    (hA : SideDone ((s.tri t).neighbours (e + 1)) t ((s.tri t).neighbours (e + 2)) ((s.tri t).vertices (e + 2)) kv .cw
      s sA fanA)
    (hB : SideDone ((s.tri t).neighbours (e + 2)) t ((s.tri t).neighbours (e + 1)) ((s.tri t).vertices (e + 1)) kv .ccw
      sA sB fanB)
    (hD : Detached ((s.tri t).neighbours e) t sB sC) (hnV : s.nV ≤ sD.nV) (hnT : sD.nT = sC.nT)
    (hS : ∀ x, (sD.tri x).vertices = (sC.tri x).vertices ∧ (sD.tri x).neighbours = (sC.tri x).neighbours ∧
      ((sD.tri x).stopsAt = none ↔ (sC.tri x).stopsAt = none ∧ x ≠ t)) : Mesh sD ∧ EdgeMesh s sD t e kv := by
  obtain ⟨h1, h2, h3, h4, D⟩ := edge_mesh hM.consistent hl rfl rfl rfl hc (fun x hx i => hf x hx.1 i) hA hB hD
  have nTC : sC.nT = s.nT := hD.nT.trans (hB.nT.trans hA.nT)
  have hst : ∀ x, (sD.tri x).stopsAt = none ↔ (s.tri x).stopsAt = none ∧ x ≠ t := fun x => by
    rw [(hS x).2.2, hD.stopsAt, hB.stopsAt, hA.stopsAt]
  refine ⟨?_, live_without (hnT.trans nTC) hst, fanA, fanB, h4, h2, h3, D.walkA, D.walkB, D.otherA, D.otherB,
    fun x => (hS x).1.trans (D.vertices x), fun x i => by rw [(hS x).2.1]; exact D.same x i,
    fun x i => by rw [(hS x).2.1]; exact D.gapA x i, fun x i => by rw [(hS x).2.1]; exact D.gapB x i,
    fun x i => by rw [(hS x).2.1]; exact D.gapE x i⟩
  refine mesh_without hM (hnT.trans nTC) hnV hst (consistent_same h1 hnT fun x => ⟨(hS x).1, (hS x).2.1⟩)
    (fun x i => ?_) (fun x hx => ?_)
  · rw [(hS x).1, hD.vertices]
    rcases (hB.corner x).1 i with a | a
    · rw [a]
      rcases (hA.corner x).1 i with b | b
      · exact .inl b
      · exact .inr (b ▸ Nat.lt_of_lt_of_le hkv hnV)
    · exact .inr (a ▸ Nat.lt_of_lt_of_le hkv hnV)
  · rw [(hS x).1, hD.vertices, (hB.corner x).2 fun q => hx ⟨(h3 x q).1, (h3 x q).2.1⟩,
      (hA.corner x).2 fun q => hx ⟨(h2 x q).1, (h2 x q).2.1⟩]

/-- taking out a triangle without neighbours over its sides except for one that is detached -/
theorem detach_mesh {s sC sD : St K} {t : TId} {e : Fin 3} (hM : Mesh s)
    (h1 : (s.tri t).neighbours (e + 1) = none) (h2 : (s.tri t).neighbours (e + 2) = none)
    (hD : Detached ((s.tri t).neighbours e) t s sC) (hnV : s.nV ≤ sD.nV) (hnT : sD.nT = sC.nT)
    (hS : ∀ x, (sD.tri x).vertices = (sC.tri x).vertices ∧ (sD.tri x).neighbours = (sC.tri x).neighbours ∧
      ((sD.tri x).stopsAt = none ↔ (sC.tri x).stopsAt = none ∧ x ≠ t)) : Mesh sD ∧ Removed s sD t := by
  have hC := hM.consistent
  have hst : ∀ x, (sD.tri x).stopsAt = none ↔ (s.tri x).stopsAt = none ∧ x ≠ t := fun x => by
    rw [(hS x).2.2, hD.stopsAt]
  have hN : ∀ x i, Live s x → x ≠ t → (sD.tri x).neighbours i =
      if (s.tri x).neighbours i = some t then none else (s.tri x).neighbours i := by
    intro x i hx hxt
    rw [(hS x).2.1]
    have only : ∀ {i}, (s.tri x).neighbours i = some t → (s.tri t).neighbours e = some x ∧
        (s.tri t).vertices (e + 1) = (s.tri x).vertices (i + 2) := by
      intro i hi
      obtain ⟨-, j, k1, k2, k3⟩ := facing hC hx hi
      rcases three_sides e j with q | q | q
      · subst q; exact ⟨k1, k2⟩
      · subst q; rw [show ccw e = e + 1 from rfl, h1] at k1; cases k1
      · subst q; rw [show cw e = e + 2 from rfl, h2] at k1; cases k1
    cases ho : (s.tri t).neighbours e with
    | none =>
      rw [hD.nil ho x]
      rw [if_neg]
      intro hi
      rw [(only hi).1] at ho
      cases ho
    | some n =>
      obtain ⟨k, k1, k2⟩ := hD.cons n ho
      rw [k2]
      by_cases hxn : x = n
      · subst hxn
        rw [if_pos rfl]
        by_cases hik : i = k
        · subst hik
          rw [Function.update_self, if_pos k1]
        · rw [Function.update_of_ne hik, if_neg]
          intro hi
          have a := (only hi).2
          have b := (only k1).2
          exact hik (by simpa using (hC x hx).2.1 (a.symm.trans b))
      · rw [if_neg hxn, if_neg]
        intro hi
        have := (only hi).1
        rw [ho] at this
        injection this with this
        exact hxn this.symm
  refine ⟨mesh_without (t := t) hM (hnT.trans hD.nT) hnV hst (remove_consistent hC (hnT.trans hD.nT)
    (fun x _ _ => by rw [(hS x).1, hD.vertices]) hN) (fun x i => ?_) (fun x hx => ?_),
    live_without (hnT.trans hD.nT) hst, fun x => by rw [(hS x).1, hD.vertices], hN⟩
  · exact .inl (by rw [(hS x).1, hD.vertices])
  · rw [(hS x).1, hD.vertices]

/-- a split event, the part that concerns the mesh -/
theorem split_event_mesh {s sA sB sD : St K} {t a b : TId} {e : Fin 3} {va vb : VId} {fanA fanB : List TId}
    (hM : Mesh s) (hl : Live s t) (hn : (s.tri t).neighbours e = none) (ha : (s.tri t).neighbours (e + 1) = some a)
    (hb : (s.tri t).neighbours (e + 2) = some b)
    (hfb : ∀ x < s.nT, ∀ i, (s.tri x).vertices i ≠ vb) (hfa : ∀ x < s.nT, ∀ i, (s.tri x).vertices i ≠ va)
    (hvb : vb < s.nV) (hva : va < s.nV)
    (hA : SideDone (some a) t none ((s.tri t).vertices e) vb .ccw s sA fanB)
    (hB : SideDone (some b) t none ((s.tri t).vertices e) va .cw sA sB fanA) (hnV : s.nV ≤ sD.nV) (hnT : sD.nT = sB.nT)
    (hS : ∀ x, (sD.tri x).vertices = (sB.tri x).vertices ∧ (sD.tri x).neighbours = (sB.tri x).neighbours ∧
      ((sD.tri x).stopsAt = none ↔ (sB.tri x).stopsAt = none ∧ x ≠ t)) : Mesh sD ∧ SplitMesh s sD t e va vb := by
  obtain ⟨h1, h2, h3, h4, D⟩ := split_mesh hM.consistent hl rfl hn ha hb (fun x hx i => hfb x hx.1 i)
    (fun x hx i => hfa x hx.1 i) hA hB
  have hst : ∀ x, (sD.tri x).stopsAt = none ↔ (s.tri x).stopsAt = none ∧ x ≠ t := fun x => by
    rw [(hS x).2.2, hB.stopsAt, hA.stopsAt]
  refine ⟨?_, live_without (hnT.trans (hB.nT.trans hA.nT)) hst, hn, a, b, fanA, fanB, ha, hb, h4, h3, h2, D.walkB,
    D.walkA, D.ne, fun x => (hS x).1.trans (D.vertices x), fun x i => by rw [(hS x).2.1]; exact D.same x i,
    fun x i => by rw [(hS x).2.1]; exact D.gap x i⟩
  refine mesh_without hM (hnT.trans (hB.nT.trans hA.nT)) hnV hst
    (consistent_same h1 hnT fun x => ⟨(hS x).1, (hS x).2.1⟩) (fun x i => ?_) (fun x hx => ?_)
  · rw [(hS x).1]
    rcases (hB.corner x).1 i with a | a
    · rw [a]
      rcases (hA.corner x).1 i with b | b
      · exact .inl b
      · exact .inr (b ▸ Nat.lt_of_lt_of_le hvb hnV)
    · exact .inr (a ▸ Nat.lt_of_lt_of_le hva hnV)
  · rw [(hS x).1, (hB.corner x).2 fun q => hx ⟨(h3 x q).1, (h3 x q).2.1⟩,
      (hA.corner x).2 fun q => hx ⟨(h2 x q).1, (h2 x q).2.1⟩]

/-! ### blocks -/

theorem splitSide_done [HasSqrt K] {t : TId} {side : Fin 3} {v newv : VId} {now : K} {dir : Dir} {s s' : St K}
    {fan : List TId} (honce : Once v s) (hne : newv ≠ v) (h : splitSide t side v newv now dir s = .ok (fan, s')) :
    ∃ n, (s.tri t).neighbours side = some n ∧ SideDone (some n) t none v newv dir s s' fan := by
  unfold splitSide at h
  obtain ⟨T, _, h1, h⟩ := bind_run_ok.1 h
  obtain ⟨-, rfl, rfl⟩ := getT_run_ok.1 h1
  obtain ⟨n, s1, h1, h⟩ := bind_run_ok.1 h
  have hn : (s.tri t).neighbours side = some n ∧ s = s1 := by
    cases ho : (s.tri t).neighbours side with
    | none => rw [ho] at h1; cases h1
    | some m =>
      rw [ho] at h1
      obtain ⟨rfl, rfl⟩ := pure_run_ok.1 (show (pure m : M K TId) s = _ from h1)
      exact ⟨rfl, rfl⟩
  obtain ⟨hn, rfl⟩ := hn
  obtain ⟨_, s2, h2, h⟩ := bind_run_ok.1 h
  exact ⟨n, hn, sideDone_some honce hne h2 h⟩

theorem stopAndRecord_mesh {V : List VId} {step : ℤ} {now : K} {pos : Option (Pt K)} {s s' : St K} {n : NodeId}
    (h : stopAndRecord V step now pos s = .ok (n, s')) : s'.tri = s.tri ∧ s'.nT = s.nT ∧ s'.nV = s.nV := by
  obtain ⟨-, e, -⟩ := stopAndRecord_exact h
  refine ⟨?_, ?_, ?_⟩ <;> rw [e]

theorem once_none {s s' : St K} {o : Option TId} {t : TId} {other : Option TId} {v kv w : VId} {dir : Dir}
    {fan : List TId} (h : SideDone o t other v kv dir s s' fan) (hM : Mesh s) (hw : w ≠ kv) : Once w s' := by
  intro x hx i j hi hj
  have hx' : x < s.nT := h.nT ▸ hx
  rcases (h.corner x).1 i with a | a
  · rcases (h.corner x).1 j with b | b
    · exact hM.distinct x hx' ((a.symm.trans hi).trans (b.symm.trans hj).symm)
    · exact absurd (hj.symm.trans b) hw
  · exact absurd (hi.symm.trans a) hw

/-! ### three sides -/

theorem queueDiscardOpt_tri {o : Option (Event K)} {s s' : St K} {u : Unit} (h : queueDiscardOpt o s = .ok (u, s')) :
    s'.tri = s.tri := by
  cases o with
  | some e => cases h; rfl
  | none =>
    unfold queueDiscardOpt at h
    dsimp only at h
    split_ifs at h
    cases h
    rfl

theorem immediateRemoveOpt_tri {o : Option (Event K)} {s s' : St K} {u : Unit}
    (h : immediateRemoveOpt o s = .ok (u, s')) : s'.tri = s.tri := by
  cases o <;> (cases h; rfl)

theorem scheduleImmediately_event [HasSqrt K] {n : TId} {now : K} {s s' : St K} {u : Unit}
    (h : scheduleImmediately n now s = .ok (u, s')) : (∀ x, x ≠ n → (s'.tri x).event = (s.tri x).event) ∧
      (s'.tri n).event.isSome := by
  unfold scheduleImmediately at h
  obtain ⟨T, s1, h1, h⟩ := bind_run_ok.1 h
  obtain ⟨-, -, rfl⟩ := getT_run_ok.1 h1
  obtain ⟨_, s1, h1, h⟩ := bind_run_ok.1 h
  have e1 := queueDiscardOpt_tri h1
  obtain ⟨_, s2, h2, h⟩ := bind_run_ok.1 h
  have e2 := immediateRemoveOpt_tri h2
  obtain ⟨e, s3, h3, h⟩ := bind_run_ok.1 h
  have e3 : s3.tri = s2.tri := by
    unfold immediateEvent at h3
    obtain ⟨_, s4, h4, h3⟩ := bind_run_ok.1 h3
    obtain ⟨-, -, rfl⟩ := triView_run_ok.1 h4
    obtain ⟨_, s4, h4, h3⟩ := bind_run_ok.1 h3
    obtain ⟨-, rfl⟩ := lift_run_ok.1 h4
    obtain ⟨_, s4, h4, h3⟩ := bind_run_ok.1 h3
    obtain ⟨-, -, rfl⟩ := getT_run_ok.1 h4
    obtain ⟨-, rfl⟩ := newEvent_run_ok.1 h3
    rfl
  obtain ⟨_, s4, h4, h⟩ := bind_run_ok.1 h
  obtain ⟨-, rfl⟩ := modifyT_run_ok.1 h4
  obtain ⟨_, s5, h5, h⟩ := bind_run_ok.1 h
  obtain ⟨-, rfl⟩ := assertM_run_ok.1 h5
  cases h
  refine ⟨fun x hx => ?_, ?_⟩
  · dsimp only
    rw [Function.update_of_ne hx, e3, e2, e1]
  · dsimp only
    rw [Function.update_self]
    rfl

/-- progress of the loop over the neighbours: `l` are the sides that remain -/
structure ThreeSides (t : TId) (s : St K) (l : List (Fin 3)) (s' : St K) : Prop where
  nT : s'.nT = s.nT
  stopsAt : ∀ x, (s'.tri x).stopsAt = (s.tri x).stopsAt
  vertices : ∀ x, (s'.tri x).vertices = (s.tri x).vertices
  event : ∀ x, (s.tri x).event.isSome → (s'.tri x).event.isSome
  own : (s'.tri t).neighbours = (s.tri t).neighbours
  other : ∀ x i, (s'.tri x).neighbours i = (s.tri x).neighbours i ∨
    (s.tri x).neighbours i = some t ∧ (s'.tri x).neighbours i = none
  left : ∀ x, Live s x → x ≠ t → (Finset.univ.filter fun i => (s'.tri x).neighbours i = some t).card =
    (l.filter fun i => (s.tri t).neighbours i = some x).length

theorem card_update_none {f : Fin 3 → Option TId} {t : TId} {k : Fin 3} (hk : f k = some t) :
    (Finset.univ.filter fun i => Function.update f k none i = some t).card + 1 =
      (Finset.univ.filter fun i => f i = some t).card := by
  have : (Finset.univ.filter fun i => Function.update f k none i = some t) =
      (Finset.univ.filter fun i => f i = some t).erase k := by
    ext i
    simp only [Finset.mem_filter, Finset.mem_univ, true_and, Finset.mem_erase]
    by_cases hi : i = k
    · subst hi; simp
    · simp [hi]
  rw [this]
  exact Finset.card_erase_add_one (by simp [hk])

theorem threeSides_step [HasSqrt K] {t : TId} {now : K} {s s1 s2 : St K} {i : Fin 3} {l : List (Fin 3)} {u : Unit}
    (hM : Mesh s) (hl : Live s t) (hev : ∀ i n, (s.tri t).neighbours i = some n → (s.tri n).event.isSome)
    (hp : ThreeSides t s (i :: l) s1) (h : threeSidesNeighbour t now i s1 = .ok (u, s2)) : ThreeSides t s l s2 := by
  unfold threeSidesNeighbour at h
  obtain ⟨T, _, h1, h⟩ := bind_run_ok.1 h
  obtain ⟨-, rfl, rfl⟩ := getT_run_ok.1 h1
  rw [hp.own] at h
  cases hn : (s.tri t).neighbours i with
  | none =>
    rw [hn] at h
    obtain ⟨-, rfl⟩ := pure_run_ok.1 h
    refine ⟨hp.nT, hp.stopsAt, hp.vertices, hp.event, hp.own, hp.other, fun x hx hxt => ?_⟩
    rw [hp.left x hx hxt, List.filter_cons, if_neg]
    rw [hn]; simp
  | some n =>
    rw [hn] at h
    dsimp only at h
    obtain ⟨N, _, h1, h⟩ := bind_run_ok.1 h
    obtain ⟨-, rfl, rfl⟩ := getT_run_ok.1 h1
    have hln := (facing hM.consistent hl hn).1
    have hnt : n ≠ t := fun q => hM.consistent.not_self hl i (q ▸ hn)
    rw [if_pos ⟨hp.event n (hev i n hn), by rw [hp.stopsAt, hln.2]; rfl⟩] at h
    obtain ⟨_, s3, h3, h⟩ := bind_run_ok.1 h
    obtain ⟨k, hk, rfl⟩ := relink_run h3
    have hc := c_scheduleImmediately _ _ _ _ _ h
    obtain ⟨e1, e2⟩ := scheduleImmediately_event h
    have hN : ∀ x, (s2.tri x).neighbours = if x = n then Function.update (s1.tri n).neighbours k none
        else (s1.tri x).neighbours := by
      intro x
      rw [hc.neighbours]
      by_cases hx : x = n
      · subst hx; simp
      · simp [hx]
    refine ⟨hc.nT.trans hp.nT, fun x => ?_, fun x => ?_, fun x hx => ?_, ?_, fun x j => ?_, fun x hx hxt => ?_⟩
    · have : (s2.tri x).stopsAt = _ := hc.apply (fun y : St K => (y.tri x).stopsAt)
      rw [this, ← hp.stopsAt]
      by_cases hx : x = n
      · subst hx; simp [St.core]
      · simp [hx, St.core]
    · rw [hc.vertices, ← hp.vertices]
      by_cases hx : x = n
      · subst hx; simp
      · simp [hx]
    · by_cases hxn : x = n
      · subst hxn; exact e2
      · rw [e1 x hxn]
        simpa [hxn] using hp.event x hx
    · rw [hN, if_neg hnt.symm]; exact hp.own
    · rw [hN]
      by_cases hx : x = n
      · subst hx
        rw [if_pos rfl]
        by_cases hj : j = k
        · subst hj
          rw [Function.update_self]
          rcases hp.other x j with a | a
          · exact .inr ⟨a ▸ hk, rfl⟩
          · exact .inr ⟨a.1, rfl⟩
        · rw [Function.update_of_ne hj]; exact hp.other x j
      · rw [if_neg hx]; exact hp.other x j
    · have hL := hp.left x hx hxt
      rw [hN]
      by_cases hxn : x = n
      · subst hxn
        rw [if_pos rfl]
        have := card_update_none hk
        rw [hL, List.filter_cons, if_pos (by simpa using hn), List.length_cons] at this
        omega
      · rw [if_neg hxn, hL, List.filter_cons, if_neg]
        rw [hn]
        simpa using fun q => hxn q.symm

theorem threeSides_loop [HasSqrt K] {t : TId} {now : K} {s : St K} (hM : Mesh s) (hl : Live s t)
    (hev : ∀ i n, (s.tri t).neighbours i = some n → (s.tri n).event.isSome) : ∀ (l : List (Fin 3)) {s1 s2 : St K}
    {u : Unit}, ThreeSides t s l s1 → forEach (threeSidesNeighbour t now) l s1 = .ok (u, s2) → ThreeSides t s [] s2 := by
  intro l
  induction l with
  | nil =>
    intro s1 s2 u hp h
    obtain ⟨-, rfl⟩ := pure_run_ok.1 h
    exact hp
  | cons i l ih =>
    intro s1 s2 u hp h
    unfold forEach at h
    obtain ⟨_, s3, h3, h⟩ := bind_run_ok.1 h
    exact ih (threeSides_step hM hl hev hp h3) h

/-- taking out a triangle all neighbours of which are detached -/
theorem threeSides_mesh {s sC sD : St K} {t : TId} (hM : Mesh s) (hp : ThreeSides t s [] sC) (hnV : s.nV ≤ sD.nV)
    (hnT : sD.nT = sC.nT)
    (hS : ∀ x, (sD.tri x).vertices = (sC.tri x).vertices ∧ (sD.tri x).neighbours = (sC.tri x).neighbours ∧
      ((sD.tri x).stopsAt = none ↔ (sC.tri x).stopsAt = none ∧ x ≠ t)) : Mesh sD ∧ Removed s sD t := by
  have hst : ∀ x, (sD.tri x).stopsAt = none ↔ (s.tri x).stopsAt = none ∧ x ≠ t := fun x => by
    rw [(hS x).2.2, hp.stopsAt]
  have hN : ∀ x i, Live s x → x ≠ t → (sD.tri x).neighbours i =
      if (s.tri x).neighbours i = some t then none else (s.tri x).neighbours i := by
    intro x i hx hxt
    rw [(hS x).2.1]
    have h0 := hp.left x hx hxt
    rw [List.filter_nil, List.length_nil, Finset.card_eq_zero, Finset.filter_eq_empty_iff] at h0
    rcases hp.other x i with a | a
    · rw [a, if_neg]
      rw [← a]
      exact h0 (Finset.mem_univ i)
    · rw [a.2, if_pos a.1]
  refine ⟨mesh_without (t := t) hM (hnT.trans hp.nT) hnV hst (remove_consistent hM.consistent (hnT.trans hp.nT)
    (fun x _ _ => by rw [(hS x).1, hp.vertices]) hN) (fun x i => ?_) (fun x hx => ?_),
    live_without (hnT.trans hp.nT) hst, fun x => by rw [(hS x).1, hp.vertices], hN⟩
  · exact .inl (by rw [(hS x).1, hp.vertices])
  · rw [(hS x).1, hp.vertices]

end Grassfire
