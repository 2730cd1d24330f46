/-
Vertices run from node to node: what `init_skeleton` delivers, and executions (lemmas for C75).
-/
import Verif.Proofs.AnchorRun

set_option linter.unusedSectionVars false

namespace Grassfire

open Spec

variable {K : Type} [Field K] [LinearOrder K] [IsStrictOrderedRing K] [HasSqrt K] [SqrtUnit K] {dt : Dt K}
  {pyid : TId → ℕ} {ts : List (TriStart K)} {vs : List (KVertex K × List DEdge)}
  {nbr : TId → Fin 3 → Option TId} {unwanted sorted : List TId} {s : St K}

theorem Delivered.nodes (h : Delivered dt pyid ts vs nbr unwanted sorted s) : NodeToNode s := by
  intro u k hu hk _
  obtain ⟨x, hxv, rfl⟩ := h.vert hk
  obtain ⟨v, first, last, hv, hfin, hn, -⟩ := h.origin hxv
  obtain ⟨a, b, y, z, ha, hb, hy, hz, h5, h6, ex⟩ := h.linked hxv hn.head hn.tail hn.empty
  have hnode : s.node = fun v => ⟨dt.pos v, -1, dt.info v⟩ := by rw [h.state]; rfl
  have hnN : s.nN = dt.nV := by rw [h.state]; rfl
  rw [ex, hn.fields]
  refine ⟨⟨0, v, rfl, rfl, by rw [hnN]; exact hv, ?_⟩, fun t ht => ?_, fun q => ?_⟩
  · rw [hnode]
    unfold pointAt
    dsimp only
    rw [zero_mul, zero_mul, add_zero, add_zero]
  · cases ht
  · cases q

/-- a vertex of the input on a straight line -/
theorem bisector_straight {l r : Line2 K} (hl : l.w.1 ^ 2 + l.w.2 ^ 2 = 1) (h : l.w = r.w) (hb : l.b = r.b) {b : Pt K}
    (h1 : getBisector l r = .ok b) : b = l.w := by
  obtain rfl : l = r := by cases l; cases r; cases h; cases hb; rfl
  have hp := (C12_parallel l l hl rfl).1 rfl
  unfold getBisector at h1
  rw [hp] at h1
  simp only [bind, Except.bind, Except.ok.injEq] at h1
  rw [← h1]
  unfold add2 mul2
  ext <;> dsimp only <;> ring

theorem Delivered.arcs (h : Delivered dt pyid ts vs nbr unwanted sorted s) (hdt : DtOk dt) (hx : ExactLengths dt)
    (hc : ClearAngles dt) (hs : NoSpikes s) : Arcs s := by
  refine ⟨h.nodes, fun v k hv hk hi => ?_⟩
  obtain ⟨p, q, l, r, e3, e4, e5, e6, e7, e8, e9, e10, e11⟩ := h.facts hdt hx hk
  rcases hc l r e7 e8 with q1 | q1 | q1
  · refine (h.waves hdt hx).motion v k hv hk hi fun a b ha hb => ?_
    rw [e3] at ha
    rw [e4] at hb
    cases ha
    cases hb
    rw [e5, e6]
    exact q1
  · obtain ⟨_, _, _, _, -, -, -, -, u1, -⟩ := id e7
    have hbeq : l.b = r.b := by
      unfold AtDistance at e9 e10
      rw [← q1] at e10
      linear_combination e9 - e10
    have hvel := bisector_straight u1 q1 hbeq e11
    intro a b ha hb t
    rw [e3] at ha
    rw [e4] at hb
    cases ha
    cases hb
    rw [e5, e6, hvel]
    unfold AtDistance at e9 e10 ⊢
    dsimp only
    rw [← q1] at e10 ⊢
    exact ⟨by linear_combination e9 + t * u1, by linear_combination e10 + t * u1⟩
  · exact absurd (by rw [e5, e6]; exact q1) (hs v k p q hv hk e3 e4)

theorem Arcs.same {s s' : St K} (h : Arcs s) (h1 : s'.vert = s.vert) (h2 : s'.nV = s.nV) (h3 : s'.node = s.node)
    (h4 : s'.nN = s.nN) (h5 : s'.line = s.line) : Arcs s' :=
  h.relinked ⟨h2, h4, h3, h5, by rw [h1]; exact (relinkedPre.refl s).vert⟩

theorem Arcs.prepare {s : St K} (h : Arcs s) (internal : Bool) (tr : Option (Transform K)) :
    Arcs (prepare internal tr s) := by
  refine h.same ?_ ?_ ?_ ?_ ?_ <;> unfold Grassfire.prepare <;> cases internal <;> cases tr <;> rfl

variable [HasTrig K]

theorem execution_arcs {P : Line2 K → Prop} (hP : Clear P) {depth : ℕ} {s0 : St K} {n : ℕ} {now : K} {s : St K}
    {tr : List (Event K × K)} (w : Waves P s0) (a : Arcs s0) (h : ExactExecution depth s0 n now s tr) : Arcs s := by
  obtain ⟨⟨hi, s1, h1, hr⟩, he0⟩ := h
  have he := he0 s1 h1
  have m1 : MeshOnly s0 { s1 with immediate := [] } := by
    have : MeshOnly s0 s1 := Keeps.use h1 mo_initEventList
    unfold MeshOnly at this ⊢
    rw [this]
  have a1 := a.relinked (Relinked.of_mesh m1)
  have w1 : ∀ m x u tr', Run depth { s1 with immediate := [] } 0 m x u tr' → Waves P u := fun m x u tr' hu =>
    execution_waves w ⟨hi, s1, h1, hu⟩
  clear h1 w a m1 he0
  induction hr with
  | start => exact a1
  | step hr hs ih =>
    rename_i m x x' u u' tr' e
    exact arcs_loopStep hP hs (ih fun k hk => he k (Nat.lt_succ_of_lt hk)) (w1 _ _ _ _ hr)
      (he _ (Nat.lt_succ_self _) _ _ _ _ _ _ hr hs)

end Grassfire
