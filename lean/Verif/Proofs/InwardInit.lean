/-
The wavefront edges that `init_skeleton` delivers run in the direction of the input edges (lemmas for C91).
-/
import Verif.Proofs.WavefrontInit
import Verif.Spec.Inward

set_option linter.unusedSectionVars false

namespace Grassfire

open Spec

variable {K : Type} [Field K] [LinearOrder K] [IsStrictOrderedRing K] [HasSqrt K] [SqrtUnit K] {dt : Dt K}
  {pyid : TId → ℕ} {ts : List (TriStart K)} {vs : List (KVertex K × List DEdge)}
  {nbr : TId → Fin 3 → Option TId} {unwanted sorted : List TId} {s : St K}

theorem Delivered.forward (h : Delivered dt pyid ts vs nbr unwanted sorted s) (hdt : DtOk dt)
    (hx : ExactLengths dt) {u : VId} {kv : KVertex K} (hk : s.vert u = .kin kv) :
    ∃ b q kb, kv.right = [⟨0, none, some b⟩] ∧ kv.ur = some q ∧ s.vert b = .kin kb ∧
      0 < ahead (s.line q) kv.origin kb.origin := by
  obtain ⟨x, hxv, rfl⟩ := h.vert hk
  obtain ⟨v, first, last, hv, hfin, hn, gs, hgs, hgm, -⟩ := h.origin hxv
  obtain ⟨a, b, y, z, ha, hb, hy, hz, h5, h6, ex⟩ := h.linked hxv hn.head hn.tail hn.empty
  obtain ⟨v', first', last', hv', hfin', hn', gs', hgs', hgm', -⟩ := h.origin hz
  obtain ⟨l, r, hl, hr, hbi⟩ := hn.left
  obtain ⟨ht2, hr1, hr2⟩ := h.line hr
  obtain ⟨c2, a2, b2, ha2, hb2, hp2⟩ := supportLine_ok hr2
  have cyc1 : ∀ i : Fin 3, cw (ccw i) = i := by decide
  have cyc2 : ∀ i : Fin 3, ccw (cw i) = i := by decide
  have one : ∀ i : Fin 3, ccw i = i + 1 := by decide
  have two : ∀ i : Fin 3, cw i = i + 2 := by decide
  obtain ⟨e1, e2, e3, e4⟩ := line_of_points hp2
    (hx _ _ _ _ ht2 c2 (by rw [← one]; exact ha2) (by rw [← two]; exact hb2))
  have hmem : dt.corner first.1 first.2 = some v :=
    hdt.star_corner v hv first ((C41_rotation dt v gs hgs).1.mem_iff.1
      (List.mem_flatten.2 ⟨x.2, hgm, List.mem_of_head? hn.head⟩))
  have hmem' : dt.corner last'.1 last'.2 = some v' :=
    hdt.star_corner v' hv' last' ((C41_rotation dt v' gs' hgs').1.mem_iff.1
      (List.mem_flatten.2 ⟨z.2, hgm', List.mem_of_getLast? hn'.tail⟩))
  have f2 : x.1.wfr = some (wfId first.1 (cw first.2)) := by rw [hn.fields]
  have f1 : z.1.wfl = some (wfId last'.1 (ccw last'.2)) := by rw [hn'.fields]
  rw [f2, f1] at h6
  obtain ⟨g1, g2⟩ := wfId_inj (Option.some.inj h6)
  rw [cyc2, hmem] at ha2
  cases ha2
  rw [g1, g2, cyc1, hmem'] at hb2
  cases hb2
  have o : ∀ y : KVertex K × List DEdge, (linkVertex vs y).origin = y.1.origin := by
    intro y
    unfold linkVertex
    split <;> rfl
  refine ⟨b, wfId first.1 (cw first.2), _, by rw [ex], by rw [ex, hn.fields], h.vert_of hz, ?_⟩
  rw [o, o, hn.fields, hn'.fields, hr1]
  exact e4

end Grassfire
