/-
A check by evaluation whether the triangles of a concrete state form a consistent triangulation.  Only for examples.
-/
import Verif.Spec.Triangulation

namespace Grassfire

open Spec

variable {K : Type}

/-- the triangle on the other side of side `i` of `t` is linked -/
def sideCheck (s : St K) (t : TId) (i : Fin 3) : Bool :=
  match (s.tri t).neighbours i with
  | none => true
  | some n => decide (n < s.nT) && (s.tri n).stopsAt.isNone &&
      decide (∃ j : Fin 3, (s.tri n).vertices (j + 1) = (s.tri t).vertices (i + 2) ∧
        (s.tri n).vertices (j + 2) = (s.tri t).vertices (i + 1) ∧ (s.tri n).neighbours j = some t)

def meshCheck (s : St K) : Bool :=
  (List.range s.nT).all fun t => decide (∀ i j, (s.tri t).vertices i = (s.tri t).vertices j → i = j) &&
    decide (∀ i, (s.tri t).vertices i < s.nV) &&
    ((s.tri t).stopsAt.isSome || decide (∀ i, sideCheck s t i = true))

theorem mesh_of_check {s : St K} (h : meshCheck s = true) : Mesh s := by
  unfold meshCheck at h
  rw [List.all_eq_true] at h
  have h' : ∀ t, t < s.nT → Function.Injective (s.tri t).vertices ∧ (∀ i, (s.tri t).vertices i < s.nV) ∧
      ((s.tri t).stopsAt = none → ∀ i, sideCheck s t i = true) := by
    intro t ht
    have := h t (List.mem_range.2 ht)
    simp only [Bool.and_eq_true, Bool.or_eq_true, decide_eq_true_eq] at this
    refine ⟨fun i j => this.1.1 i j, this.1.2, fun hs => this.2.resolve_left ?_⟩
    rw [hs]; simp
  refine ⟨fun t ht => ⟨ht.1, (h' t ht.1).1, ?_⟩, fun t ht => (h' t ht).1, fun t ht => (h' t ht).2.1⟩
  rintro a b n ⟨i, rfl, rfl, hn⟩
  have := (h' t ht.1).2.2 ht.2 i
  unfold sideCheck at this
  rw [hn] at this
  simp only [Bool.and_eq_true, decide_eq_true_eq] at this
  exact ⟨⟨this.1.1, Option.isNone_iff_eq_none.1 this.1.2⟩, this.2⟩

/-- check of `Collapsible` -/
def collapsibleCheck (s : St K) (t : TId) (e : Fin 3) : Bool :=
  (List.range s.nT).all fun x => (s.tri x).stopsAt.isSome ||
    decide ((∃ i, (s.tri x).vertices i = (s.tri t).vertices (e + 1)) →
      (∃ i, (s.tri x).vertices i = (s.tri t).vertices (e + 2)) → x = t ∨
      (s.tri t).neighbours e = some x ∧ (s.tri t).neighbours (e + 1) ≠ some x ∧ (s.tri t).neighbours (e + 2) ≠ some x)

theorem collapsible_of_check {s : St K} {t : TId} {e : Fin 3} (h : collapsibleCheck s t e = true) :
    Collapsible s t e := by
  unfold collapsibleCheck at h
  rw [List.all_eq_true] at h
  intro x hx _
  have := h x (List.mem_range.2 hx.1)
  rw [hx.2] at this
  simpa using this

/-- check of `Live` -/
theorem live_of_check {s : St K} {t : TId} (h : (decide (t < s.nT) && (s.tri t).stopsAt.isNone) = true) : Live s t := by
  simp only [Bool.and_eq_true, decide_eq_true_eq] at h
  exact ⟨h.1, Option.isNone_iff_eq_none.1 h.2⟩

end Grassfire
