/-
Properties C25, C39, C40: histories of neighbours, segments of the skeleton.
-/
import Verif.Proofs.PrimitivesLemmas

set_option linter.unusedSectionVars false

namespace Grassfire

/-! ### C25 -/

section C25
variable {K R : Type} [LinearOrder K]

/-- C25: after the assignments `as` (time, reference) with non-decreasing times,
`left_at(t)` is the reference of the last assignment with time `<= t`, and `None`
when there is none.  Comparison only: any linear order of times. -/
theorem C25_left_at (as : List (K × R)) (hs : as.Pairwise fun a b => a.1 ≤ b.1) (t : K) :
    (as.foldl (fun h a => Hist.set h a.2 a.1) []).at t =
      ((as.filter fun a => decide (a.1 ≤ t)).getLast?).map (·.2) := by
  rw [foldl_set, mkHist_at as hs]

/-- C25: `left` is the most recent assignment. -/
theorem C25_left (as : List (K × R)) :
    (as.foldl (fun h a => Hist.set h a.2 a.1) []).last = as.getLast?.map (·.2) := by
  rw [foldl_set, mkHist_last]

/-- C25: before the first assignment nothing is known. -/
theorem C25_before_first (a : K × R) (as : List (K × R))
    (hs : (a :: as).Pairwise fun a b => a.1 ≤ b.1) (t : K) (ht : t < a.1) :
    ((a :: as).foldl (fun h a => Hist.set h a.2 a.1) []).at t = none := by
  rw [C25_left_at _ hs]
  have : (a :: as).filter (fun b => decide (b.1 ≤ t)) = [] := by
    rw [List.filter_eq_nil_iff]
    intro b hb
    have hab : a.1 ≤ b.1 := by
      rcases List.mem_cons.mp hb with rfl | h
      · exact le_rfl
      · exact (List.pairwise_cons.mp hs).1 b h
    simp only [decide_eq_true_eq, not_le]
    exact lt_of_lt_of_le ht hab
  rw [this]; rfl

/-- C25: a later assignment does not change look-ups for earlier times. -/
theorem C25_past_fixed (as : List (K × R)) (a : K × R)
    (hs : (as ++ [a]).Pairwise fun a b => a.1 ≤ b.1) (t : K) (ht : t < a.1) :
    ((as ++ [a]).foldl (fun h a => Hist.set h a.2 a.1) []).at t =
      (as.foldl (fun h a => Hist.set h a.2 a.1) []).at t := by
  have hs' : as.Pairwise fun a b => a.1 ≤ b.1 := (List.pairwise_append.mp hs).1
  rw [C25_left_at _ hs, C25_left_at _ hs', List.filter_append]
  have : [a].filter (fun b => decide (b.1 ≤ t)) = [] := by simp [ht]
  rw [this, List.append_nil]

example : ([((0 : ℕ), 'a'), (2, 'b'), (2, 'c'), (5, 'd')].foldl
    (fun h a => Hist.set h a.2 a.1) []).at 3 = some 'c' := by decide

/-- C25 needs the times to be ordered: assigning at an earlier time leaves an entry
that hides the later assignment. -/
theorem C25_needs_order : ∃ as : List (ℕ × Char),
    (as.foldl (fun h a => Hist.set h a.2 a.1) []).at 7 ≠
      ((as.filter fun a => decide (a.1 ≤ 7)).getLast?).map (·.2) :=
  ⟨[(0, 'a'), (9, 'b'), (5, 'c')], by decide⟩

end C25

/-! ### C39, C40 -/

variable {K : Type} [Field K] [LinearOrder K]

/-- C39: the segments are exactly the traces of the vertices, in order.  `kv`, `a`, `b`
give the vertex objects and their nodes: every vertex is kinetic, has a start node,
and has a stop node iff it has stopped. -/
theorem C39_segments (s : St K) (kv : VId → KVertex K) (a b : VId → NodeId)
    (hk : ∀ v ∈ s.skVertices, s.vert v = .kin (kv v))
    (ha : ∀ v ∈ s.skVertices, (kv v).startNode = some (a v))
    (hb : ∀ v ∈ s.skVertices, (kv v).stopsAt ≠ none → (kv v).stopNode = some (b v)) :
    segments s = .ok (s.skVertices.filterMap fun v =>
      if (kv v).stopsAt ≠ none then
        if a v = b v then none
        else some (((s.transform.elim id (·.backward)) (s.node (a v)).pos,
          (s.transform.elim id (·.backward)) (s.node (b v)).pos),
          ((s.node (a v)).info, (s.node (b v)).info))
      else some (((s.node (a v)).pos,
        if (kv v).infFast then (s.node (a v)).pos
        else ((kv v).origin.1 + 1000 * (kv v).velocity.1, (kv v).origin.2 + 1000 * (kv v).velocity.2)),
        ((s.node (a v)).info, none))) := by
  unfold segments
  rw [segmentsLoop_eq s _ _ ?_ [], List.nil_append]
  intro v hv
  unfold segmentOf
  rw [hk v hv]
  simp only
  have hav := ha v hv
  have hbv := hb v hv
  cases hst : (kv v).stopsAt with
  | some st =>
    rw [hst] at hbv
    have hbv' := hbv (by simp)
    simp only [hav, hbv', Option.some.injEq, ne_eq, reduceCtorEq, not_false_eq_true, if_true]
    split_ifs with h
    · rfl
    · cases s.transform <;> rfl
  | none =>
    simp only [hav, ne_eq, not_true, if_false, Vertex.positionAt]
    cases hi : (kv v).infFast <;> simp [bind, Except.bind]

/-- C40, the part that holds: when every vertex has stopped, all end points are the
internal ones mapped back.  Missing: vertices that never stopped, see
`C40_unstopped_not_mapped`. -/
theorem C40_mapped_back_partial (s : St K) (tr : Transform K) (htr : s.transform = some tr)
    (kv : VId → KVertex K) (a b : VId → NodeId)
    (hk : ∀ v ∈ s.skVertices, s.vert v = .kin (kv v))
    (ha : ∀ v ∈ s.skVertices, (kv v).startNode = some (a v))
    (hst : ∀ v ∈ s.skVertices, (kv v).stopsAt ≠ none)
    (hb : ∀ v ∈ s.skVertices, (kv v).stopNode = some (b v)) :
    ∃ raw, segments { s with transform := none } = .ok raw ∧
      segments s = .ok (raw.map fun g => ((tr.backward g.1.1, tr.backward g.1.2), g.2)) := by
  refine ⟨_, C39_segments { s with transform := none } kv a b hk ha (fun v hv _ => hb v hv), ?_⟩
  rw [C39_segments s kv a b hk ha (fun v hv _ => hb v hv)]
  congr 1
  rw [List.map_filterMap]
  refine List.filterMap_congr ?_
  intro v hv
  simp only [hst v hv, ne_eq, not_false_eq_true, if_true, htr, Option.elim]
  split_ifs with h <;> rfl

/-- a skeleton with one vertex that never stops, and the transform x -> 10 x -/
def exUnstopped : St ℚ where
  vert := fun _ => .kin { origin := (1, 1), velocity := (1, 0), startNode := some 0 }
  nV := 1
  tri := fun _ => ⟨fun _ => 0, fun _ => none, none, 0, none, false⟩
  nT := 0
  node := fun _ => ⟨(1, 1), 0, none⟩
  nN := 1
  nE := 0
  line := fun _ => ⟨(0, 1), 0⟩
  wfLine := fun _ => 0
  pyid := id
  skNodes := [0]
  skVertices := [0]
  skTriangles := []
  transform := some ⟨(10, 10), (0, 0)⟩
  queue := []
  immediate := []

/-- C40, negation: the segment of a vertex that never stops is not mapped back; even
its start node (1,1), which is (10,10) in input coordinates, is reported as (1,1). -/
theorem C40_unstopped_not_mapped :
    segments exUnstopped = .ok [(((1, 1), (1001, 1)), (none, none))] ∧
    (⟨(10, 10), (0, 0)⟩ : Transform ℚ).backward (1, 1) = (10, 10) := by
  constructor <;> decide +kernel

/-- a skeleton with one stopped vertex -/
def exStopped : St ℚ :=
  { exUnstopped with
    vert := fun _ => .kin
      { origin := (1, 1), velocity := (1, 0), startNode := some 0, stopsAt := some 2,
        startsAt := some 0, stopNode := some 1 }
    node := (fun n => if n = 0 then ⟨(1, 1), 0, some 5⟩ else ⟨(3, 1), 1, none⟩)
    nN := 2 }

example : segments exStopped = .ok [(((10, 10), (30, 10)), (some 5, none))] := by decide +kernel

end Grassfire
