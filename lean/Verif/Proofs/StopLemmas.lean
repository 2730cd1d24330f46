/-
Running `stop_kvertices` (lemmas for C29).
-/
import Verif.Proofs.Wp
import Verif.Proofs.CalcLemmas
import Verif.Spec.Stop

set_option linter.unusedSectionVars false

namespace Grassfire

open Spec

variable {K : Type} [Field K] [LinearOrder K]

/-- change the kinetic vertices of a list -/
def mapKin (f : KVertex K → KVertex K) : Vertex K → Vertex K
  | .kin kv => .kin (f kv)
  | .inf o => .inf o

/-- change the vertices of a list -/
def mapAll (f : KVertex K → KVertex K) (V : List VId) (s : St K) : St K :=
  { s with vert := fun w => if w ∈ V then mapKin f (s.vert w) else s.vert w }

theorem forEach_modifyK (f : KVertex K → KVertex K) (V : List VId) (hnd : V.Nodup) (s : St K)
    (hV : ∀ v ∈ V, v < s.nV ∧ ∃ kv, s.vert v = .kin kv) :
    forEach (fun v => modifyK v f) V s = .ok ((), mapAll f V s) := by
  induction V generalizing s with
  | nil => simp [forEach, pure_run, mapAll]
  | cons v vs ih =>
    obtain ⟨hv, kv, hk⟩ := hV v (by simp)
    obtain ⟨hnot, hnd'⟩ := List.nodup_cons.1 hnd
    simp only [forEach]
    rw [bind_run, modifyK_run_ok (b := ()) |>.2 ⟨hv, kv, hk, rfl⟩]
    dsimp only
    rw [ih hnd']
    · simp only [mapAll, Except.ok.injEq, Prod.mk.injEq, true_and]
      congr 1
      funext w
      by_cases hw : w = v
      · subst hw; simp [hnot, hk, mapKin]
      · simp [hw]
    · intro w hw
      have hne : w ≠ v := fun h => hnot (h ▸ hw)
      simpa [hne] using hV w (by simp [hw])

theorem forEach_readVertex (V : List VId) (s : St K)
    (hV : ∀ v ∈ V, v < s.nV ∧ ∃ kv, s.vert v = .kin kv) :
    forEach readVertex V s = .ok ((), s) := by
  induction V with
  | nil => rfl
  | cons v vs ih =>
    obtain ⟨hv, kv, hk⟩ := hV v (by simp)
    simp only [forEach]
    rw [bind_run]
    have : readVertex v s = .ok ((), s) := by
      unfold readVertex
      rw [bind_run, getK_run_ok.2 ⟨hv, hk, rfl⟩]; rfl
    rw [this]
    exact ih fun w hw => hV w (by simp [hw])

theorem forEach_assertStoppedAt (now : K) (V : List VId) (s : St K)
    (hV : ∀ v ∈ V, v < s.nV ∧ ∃ kv, s.vert v = .kin kv ∧ kv.stopNode.isSome ∧
      kv.stopsAt = some now) :
    forEach (assertStoppedAt now) V s = .ok ((), s) := by
  induction V with
  | nil => rfl
  | cons v vs ih =>
    obtain ⟨hv, kv, hk, h1, h2⟩ := hV v (by simp)
    simp only [forEach]
    rw [bind_run]
    have : assertStoppedAt now v s = .ok ((), s) := by
      unfold assertStoppedAt
      rw [bind_run, getK_run_ok.2 ⟨hv, hk, rfl⟩]
      dsimp only
      rw [bind_run, assertM_run_ok (b := ()) |>.2 ⟨h1, rfl⟩]
      exact assertM_run_ok.2 ⟨h2, rfl⟩
    rw [this]
    exact ih fun w hw => hV w (by simp [hw])

/-- from a successful check -/
theorem forEach_assertStoppedAt_run {now : K} {V : List VId} {s s' : St K} {u : Unit}
    (h : forEach (assertStoppedAt now) V s = .ok (u, s')) :
    s = s' ∧ ∀ v ∈ V, v < s.nV ∧ ∃ kv, s.vert v = .kin kv ∧ kv.stopNode.isSome ∧
      kv.stopsAt = some now := by
  induction V with
  | nil => exact ⟨(pure_run_ok.1 h).2, by simp⟩
  | cons v vs ih =>
    simp only [forEach] at h
    obtain ⟨_, s1, h1, h2⟩ := bind_run_ok.1 h
    unfold assertStoppedAt at h1
    obtain ⟨kv, s2, h3, h1⟩ := bind_run_ok.1 h1
    obtain ⟨hv, hk, rfl⟩ := getK_run_ok.1 h3
    obtain ⟨_, s3, h3, h1⟩ := bind_run_ok.1 h1
    obtain ⟨ha, rfl⟩ := assertM_run_ok.1 h3
    obtain ⟨hb, rfl⟩ := assertM_run_ok.1 h1
    obtain ⟨rfl, h5⟩ := ih h2
    refine ⟨rfl, fun w hw => ?_⟩
    rcases List.mem_cons.1 hw with rfl | hw
    · exact ⟨hv, kv, hk, ha, hb⟩
    · exact h5 w hw

/-- the node a vertex is already at -/
def nodeOf (now : K) : Vertex K → Option NodeId
  | .inf _ => none
  | .kin kv =>
    if kv.stopsAt.isSome then kv.stopNode
    else match kv.startsAt with
      | some st => if nearZero (st - now) then kv.startNode else none
      | none => none

/-- the scan sets the stop time of vertices that are not at a node -/
def markStop (now : K) (kv : KVertex K) : KVertex K :=
  if (nodeOf now (.kin kv)).isNone then { kv with stopsAt := some now } else kv

theorem stopScan_run (now : K) (V : List VId) (hnd : V.Nodup) (s : St K) (acc : Option NodeId)
    (hV : ∀ v ∈ V, Stoppable s v) :
    stopScan now V acc s =
      .ok ((V.filterMap fun v => nodeOf now (s.vert v)).getLast?.or acc,
        mapAll (markStop now) V s) := by
  induction V generalizing s acc with
  | nil => simp [stopScan, pure_run, mapAll]
  | cons v vs ih =>
    obtain ⟨hv, kv, hk, hst, hsn, hsp⟩ := hV v (by simp)
    obtain ⟨hnot, hnd'⟩ := List.nodup_cons.1 hnd
    obtain ⟨st, hst⟩ := Option.ne_none_iff_exists'.1 hst
    obtain ⟨sn, hsn⟩ := Option.ne_none_iff_exists'.1 hsn
    simp only [stopScan]
    rw [bind_run, getK_run_ok.2 ⟨hv, hk, rfl⟩]
    dsimp only
    rw [bind_run, needNum_run_ok.2 ⟨hst, rfl⟩]
    dsimp only
    have hvs : ∀ w ∈ vs, w ≠ v := fun w hw h => hnot (h ▸ hw)
    have last_cons : ∀ (n : NodeId) (l : List NodeId) (acc : Option NodeId),
        (n :: l).getLast?.or acc = l.getLast?.or (some n) := by
      intro n l acc
      cases l with
      | nil => rfl
      | cons m l => rw [List.getLast?_cons_cons]; cases h : (m :: l).getLast? <;> simp_all
    have hkeep : markStop now kv = kv →
        mapAll (markStop now) vs s = mapAll (markStop now) (v :: vs) s := by
      intro hm
      unfold mapAll
      congr 1
      funext w
      by_cases hw : w = v
      · subst hw; simp [hnot, hk, mapKin, hm]
      · simp [hw]
    split_ifs with h1 h2
    · rw [ih hnd' s _ fun w hw => hV w (by simp [hw])]
      obtain ⟨n, hn⟩ := Option.ne_none_iff_exists'.1 (hsp (Option.isSome_iff_ne_none.1 h1))
      have hno : nodeOf now (s.vert v) = some n := by rw [hk]; simp [nodeOf, h1, hn]
      rw [List.filterMap_cons_some (f := fun v => nodeOf now (s.vert v)) hno, last_cons, hn, hkeep]
      unfold markStop; rw [hk] at hno; rw [hno]; simp
    · rw [ih hnd' s _ fun w hw => hV w (by simp [hw])]
      have hno : nodeOf now (s.vert v) = some sn := by
        rw [hk]; simp [nodeOf, h1, hst, h2, hsn]
      rw [List.filterMap_cons_some (f := fun v => nodeOf now (s.vert v)) hno, last_cons, hsn, hkeep]
      unfold markStop; rw [hk] at hno; rw [hno]; simp
    · have hno : nodeOf now (s.vert v) = none := by
        rw [hk]; simp [nodeOf, h1, hst, h2]
      rw [bind_run, modifyK_run_ok (b := ()) |>.2 ⟨hv, kv, hk, rfl⟩]
      dsimp only
      rw [ih hnd']
      · rw [List.filterMap_cons_none (f := fun v => nodeOf now (s.vert v)) hno]
        simp only [Except.ok.injEq, Prod.mk.injEq]
        constructor
        · congr 2
          refine List.filterMap_congr fun w hw => ?_
          rw [Function.update_of_ne (hvs w hw)]
        · unfold mapAll
          dsimp only
          congr 1
          funext w
          by_cases hw : w = v
          · subst hw
            rw [hk] at hno
            simp [hnot, hk, mapKin, markStop, hno]
          · simp [hw]
      · intro w hw
        have := hV w (by simp [hw])
        unfold Stoppable at *
        simpa [hvs w hw] using this

/-- `position_at` in terms of the specification -/
theorem isAt_positionAt {s : St K} {now : K} {v : VId} {p : Pt K} (hv : v < s.nV)
    (h : IsAt s now v p) : positionAt v now s = .ok (p, s) := by
  refine positionAt_run_ok.2 ⟨hv, ?_, rfl⟩
  obtain ⟨kv, hk, ⟨hi, rfl⟩ | ⟨hi, n, hn, rfl⟩⟩ := h
  · rw [hk]; simp [Vertex.positionAt, hi]
  · rw [hk]; simp [Vertex.positionAt, hi, hn]

theorem mapEach_positionAt {s : St K} {now : K} {V : List VId} {p : VId → Pt K}
    (h : ∀ v ∈ V, v < s.nV ∧ IsAt s now v (p v)) :
    mapEach (fun v => positionAt v now) V s = .ok (V.map p, s) := by
  induction V with
  | nil => rfl
  | cons v vs ih =>
    obtain ⟨hv, hp⟩ := h v (by simp)
    simp only [mapEach]
    rw [bind_run, isAt_positionAt hv hp]
    dsimp only
    rw [bind_run, ih fun w hw => h w (by simp [hw])]
    rfl

/-- every half plane that contains all points contains their average -/
theorem averagePos_halfplane [IsStrictOrderedRing K] {l : List (Pt K)} {q : Pt K}
    (h : averagePos l = .ok q) (a b c : K) (hl : ∀ p ∈ l, a * p.1 + b * p.2 ≤ c) :
    a * q.1 + b * q.2 ≤ c := by
  unfold averagePos pdiv at h
  by_cases hz : (l.length : K) = 0
  · simp [hz] at h; cases h
  · simp only [hz, if_false] at h
    have hq : q = ((l.map (·.1)).sum / l.length, (l.map (·.2)).sum / l.length) := by
      cases h; rfl
    have hpos : (0 : K) < l.length := lt_of_le_of_ne (Nat.cast_nonneg _) (Ne.symm hz)
    have hsum : a * (l.map (·.1)).sum + b * (l.map (·.2)).sum ≤ l.length * c := by
      clear h hq hz hpos
      induction l with
      | nil => simp
      | cons x xs ih =>
        have h1 := hl x (by simp)
        have h2 := ih fun p hp => hl p (by simp [hp])
        simp only [List.map_cons, List.sum_cons, List.length_cons, Nat.cast_add, Nat.cast_one]
        nlinarith
    rw [hq]
    dsimp only
    rw [← mul_div_assoc, ← mul_div_assoc, ← add_div, div_le_iff₀ hpos]
    linarith

end Grassfire
