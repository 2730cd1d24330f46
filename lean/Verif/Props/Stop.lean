/-
Property C29: stopping vertices.
-/
import Verif.Proofs.StopLemmas
import Verif.Spec.Samples

set_option linter.unusedSectionVars false

namespace Grassfire

open Spec

variable {K : Type} [Field K] [LinearOrder K]

/-- a successful loop of assignments -/
theorem forEach_modifyK_run {f : KVertex K → KVertex K} {V : List VId} {s s' : St K} {u : Unit}
    (h : forEach (fun v => modifyK v f) V s = .ok (u, s')) :
    s' = { s with vert := s'.vert } ∧ (∀ v, v ∉ V → s'.vert v = s.vert v) ∧
    (∀ v kv, s.vert v = .kin kv → ∃ kv', s'.vert v = .kin kv') ∧
    (∀ v ∈ V, v < s.nV ∧ ∃ kv kv', s.vert v = .kin kv ∧ s'.vert v = .kin (f kv')) := by
  induction V generalizing s with
  | nil =>
    obtain ⟨_, rfl⟩ := pure_run_ok.1 h
    exact ⟨rfl, fun _ _ => rfl, fun v kv hk => ⟨kv, hk⟩, by simp⟩
  | cons v vs ih =>
    simp only [forEach] at h
    obtain ⟨_, s1, h1, h2⟩ := bind_run_ok.1 h
    obtain ⟨hv, kv, hk, rfl⟩ := modifyK_run_ok.1 h1
    obtain ⟨e1, e2, e3, e4⟩ := ih h2
    refine ⟨by rw [e1], fun w hw => ?_, fun w kw hkw => ?_, fun w hw => ?_⟩
    · rw [List.mem_cons, not_or] at hw
      rw [e2 w hw.2]
      exact Function.update_of_ne hw.1 _ _
    · by_cases hwv : w = v
      · subst hwv
        exact e3 w (f kv) (Function.update_self _ _ _)
      · exact e3 w kw (by rw [← hkw]; exact Function.update_of_ne hwv _ _)
    · by_cases hwv : w = v
      · subst hwv
        refine ⟨hv, kv, ?_⟩
        by_cases hin : w ∈ vs
        · obtain ⟨_, _, kv', _, h'⟩ := e4 w hin
          exact ⟨kv', hk, h'⟩
        · exact ⟨kv, hk, by rw [e2 w hin]; exact Function.update_self _ _ _⟩
      · rcases List.mem_cons.1 hw with h | hin
        · exact absurd h hwv
        · obtain ⟨hn, k1, k2, h1, h2⟩ := e4 w hin
          exact ⟨hn, k1, k2, by rw [← h1]; exact (Function.update_of_ne hwv _ _).symm, h2⟩

theorem stopScan_frame {now : K} {V : List VId} {s s' : St K} {acc r : Option NodeId}
    (h : stopScan now V acc s = .ok (r, s')) :
    s' = { s with vert := s'.vert } ∧ (∀ v, v ∉ V → s'.vert v = s.vert v) := by
  induction V generalizing s acc with
  | nil =>
    obtain ⟨_, rfl⟩ := pure_run_ok.1 h
    exact ⟨rfl, fun _ _ => rfl⟩
  | cons v vs ih =>
    simp only [stopScan] at h
    obtain ⟨kv, s1, h1, h⟩ := bind_run_ok.1 h
    obtain ⟨hv, hk, rfl⟩ := getK_run_ok.1 h1
    obtain ⟨st, s1, h1, h⟩ := bind_run_ok.1 h
    obtain ⟨hst, rfl⟩ := needNum_run_ok.1 h1
    split_ifs at h
    · obtain ⟨e1, e2⟩ := ih h
      exact ⟨e1, fun w hw => e2 w fun hin => hw (List.mem_cons_of_mem _ hin)⟩
    · obtain ⟨e1, e2⟩ := ih h
      exact ⟨e1, fun w hw => e2 w fun hin => hw (List.mem_cons_of_mem _ hin)⟩
    · obtain ⟨_, s1, h1, h⟩ := bind_run_ok.1 h
      obtain ⟨_, kv', hk', rfl⟩ := modifyK_run_ok.1 h1
      obtain ⟨e1, e2⟩ := ih h
      refine ⟨by rw [e1], fun w hw => ?_⟩
      rw [List.mem_cons, not_or] at hw
      rw [e2 w hw.2]
      exact Function.update_of_ne hw.1 _ _

theorem forEach_readVertex_same {V : List VId} {s s' : St K} {u : Unit}
    (h : forEach readVertex V s = .ok (u, s')) : s = s' := by
  induction V with
  | nil => exact (pure_run_ok.1 h).2
  | cons v vs ih =>
    simp only [forEach] at h
    obtain ⟨_, s1, h1, h2⟩ := bind_run_ok.1 h
    unfold readVertex at h1
    obtain ⟨_, s2, h3, h1⟩ := bind_run_ok.1 h1
    obtain ⟨_, _, rfl⟩ := getK_run_ok.1 h3
    obtain ⟨_, rfl⟩ := pure_run_ok.1 h1
    exact ih h2

theorem mapEach_positionAt_same {now : K} {V : List VId} {s s' : St K} {l : List (Pt K)}
    (h : mapEach (fun v => positionAt v now) V s = .ok (l, s')) : s = s' := by
  induction V generalizing l s' with
  | nil => exact (pure_run_ok.1 h).2
  | cons v vs ih =>
    simp only [mapEach] at h
    obtain ⟨_, s1, h1, h2⟩ := bind_run_ok.1 h
    obtain ⟨_, _, rfl⟩ := positionAt_run_ok.1 h1
    obtain ⟨_, s2, h3, h4⟩ := bind_run_ok.1 h2
    obtain rfl := ih h3
    exact (pure_run_ok.1 h4).2

theorem nodePosition_same {now : K} {V : List VId} {pos : Option (Pt K)} {s s' : St K} {p : Pt K}
    (h : nodePosition V now pos s = .ok (p, s')) : s = s' := by
  unfold nodePosition at h
  cases pos with
  | some p => exact (pure_run_ok.1 h).2
  | none =>
    obtain ⟨_, s1, h1, h2⟩ := bind_run_ok.1 h
    obtain rfl := mapEach_positionAt_same h1
    exact (lift_run_ok.1 h2).2

/-- C29: every stopped vertex has stop time `now` and the returned node as stop node.  All other
vertices, the nodes that existed before and the rest of the state are unchanged; at most one node
is made.  (Any list of vertices, any state.) -/
theorem C29_common_node (V : List VId) (step : ℤ) (now : K) (pos : Option (Pt K)) (s s' : St K)
    (n : NodeId) (new : Bool) (h : stopKvertices V step now pos s = .ok ((n, new), s')) :
    (∀ v ∈ V, ∃ kv, s'.vert v = .kin kv ∧ kv.stopsAt = some now ∧ kv.stopNode = some n) ∧
    (∀ v, v ∉ V → s'.vert v = s.vert v) ∧
    s' = { s with vert := s'.vert, node := s'.node, nN := s'.nN } ∧
    (∀ m, m < s.nN → s'.node m = s.node m) ∧
    (new = true → n = s.nN ∧ s'.nN = s.nN + 1) ∧ (new = false → s'.nN = s.nN) := by
  unfold stopKvertices at h
  obtain ⟨_, s1, h1, h⟩ := bind_run_ok.1 h
  obtain rfl := forEach_readVertex_same h1
  obtain ⟨sk, s2, h2, h⟩ := bind_run_ok.1 h
  obtain ⟨f1, f2⟩ := stopScan_frame h2
  obtain ⟨res, s3, h3, h⟩ := bind_run_ok.1 h
  obtain ⟨_, s4, h4, h⟩ := bind_run_ok.1 h
  obtain ⟨rfl, h5⟩ := forEach_assertStoppedAt_run h4
  obtain ⟨hres, rfl⟩ := pure_run_ok.1 h
  subst hres
  cases sk with
  | some m =>
    simp only [stopAtNode, stopAtExisting] at h3
    obtain ⟨_, s6, h6, h7⟩ := bind_run_ok.1 h3
    obtain ⟨hp, rfl⟩ := pure_run_ok.1 h7
    simp only [Prod.mk.injEq] at hp
    obtain ⟨rfl, rfl⟩ := hp
    obtain ⟨e1, e2, e3, e4⟩ := forEach_modifyK_run h6
    refine ⟨fun v hv => ?_, fun v hv => (e2 v hv).trans (f2 v hv), by rw [e1, f1],
      fun k hk => by rw [e1, f1], by simp, fun _ => by rw [e1, f1]⟩
    obtain ⟨_, k1, k2, _, hk⟩ := e4 v hv
    exact ⟨_, hk, rfl, rfl⟩
  | none =>
    simp only [stopAtNode, stopAtNew] at h3
    obtain ⟨p, s5, h6, h3⟩ := bind_run_ok.1 h3
    obtain rfl := nodePosition_same h6
    obtain ⟨m, s6, h7, h3⟩ := bind_run_ok.1 h3
    obtain ⟨rfl, rfl⟩ := newNode_run_ok.1 h7
    obtain ⟨_, s7, h8, h3⟩ := bind_run_ok.1 h3
    obtain ⟨hp, rfl⟩ := pure_run_ok.1 h3
    simp only [Prod.mk.injEq] at hp
    obtain ⟨rfl, rfl⟩ := hp
    obtain ⟨e1, e2, e3, e4⟩ := forEach_modifyK_run h8
    refine ⟨fun v hv => ?_, fun v hv => (e2 v hv).trans (f2 v hv), by rw [e1, f1],
      fun k hk => ?_, fun _ => ⟨by rw [f1], by rw [e1, f1]⟩, by simp⟩
    · obtain ⟨_, k1, k2, _, hk⟩ := e4 v hv
      obtain ⟨_, kv, hkv, _, hs⟩ := h5 v hv
      refine ⟨kv, hkv, hs, ?_⟩
      rw [hkv] at hk
      cases hk
      rfl
    · rw [e1]
      dsimp only
      rw [Function.update_of_ne (by rw [f1]; exact hk.ne), f1]

theorem getLast?_mem_filterMap {now : K} {s : St K} {V : List VId} {n : NodeId}
    (h : (V.filterMap fun v => nodeOf now (s.vert v)).getLast? = some n) :
    ∃ v ∈ V, nodeOf now (s.vert v) = some n := by
  have := List.mem_of_getLast? h
  rw [List.mem_filterMap] at this
  exact this

variable [IsStrictOrderedRing K]

/-- the node of the specification is the node of the scan -/
theorem atNode_iff {s : St K} {now : K} {v : VId} {n : NodeId} (hs : Stoppable s v) :
    AtNode s now v n ↔ nodeOf now (s.vert v) = some n := by
  obtain ⟨hv, kv, hk, hst, hsn, hsp⟩ := hs
  obtain ⟨st, hst⟩ := Option.ne_none_iff_exists'.1 hst
  unfold AtNode
  rw [hk]
  constructor
  · rintro ⟨k, st', hk', hst', h⟩
    cases hk'
    rw [hst] at hst'
    cases hst'
    rcases h with ⟨h1, h2⟩ | ⟨h1, h2, h3⟩
    · simp [nodeOf, Option.isSome_iff_ne_none.2 h1, h2]
    · simp [nodeOf, h1, hst, (nearZero_iff _).2 h2, h3]
  · intro h
    refine ⟨kv, st, rfl, hst, ?_⟩
    unfold nodeOf at h
    simp only [hst] at h
    split_ifs at h with h1 h2
    · exact .inl ⟨Option.isSome_iff_ne_none.1 h1, h⟩
    · exact .inr ⟨by simpa using h1, (nearZero_iff _).1 h2, h⟩

omit [IsStrictOrderedRing K] in
theorem stoppable_kin {s : St K} {v : VId} (h : Stoppable s v) :
    v < s.nV ∧ ∃ kv, s.vert v = .kin kv := by
  obtain ⟨hv, kv, hk, _⟩ := h
  exact ⟨hv, kv, hk⟩

omit [IsStrictOrderedRing K] in
theorem mapAll_kin {f : KVertex K → KVertex K} {V : List VId} {s : St K} {v : VId}
    (h : v < s.nV ∧ ∃ kv, s.vert v = .kin kv) :
    v < (mapAll f V s).nV ∧ ∃ kv, (mapAll f V s).vert v = .kin kv := by
  obtain ⟨hv, kv, hk⟩ := h
  refine ⟨hv, ?_⟩
  unfold mapAll
  by_cases hin : v ∈ V
  · exact ⟨f kv, by simp [hin, hk, mapKin]⟩
  · exact ⟨kv, by simp [hin, hk]⟩

/-- C29: when some vertex of the list is already at a node (it was stopped before, or it starts now)
no node is made; the node is one of those. -/
theorem C29_existing_node (V : List VId) (step : ℤ) (now : K) (pos : Option (Pt K)) (s : St K)
    (hnd : V.Nodup) (hV : ∀ v ∈ V, Stoppable s v) (hex : ∃ v ∈ V, ∃ n, AtNode s now v n) :
    ∃ n s', stopKvertices V step now pos s = .ok ((n, false), s') ∧ ∃ v ∈ V, AtNode s now v n := by
  obtain ⟨v, hv, m, hm⟩ := hex
  rw [atNode_iff (hV v hv)] at hm
  obtain ⟨n, hn⟩ : ∃ n, (V.filterMap fun v => nodeOf now (s.vert v)).getLast? = some n := by
    have : (V.filterMap fun v => nodeOf now (s.vert v)) ≠ [] := by
      intro h
      rw [List.filterMap_eq_nil_iff] at h
      rw [h v hv] at hm
      cases hm
    exact ⟨_, List.getLast?_eq_some_getLast this⟩
  have hscan := stopScan_run now V hnd s none hV
  rw [hn] at hscan
  have hfor := forEach_modifyK (fun kv => { kv with stopNode := some n, stopsAt := some now }) V hnd
    (mapAll (markStop now) V s) fun v hv => mapAll_kin (stoppable_kin (hV v hv))
  refine ⟨n, mapAll (fun kv => { kv with stopNode := some n, stopsAt := some now }) V
    (mapAll (markStop now) V s), ?_, ?_⟩
  rotate_left
  · obtain ⟨w, hw, h⟩ := getLast?_mem_filterMap hn
    exact ⟨w, hw, (atNode_iff (hV w hw)).2 h⟩
  · unfold stopKvertices
    rw [bind_run, forEach_readVertex V s fun v hv => stoppable_kin (hV v hv)]
    dsimp only
    rw [bind_run, hscan]
    dsimp only
    rw [bind_run]
    have : stopAtNode V step now pos (Option.or (some n) none) (mapAll (markStop now) V s) =
        .ok ((n, false), mapAll (fun kv => { kv with stopNode := some n, stopsAt := some now }) V
          (mapAll (markStop now) V s)) := by
      simp only [Option.some_or, stopAtNode, stopAtExisting]
      rw [bind_run, hfor]
      rfl
    rw [this]
    dsimp only
    rw [bind_run, forEach_assertStoppedAt now V]
    · rfl
    · intro v hv
      obtain ⟨hlt, kv, hk⟩ := stoppable_kin (hV v hv)
      refine ⟨hlt, { markStop now kv with stopsAt := some now, stopNode := some n }, ?_, rfl, rfl⟩
      simp [mapAll, hv, hk, mapKin]

/-- C29: when no vertex of the list is at a node yet a new node is made, at the given position, or
else at the average of the positions at time `now`; every half plane that contains these
positions contains the node. -/
theorem C29_new_node (V : List VId) (hne : V ≠ []) (step : ℤ) (now : K) (pos : Option (Pt K))
    (s : St K) (hnd : V.Nodup) (hV : ∀ v ∈ V, Stoppable s v)
    (hno : ∀ v ∈ V, ∀ n, ¬ AtNode s now v n) (p : VId → Pt K) (hp : ∀ v ∈ V, IsAt s now v (p v)) :
    ∃ s' q, stopKvertices V step now pos s = .ok ((s.nN, true), s') ∧
      s'.node s.nN = ⟨q, step, none⟩ ∧
      (∀ x, pos = some x → q = x) ∧
      (pos = none → q = ((V.map fun v => (p v).1).sum / V.length, (V.map fun v => (p v).2).sum / V.length) ∧
        ∀ a b c : K, (∀ v ∈ V, a * (p v).1 + b * (p v).2 ≤ c) → a * q.1 + b * q.2 ≤ c) := by
  have hno' : ∀ v ∈ V, nodeOf now (s.vert v) = none := by
    intro v hv
    cases h : nodeOf now (s.vert v) with
    | none => rfl
    | some n => exact absurd ((atNode_iff (hV v hv)).2 h) (hno v hv n)
  have hnil : (V.filterMap fun v => nodeOf now (s.vert v)) = [] :=
    List.filterMap_eq_nil_iff.2 hno'
  have hscan := stopScan_run now V hnd s none hV
  rw [hnil] at hscan
  have hlen : ((V.map p).length : K) ≠ 0 := by
    rw [List.length_map, Nat.cast_ne_zero]
    exact fun h => hne (List.length_eq_zero_iff.1 h)
  have havg : averagePos (V.map p) = .ok
      ((V.map fun v => (p v).1).sum / V.length, (V.map fun v => (p v).2).sum / V.length) := by
    unfold averagePos pdiv
    dsimp only
    rw [if_neg hlen, if_neg hlen]
    simp only [List.map_map, List.length_map]
    rfl
  have hpos : ∃ q, nodePosition V now pos (mapAll (markStop now) V s) =
      .ok (q, mapAll (markStop now) V s) ∧ (∀ x, pos = some x → q = x) ∧
      (pos = none → q =
        ((V.map fun v => (p v).1).sum / V.length, (V.map fun v => (p v).2).sum / V.length)) := by
    cases pos with
    | some x => exact ⟨x, rfl, fun y h => by cases h; rfl, by simp⟩
    | none =>
      refine ⟨_, ?_, by simp, fun _ => rfl⟩
      simp only [nodePosition]
      rw [bind_run, mapEach_positionAt (p := p)]
      · dsimp only
        rw [havg]
        rfl
      · intro v hv
        obtain ⟨hlt, kv, hk⟩ := stoppable_kin (hV v hv)
        refine ⟨hlt, ?_⟩
        obtain ⟨kv', hk', h⟩ := hp v hv
        refine ⟨markStop now kv', by simp [mapAll, hv, hk', mapKin], ?_⟩
        unfold markStop
        split_ifs
        · exact h
        · exact h
  obtain ⟨q, hq, hq1, hq2⟩ := hpos
  let s1 : St K := { mapAll (markStop now) V s with
      node := (Function.update s.node s.nN ⟨q, step, none⟩)
      nN := s.nN + 1 }
  have hnew : newNode ⟨q, step, none⟩ (mapAll (markStop now) V s) = .ok (s.nN, s1) := rfl
  have hfor := forEach_modifyK (fun kv => { kv with stopNode := some s.nN }) V hnd s1
    fun v hv => mapAll_kin (stoppable_kin (hV v hv))
  refine ⟨mapAll (fun kv => { kv with stopNode := some s.nN }) V s1, q, ?_, ?_, hq1,
    fun h => ⟨hq2 h, fun a b c hc => ?_⟩⟩
  rotate_left 2
  · rw [← hq2 h] at havg
    refine averagePos_halfplane havg a b c fun x hx => ?_
    obtain ⟨v, hv, rfl⟩ := List.mem_map.1 hx
    exact hc v hv
  · unfold stopKvertices
    rw [bind_run, forEach_readVertex V s fun v hv => stoppable_kin (hV v hv)]
    dsimp only
    rw [bind_run, hscan]
    dsimp only
    rw [bind_run]
    have : stopAtNode V step now pos (Option.or ([] : List NodeId).getLast? none)
        (mapAll (markStop now) V s) = .ok ((s.nN, true),
          mapAll (fun kv => { kv with stopNode := some s.nN }) V s1) := by
      simp only [List.getLast?_nil, Option.none_or, stopAtNode, stopAtNew]
      rw [bind_run, hq]
      dsimp only
      rw [bind_run, hnew]
      dsimp only
      rw [bind_run, hfor]
      rfl
    rw [this]
    dsimp only
    rw [bind_run, forEach_assertStoppedAt now V]
    · rfl
    · intro v hv
      obtain ⟨hlt, kv, hk⟩ := stoppable_kin (hV v hv)
      have hn := hno' v hv
      rw [hk] at hn
      refine ⟨hlt, { kv with stopsAt := some now, stopNode := some s.nN }, ?_, rfl, rfl⟩
      simp [mapAll, s1, hv, hk, mapKin, markStop, hn]
  · simp [mapAll, s1]

omit [IsStrictOrderedRing K] in
/-- C29: nothing to stop and no position: ZeroDivisionError. -/
theorem C29_empty (step : ℤ) (now : K) (s : St K) :
    stopKvertices [] step now none s = .error (.py .zeroDivisionError) := by
  have h : averagePos ([] : List (Pt K)) = .error .zeroDivisionError := by
    simp [averagePos, pdiv]; rfl
  have h1 : nodePosition [] now none s = .error (.py .zeroDivisionError) := by
    simp only [nodePosition, mapEach]
    rw [bind_run]
    simp only [pure_run, h, lift]
  unfold stopKvertices
  rw [bind_run]
  have h2 : forEach readVertex [] s = .ok ((), s) := rfl
  have h3 : stopScan now [] none s = .ok (none, s) := rfl
  rw [h2]
  dsimp only
  rw [bind_run, h3]
  dsimp only
  rw [bind_run]
  have h4 : stopAtNode [] step now none none s = .error (.py .zeroDivisionError) := by
    simp only [stopAtNode, stopAtNew]
    rw [bind_run, h1]
  rw [h4]

/-- The hypotheses are met: the first three vertices of the rectangle are stopped at time 1, then
again together with the fourth one. -/
example : Sample.outcome
      (do let a ← stopKvertices [0, 1, 2] 1 1 none
          let b ← stopKvertices [2, 3] 2 1 none
          pure (a, b))
      (fun r s => (r, (s.node 4).pos, match s.vert 3 with
        | .kin kv => (kv.stopsAt, kv.stopNode)
        | _ => (none, none))) Sample.rectangle =
    some (((4, true), (4, false)), (7 / 3, 1), (some 1, some 4)) := by
  decide +kernel

end Grassfire
