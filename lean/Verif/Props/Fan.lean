/-
Property C27: replacing a vertex in its fan.
-/
import Verif.Proofs.FanLemmas
import Verif.Spec.Triangulation
import Verif.Spec.Samples

set_option linter.unusedSectionVars false

namespace Grassfire

open Spec

variable {K : Type} [Field K] [LinearOrder K]

/-- C27: `replace_kvertex` terminates, whatever the neighbour relations are (the new vertex is a
different one in all uses). -/
theorem C27_terminates [HasSqrt K] (t : TId) (v newv : VId) (hne : newv ≠ v) (now : K) (dir : Dir) (s : St K) :
    replaceKvertex t v newv now dir s ≠ .error .nonTermination :=
  replaceLoop_ends hne now dir _ _ _ s (Nat.lt_succ_of_le (places_le v s))

/-- C27: on success the triangles returned are those met when going around the old vertex until
there is a wavefront edge; they are pairwise distinct; each of them gets the new vertex in the
place of the old one; no other triangle gets another corner; and apart from events nothing else is
changed. -/
theorem C27_fan [HasSqrt K] (t : TId) (v newv : VId) (hne : newv ≠ v) (now : K) (dir : Dir)
    (s s' : St K) (fan : List TId) (honce : Once v s)
    (h : replaceKvertex t v newv now dir s = .ok (fan, s')) :
    FanWalk dir v s.tri (some t) fan ∧ fan.Nodup ∧
    (∀ u, (s'.tri u).vertices =
      if u ∈ fan then substitute v newv (s.tri u).vertices else (s.tri u).vertices) ∧
    (∀ u, (s'.tri u).neighbours = (s.tri u).neighbours ∧ (s'.tri u).stopsAt = (s.tri u).stopsAt ∧
      (s'.tri u).info = (s.tri u).info ∧ (s'.tri u).internal = (s.tri u).internal) ∧
    s'.vert = s.vert ∧ s'.nV = s.nV ∧ s'.node = s.node ∧ s'.nN = s.nN ∧ s'.nT = s.nT ∧
    s'.skNodes = s.skNodes ∧ s'.skVertices = s.skVertices ∧ s'.skTriangles = s.skTriangles := by
  obtain ⟨l, hl, hw, hnd, hv, hr, hn⟩ := replaceLoop_ok hne now dir _ _ _ _ _ _ honce h
  rw [List.nil_append] at hl
  subst hl
  have ap : ∀ {β : Type} (f : St K → β), f s'.noTri = f s.noTri := fun f => congrArg f hn
  have at_ : ∀ {β : Type} (u : TId) (f : KTri K → β), f (s'.tri u).rest = f (s.tri u).rest :=
    fun u f => congrArg f (hr u)
  exact ⟨hw, hnd, hv, fun u => ⟨at_ u (·.neighbours), at_ u (·.stopsAt), at_ u (·.info), at_ u (·.internal)⟩,
    ap (·.vert), ap (·.nV), ap (·.node), ap (·.nN), ap (·.nT), ap (·.skNodes), ap (·.skVertices),
    ap (·.skTriangles)⟩

/-! ### `get_fan` -/

/-- Going around a vertex in a consistent triangulation, two different triangles have different
successors. -/
theorem next_inj {P : TId → Prop} {s : St K} (h : Consistent P s) {v : VId} {dir : Dir} {a b c : TId}
    {i j : Fin 3} (pa : P a) (pb : P b) (hi : (s.tri a).vertices i = v) (hj : (s.tri b).vertices j = v)
    (ha : (s.tri a).neighbours (dir.fn i) = some c) (hb : (s.tri b).neighbours (dir.fn j) = some c) :
    a = b := by
  obtain ⟨pc, k, k1, k2, k3⟩ := (h a pa).2.2 _ _ c ⟨dir.fn i, rfl, rfl, ha⟩
  obtain ⟨_, l, l1, l2, l3⟩ := (h b pb).2.2 _ _ c ⟨dir.fn j, rfl, rfl, hb⟩
  have hinj := (h c pc).2.1
  have : k = l := by
    cases dir with
    | cw =>
      have e1 : cw i + 1 = i := ccw_cw i
      have e2 : cw j + 1 = j := ccw_cw j
      have e : k + 2 = l + 2 := by
        apply hinj
        rw [k2, l2]
        show (s.tri a).vertices (cw i + 1) = (s.tri b).vertices (cw j + 1)
        rw [e1, e2, hi, hj]
      exact cw_inj e
    | ccw =>
      have e1 : ccw i + 2 = i := cw_ccw i
      have e2 : ccw j + 2 = j := cw_ccw j
      have e : k + 1 = l + 1 := by
        apply hinj
        rw [k1, l1]
        show (s.tri a).vertices (ccw i + 2) = (s.tri b).vertices (ccw j + 2)
        rw [e1, e2, hi, hj]
      simpa using e
  subst this
  rw [k3] at l3
  exact Option.some.inj l3

/-- the part of the fan that has been visited -/
structure Visited (P : TId → Prop) (v : VId) (dir : Dir) (start : TId) (s : St K) (fan : List TId)
    (next : Option TId) : Prop where
  inP : ∀ t ∈ fan, P t
  nodup : fan.Nodup
  ahead : ∀ t, next = some t → P t ∧ t ∉ fan
  pred : ∀ t, (t ∈ fan ∨ next = some t) → t = start ∨
    ∃ p ∈ fan, ∃ i, (s.tri p).vertices i = v ∧ (s.tri p).neighbours (dir.fn i) = some t

theorem getFanLoop_ends {P : TId → Prop} {s : St K} (h : Consistent P s) (v : VId) (dir : Dir) (start : TId)
    (fuel : ℕ) : ∀ (next : Option TId) (fan : List TId), Visited P v dir start s fan next →
      s.nT < fuel + fan.length →
      getFanLoop v dir start fuel next fan s ≠ .error .nonTermination := by
  induction fuel with
  | zero =>
    intro next fan hv hlt _
    have hsub : fan ⊆ List.range s.nT := fun t ht => List.mem_range.2 (h t (hv.inP t ht)).1
    have := (hv.nodup.subperm hsub).length_le
    rw [List.length_range] at this
    omega
  | succ fuel ih =>
    intro next fan hv hlt he
    cases next with
    | none => cases he
    | some t =>
      obtain ⟨pt, htf⟩ := hv.ahead t rfl
      have ht := (h t pt).1
      unfold getFanLoop at he
      rw [bind_run, getT_run_ok.2 ⟨ht, rfl, rfl⟩] at he
      dsimp only at he
      rw [bind_run] at he
      cases e2 : needIdx (K := K) (index3 (s.tri t).vertices v) s with
      | error x => rw [e2] at he; cases he; exact e_needIdx _ s e2
      | ok p =>
        obtain ⟨i, s1⟩ := p
        obtain ⟨hi, rfl⟩ := needIdx_run_ok.1 e2
        rw [e2] at he
        dsimp only at he
        rw [bind_run] at he
        cases e3 : assertM (K := K) ((s.tri t).neighbours (dir.fn i) ≠ some start) s with
        | error x => rw [e3] at he; cases he; exact e_assertM _ s e3
        | ok p =>
          obtain ⟨_, s1⟩ := p
          obtain ⟨hns, rfl⟩ := assertM_run_ok.1 e3
          rw [e3] at he
          refine ih _ _ ⟨?_, ?_, ?_, ?_⟩ ?_ he
          · intro u hu
            rcases List.mem_append.1 hu with hu | hu
            · exact hv.inP u hu
            · rw [List.mem_singleton.1 hu]; exact pt
          · rw [List.nodup_append]
            refine ⟨hv.nodup, List.nodup_singleton _, ?_⟩
            rintro a ha b hb rfl
            rw [List.mem_singleton.1 hb] at ha
            exact htf ha
          · intro u hu
            refine ⟨((h t pt).2.2 _ _ u ⟨dir.fn i, rfl, rfl, hu⟩).1, fun hm => ?_⟩
            have hm' : u ∈ fan ∨ some t = some u := by
              rcases List.mem_append.1 hm with hm | hm
              · exact .inl hm
              · rw [List.mem_singleton.1 hm]; exact .inr rfl
            rcases hv.pred u hm' with rfl | ⟨p, hp, j, hj1, hj2⟩
            · exact hns hu
            · have := next_inj h (hv.inP p hp) pt hj1 (index3_some hi) hj2 hu
              subst this
              exact htf hp
          · intro u hu
            rcases hu with hu | hu
            · have hm' : u ∈ fan ∨ some t = some u := by
                rcases List.mem_append.1 hu with hm | hm
                · exact .inl hm
                · rw [List.mem_singleton.1 hm]; exact .inr rfl
              rcases hv.pred u hm' with e | ⟨p, hp, j, hj1, hj2⟩
              · exact .inl e
              · exact .inr ⟨p, List.mem_append_left _ hp, j, hj1, hj2⟩
            · exact .inr ⟨t, by simp, i, index3_some hi, hu⟩
          · rw [List.length_append, List.length_singleton]; omega

/-- C27: in a consistent triangulation `get_fan` terminates as well. -/
theorem C27_get_fan_terminates {P : TId → Prop} {s : St K} (h : Consistent P s) (t : TId) (pt : P t)
    (v : VId) (dir : Dir) : getFan t v dir s ≠ .error .nonTermination := by
  refine getFanLoop_ends h v dir t _ _ _ ⟨by simp, List.nodup_nil, ?_, ?_⟩ (by simp)
  · rintro u ⟨⟩
    exact ⟨pt, by simp⟩
  · rintro u (hu | hu)
    · simp at hu
    · cases hu; exact .inl rfl

theorem getFanLoop_walk (v : VId) (dir : Dir) (start : TId) (fuel : ℕ) :
    ∀ (next : Option TId) (fan fan' : List TId) (s s' : St K),
      getFanLoop v dir start fuel next fan s = .ok (fan', s') →
      s' = s ∧ ∃ l, fan' = fan ++ l ∧ FanWalk dir v s.tri next l := by
  induction fuel with
  | zero =>
    intro next fan fan' s s' he
    cases next with
    | none => cases he; exact ⟨rfl, [], by simp, .stop⟩
    | some t => cases he
  | succ fuel ih =>
    intro next fan fan' s s' he
    cases next with
    | none => cases he; exact ⟨rfl, [], by simp, .stop⟩
    | some t =>
      unfold getFanLoop at he
      obtain ⟨T, s1, h1, he⟩ := bind_run_ok.1 he
      obtain ⟨ht, rfl, rfl⟩ := getT_run_ok.1 h1
      obtain ⟨i, s1, h1, he⟩ := bind_run_ok.1 he
      obtain ⟨hi, rfl⟩ := needIdx_run_ok.1 h1
      obtain ⟨_, s1, h1, he⟩ := bind_run_ok.1 he
      obtain ⟨_, rfl⟩ := assertM_run_ok.1 h1
      obtain ⟨rfl, l, rfl, hw⟩ := ih _ _ _ _ _ he
      exact ⟨rfl, t :: l, by simp, .step (index3_some hi) hw⟩

/-- C27: on success `get_fan` returns the fan around the vertex and changes nothing. -/
theorem C27_get_fan (t : TId) (v : VId) (dir : Dir) (s s' : St K) (fan : List TId)
    (h : getFan t v dir s = .ok (fan, s')) : s' = s ∧ FanWalk dir v s.tri (some t) fan := by
  obtain ⟨rfl, l, rfl, hw⟩ := getFanLoop_walk v dir t _ _ _ _ _ _ h
  exact ⟨rfl, hw⟩

/-- Neighbour pointers that are not mutual: triangle 1 is its own neighbour. -/
def exLoop : TId → KTri ℚ :=
  Sample.ofList [{ vertices := ![0, 1, 2], neighbours := ![none, some 1, none] },
    { vertices := ![0, 2, 3], neighbours := ![none, some 1, some 0] }]
    { vertices := ![0, 0, 0], neighbours := ![none, none, none] }

/-- C27: consistency is needed for `get_fan`: with these pointers the walk around vertex 0 never ends, and
never comes back to its start, so that the assertion does not stop it either. -/
theorem C27_get_fan_needs_consistency (l : List TId) : ¬ FanWalk .ccw 0 exLoop (some 0) l := by
  have key : ∀ (o : Option TId) (l : List TId), FanWalk .ccw 0 exLoop o l → o ≠ some 1 := by
    intro o l h
    induction h with
    | stop => simp
    | @step t i l hi _ ih =>
      rintro ⟨⟩
      have h0 : ∀ i : Fin 3, (exLoop 1).vertices i = 0 → i = 0 := by decide +kernel
      have := h0 i hi
      subst this
      exact ih (by decide +kernel)
  intro h
  cases h with
  | @step _ i l hi hw =>
    have h0 : ∀ i : Fin 3, (exLoop 0).vertices i = 0 → i = 0 := by decide +kernel
    have := h0 i hi
    subst this
    exact key _ _ hw (by decide +kernel)

/-- The square with a fifth vertex, to be put in the place of corner 0. -/
def exFan : St ℚ :=
  { Sample.square with
    vert := (Function.update Sample.square.vert 4 (.kin { origin := (0, 0), velocity := (1, 1) }))
    nV := 5 }

/-- The hypotheses are met: corner 0 of the square has two triangles, the walk starting at triangle 0 meets
both. -/
example : Once 0 exFan ∧
    Sample.outcome (replaceKvertex 0 0 4 0 .ccw) (fun fan s => (fan, (s.tri 0).vertices, (s.tri 1).vertices))
      exFan = some ([0, 1], ![4, 1, 2], ![4, 2, 3]) := by
  constructor
  · have h2 : ∀ t : Fin 2, ∀ i j : Fin 3, (exFan.tri t).vertices i = 0 → (exFan.tri t).vertices j = 0 →
        i = j := by decide +kernel
    exact fun t ht i j hi hj => h2 ⟨t, ht⟩ i j hi hj
  · decide +kernel

end Grassfire
