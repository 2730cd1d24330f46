/-
Events that are to be handled at once belong to triangles with a side of (almost) no length (lemmas for C84).
-/
import Verif.Proofs.UprightRun
import Verif.Spec.Meetings

set_option linter.unusedSectionVars false

namespace Grassfire

open Spec

variable {K : Type} [Field K] [LinearOrder K]

/-! ### steps that leave the corners alone and schedule nothing -/

/-- vertices and corners are the same, and there are no more events to be handled at once -/
structure Fewer (s s' : St K) : Prop where
  mesh : MeshOnly s s'
  corners : ∀ x, (s'.tri x).vertices = (s.tri x).vertices
  immediate : ∀ e ∈ s'.immediate, e ∈ s.immediate

theorem fewerPre : Pre (Fewer (K := K)) where
  refl _ := ⟨rfl, fun _ => rfl, fun _ => id⟩
  trans s s1 s2 h g := ⟨meshPre.trans s s1 s2 h.mesh g.mesh, fun x => (g.corners x).trans (h.corners x),
    fun e he => h.immediate e (g.immediate e he)⟩

theorem fw_same {α : Type} {m : M K α} (h : ∀ s a s', m s = .ok (a, s') → s = s') : Keeps (Fewer (K := K)) m :=
  Keeps.of_same fewerPre h

theorem fw_modifyT (t : TId) (f : KTri K → KTri K) (hf : ∀ T, (f T).vertices = T.vertices) :
    Keeps (Fewer (K := K)) (modifyT t f) := by
  intro s a s' h
  obtain ⟨-, rfl⟩ := modifyT_run_ok.1 h
  refine ⟨rfl, fun x => ?_, fun _ => id⟩
  dsimp only
  by_cases q : x = t
  · subst q
    rw [Function.update_self]
    exact hf _
  · rw [Function.update_of_ne q]

theorem fw_queues (s : St K) (q i : List (Event K)) (h : ∀ e ∈ i, e ∈ s.immediate) :
    Fewer s { s with queue := q, immediate := i } := ⟨rfl, fun _ => rfl, h⟩

theorem fw_queueAdd (e : Event K) : Keeps (Fewer (K := K)) (queueAdd e) := by
  intro s a s' h
  unfold queueAdd at h
  split_ifs at h
  simp only [Except.ok.injEq, Prod.mk.injEq, true_and] at h
  subst h; exact fw_queues s _ _ fun _ => id

theorem fw_queueDiscard (e : Event K) : Keeps (Fewer (K := K)) (queueDiscard e) := by
  intro s a s' h
  unfold queueDiscard at h
  simp only [Except.ok.injEq, Prod.mk.injEq, true_and] at h
  subst h; exact fw_queues s _ _ fun _ => id

theorem fw_queueDiscardOpt (e : Option (Event K)) : Keeps (Fewer (K := K)) (queueDiscardOpt e) := by
  intro s a s' h
  unfold queueDiscardOpt at h
  split at h
  · exact fw_queueDiscard _ _ _ _ h
  · split_ifs at h
    simp only [Except.ok.injEq, Prod.mk.injEq, true_and] at h
    subst h; exact fewerPre.refl _

theorem fw_immediateRemove (e : Event K) : Keeps (Fewer (K := K)) (immediateRemove e) := by
  intro s a s' h
  unfold immediateRemove at h
  simp only [Except.ok.injEq, Prod.mk.injEq, true_and] at h
  subst h; exact fw_queues s _ _ fun e he => List.mem_of_mem_eraseP he

theorem fw_immediateRemoveOpt (e : Option (Event K)) : Keeps (Fewer (K := K)) (immediateRemoveOpt e) := by
  cases e with
  | none => exact Keeps.pure fewerPre _
  | some e => exact fw_immediateRemove e

theorem fw_newEvent (c : EvCore K) (t : TId) : Keeps (Fewer (K := K)) (newEvent c t) := by
  intro s a s' h
  obtain ⟨-, rfl⟩ := newEvent_run_ok.1 h
  exact ⟨rfl, fun _ => rfl, fun _ => id⟩

theorem fw_getT (t : TId) : Keeps (Fewer (K := K)) (getT t) := fw_same fun _ _ _ h => (getT_run_ok.1 h).2.2
theorem fw_getK (v : VId) : Keeps (Fewer (K := K)) (getK v) := fw_same fun _ _ _ h => (getK_run_ok.1 h).2.2
theorem fw_needIdx {α : Type} (o : Option α) : Keeps (Fewer (K := K)) (needIdx o : M K α) :=
  fw_same fun _ _ _ h => (needIdx_run_ok.1 h).2
theorem fw_lift {α : Type} (x : Except Err α) : Keeps (Fewer (K := K)) (lift x : M K α) :=
  fw_same fun _ _ _ h => (lift_run_ok.1 h).2
theorem fw_triView (t : TId) : Keeps (Fewer (K := K)) (triView t) := fw_same fun _ _ _ h => (triView_run_ok.1 h).2.2
theorem fw_assertM (c : Prop) [Decidable c] : Keeps (Fewer (K := K)) (assertM c) :=
  fw_same fun _ _ _ h => (assertM_run_ok.1 h).2

theorem fw_setEvent (t : TId) (e : Event K) : Keeps (Fewer (K := K)) (setEvent t e) := fw_modifyT _ _ fun _ => rfl
theorem fw_setNeighbour (t : TId) (i : Fin 3) (n : Option TId) : Keeps (Fewer (K := K)) (setNeighbour t i n) :=
  fw_modifyT _ _ fun _ => rfl
theorem fw_stopTriangle (t : TId) (now : K) : Keeps (Fewer (K := K)) (stopTriangle t now) := fw_modifyT _ _ fun _ => rfl

theorem fw_discardEvent (e : Option (Event K)) : Keeps (Fewer (K := K)) (discardEvent e) := by
  cases e with
  | none => exact Keeps.pure fewerPre _
  | some e => exact Keeps.bind fewerPre (fw_queueDiscard _) fun _ => fw_immediateRemove _

theorem fw_addEvent (e : Option (Event K)) : Keeps (Fewer (K := K)) (addEvent e) := by
  cases e with
  | none => exact Keeps.pure fewerPre _
  | some e => exact fw_queueAdd _

theorem fw_storeEvent (c : Option (EvCore K)) (t : TId) : Keeps (Fewer (K := K)) (storeEvent c t) := by
  cases c with
  | none => exact Keeps.pure fewerPre _
  | some c =>
    exact Keeps.bind fewerPre (fw_newEvent _ _) fun _ => Keeps.bind fewerPre (fw_setEvent _ _) fun _ => Keeps.pure fewerPre _

variable [HasSqrt K]

theorem fw_takeEvent [HasTrig K] (now : K) : Keeps (Fewer (K := K)) (takeEvent now) := by
  intro s a s' h
  rcases takeEvent_run now s with ⟨x, r, hq, hx⟩ | ⟨x, r, hi, hq, hx⟩ | ⟨-, -, hx⟩
  · rw [hx] at h
    cases h
    exact fw_queues s _ _ fun e he => by rw [hq]; exact List.mem_cons_of_mem _ he
  · rw [hx] at h
    cases h
    exact fw_queues s _ _ fun _ => id
  · rw [hx] at h
    cases h
    exact fewerPre.refl _

theorem fw_computeCollapseTime (t : TId) (now : K) (sieve : Sieve) :
    Keeps (Fewer (K := K)) (computeCollapseTime t now sieve) :=
  Keeps.bind fewerPre (fw_triView _) fun _ => Keeps.bind fewerPre (fw_lift _) fun _ => fw_storeEvent _ _

theorem fw_replaceInQueue (t : TId) (now : K) : Keeps (Fewer (K := K)) (replaceInQueue t now) :=
  Keeps.bind fewerPre (fw_getT _) fun _ => Keeps.bind fewerPre (fw_discardEvent _) fun _ =>
    Keeps.bind fewerPre (fw_computeCollapseTime _ _ _) fun _ => fw_addEvent _

theorem fw_renewEvent (b : Bool) (t : TId) (now : K) : Keeps (Fewer (K := K)) (renewEvent b t now) :=
  Keeps.bind fewerPre (fw_getT _) fun _ => Keeps.ite (fw_discardEvent _) (fw_replaceInQueue _ _)

theorem fw_relink (n t : TId) (x : Option TId) : Keeps (Fewer (K := K)) (relink n t x) :=
  Keeps.bind fewerPre (fw_getT _) fun _ => Keeps.bind fewerPre (fw_needIdx _) fun _ => fw_setNeighbour _ _ _

theorem fw_immediateEvent (t : TId) (now : K) : Keeps (Fewer (K := K)) (immediateEvent t now) :=
  Keeps.bind fewerPre (fw_triView _) fun _ => Keeps.bind fewerPre (fw_lift _) fun _ =>
    Keeps.bind fewerPre (fw_getT _) fun _ => fw_newEvent _ _

/-! ### near sides -/

/-- where vertex `v` is at time `u`, for either kind of vertex -/
def spot (s : St K) (v : VId) (u : K) : Pt K := move (viewOf s v).origin (viewOf s v).velocity u

theorem spot_kin {s : St K} {v : VId} {k : KVertex K} (h : s.vert v = .kin k) (u : K) : spot s v u = pointAt k u := by
  unfold spot viewOf move pointAt
  rw [h]

theorem spot_place {s : St K} {v : VId} {u : K} {p : Pt K} (h : placeAt s v u = some p) : spot s v u = p := by
  unfold placeAt at h
  cases q : s.vert v with
  | inf o => rw [q] at h; cases h
  | kin k => rw [q] at h; cases h; exact spot_kin q u

theorem spot_position {s : St K} {v : VId} {u : K} {p : Pt K}
    (h : (s.vert v).positionAt (fun n => (s.node n).pos) u = .ok p) (hs : ∀ k, s.vert v = .kin k → k.infFast = false) :
    spot s v u = p := by
  cases q : s.vert v with
  | inf o =>
    rw [q] at h
    cases h
    unfold spot viewOf move
    rw [q]
    dsimp only
    rw [mul_zero, add_zero, add_zero]
  | kin k =>
    rw [spot_kin q]
    rw [q] at h
    unfold Vertex.positionAt at h
    dsimp only at h
    rw [if_pos (hs k q)] at h
    cases h
    rfl

theorem spot_grows {s s' : St K} (g : Grows s s') {v : VId} (hv : v < s.nV) (u : K) : spot s' v u = spot s v u := by
  have h := g.vert v hv
  cases q : s.vert v with
  | inf o =>
    rw [q] at h
    cases q' : s'.vert v with
    | inf o' =>
      rw [q'] at h
      have h : o = o' := h
      unfold spot viewOf
      rw [q, q', h]
    | kin k => rw [q'] at h; exact h.elim
  | kin k =>
    rw [q] at h
    cases q' : s'.vert v with
    | inf o' => rw [q'] at h; exact h.elim
    | kin k' =>
      rw [q'] at h
      have h : SameBirth k k' := h
      rw [spot_kin q, spot_kin q']
      unfold pointAt
      rw [h.origin, h.velocity]

theorem spot_vert {s s' : St K} {v : VId} (h : s'.vert v = s.vert v) (u : K) : spot s' v u = spot s v u := by
  unfold spot viewOf
  rw [h]
  cases s.vert v <;> rfl

/-- the ends of a side of the triangle are at the same place, or so near that the computed distance is taken for zero -/
def Tight (now : K) (s : St K) (t : TId) : Prop :=
  ∃ j, cornerAt (viewT s t) (j + 1) now = cornerAt (viewT s t) (j + 2) now ∨
    HasSqrt.sqrt (lengthSq (viewT s t) j now) ≤ 1 / 10 ^ 10

/-- From `s0` to `s` corners have been replaced by vertices at the same place only, and only triangles with a near side
have got events to be handled at once. -/
structure Watch (now : K) (s0 s : St K) : Prop where
  nT : s.nT = s0.nT
  corner : ∀ x, x < s0.nT → ∀ j, (s.tri x).vertices j < s.nV ∧
    spot s ((s.tri x).vertices j) now = spot s0 ((s0.tri x).vertices j) now
  immediate : ∀ e ∈ s.immediate, e ∈ s0.immediate ∨ e.tri < s0.nT ∧ Tight now s0 e.tri

variable {now : K} {s0 s s' : St K}

theorem Watch.near (h : Watch now s0 s) {t : TId} (ht : t < s0.nT) : Tight now s t ↔ Tight now s0 t := by
  have : ∀ j, cornerAt (viewT s t) j now = cornerAt (viewT s0 t) j now := fun j => (h.corner t ht j).2
  unfold Tight lengthSq
  simp only [this]

theorem Watch.refl (hv : ∀ x, x < s.nT → ∀ j, (s.tri x).vertices j < s.nV) : Watch now s s :=
  ⟨rfl, fun x hx j => ⟨hv x hx j, rfl⟩, fun _ => .inl⟩

theorem Watch.fewer (h : Watch now s0 s) (f : Fewer s s') : Watch now s0 s' := by
  have hV : s'.nV = s.nV := by rw [f.mesh]
  have hT : s'.nT = s.nT := by rw [f.mesh]
  have hv : s'.vert = s.vert := by rw [f.mesh]
  refine ⟨hT.trans h.nT, fun x hx j => ?_, fun e he => h.immediate e (f.immediate e he)⟩
  rw [f.corners, hV, spot_vert (s := s) (s' := s') (by rw [hv])]
  exact h.corner x hx j

theorem Watch.aloof (h : Watch now s0 s) (g : Grows s s') (a : Aloof s s') : Watch now s0 s' := by
  refine ⟨g.nT.trans h.nT, fun x hx j => ?_, fun e he => h.immediate e (by rw [← a.2.2]; exact he)⟩
  obtain ⟨h1, h2⟩ := h.corner x hx j
  rw [a.1]
  exact ⟨g.vlt h1, (spot_grows g h1 now).trans h2⟩

theorem Watch.setVertex {t : TId} {i : Fin 3} {newv : VId} {a : Unit} (h : Watch now s0 s) (hv : newv < s.nV)
    (hp : spot s newv now = spot s ((s.tri t).vertices i) now) (hm : setVertex t i newv s = .ok (a, s')) :
    Watch now s0 s' := by
  unfold Grassfire.setVertex at hm
  obtain ⟨ht, rfl⟩ := modifyT_run_ok.1 hm
  refine ⟨h.nT, fun x hx j => ?_, h.immediate⟩
  obtain ⟨h1, h2⟩ := h.corner x hx j
  dsimp only
  have hsp : ∀ f v, spot { s with tri := f } v now = spot s v now := fun _ _ => rfl
  rw [hsp]
  by_cases q : x = t
  · subst q
    rw [Function.update_self]
    dsimp only
    by_cases q : j = i
    · subst q
      rw [Function.update_self]
      exact ⟨hv, hp.trans h2⟩
    · rw [Function.update_of_ne q]
      exact ⟨h1, h2⟩
  · rw [Function.update_of_ne q]
    exact ⟨h1, h2⟩

theorem Watch.replaceLoop {v newv : VId} {dir : Dir} {fuel : ℕ} : ∀ {s : St K} {t : Option TId} {fan l : List TId},
    Watch now s0 s → newv < s.nV → spot s newv now = spot s v now →
    replaceLoop v newv now dir fuel t fan s = .ok (l, s') → Watch now s0 s' := by
  induction fuel with
  | zero =>
    intro s t fan l h _ _ hm
    cases t with
    | none => unfold Grassfire.replaceLoop at hm; cases hm; exact h
    | some t => unfold Grassfire.replaceLoop at hm; cases hm
  | succ fuel ih =>
    intro s t fan l h hv hp hm
    cases t with
    | none => unfold Grassfire.replaceLoop at hm; cases hm; exact h
    | some t =>
      unfold Grassfire.replaceLoop at hm
      obtain ⟨T, s1, h1, hm⟩ := bind_run_ok.1 hm
      obtain ⟨-, rfl, rfl⟩ := getT_run_ok.1 h1
      obtain ⟨i, s1, h1, hm⟩ := bind_run_ok.1 hm
      obtain ⟨hi, rfl⟩ := needIdx_run_ok.1 h1
      have hi := index3_some hi
      obtain ⟨_, s1, h1, hm⟩ := bind_run_ok.1 hm
      have m1 := mo_setVertex _ _ _ _ _ _ h1
      have w1 := h.setVertex hv (by rw [hi]; exact hp) h1
      obtain ⟨k, s2, h2, hm⟩ := bind_run_ok.1 hm
      obtain ⟨-, -, rfl⟩ := getK_run_ok.1 h2
      obtain ⟨_, s2, h2, hm⟩ := bind_run_ok.1 hm
      have f2 := fw_renewEvent _ _ _ _ _ _ h2
      obtain ⟨T, s3, h3, hm⟩ := bind_run_ok.1 hm
      obtain ⟨-, rfl, rfl⟩ := getT_run_ok.1 h3
      have m2 := meshPre.trans _ _ _ m1 f2.mesh
      have e1 : s2.nV = s.nV := by rw [m2]
      have e2 : s2.vert = s.vert := by rw [m2]
      exact ih (w1.fewer f2) (e1 ▸ hv) (by rw [spot_vert (s' := s2) (s := s) (by rw [e2]), spot_vert (s' := s2) (s := s) (by rw [e2])]; exact hp) hm

theorem replaceLoop_lt {v newv : VId} {dir : Dir} {fuel : ℕ} : ∀ {s : St K} {t : Option TId} {fan l : List TId},
    replaceLoop v newv now dir fuel t fan s = .ok (l, s') → (∀ x ∈ fan, x < s.nT) → ∀ x ∈ l, x < s.nT := by
  induction fuel with
  | zero =>
    intro s t fan l hm hf
    cases t with
    | none => unfold Grassfire.replaceLoop at hm; cases hm; exact hf
    | some t => unfold Grassfire.replaceLoop at hm; cases hm
  | succ fuel ih =>
    intro s t fan l hm hf
    cases t with
    | none => unfold Grassfire.replaceLoop at hm; cases hm; exact hf
    | some t =>
      unfold Grassfire.replaceLoop at hm
      obtain ⟨T, s1, h1, hm⟩ := bind_run_ok.1 hm
      obtain ⟨ht, rfl, rfl⟩ := getT_run_ok.1 h1
      obtain ⟨i, s1, h1, hm⟩ := bind_run_ok.1 hm
      obtain ⟨-, rfl⟩ := needIdx_run_ok.1 h1
      obtain ⟨_, s1, h1, hm⟩ := bind_run_ok.1 hm
      have m1 := mo_setVertex _ _ _ _ _ _ h1
      obtain ⟨k, s2, h2, hm⟩ := bind_run_ok.1 hm
      obtain ⟨-, -, rfl⟩ := getK_run_ok.1 h2
      obtain ⟨_, s2, h2, hm⟩ := bind_run_ok.1 hm
      have f2 := fw_renewEvent _ _ _ _ _ _ h2
      obtain ⟨T, s3, h3, hm⟩ := bind_run_ok.1 hm
      obtain ⟨-, rfl, rfl⟩ := getT_run_ok.1 h3
      have m2 := meshPre.trans _ _ _ m1 f2.mesh
      have e1 : s2.nT = s.nT := by rw [m2]
      rw [← e1]
      refine ih hm fun x hx => ?_
      rw [e1]
      rcases List.mem_append.1 hx with hx | hx
      · exact hf x hx
      · rw [List.mem_singleton.1 hx]; exact ht

theorem Watch.scheduleImmediately {t : TId} {a : Unit} (h : Watch now s0 s) (ht : t < s0.nT) (hn : Tight now s t)
    (hm : scheduleImmediately t now s = .ok (a, s')) : Watch now s0 s' := by
  have hn := (h.near ht).1 hn
  unfold Grassfire.scheduleImmediately at hm
  obtain ⟨T, s1, h1, hm⟩ := bind_run_ok.1 hm
  obtain ⟨-, -, rfl⟩ := getT_run_ok.1 h1
  obtain ⟨_, s1, h1, hm⟩ := bind_run_ok.1 hm
  have h := h.fewer (fw_queueDiscardOpt _ _ _ _ h1)
  obtain ⟨_, s2, h2, hm⟩ := bind_run_ok.1 hm
  have h := h.fewer (fw_immediateRemoveOpt _ _ _ _ h2)
  obtain ⟨e, s3, h3, hm⟩ := bind_run_ok.1 hm
  have h := h.fewer (fw_immediateEvent _ _ _ _ _ h3)
  have he : e.tri = t := by
    unfold immediateEvent at h3
    obtain ⟨_, _, -, h3⟩ := bind_run_ok.1 h3
    obtain ⟨_, _, -, h3⟩ := bind_run_ok.1 h3
    obtain ⟨_, _, -, h3⟩ := bind_run_ok.1 h3
    rw [(newEvent_run_ok.1 h3).1]
  obtain ⟨_, s4, h4, hm⟩ := bind_run_ok.1 hm
  have h := h.fewer (fw_setEvent _ _ _ _ _ h4)
  obtain ⟨_, s5, h5, hm⟩ := bind_run_ok.1 hm
  obtain ⟨-, rfl⟩ := assertM_run_ok.1 h5
  unfold immediateAppend at hm
  cases hm
  refine ⟨h.nT, h.corner, fun f hf => ?_⟩
  rcases List.mem_append.1 hf with hf | hf
  · exact h.immediate f hf
  · rw [List.mem_singleton] at hf
    rw [hf, he]
    exact .inr ⟨ht, hn⟩

variable [IsStrictOrderedRing K]

theorem Watch.scheduleTiny {fan : List TId} {kv : VId} {dir : Dir} {a : Unit} (h : Watch now s0 s)
    (hf : ∀ t ∈ fan, t < s0.nT) (hs : ∀ v k, v < s.nV → s.vert v = .kin k → k.infFast = false)
    (hm : scheduleTiny fan kv dir now s = .ok (a, s')) : Watch now s0 s' := by
  unfold Grassfire.scheduleTiny at hm
  cases hl : fan.getLast? with
  | none => rw [hl] at hm; cases hm; exact h
  | some t =>
    rw [hl] at hm
    dsimp only at hm
    have ht := hf t (List.mem_of_getLast? hl)
    obtain ⟨i, s1, h1, hm⟩ := bind_run_ok.1 hm
    have e1 : s = s1 := by
      unfold vertexIndex at h1
      obtain ⟨T, s2, h2, h1⟩ := bind_run_ok.1 h1
      obtain ⟨-, -, rfl⟩ := getT_run_ok.1 h2
      exact (needIdx_run_ok.1 h1).2
    subst e1
    obtain ⟨T, s2, h2, hm⟩ := bind_run_ok.1 hm
    obtain ⟨-, rfl, rfl⟩ := getT_run_ok.1 h2
    obtain ⟨p, s2, h2, hm⟩ := bind_run_ok.1 hm
    obtain ⟨v1, p1, rfl⟩ := positionAt_run_ok.1 h2
    obtain ⟨q, s2, h2, hm⟩ := bind_run_ok.1 hm
    obtain ⟨v2, p2, rfl⟩ := positionAt_run_ok.1 h2
    obtain ⟨d, s2, h2, hm⟩ := bind_run_ok.1 hm
    obtain ⟨hd, rfl⟩ := lift_run_ok.1 h2
    split_ifs at hm with hz
    · refine h.scheduleImmediately ht ⟨dir.fn i, .inr ?_⟩ hm
      have q1 := spot_position p1 fun k => hs _ k v1
      have q2 := spot_position p2 fun k => hs _ k v2
      have q1 : cornerAt (viewT s t) (dir.fn i + 1) now = p := q1
      have q2 : cornerAt (viewT s t) (dir.fn i + 2) now = q := q2
      have hz := (nearZero_iff d).1 hz
      unfold psqrt at hd
      split_ifs at hd
      cases hd
      unfold lengthSq
      rw [q1, q2]
      refine le_trans (le_of_eq ?_) ((le_abs_self _).trans hz)
      congr 1
      unfold distSq
      ring
    · cases hm; exact h

theorem Watch.edgeSide {n : Option TId} {t : TId} {other : Option TId} {v kv : VId} {dir : Dir} {l : List TId}
    (h : Watch now s0 s) (hk : kv < s.nV) (hp : spot s kv now = spot s v now)
    (hs : ∀ v k, v < s.nV → s.vert v = .kin k → k.infFast = false)
    (hm : edgeSide n t other v kv now dir s = .ok (l, s')) : Watch now s0 s' := by
  unfold Grassfire.edgeSide at hm
  cases n with
  | none => cases hm; exact h
  | some n =>
    dsimp only at hm
    obtain ⟨_, s1, h1, hm⟩ := bind_run_ok.1 hm
    have f1 := fw_relink _ _ _ _ _ _ h1
    obtain ⟨fan, s2, h2, hm⟩ := bind_run_ok.1 hm
    have m2 := mo_replaceKvertex _ _ _ _ _ _ _ _ h2
    have e1 : s1.nV = s.nV := by rw [f1.mesh]
    have e2 : s1.vert = s.vert := by rw [f1.mesh]
    have w2 := (h.fewer f1).replaceLoop (e1 ▸ hk)
      (by rw [spot_vert (s' := s1) (s := s) (by rw [e2]), spot_vert (s' := s1) (s := s) (by rw [e2])]; exact hp) h2
    have e3 : s2.nV = s.nV := by rw [m2]; exact e1
    have e4 : s2.vert = s.vert := by rw [m2]; exact e2
    obtain ⟨_, s3, h3, hm⟩ := bind_run_ok.1 hm
    cases hm
    have hl : ∀ x ∈ l, x < s0.nT := by
      have := replaceLoop_lt h2 (fun x hx => by cases hx)
      have e5 : s1.nT = s.nT := by rw [f1.mesh]
      rw [e5, h.nT] at this
      exact this
    exact w2.scheduleTiny hl (by rw [e3, e4]; exact hs) h3

theorem Watch.detachAndSchedule {n : Option TId} {t : TId} {a : Unit} (h : Watch now s0 s)
    (hn : ∀ x, n = some x → x < s0.nT ∧ Tight now s0 x) (hm : detachAndSchedule n t now s = .ok (a, s')) :
    Watch now s0 s' := by
  unfold Grassfire.detachAndSchedule at hm
  cases n with
  | none => cases hm; exact h
  | some n =>
    dsimp only at hm
    obtain ⟨_, s1, h1, hm⟩ := bind_run_ok.1 hm
    have w1 := h.fewer (fw_relink _ _ _ _ _ _ h1)
    obtain ⟨T, s2, h2, hm⟩ := bind_run_ok.1 hm
    obtain ⟨-, -, rfl⟩ := getT_run_ok.1 h2
    obtain ⟨hl, hn⟩ := hn n rfl
    split_ifs at hm
    · exact w1.scheduleImmediately hl ((w1.near hl).2 hn) hm
    · cases hm; exact w1

theorem Watch.threeSidesNeighbour {t : TId} {i : Fin 3} {a : Unit} (h : Watch now s0 s)
    (hn : ∀ x, (s.tri t).neighbours i = some x → x < s0.nT ∧ Tight now s0 x)
    (hm : threeSidesNeighbour t now i s = .ok (a, s')) : Watch now s0 s' := by
  unfold Grassfire.threeSidesNeighbour at hm
  obtain ⟨T, s1, h1, hm⟩ := bind_run_ok.1 hm
  obtain ⟨-, rfl, rfl⟩ := getT_run_ok.1 h1
  cases q : (s.tri t).neighbours i with
  | none => rw [q] at hm; cases hm; exact h
  | some n =>
    rw [q] at hm
    dsimp only at hm
    obtain ⟨T, s1, h1, hm⟩ := bind_run_ok.1 hm
    obtain ⟨-, rfl, rfl⟩ := getT_run_ok.1 h1
    obtain ⟨hl, hn⟩ := hn n q
    split_ifs at hm
    · obtain ⟨_, s1, h1, hm⟩ := bind_run_ok.1 hm
      have w1 := h.fewer (fw_relink _ _ _ _ _ _ h1)
      exact w1.scheduleImmediately hl ((w1.near hl).2 hn) hm
    · cases hm; exact h

end Grassfire
