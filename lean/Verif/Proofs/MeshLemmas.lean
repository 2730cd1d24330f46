/-
Lemmas on meshes: fans around a vertex and the replacement of vertices (for C38).
-/
import Verif.Props.Fan
import Verif.Props.Flip

set_option linter.unusedSectionVars false

namespace Grassfire

open Spec

variable {K : Type}

/-- the other direction -/
def Dir.rev : Dir → Dir
  | .cw => .ccw
  | .ccw => .cw

theorem fin3_add_1_2 (i : Fin 3) : i + 1 + 2 = i := by revert i; decide
theorem fin3_add_2_1 (i : Fin 3) : i + 2 + 1 = i := by revert i; decide
theorem fin3_add_2_2 (i : Fin 3) : i + 2 + 2 = i + 1 := by revert i; decide
theorem fin3_add_1_1 (i : Fin 3) : i + 1 + 1 = i + 2 := by revert i; decide

theorem fin3_ne_1 (i : Fin 3) : i ≠ i + 1 := by revert i; decide
theorem fin3_ne_2 (i : Fin 3) : i ≠ i + 2 := by revert i; decide
theorem fin3_1_ne_2 (i : Fin 3) : i + 1 ≠ i + 2 := by revert i; decide
theorem fin3_cases (i j : Fin 3) : j = i ∨ j = i + 1 ∨ j = i + 2 := by revert i j; decide

section

variable [Field K] [LinearOrder K] {P : TId → Prop} {s : St K}

/-- from a triangle to the next one around a vertex, and back -/
theorem turn (hC : Consistent P s) {x y : TId} {v : VId} {i : Fin 3} (dir : Dir) (px : P x)
    (hi : (s.tri x).vertices i = v) (hn : (s.tri x).neighbours (dir.fn i) = some y) :
    P y ∧ ∃ j, (s.tri y).vertices j = v ∧ (s.tri y).neighbours (dir.rev.fn j) = some x := by
  cases dir with
  | cw =>
    obtain ⟨py, k, k1, k2, k3⟩ := (hC x px).2.2 _ _ y ⟨i + 2, rfl, rfl, hn⟩
    refine ⟨py, k + 2, ?_, ?_⟩
    · rw [k2, fin3_add_2_1]; exact hi
    · show (s.tri y).neighbours (k + 2 + 1) = some x
      rw [fin3_add_2_1]; exact k3
  | ccw =>
    obtain ⟨py, k, k1, k2, k3⟩ := (hC x px).2.2 _ _ y ⟨i + 1, rfl, rfl, hn⟩
    refine ⟨py, k + 1, ?_, ?_⟩
    · rw [k1, fin3_add_1_2]; exact hi
    · show (s.tri y).neighbours (k + 1 + 2) = some x
      rw [fin3_add_1_2]; exact k3

/-- a triangle is not its own neighbour -/
theorem Spec.Consistent.not_self (hC : Consistent P s) {x : TId} (px : P x) (i : Fin 3) :
    (s.tri x).neighbours i ≠ some x := by
  intro h
  obtain ⟨-, k, k1, k2, -⟩ := (hC x px).2.2 _ _ x ⟨i, rfl, rfl, h⟩
  have e1 := (hC x px).2.1 k1
  have e2 := (hC x px).2.1 k2
  clear k1 k2 h
  revert i k
  decide

/-- the triangles of a walk, and where one gets from them -/
theorem FanWalk.turns (hC : Consistent P s) {dir : Dir} {v : VId} {ot : Option TId} {l : List TId}
    (hw : FanWalk dir v s.tri ot l) : ∀ a, ot = some a → P a → ∀ x ∈ l, P x ∧ ∃ i, (s.tri x).vertices i = v ∧
      (∀ y, (s.tri x).neighbours (dir.fn i) = some y → y ∈ l.tail) ∧
      (∀ y, x ≠ a → (s.tri x).neighbours (dir.rev.fn i) = some y → y ∈ l) := by
  induction hw with
  | stop => intro a h; cases h
  | @step t i l hi hw ih =>
    intro a ha pa x hx
    injection ha with ha
    subst ha
    cases hn : (s.tri t).neighbours (dir.fn i) with
    | none =>
      rw [hn] at hw
      cases hw
      rw [List.mem_singleton] at hx
      subst hx
      refine ⟨pa, i, hi, fun y hy => ?_, fun y h _ => absurd rfl h⟩
      rw [hn] at hy
      cases hy
    | some z =>
      obtain ⟨pz, j, hj, hb⟩ := turn hC dir pa hi hn
      have hz : z ∈ l := by
        rw [hn] at hw
        cases hw
        exact List.mem_cons_self
      rcases List.mem_cons.1 hx with rfl | hx
      · refine ⟨pa, i, hi, fun y hy => ?_, fun y h _ => absurd rfl h⟩
        rw [hn] at hy
        injection hy with hy
        exact hy ▸ hz
      · obtain ⟨px, k, hk, h1, h2⟩ := ih z hn pz x hx
        refine ⟨px, k, hk, fun y hy => List.mem_of_mem_tail (h1 y hy), fun y _ hy => ?_⟩
        by_cases hxz : x = z
        · subst hxz
          obtain rfl := (hC x px).2.1 (hk.trans hj.symm)
          rw [hb] at hy
          injection hy with hy
          rw [hy]
          exact List.mem_cons_self
        · exact List.mem_cons_of_mem _ (h2 y hxz hy)

/-- the triangles of a walk can be reached -/
theorem Spec.FanWalk.reach (hC : Consistent P s) {dir : Dir} {v : VId} {ot : Option TId} {l : List TId}
    (hw : FanWalk dir v s.tri ot l) : ∀ a, ot = some a → P a → ∀ x ∈ l,
      Relation.ReflTransGen (fun x y => P x ∧ ∃ i, (s.tri x).neighbours i = some y) a x := by
  induction hw with
  | stop => intro a h; cases h
  | @step t i l hi hw ih =>
    intro a ha pa x hx
    injection ha with ha
    subst ha
    rcases List.mem_cons.1 hx with rfl | hx
    · exact .refl
    cases hn : (s.tri t).neighbours (dir.fn i) with
    | none =>
      rw [hn] at hw
      cases hw
      cases hx
    | some z =>
      exact .head ⟨pa, _, hn⟩ (ih z hn (turn hC dir pa hi hn).1 x hx)

/-- `F` are triangles around `v`; going on around `v` one gets to triangles of `F` or to `t` -/
def ClosedFan (P : TId → Prop) (s : St K) (t : TId) (v : VId) (F : List TId) : Prop :=
  ∀ x ∈ F, P x ∧ x ≠ t ∧ (∃ i, (s.tri x).vertices i = v) ∧ ∀ i, (s.tri x).vertices i = v →
    ∀ y, (s.tri x).neighbours (i + 1) = some y ∨ (s.tri x).neighbours (i + 2) = some y → y = t ∨ y ∈ F

/-- the fan on one side of a triangle -/
theorem fan_closed (hC : Consistent P s) {t a : TId} {dir : Dir} {v : VId} {l : List TId} {j : Fin 3} (pt : P t)
    (hj : (s.tri t).vertices j = v) (hn : (s.tri t).neighbours (dir.fn j) = some a)
    (hw : FanWalk dir v s.tri (some a) l) (hnd : l.Nodup) : a ∈ l ∧ ClosedFan P s t v l ∧
      ∀ x ∈ l, ∀ k, (s.tri x).vertices k = v → ∀ y, (s.tri x).neighbours (dir.fn k) = some y → y ∈ l := by
  obtain ⟨pa, i, hi, hb⟩ := turn hC dir pt hj hn
  have hT := FanWalk.turns hC hw a rfl pa
  have hl : ∃ l', l = a :: l' := by
    cases hw with
    | step _ _ => exact ⟨_, rfl⟩
  obtain ⟨l', rfl⟩ := hl
  refine ⟨List.mem_cons_self, fun x hx => ?_, fun x hx k hk y hy => ?_⟩
  rotate_left
  · obtain ⟨px, k', hk', h1, h2⟩ := hT x hx
    obtain rfl := (hC x px).2.1 (hk.trans hk'.symm)
    exact List.mem_of_mem_tail (h1 y hy)
  obtain ⟨px, k, hk, h1, h2⟩ := hT x hx
  have hxt : x ≠ t := by
    rintro rfl
    obtain rfl := (hC x px).2.1 (hk.trans hj.symm)
    exact (List.nodup_cons.1 hnd).1 (h1 a hn)
  refine ⟨px, hxt, ⟨k, hk⟩, fun i' hi' y hy => ?_⟩
  obtain rfl := (hC x px).2.1 (hk.trans hi'.symm)
  have hback : ∀ y, (s.tri x).neighbours (dir.rev.fn k) = some y → y = t ∨ y ∈ a :: l' := by
    intro y hy
    by_cases hxa : x = a
    · subst hxa
      obtain rfl := (hC x px).2.1 (hk.trans hi.symm)
      rw [hb] at hy
      injection hy with hy
      exact .inl hy.symm
    · exact .inr (h2 y hxa hy)
  have hforw : ∀ y, (s.tri x).neighbours (dir.fn k) = some y → y = t ∨ y ∈ a :: l' :=
    fun y hy => .inr (List.mem_of_mem_tail (h1 y hy))
  cases dir with
  | cw =>
    rcases hy with hy | hy
    · exact hback y hy
    · exact hforw y hy
  | ccw =>
    rcases hy with hy | hy
    · exact hforw y hy
    · exact hback y hy

theorem closedFan_nil (t : TId) (v : VId) : ClosedFan P s t v [] := nofun

/-- Replacing a vertex in a fan on each side of a triangle that is taken out. -/
theorem replace_consistent (hC : Consistent P s) {s' : St K} {t : TId} {F1 F2 : List TId} {v1 v2 w1 w2 : VId}
    (hnT : s'.nT = s.nT) (c1 : ClosedFan P s t v1 F1) (c2 : ClosedFan P s t v2 F2) (hd : ∀ x ∈ F1, x ∉ F2)
    (f1 : ∀ x, P x → ∀ i, (s.tri x).vertices i ≠ w1) (f2 : ∀ x, P x → ∀ i, (s.tri x).vertices i ≠ w2)
    (hv : ∀ x, P x → x ≠ t → (s'.tri x).vertices = if x ∈ F1 then substitute v1 w1 (s.tri x).vertices
      else if x ∈ F2 then substitute v2 w2 (s.tri x).vertices else (s.tri x).vertices)
    (hn : ∀ x i, P x → x ≠ t → (s.tri x).neighbours i ≠ some t → (s'.tri x).neighbours i = (s.tri x).neighbours i)
    (hg : ∀ x i y, P x → x ≠ t → (s.tri x).neighbours i = some t → (s'.tri x).neighbours i = some y →
      P y ∧ y ≠ t ∧ HasSide (s'.tri y) ((s'.tri x).vertices (i + 2)) ((s'.tri x).vertices (i + 1)) (some x)) :
    Consistent (fun x => P x ∧ x ≠ t) s' := by
  have val : ∀ x, P x → x ≠ t → ∀ j, (s'.tri x).vertices j =
      if x ∈ F1 ∧ (s.tri x).vertices j = v1 then w1
      else if x ∈ F2 ∧ (s.tri x).vertices j = v2 then w2 else (s.tri x).vertices j := by
    intro x px hxt j
    rw [hv x px hxt]
    by_cases h1 : x ∈ F1
    · have h2 := hd x h1
      simp only [h1, h2, if_true, true_and, false_and, if_false, substitute]
    · simp only [h1, if_false, false_and]
      by_cases h2 : x ∈ F2
      · simp only [h2, if_true, true_and, substitute]
      · simp only [h2, if_false, false_and]
  rintro x ⟨px, hxt⟩
  refine ⟨hnT ▸ (hC x px).1, ?_, ?_⟩
  · have hinj := (hC x px).2.1
    have hs : ∀ v w, (∀ i, (s.tri x).vertices i ≠ w) → Function.Injective (substitute v w (s.tri x).vertices) := by
      intro v w hw i j hij
      unfold substitute at hij
      by_cases h1 : (s.tri x).vertices i = v <;> by_cases h2 : (s.tri x).vertices j = v
      · exact hinj (h1.trans h2.symm)
      · rw [if_pos h1, if_neg h2] at hij
        exact absurd hij.symm (hw j)
      · rw [if_neg h1, if_pos h2] at hij
        exact absurd hij (hw i)
      · rw [if_neg h1, if_neg h2] at hij
        exact hinj hij
    rw [hv x px hxt]
    by_cases h1 : x ∈ F1
    · rw [if_pos h1]; exact hs _ _ (f1 x px)
    · rw [if_neg h1]
      by_cases h2 : x ∈ F2
      · rw [if_pos h2]; exact hs _ _ (f2 x px)
      · rw [if_neg h2]; exact hinj
  · rintro a b y ⟨i, rfl, rfl, hi⟩
    by_cases ho : (s.tri x).neighbours i = some t
    · obtain ⟨py, hyt, hs⟩ := hg x i y px hxt ho hi
      exact ⟨⟨py, hyt⟩, hs⟩
    · rw [hn x i px hxt ho] at hi
      obtain ⟨py, k, k1, k2, k3⟩ := (hC x px).2.2 _ _ y ⟨i, rfl, rfl, hi⟩
      have hyt : y ≠ t := fun e => ho (e ▸ hi)
      refine ⟨⟨py, hyt⟩, k, ?_, ?_, ?_⟩
      -- a common vertex is replaced in both or in none
      rotate_left 2
      · rw [hn y k py hyt (by rw [k3]; exact fun e => hxt (by injection e))]; exact k3
      all_goals
        have key : ∀ v F, ClosedFan P s t v F →
            ((s.tri x).vertices (i + 1) = v → (x ∈ F ↔ y ∈ F)) ∧ ((s.tri x).vertices (i + 2) = v → (x ∈ F ↔ y ∈ F)) := by
          intro v F cF
          refine ⟨fun e => ⟨fun hx => ?_, fun hy => ?_⟩, fun e => ⟨fun hx => ?_, fun hy => ?_⟩⟩
          · exact ((cF x hx).2.2.2 _ e y (.inr (by rw [fin3_add_1_2]; exact hi))).resolve_left hyt
          · exact ((cF y hy).2.2.2 _ (k2.trans e) x (.inl (by rw [fin3_add_2_1]; exact k3))).resolve_left hxt
          · exact ((cF x hx).2.2.2 _ e y (.inl (by rw [fin3_add_2_1]; exact hi))).resolve_left hyt
          · exact ((cF y hy).2.2.2 _ (k1.trans e) x (.inr (by rw [fin3_add_1_2]; exact k3))).resolve_left hxt
      · rw [val y py hyt, val x px hxt, k1]
        have q1 : y ∈ F1 ∧ (s.tri x).vertices (i + 2) = v1 ↔ x ∈ F1 ∧ (s.tri x).vertices (i + 2) = v1 :=
          and_congr_left fun e => ((key v1 F1 c1).2 e).symm
        have q2 : y ∈ F2 ∧ (s.tri x).vertices (i + 2) = v2 ↔ x ∈ F2 ∧ (s.tri x).vertices (i + 2) = v2 :=
          and_congr_left fun e => ((key v2 F2 c2).2 e).symm
        simp only [q1, q2]
      · rw [val y py hyt, val x px hxt, k2]
        have q1 : y ∈ F1 ∧ (s.tri x).vertices (i + 1) = v1 ↔ x ∈ F1 ∧ (s.tri x).vertices (i + 1) = v1 :=
          and_congr_left fun e => ((key v1 F1 c1).1 e).symm
        have q2 : y ∈ F2 ∧ (s.tri x).vertices (i + 1) = v2 ↔ x ∈ F2 ∧ (s.tri x).vertices (i + 1) = v2 :=
          and_congr_left fun e => ((key v2 F2 c2).1 e).symm
        simp only [q1, q2]

/-! ### what the code does to the mesh -/

theorem FanWalk.transfer {dir : Dir} {v : VId} {tri tri' : TId → KTri K} {ot : Option TId} {l : List TId}
    (h : FanWalk dir v tri ot l) : (∀ x ∈ l, ∀ i, (tri x).vertices i = v → (tri' x).vertices i = v ∧
      (tri' x).neighbours (dir.fn i) = (tri x).neighbours (dir.fn i)) → FanWalk dir v tri' ot l := by
  induction h with
  | stop => intro _; exact .stop
  | @step t i l hi _ ih =>
    intro hc
    have ht := hc t List.mem_cons_self i hi
    refine .step (i := i) ht.1 ?_
    rw [ht.2]
    exact ih fun u hu => hc u (List.mem_cons_of_mem _ hu)

/-- `relink`, exactly -/
theorem relink_run {n t : TId} {x : Option TId} {s s' : St K} {u : Unit} (h : relink n t x s = .ok (u, s')) :
    ∃ i, (s.tri n).neighbours i = some t ∧ s' = { s with
      tri := (Function.update s.tri n { s.tri n with neighbours := (Function.update (s.tri n).neighbours i x) }) } := by
  unfold relink at h
  obtain ⟨N, s1, h1, h⟩ := bind_run_ok.1 h
  obtain ⟨_, rfl, rfl⟩ := getT_run_ok.1 h1
  obtain ⟨i, s1, h1, h⟩ := bind_run_ok.1 h
  obtain ⟨hi, rfl⟩ := needIdx_run_ok.1 h1
  obtain ⟨_, rfl⟩ := modifyT_run_ok.1 h
  exact ⟨i, index3_some hi, rfl⟩

/-- the mesh around one of the two neighbours of a collapsing side has been adapted -/
structure SideDone (o : Option TId) (t : TId) (other : Option TId) (v kv : VId) (dir : Dir) (s s' : St K)
    (fan : List TId) : Prop where
  nT : s'.nT = s.nT
  stopsAt : ∀ x, (s'.tri x).stopsAt = (s.tri x).stopsAt
  nil : o = none → fan = [] ∧ ∀ x, (s'.tri x).vertices = (s.tri x).vertices ∧
    (s'.tri x).neighbours = (s.tri x).neighbours
  cons : ∀ n, o = some n → ∃ i, (s.tri n).neighbours i = some t ∧ fan.Nodup ∧
    FanWalk dir v (Function.update s.tri n { s.tri n with
      neighbours := (Function.update (s.tri n).neighbours i other) }) (some n) fan ∧
    (∀ x, (s'.tri x).vertices = if x ∈ fan then substitute v kv (s.tri x).vertices else (s.tri x).vertices) ∧
    (∀ x, (s'.tri x).neighbours = if x = n then Function.update (s.tri n).neighbours i other else (s.tri x).neighbours)

theorem SideDone.core {o : Option TId} {t : TId} {other : Option TId} {v kv : VId} {dir : Dir} {s s' s'' : St K}
    {fan : List TId} (h : SideDone o t other v kv dir s s' fan) (hc : SameCore s' s'') :
    SideDone o t other v kv dir s s'' fan where
  nT := hc.nT.trans h.nT
  stopsAt x := (hc.apply (fun y : St K => (y.tri x).stopsAt)).trans (h.stopsAt x)
  nil ho := ⟨(h.nil ho).1, fun x => ⟨(hc.vertices x).trans ((h.nil ho).2 x).1, (hc.neighbours x).trans ((h.nil ho).2 x).2⟩⟩
  cons n hn := by
    obtain ⟨i, h1, h2, h3, h4, h5⟩ := h.cons n hn
    exact ⟨i, h1, h2, h3, fun x => (hc.vertices x).trans (h4 x), fun x => (hc.neighbours x).trans (h5 x)⟩

theorem sideDone_none {t : TId} {other : Option TId} {v kv : VId} {dir : Dir} {s : St K} :
    SideDone none t other v kv dir s s [] :=
  ⟨rfl, fun _ => rfl, fun _ => ⟨rfl, fun _ => ⟨rfl, rfl⟩⟩, nofun⟩

theorem sideDone_some [HasSqrt K] {n t : TId} {other : Option TId} {v kv : VId} {dir : Dir} {now : K} {s s1 s' : St K}
    {fan : List TId} {u : Unit} (honce : Once v s) (hne : kv ≠ v) (h1 : relink n t other s = .ok (u, s1))
    (h2 : replaceKvertex n v kv now dir s1 = .ok (fan, s')) : SideDone (some n) t other v kv dir s s' fan := by
  obtain ⟨i, hi, rfl⟩ := relink_run h1
  have hV : ∀ x, (Function.update s.tri n { s.tri n with
      neighbours := (Function.update (s.tri n).neighbours i other) } x).vertices = (s.tri x).vertices := by
    intro x
    by_cases hx : x = n
    · subst hx; simp
    · simp [hx]
  obtain ⟨c1, c2, c3, c4, c5, c6, c7, c8, c9, -⟩ := C27_fan n v kv hne now dir _ _ _ (by
    intro x hx j k hj hk
    dsimp only at hj hk
    rw [hV] at hj hk
    exact honce x hx j k hj hk) h2
  refine ⟨c9, fun x => ?_, nofun, fun n' hn' => ?_⟩
  · rw [(c4 x).2.1]
    by_cases hx : x = n
    · subst hx; simp
    · simp [hx]
  · injection hn' with hn'
    subst hn'
    refine ⟨i, hi, c2, c1, fun x => ?_, fun x => ?_⟩
    · rw [c3 x]; dsimp only; rw [hV]
    · rw [(c4 x).1]
      by_cases hx : x = n
      · subst hx; simp
      · simp [hx]

theorem c_scheduleTiny [HasSqrt K] (fan : List TId) (kv : VId) (dir : Dir) (now : K) :
    Keeps (SameCore (K := K)) (scheduleTiny fan kv dir now) := by
  unfold scheduleTiny
  cases fan.getLast? with
  | none => exact Keeps.pure sameCorePre _
  | some t =>
    intro s u s' h
    dsimp only at h
    obtain ⟨i, s1, h1, h⟩ := bind_run_ok.1 h
    have e1 : s = s1 := by
      unfold vertexIndex at h1
      obtain ⟨T, s2, h2, h1⟩ := bind_run_ok.1 h1
      obtain ⟨_, rfl, rfl⟩ := getT_run_ok.1 h2
      exact (needIdx_run_ok.1 h1).2
    subst e1
    obtain ⟨T, s2, h2, h⟩ := bind_run_ok.1 h
    obtain ⟨_, rfl, rfl⟩ := getT_run_ok.1 h2
    obtain ⟨_, s2, h2, h⟩ := bind_run_ok.1 h
    obtain ⟨_, _, rfl⟩ := positionAt_run_ok.1 h2
    obtain ⟨_, s2, h2, h⟩ := bind_run_ok.1 h
    obtain ⟨_, _, rfl⟩ := positionAt_run_ok.1 h2
    obtain ⟨_, s2, h2, h⟩ := bind_run_ok.1 h
    obtain ⟨_, rfl⟩ := lift_run_ok.1 h2
    split at h
    · exact c_scheduleImmediately _ _ _ _ _ h
    · exact (pure_run_ok.1 h).2 ▸ rfl

theorem edgeSide_done [HasSqrt K] {o : Option TId} {t : TId} {other : Option TId} {v kv : VId} {dir : Dir} {now : K}
    {s s' : St K} {fan : List TId} (honce : Once v s) (hne : kv ≠ v)
    (h : edgeSide o t other v kv now dir s = .ok (fan, s')) : SideDone o t other v kv dir s s' fan := by
  cases o with
  | none =>
    obtain ⟨rfl, rfl⟩ := pure_run_ok.1 (show (pure [] : M K (List TId)) s = _ from h)
    exact sideDone_none
  | some n =>
    unfold edgeSide at h
    dsimp only at h
    obtain ⟨_, s1, h1, h⟩ := bind_run_ok.1 h
    obtain ⟨f, s2, h2, h⟩ := bind_run_ok.1 h
    obtain ⟨_, s3, h3, h⟩ := bind_run_ok.1 h
    obtain ⟨rfl, rfl⟩ := pure_run_ok.1 h
    exact (sideDone_some honce hne h1 h2).core (c_scheduleTiny _ _ _ _ _ _ _ h3)

/-- the neighbour over the collapsing side has been detached -/
structure Detached (o : Option TId) (t : TId) (s s' : St K) : Prop where
  nT : s'.nT = s.nT
  stopsAt : ∀ x, (s'.tri x).stopsAt = (s.tri x).stopsAt
  vertices : ∀ x, (s'.tri x).vertices = (s.tri x).vertices
  nil : o = none → ∀ x, (s'.tri x).neighbours = (s.tri x).neighbours
  cons : ∀ n, o = some n → ∃ i, (s.tri n).neighbours i = some t ∧
    ∀ x, (s'.tri x).neighbours = if x = n then Function.update (s.tri n).neighbours i none else (s.tri x).neighbours

theorem Detached.core {o : Option TId} {t : TId} {s s' s'' : St K} (h : Detached o t s s') (hc : SameCore s' s'') :
    Detached o t s s'' where
  nT := hc.nT.trans h.nT
  stopsAt x := (hc.apply (fun y : St K => (y.tri x).stopsAt)).trans (h.stopsAt x)
  vertices x := (hc.vertices x).trans (h.vertices x)
  nil ho x := (hc.neighbours x).trans (h.nil ho x)
  cons n hn := by
    obtain ⟨i, h1, h5⟩ := h.cons n hn
    exact ⟨i, h1, fun x => (hc.neighbours x).trans (h5 x)⟩

theorem relink_detached {n t : TId} {s s' : St K} {u : Unit} (h : relink n t none s = .ok (u, s')) :
    Detached (some n) t s s' := by
  obtain ⟨i, hi, rfl⟩ := relink_run h
  refine ⟨rfl, fun x => ?_, fun x => ?_, nofun, fun n' hn' => ?_⟩
  · by_cases hx : x = n
    · subst hx; simp
    · simp [hx]
  · by_cases hx : x = n
    · subst hx; simp
    · simp [hx]
  · injection hn' with hn'
    subst hn'
    refine ⟨i, hi, fun x => ?_⟩
    by_cases hx : x = n
    · subst hx; simp
    · simp [hx]

theorem detachAndSchedule_done [HasSqrt K] {o : Option TId} {t : TId} {now : K} {s s' : St K} {u : Unit}
    (h : detachAndSchedule o t now s = .ok (u, s')) : Detached o t s s' := by
  cases o with
  | none =>
    obtain ⟨-, rfl⟩ := pure_run_ok.1 (show (pure () : M K Unit) s = _ from h)
    exact ⟨rfl, fun _ => rfl, fun _ => rfl, fun _ _ => rfl, nofun⟩
  | some n =>
    unfold detachAndSchedule at h
    dsimp only at h
    obtain ⟨_, s1, h1, h⟩ := bind_run_ok.1 h
    obtain ⟨N, s2, h2, h⟩ := bind_run_ok.1 h
    obtain ⟨_, rfl, rfl⟩ := getT_run_ok.1 h2
    refine (relink_detached h1).core ?_
    split at h
    · exact c_scheduleImmediately _ _ _ _ _ h
    · exact (pure_run_ok.1 h).2 ▸ rfl

/-- the side of a neighbour that faces `t` -/
theorem facing (hC : Consistent P s) {t x : TId} {i : Fin 3} (px : P x) (h : (s.tri x).neighbours i = some t) :
    P t ∧ ∃ j, (s.tri t).neighbours j = some x ∧ (s.tri t).vertices (j + 1) = (s.tri x).vertices (i + 2) ∧
      (s.tri t).vertices (j + 2) = (s.tri x).vertices (i + 1) := by
  obtain ⟨pt, k, k1, k2, k3⟩ := (hC x px).2.2 _ _ t ⟨i, rfl, rfl, h⟩
  exact ⟨pt, k, k3, k1, k2⟩

/-- what has been done to the triangles around a collapsing side -/
structure EdgeDone (P : TId → Prop) (s s' : St K) (t : TId) (e : Fin 3) (v1 v2 kv : VId) (fanA fanB : List TId) : Prop where
  walkA : FanWalk .cw v2 s.tri ((s.tri t).neighbours (e + 1)) fanA
  walkB : FanWalk .ccw v1 s.tri ((s.tri t).neighbours (e + 2)) fanB
  otherA : ∀ x ∈ fanA, ∀ k, (s.tri x).vertices k ≠ v1
  otherB : ∀ x ∈ fanB, ∀ k, (s.tri x).vertices k ≠ v2
  vertices : ∀ x, (s'.tri x).vertices = if x ∈ fanA then substitute v2 kv (s.tri x).vertices
    else if x ∈ fanB then substitute v1 kv (s.tri x).vertices else (s.tri x).vertices
  same : ∀ x i, P x → x ≠ t → (s.tri x).neighbours i ≠ some t → (s'.tri x).neighbours i = (s.tri x).neighbours i
  gapA : ∀ x i, (s.tri t).neighbours (e + 1) = some x → (s.tri x).neighbours i = some t →
    x ∈ fanA ∧ (s'.tri x).neighbours i = (s.tri t).neighbours (e + 2)
  gapB : ∀ x i, (s.tri t).neighbours (e + 2) = some x → (s.tri x).neighbours i = some t →
    x ∈ fanB ∧ (s'.tri x).neighbours i = (s.tri t).neighbours (e + 1)
  gapE : ∀ x i, (s.tri t).neighbours e = some x → (s.tri x).neighbours i = some t →
    x ∉ fanA ∧ x ∉ fanB ∧ (s'.tri x).neighbours i = none

/-- The mesh around a collapsing side: the two vertices become one. -/
theorem edge_mesh (hC : Consistent P s) {t : TId} {e : Fin 3} {v0 v1 v2 kv : VId} {sA sB sC : St K}
    {fanA fanB : List TId} (pt : P t) (hv0 : (s.tri t).vertices e = v0) (hv1 : (s.tri t).vertices (e + 1) = v1)
    (hv2 : (s.tri t).vertices (e + 2) = v2)
    (hboth : ∀ x, P x → Relation.ReflTransGen (fun x y => P x ∧ ∃ i, (s.tri x).neighbours i = some y) t x →
      (∃ i, (s.tri x).vertices i = v1) → (∃ i, (s.tri x).vertices i = v2) → x = t ∨
      (s.tri t).neighbours e = some x ∧ (s.tri t).neighbours (e + 1) ≠ some x ∧ (s.tri t).neighbours (e + 2) ≠ some x)
    (hfresh : ∀ x, P x → ∀ i, (s.tri x).vertices i ≠ kv)
    (hA : SideDone ((s.tri t).neighbours (e + 1)) t ((s.tri t).neighbours (e + 2)) v2 kv .cw s sA fanA)
    (hB : SideDone ((s.tri t).neighbours (e + 2)) t ((s.tri t).neighbours (e + 1)) v1 kv .ccw sA sB fanB)
    (hD : Detached ((s.tri t).neighbours e) t sB sC) :
    Consistent (fun x => P x ∧ x ≠ t) sC ∧ ClosedFan P s t v2 fanA ∧ ClosedFan P s t v1 fanB ∧
      (∀ x ∈ fanA, x ∉ fanB) ∧ EdgeDone P s sC t e v1 v2 kv fanA fanB := by
  have hinj := (hC t pt).2.1
  have e01 := fin3_ne_1 e
  have e02 := fin3_ne_2 e
  have e12 := fin3_1_ne_2 e
  have v01 : v0 ≠ v1 := fun h => e01 (hinj (hv0.trans (h.trans hv1.symm)))
  have v02 : v0 ≠ v2 := fun h => e02 (hinj (hv0.trans (h.trans hv2.symm)))
  have v12 : v1 ≠ v2 := fun h => e12 (hinj (hv1.trans (h.trans hv2.symm)))
  have k1 : kv ≠ v1 := fun h => hfresh t pt _ (hv1.trans h.symm)
  have k2 : kv ≠ v2 := fun h => hfresh t pt _ (hv2.trans h.symm)
  -- the neighbours
  have hnA : ∀ a, (s.tri t).neighbours (e + 1) = some a → P a ∧ a ≠ t ∧ (s.tri t).neighbours (e + 2) ≠ some a ∧
      (s.tri t).neighbours e ≠ some a ∧ (∀ j, (s.tri a).vertices j ≠ v1) ∧
      ∀ i, (s.tri a).neighbours i = some t → (s.tri a).vertices (i + 1) = v0 ∧ (s.tri a).vertices (i + 2) = v2 := by
    intro a ha
    obtain ⟨pa, k, g1, g2, g3⟩ := (hC t pt).2.2 _ _ a ⟨e + 1, rfl, rfl, ha⟩
    have hat : a ≠ t := fun h => hC.not_self pt _ (h ▸ ha)
    have h2 : ∃ i, (s.tri a).vertices i = v2 := ⟨k + 2, by rw [g2, fin3_add_1_1]; exact hv2⟩
    have hno1 : ∀ j, (s.tri a).vertices j ≠ v1 := by
      intro j hj
      rcases hboth a pa (.single ⟨pt, _, ha⟩) ⟨j, hj⟩ h2 with h | ⟨-, h, -⟩
      · exact hat h
      · exact h ha
    have hb : (s.tri t).neighbours (e + 2) ≠ some a := by
      intro h
      obtain ⟨-, k', g1', g2', -⟩ := (hC t pt).2.2 _ _ a ⟨e + 2, rfl, rfl, h⟩
      rw [fin3_add_2_2] at g1'
      exact hno1 _ (g1'.trans hv1)
    have hn : (s.tri t).neighbours e ≠ some a := by
      intro h
      obtain ⟨-, k', g1', g2', -⟩ := (hC t pt).2.2 _ _ a ⟨e, rfl, rfl, h⟩
      exact hno1 _ (g2'.trans hv1)
    refine ⟨pa, hat, hb, hn, hno1, fun i hi => ?_⟩
    obtain ⟨-, j, j1, j2, j3⟩ := facing hC pa hi
    have hj : j = e + 1 := by
      rcases fin3_cases e j with rfl | rfl | rfl
      · exact absurd j1 hn
      · rfl
      · exact absurd j1 hb
    subst hj
    rw [fin3_add_1_1] at j2
    rw [fin3_add_1_2] at j3
    exact ⟨j3.symm.trans hv0, j2.symm.trans hv2⟩
  have hnB : ∀ b, (s.tri t).neighbours (e + 2) = some b → P b ∧ b ≠ t ∧ (s.tri t).neighbours (e + 1) ≠ some b ∧
      (s.tri t).neighbours e ≠ some b ∧ (∀ j, (s.tri b).vertices j ≠ v2) ∧
      ∀ i, (s.tri b).neighbours i = some t → (s.tri b).vertices (i + 1) = v1 ∧ (s.tri b).vertices (i + 2) = v0 := by
    intro b hb
    obtain ⟨pb, k, g1, g2, g3⟩ := (hC t pt).2.2 _ _ b ⟨e + 2, rfl, rfl, hb⟩
    have hbt : b ≠ t := fun h => hC.not_self pt _ (h ▸ hb)
    have h1 : ∃ i, (s.tri b).vertices i = v1 := ⟨k + 1, by rw [g1, fin3_add_2_2]; exact hv1⟩
    have hno2 : ∀ j, (s.tri b).vertices j ≠ v2 := by
      intro j hj
      rcases hboth b pb (.single ⟨pt, _, hb⟩) h1 ⟨j, hj⟩ with h | ⟨-, -, h⟩
      · exact hbt h
      · exact h hb
    have ha : (s.tri t).neighbours (e + 1) ≠ some b := fun h => (hnA b h).2.2.1 hb
    have hn : (s.tri t).neighbours e ≠ some b := by
      intro h
      obtain ⟨-, k', g1', g2', -⟩ := (hC t pt).2.2 _ _ b ⟨e, rfl, rfl, h⟩
      exact hno2 _ (g1'.trans hv2)
    refine ⟨pb, hbt, ha, hn, hno2, fun i hi => ?_⟩
    obtain ⟨-, j, j1, j2, j3⟩ := facing hC pb hi
    have hj : j = e + 2 := by
      rcases fin3_cases e j with rfl | rfl | rfl
      · exact absurd j1 hn
      · exact absurd j1 ha
      · rfl
    subst hj
    rw [fin3_add_2_1] at j2
    rw [fin3_add_2_2] at j3
    exact ⟨j3.symm.trans hv1, j2.symm.trans hv0⟩
  have uniq : ∀ {x : TId} {i j : Fin 3}, P x → (s.tri x).vertices (i + 1) = (s.tri x).vertices (j + 1) → i = j :=
    fun px h => add_right_cancel ((hC _ px).2.1 h)
  -- the first side
  have hfA : FanWalk .cw v2 s.tri ((s.tri t).neighbours (e + 1)) fanA ∧ ClosedFan P s t v2 fanA ∧ (∀ x ∈ fanA, ∀ k, (s.tri x).vertices k = v2 → ∀ y,
      (s.tri x).neighbours (k + 2) = some y → y ∈ fanA) ∧ (∀ a, (s.tri t).neighbours (e + 1) = some a → a ∈ fanA) ∧
      (∀ x, (sA.tri x).vertices = if x ∈ fanA then substitute v2 kv (s.tri x).vertices else (s.tri x).vertices) ∧
      (∀ x, (s.tri t).neighbours (e + 1) ≠ some x → (sA.tri x).neighbours = (s.tri x).neighbours) ∧
      (∀ a i, (s.tri t).neighbours (e + 1) = some a → (sA.tri a).neighbours i =
        if (s.tri a).neighbours i = some t then (s.tri t).neighbours (e + 2) else (s.tri a).neighbours i) := by
    cases hn : (s.tri t).neighbours (e + 1) with
    | none =>
      obtain ⟨rfl, h1⟩ := hA.nil hn
      exact ⟨.stop, closedFan_nil _ _, nofun, nofun, fun x => by simpa using (h1 x).1, fun x _ => (h1 x).2, nofun⟩
    | some a =>
      obtain ⟨i, hi, hnd, hw, hV, hN⟩ := hA.cons a hn
      obtain ⟨pa, hat, -, -, -, hside⟩ := hnA a hn
      have hw' : FanWalk .cw v2 s.tri (some a) fanA := by
        refine FanWalk.transfer hw fun x hx k hk => ?_
        by_cases hxa : x = a
        · subst hxa
          rw [Function.update_self] at hk ⊢
          refine ⟨hk, ?_⟩
          dsimp only at hk ⊢
          have : k = i + 2 := (hC x pa).2.1 (hk.trans (hside i hi).2.symm)
          subst this
          show (s.tri x).neighbours (i + 2 + 2) = Function.update (s.tri x).neighbours i _ (i + 2 + 2)
          rw [fin3_add_2_2, Function.update_of_ne (fin3_ne_1 i).symm]
        · rw [Function.update_of_ne hxa] at hk ⊢
          exact ⟨hk, rfl⟩
      have hcl := fan_closed hC (dir := .cw) (j := e + 2) pt hv2 (by
        show (s.tri t).neighbours (e + 2 + 2) = some a
        rw [fin3_add_2_2]; exact hn) hw' hnd
      refine ⟨hw', hcl.2.1, hcl.2.2, ?_, hV, ?_, ?_⟩
      · intro a' ha'
        injection ha' with ha'
        exact ha' ▸ hcl.1
      · intro x hx
        rw [hN x, if_neg (fun h => hx (by rw [h]))]
      · intro a' j ha'
        injection ha' with ha'
        subst ha'
        rw [hN a, if_pos rfl]
        by_cases hj : (s.tri a).neighbours j = some t
        · have : j = i := uniq pa ((hside j hj).1.trans (hside i hi).1.symm)
          subst this
          rw [Function.update_self, if_pos hj]
        · have : j ≠ i := fun h => hj (h ▸ hi)
          rw [Function.update_of_ne this, if_neg hj]
  obtain ⟨wkA, clA, fwA, memA, VA, NA1, NA2⟩ := hfA
  -- the second side
  have hfB : FanWalk .ccw v1 s.tri ((s.tri t).neighbours (e + 2)) fanB ∧ ClosedFan P s t v1 fanB ∧ (∀ x ∈ fanB, ∀ k,
      (s.tri x).vertices k = v1 → ∀ y, (s.tri x).neighbours (k + 1) = some y → y ∈ fanB) ∧ (∀ b, (s.tri t).neighbours (e + 2) = some b → b ∈ fanB) ∧
      (∀ x, (sB.tri x).vertices = if x ∈ fanB then substitute v1 kv (sA.tri x).vertices else (sA.tri x).vertices) ∧
      (∀ x, (s.tri t).neighbours (e + 2) ≠ some x → (sB.tri x).neighbours = (sA.tri x).neighbours) ∧
      (∀ b i, (s.tri t).neighbours (e + 2) = some b → (sB.tri b).neighbours i =
        if (s.tri b).neighbours i = some t then (s.tri t).neighbours (e + 1) else (s.tri b).neighbours i) := by
    cases hn : (s.tri t).neighbours (e + 2) with
    | none =>
      obtain ⟨rfl, h1⟩ := hB.nil hn
      exact ⟨.stop, closedFan_nil _ _, nofun, nofun, fun x => by simpa using (h1 x).1, fun x _ => (h1 x).2, nofun⟩
    | some b =>
      obtain ⟨i, hi, hnd, hw, hV, hN⟩ := hB.cons b hn
      obtain ⟨pb, hbt, hna, -, -, hside⟩ := hnB b hn
      have hNb := NA1 b hna
      rw [hNb] at hi hw
      have old : ∀ x k, (sA.tri x).vertices k = v1 → (s.tri x).vertices k = v1 := by
        intro x k hk
        rw [VA x] at hk
        by_cases hx : x ∈ fanA
        · rw [if_pos hx] at hk
          unfold substitute at hk
          by_cases h2 : (s.tri x).vertices k = v2
          · rw [if_pos h2] at hk; exact absurd hk k1
          · rw [if_neg h2] at hk; exact hk
        · rw [if_neg hx] at hk; exact hk
      have hw' : FanWalk .ccw v1 s.tri (some b) fanB := by
        refine FanWalk.transfer hw fun x hx k hk => ?_
        by_cases hxb : x = b
        · subst hxb
          rw [Function.update_self] at hk ⊢
          dsimp only at hk ⊢
          have hk' := old _ _ hk
          refine ⟨hk', ?_⟩
          have : k = i + 1 := (hC x pb).2.1 (hk'.trans (hside i hi).1.symm)
          subst this
          show (s.tri x).neighbours (i + 1 + 1) = Function.update (s.tri x).neighbours i _ (i + 1 + 1)
          rw [fin3_add_1_1, Function.update_of_ne (fin3_ne_2 i).symm]
        · rw [Function.update_of_ne hxb] at hk ⊢
          have hk' := old _ _ hk
          refine ⟨hk', ?_⟩
          rw [NA1 x (fun h => (hnA x h).2.2.2.2.1 k hk')]
      have hcl := fan_closed hC (dir := .ccw) (j := e + 1) pt hv1 (by
        show (s.tri t).neighbours (e + 1 + 1) = some b
        rw [fin3_add_1_1]; exact hn) hw' hnd
      refine ⟨hw', hcl.2.1, hcl.2.2, ?_, hV, ?_, ?_⟩
      · intro b' hb'
        injection hb' with hb'
        exact hb' ▸ hcl.1
      · intro x hx
        rw [hN x, if_neg (fun h => hx (by rw [h]))]
      · intro b' j hb'
        injection hb' with hb'
        subst hb'
        rw [hN b, if_pos rfl, hNb]
        by_cases hj : (s.tri b).neighbours j = some t
        · have : j = i := uniq pb ((hside j hj).1.trans (hside i hi).1.symm)
          subst this
          rw [Function.update_self, if_pos hj]
        · have : j ≠ i := fun h => hj (h ▸ hi)
          rw [Function.update_of_ne this, if_neg hj]
  obtain ⟨wkB, clB, fwB, memB, VB, NB1, NB2⟩ := hfB
  -- the fans have nothing in common
  have noA : ∀ x ∈ fanA, (s.tri t).neighbours e ≠ some x := by
    intro x hxA h
    obtain ⟨-, k, g1, g2, g3⟩ := (hC t pt).2.2 _ _ x ⟨e, rfl, rfl, h⟩
    have := fwA x hxA (k + 1) (g1.trans hv2) t (by rw [fin3_add_1_2]; exact g3)
    exact (clA t this).2.1 rfl
  have noB : ∀ x ∈ fanB, (s.tri t).neighbours e ≠ some x := by
    intro x hxB h
    obtain ⟨-, k, g1, g2, g3⟩ := (hC t pt).2.2 _ _ x ⟨e, rfl, rfl, h⟩
    have := fwB x hxB (k + 2) (g2.trans hv1) t (by rw [fin3_add_2_1]; exact g3)
    exact (clB t this).2.1 rfl
  have reach : ∀ {dir : Dir} {v : VId} {i : Fin 3} {l : List TId}, FanWalk dir v s.tri ((s.tri t).neighbours i) l →
      ∀ x ∈ l, Relation.ReflTransGen (fun x y => P x ∧ ∃ i, (s.tri x).neighbours i = some y) t x := by
    intro dir v i l hw x hx
    cases hn : (s.tri t).neighbours i with
    | none => rw [hn] at hw; cases hw; cases hx
    | some a => exact .head ⟨pt, i, hn⟩ (hw.reach hC a hn (facing hC pt hn).1 x hx)
  have otA : ∀ x ∈ fanA, ∀ k, (s.tri x).vertices k ≠ v1 := by
    intro x hxA k hk
    obtain ⟨px, hxt, h2, -⟩ := clA x hxA
    rcases hboth x px (reach wkA x hxA) ⟨k, hk⟩ h2 with h | ⟨h, -, -⟩
    · exact hxt h
    · exact noA x hxA h
  have otB : ∀ x ∈ fanB, ∀ k, (s.tri x).vertices k ≠ v2 := by
    intro x hxB k hk
    obtain ⟨px, hxt, h1, -⟩ := clB x hxB
    rcases hboth x px (reach wkB x hxB) h1 ⟨k, hk⟩ with h | ⟨h, -, -⟩
    · exact hxt h
    · exact noB x hxB h
  have hd : ∀ x ∈ fanA, x ∉ fanB := by
    intro x hxA hxB
    obtain ⟨-, -, ⟨k, hk⟩, -⟩ := clB x hxB
    exact otA x hxA k hk
  -- the last neighbour
  have NC1 : ∀ x, (s.tri t).neighbours e ≠ some x → (sC.tri x).neighbours = (sB.tri x).neighbours := by
    intro x hx
    cases hn : (s.tri t).neighbours e with
    | none => exact hD.nil hn x
    | some n =>
      obtain ⟨i, -, h⟩ := hD.cons n hn
      rw [h x, if_neg (fun h => hx (by rw [hn, h]))]
  have NC2 : ∀ x i, (s.tri t).neighbours e = some x → (sC.tri x).neighbours i =
      if (s.tri x).neighbours i = some t then none else (s.tri x).neighbours i := by
    intro x i hx
    obtain ⟨px, -⟩ := (hC t pt).2.2 _ _ x ⟨e, rfl, rfl, hx⟩
    have ha : (s.tri t).neighbours (e + 1) ≠ some x := fun h => (hnA x h).2.2.2.1 hx
    have hb : (s.tri t).neighbours (e + 2) ≠ some x := fun h => (hnB x h).2.2.2.1 hx
    have hside : ∀ i, (s.tri x).neighbours i = some t → (s.tri x).vertices (i + 1) = v2 := by
      intro i hi
      obtain ⟨-, j, j1, j2, j3⟩ := facing hC px hi
      rcases fin3_cases e j with rfl | rfl | rfl
      · exact j3.symm.trans hv2
      · exact absurd j1 ha
      · exact absurd j1 hb
    obtain ⟨j, hj, h⟩ := hD.cons x hx
    have hsame : (sB.tri x).neighbours = (s.tri x).neighbours := (NB1 x hb).trans (NA1 x ha)
    rw [hsame] at hj h
    rw [h x, if_pos rfl]
    by_cases hi : (s.tri x).neighbours i = some t
    · have : i = j := uniq px ((hside i hi).trans (hside j hj).symm)
      subst this
      rw [Function.update_self, if_pos hi]
    · have : i ≠ j := fun h => hi (h ▸ hj)
      rw [Function.update_of_ne this, if_neg hi]
  have hV : ∀ x, (sC.tri x).vertices = if x ∈ fanA then substitute v2 kv (s.tri x).vertices
      else if x ∈ fanB then substitute v1 kv (s.tri x).vertices else (s.tri x).vertices := by
    intro x
    rw [hD.vertices x, VB x, VA x]
    by_cases h1 : x ∈ fanA
    · simp only [h1, hd x h1, if_true, if_false]
    · simp only [h1, if_false]
  have hsame : ∀ x i, P x → x ≠ t → (s.tri x).neighbours i ≠ some t →
      (sC.tri x).neighbours i = (s.tri x).neighbours i := by
    intro x i px hxt hi
    by_cases hn : (s.tri t).neighbours e = some x
    · rw [NC2 x i hn, if_neg hi]
    · rw [NC1 x hn]
      by_cases hb : (s.tri t).neighbours (e + 2) = some x
      · rw [NB2 x i hb, if_neg hi]
      · rw [NB1 x hb]
        by_cases ha : (s.tri t).neighbours (e + 1) = some x
        · rw [NA2 x i ha, if_neg hi]
        · rw [NA1 x ha]
  have gA : ∀ x i, (s.tri t).neighbours (e + 1) = some x → (s.tri x).neighbours i = some t →
      x ∈ fanA ∧ (sC.tri x).neighbours i = (s.tri t).neighbours (e + 2) := by
    intro x i j1 hi
    obtain ⟨-, -, hxb, hxn, -, hside⟩ := hnA x j1
    exact ⟨memA x j1, by rw [NC1 x hxn, NB1 x hxb, NA2 x i j1, if_pos hi]⟩
  have gB : ∀ x i, (s.tri t).neighbours (e + 2) = some x → (s.tri x).neighbours i = some t →
      x ∈ fanB ∧ (sC.tri x).neighbours i = (s.tri t).neighbours (e + 1) := by
    intro x i j1 hi
    obtain ⟨-, -, hxa, hxn, -, hside⟩ := hnB x j1
    exact ⟨memB x j1, by rw [NC1 x hxn, NB2 x i j1, if_pos hi]⟩
  refine ⟨?_, clA, clB, hd, wkA, wkB, otA, otB, hV, hsame, gA, gB, fun x i j1 hi =>
    ⟨fun h => noA x h j1, fun h => noB x h j1, by rw [NC2 x i j1, if_pos hi]⟩⟩
  refine replace_consistent hC (hD.nT.trans (hB.nT.trans hA.nT)) clA clB hd hfresh hfresh (fun x _ _ => hV x) hsame ?_
  · intro x i y px hxt hi hy
    obtain ⟨-, j, j1, j2, j3⟩ := facing hC px hi
    have hsub : ∀ z v : VId, ∀ vs : Fin 3 → VId, ∀ j, vs j = z → z ≠ v → substitute v kv vs j = z := by
      intro z v vs j h1 h2
      unfold substitute
      rw [if_neg (h1 ▸ h2), h1]
    have hsub' : ∀ v : VId, ∀ vs : Fin 3 → VId, ∀ j, vs j = v → substitute v kv vs j = kv := by
      intro v vs j h1
      unfold substitute
      rw [if_pos h1]
    rcases fin3_cases e j with rfl | rfl | rfl
    · rw [NC2 x i j1, if_pos hi] at hy
      cases hy
    · obtain ⟨-, -, hxb, hxn, -, hside⟩ := hnA x j1
      rw [NC1 x hxn, NB1 x hxb, NA2 x i j1, if_pos hi] at hy
      obtain ⟨py, hyt, hya, hyn, -, hside'⟩ := hnB y hy
      obtain ⟨-, k, g1, g2, g3⟩ := (hC t pt).2.2 _ _ y ⟨e + 2, rfl, rfl, hy⟩
      refine ⟨py, hyt, k, ?_, ?_, ?_⟩
      · rw [hV y, hV x, if_pos (memA x j1), if_neg (fun h => hd y h (memB y hy)), if_pos (memB y hy),
          hsub' _ _ _ (hside' k g3).1, hsub' _ _ _ (hside i hi).2]
      · rw [hV y, hV x, if_pos (memA x j1), if_neg (fun h => hd y h (memB y hy)), if_pos (memB y hy),
          hsub _ _ _ _ (hside' k g3).2 v01, hsub _ _ _ _ (hside i hi).1 v02]
      · rw [NC1 y hyn, NB2 y k hy, if_pos g3, j1]
    · obtain ⟨-, -, hxa, hxn, -, hside⟩ := hnB x j1
      rw [NC1 x hxn, NB2 x i j1, if_pos hi] at hy
      obtain ⟨py, hyt, hyb, hyn, -, hside'⟩ := hnA y hy
      obtain ⟨-, k, g1, g2, g3⟩ := (hC t pt).2.2 _ _ y ⟨e + 1, rfl, rfl, hy⟩
      refine ⟨py, hyt, k, ?_, ?_, ?_⟩
      · rw [hV y, hV x, if_pos (memA y hy), if_neg (fun h => hd x h (memB x j1)), if_pos (memB x j1),
          hsub _ _ _ _ (hside' k g3).1 v02, hsub _ _ _ _ (hside i hi).2 v01]
      · rw [hV y, hV x, if_pos (memA y hy), if_neg (fun h => hd x h (memB x j1)), if_pos (memB x j1),
          hsub' _ _ _ (hside' k g3).2, hsub' _ _ _ (hside i hi).1]
      · rw [NC1 y hyn, NB1 y hyb, NA2 y k hy, if_pos g3, j1]

theorem FanWalk.head {dir : Dir} {v : VId} {tri : TId → KTri K} {a : TId} {l : List TId}
    (h : FanWalk dir v tri (some a) l) : a ∈ l := by
  cases h with
  | step _ _ => exact List.mem_cons_self

/-- what has been done to the triangles around a vertex that hits the opposite side -/
structure SplitDone (P : TId → Prop) (s s' : St K) (t a b : TId) (v va vb : VId) (fanA fanB : List TId) : Prop where
  walkB : FanWalk .ccw v s.tri (some a) fanB
  walkA : FanWalk .cw v s.tri (some b) fanA
  ne : a ≠ b
  vertices : ∀ x, (s'.tri x).vertices = if x ∈ fanB then substitute v vb (s.tri x).vertices
    else if x ∈ fanA then substitute v va (s.tri x).vertices else (s.tri x).vertices
  same : ∀ x i, P x → x ≠ t → (s.tri x).neighbours i ≠ some t → (s'.tri x).neighbours i = (s.tri x).neighbours i
  gap : ∀ x i, P x → x ≠ t → (s.tri x).neighbours i = some t → (s'.tri x).neighbours i = none

/-- The mesh around a vertex that hits the opposite side: two vertices take its place, one on either side. -/
theorem split_mesh (hC : Consistent P s) {t a b : TId} {e : Fin 3} {v va vb : VId} {sA sB : St K}
    {fanA fanB : List TId} (pt : P t) (hv : (s.tri t).vertices e = v)
    (hn : (s.tri t).neighbours e = none) (ha : (s.tri t).neighbours (e + 1) = some a)
    (hb : (s.tri t).neighbours (e + 2) = some b)
    (hfb : ∀ x, P x → ∀ i, (s.tri x).vertices i ≠ vb) (hfa : ∀ x, P x → ∀ i, (s.tri x).vertices i ≠ va)
    (hA : SideDone (some a) t none v vb .ccw s sA fanB) (hB : SideDone (some b) t none v va .cw sA sB fanA) :
    Consistent (fun x => P x ∧ x ≠ t) sB ∧ ClosedFan P s t v fanB ∧ ClosedFan P s t v fanA ∧
      (∀ x ∈ fanB, x ∉ fanA) ∧ SplitDone P s sB t a b v va vb fanA fanB := by
  obtain ⟨i, hi, hnd, hw, hV, hN⟩ := hA.cons a rfl
  obtain ⟨i', hi', hnd', hw', hV', hN'⟩ := hB.cons b rfl
  have kb : vb ≠ v := fun h => hfb t pt _ (hv.trans h.symm)
  have gone : ∀ x ∈ fanB, ∀ k, (sA.tri x).vertices k ≠ v := by
    intro x hx k
    rw [hV x, if_pos hx]
    unfold substitute
    by_cases h : (s.tri x).vertices k = v
    · rw [if_pos h]; exact kb
    · rw [if_neg h]; exact h
  have hVb : ∀ x, (Function.update sA.tri b { sA.tri b with
      neighbours := (Function.update (sA.tri b).neighbours i' none) } x).vertices = (sA.tri x).vertices := by
    intro x
    by_cases hx : x = b
    · subst hx; simp
    · simp [hx]
  have hd : ∀ x ∈ fanB, x ∉ fanA := by
    intro x hx hx'
    obtain ⟨k, hk⟩ := FanWalk.mem hw' x hx'
    rw [hVb] at hk
    exact gone x hx k hk
  have hab : a ≠ b := by
    rintro rfl
    exact hd a (FanWalk.head hw) (FanWalk.head hw')
  obtain ⟨pa, ja, ga1, ga2, ga3⟩ := (hC t pt).2.2 _ _ a ⟨e + 1, rfl, rfl, ha⟩
  obtain ⟨pb, jb, gb1, gb2, gb3⟩ := (hC t pt).2.2 _ _ b ⟨e + 2, rfl, rfl, hb⟩
  have sideA : ∀ i, (s.tri a).neighbours i = some t → (s.tri a).vertices (i + 1) = v := by
    intro i hi
    obtain ⟨-, j, j1, j2, j3⟩ := facing hC pa hi
    rcases fin3_cases e j with rfl | rfl | rfl
    · rw [hn] at j1; cases j1
    · rw [fin3_add_1_2] at j3; exact j3.symm.trans hv
    · rw [hb] at j1; injection j1 with j1; exact absurd j1.symm hab
  have sideB : ∀ i, (s.tri b).neighbours i = some t → (s.tri b).vertices (i + 2) = v := by
    intro i hi
    obtain ⟨-, j, j1, j2, j3⟩ := facing hC pb hi
    rcases fin3_cases e j with rfl | rfl | rfl
    · rw [hn] at j1; cases j1
    · rw [ha] at j1; injection j1 with j1; exact absurd j1 hab
    · rw [fin3_add_2_1] at j2; exact j2.symm.trans hv
  have w1 : FanWalk .ccw v s.tri (some a) fanB := by
    refine FanWalk.transfer hw fun x hx k hk => ?_
    by_cases hxa : x = a
    · subst hxa
      rw [Function.update_self] at hk ⊢
      refine ⟨hk, ?_⟩
      dsimp only at hk ⊢
      have : k = i + 1 := (hC x pa).2.1 (hk.trans (sideA i hi).symm)
      subst this
      show (s.tri x).neighbours (i + 1 + 1) = Function.update (s.tri x).neighbours i _ (i + 1 + 1)
      rw [fin3_add_1_1, Function.update_of_ne (fin3_ne_2 i).symm]
    · rw [Function.update_of_ne hxa] at hk ⊢
      exact ⟨hk, rfl⟩
  have hNb : (sA.tri b).neighbours = (s.tri b).neighbours := by rw [hN b, if_neg hab.symm]
  rw [hNb] at hi'
  have w2 : FanWalk .cw v s.tri (some b) fanA := by
    refine FanWalk.transfer hw' fun x hx k hk => ?_
    rw [hVb] at hk
    have hxB : x ∉ fanB := fun h => gone x h k hk
    have hk' : (s.tri x).vertices k = v := by rw [hV x, if_neg hxB] at hk; exact hk
    refine ⟨hk', ?_⟩
    by_cases hxb : x = b
    · subst hxb
      rw [Function.update_self]
      dsimp only
      have : k = i' + 2 := (hC x pb).2.1 (hk'.trans (sideB i' hi').symm)
      subst this
      show (s.tri x).neighbours (i' + 2 + 2) = Function.update (sA.tri x).neighbours i' _ (i' + 2 + 2)
      rw [fin3_add_2_2, Function.update_of_ne (fin3_ne_1 i').symm, hNb]
    · rw [Function.update_of_ne hxb, hN x, if_neg (fun h : x = a => hxB (h ▸ FanWalk.head hw))]
  have c1 := fan_closed hC (dir := .ccw) (j := e) pt hv ha w1 hnd
  have c2 := fan_closed hC (dir := .cw) (j := e) pt hv hb w2 hnd'
  have hVs : ∀ x, (sB.tri x).vertices = if x ∈ fanB then substitute v vb (s.tri x).vertices
      else if x ∈ fanA then substitute v va (s.tri x).vertices else (s.tri x).vertices := by
    intro x
    rw [hV' x, hV x]
    by_cases h1 : x ∈ fanB
    · simp only [h1, hd x h1, if_true, if_false]
    · simp only [h1, if_false]
  have hsame : ∀ x j, P x → x ≠ t → (s.tri x).neighbours j ≠ some t →
      (sB.tri x).neighbours j = (s.tri x).neighbours j := by
    intro x j px hxt hj
    rw [hN' x]
    by_cases hxb : x = b
    · subst hxb
      rw [if_pos rfl, hNb, Function.update_of_ne (fun h : j = i' => hj (h ▸ hi'))]
    · rw [if_neg hxb, hN x]
      by_cases hxa : x = a
      · subst hxa
        rw [if_pos rfl, Function.update_of_ne (fun h : j = i => hj (h ▸ hi))]
      · rw [if_neg hxa]
  have hgap : ∀ x j, P x → x ≠ t → (s.tri x).neighbours j = some t → (sB.tri x).neighbours j = none := by
    intro x j px hxt hj
    obtain ⟨-, l, l1, l2, l3⟩ := facing hC px hj
    rcases fin3_cases e l with rfl | rfl | rfl
    · rw [hn] at l1; cases l1
    · rw [ha] at l1
      injection l1 with l1
      subst l1
      rw [hN' a, if_neg hab, hN a, if_pos rfl]
      have : j = i := add_right_cancel ((hC a pa).2.1 ((sideA j hj).trans (sideA i hi).symm))
      subst this
      rw [Function.update_self]
    · rw [hb] at l1
      injection l1 with l1
      subst l1
      rw [hN' b, if_pos rfl]
      have : j = i' := add_right_cancel ((hC b pb).2.1 ((sideB j hj).trans (sideB i' hi').symm))
      subst this
      rw [Function.update_self]
  refine ⟨?_, c1.2.1, c2.2.1, hd, w1, w2, hab, hVs, hsame, hgap⟩
  refine replace_consistent hC (hB.nT.trans hA.nT) c1.2.1 c2.2.1 hd hfb hfa (fun x _ _ => hVs x) hsame ?_
  intro x j y px hxt hj hy
  rw [hgap x j px hxt hj] at hy
  cases hy

/-- A triangle is taken out: all neighbours are detached. -/
theorem remove_consistent (hC : Consistent P s) {s' : St K} {t : TId} (hnT : s'.nT = s.nT)
    (hv : ∀ x, P x → x ≠ t → (s'.tri x).vertices = (s.tri x).vertices)
    (hn : ∀ x i, P x → x ≠ t → (s'.tri x).neighbours i =
      if (s.tri x).neighbours i = some t then none else (s.tri x).neighbours i) :
    Consistent (fun x => P x ∧ x ≠ t) s' := by
  rintro x ⟨px, hxt⟩
  obtain ⟨h1, h2, h3⟩ := hC x px
  refine ⟨hnT ▸ h1, by rw [hv x px hxt]; exact h2, ?_⟩
  rintro a b y ⟨i, rfl, rfl, hi⟩
  rw [hn x i px hxt] at hi
  by_cases ho : (s.tri x).neighbours i = some t
  · rw [if_pos ho] at hi; cases hi
  · rw [if_neg ho] at hi
    obtain ⟨py, k, k1, k2, k3⟩ := h3 _ _ y ⟨i, rfl, rfl, hi⟩
    have hyt : y ≠ t := fun e => ho (e ▸ hi)
    refine ⟨⟨py, hyt⟩, k, ?_, ?_, ?_⟩
    · rw [hv x px hxt, hv y py hyt]; exact k1
    · rw [hv x px hxt, hv y py hyt]; exact k2
    · rw [hn y k py hyt, if_neg]
      · exact k3
      · rw [k3]; exact fun e => hxt (by injection e)

end

end Grassfire
