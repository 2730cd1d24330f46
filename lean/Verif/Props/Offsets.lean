/-
Properties C43 and C51: offset curves.
-/
import Verif.Offsets
import Verif.Props.Invariants

set_option linter.unusedSectionVars false

namespace Grassfire

open Spec

variable {K : Type} [Field K] [LinearOrder K]

/-- Specification: vertex `v` moves along the wavefront at time `t`, with neighbour `u` on its left,
and `l` is the line between them. -/
structure IsOffset (s : St K) (l : OffsetLine K) : Prop where
  inSkeleton : l.v ∈ s.skVertices
  alive : ∃ kv, s.vert l.v = .kin kv ∧ (∃ a, kv.startsAt = some a ∧ a ≤ l.time) ∧
    (∀ b, kv.stopsAt = some b → l.time < b) ∧ kv.left.at l.time = some (some l.u)
  p : (s.vert l.v).positionAt (fun n => (s.node n).pos) l.time = .ok l.p
  q : (s.vert l.u).positionAt (fun n => (s.node n).pos) l.time = .ok l.q

/-- What is needed so that nothing goes wrong: the vertices of the skeleton are kinetic, and every
kinetic vertex has a start time and a start node. -/
structure Started (s : St K) : Prop where
  kinetic : ∀ v ∈ s.skVertices, ∃ kv, s.vert v = .kin kv ∧ kv.startsAt ≠ none ∧ kv.startNode ≠ none
  left : ∀ v ∈ s.skVertices, ∀ kv, s.vert v = .kin kv → ∀ x ∈ kv.left, ∀ u, x.ref = some u →
    ∀ ku, s.vert u = .kin ku → ku.startNode ≠ none

theorem position_ok {s : St K} {v : VId} (h : ∀ kv, s.vert v = .kin kv → kv.startNode ≠ none)
    (t : K) : ∃ p, (s.vert v).positionAt (fun n => (s.node n).pos) t = .ok p := by
  cases hv : s.vert v with
  | inf o => exact ⟨o, rfl⟩
  | kin kv =>
    unfold Vertex.positionAt
    dsimp only
    split_ifs
    · exact ⟨_, rfl⟩
    · obtain ⟨n, hn⟩ := Option.ne_none_iff_exists'.1 (h kv hv)
      rw [hn]
      exact ⟨_, rfl⟩

theorem hist_at_mem {R : Type} {h : Hist K R} {t : K} {r : R} (hr : h.at t = some r) :
    ∃ x ∈ h, x.ref = r := by
  unfold Hist.at at hr
  obtain ⟨x, hx, rfl⟩ := Option.map_eq_some_iff.1 hr
  exact ⟨x, List.mem_of_find?_eq_some hx, rfl⟩

/-- one vertex: at most one line, exactly when the specification says so -/
theorem offsetOf_spec {s : St K} (hs : Started s) {v : VId} (hv : v ∈ s.skVertices) (t : K) :
    ∃ o, offsetOf s t v = .ok o ∧
      ∀ l, o = some l ↔ (IsOffset s l ∧ l.time = t ∧ l.v = v) := by
  obtain ⟨kv, hk, h1, h2⟩ := hs.kinetic v hv
  obtain ⟨a, ha⟩ := Option.ne_none_iff_exists'.1 h1
  unfold offsetOf
  rw [hk]
  dsimp only
  rw [ha]
  dsimp only
  by_cases c : (a ≤ t ∧ (∃ b ∈ kv.stopsAt, b > t)) ∨ (a ≤ t ∧ kv.stopsAt = none)
  · rw [if_pos c]
    obtain ⟨p, hp⟩ := position_ok (s := s) (v := v) (fun k hk' => by rw [hk] at hk'; cases hk'; exact h2) t
    rw [hk] at hp
    unfold offsetLine
    rw [hp]
    dsimp only
    have hat : a ≤ t := by rcases c with c | c <;> exact c.1
    have hst : ∀ b, kv.stopsAt = some b → t < b := by
      intro b hb
      rcases c with ⟨_, b', hb', hlt⟩ | ⟨_, hn⟩
      · rw [hb] at hb'; cases hb'; exact hlt
      · rw [hb] at hn; cases hn
    cases hu : neighbourAt kv.left t with
    | none =>
      refine ⟨none, rfl, fun l => ⟨fun h => (by cases h), ?_⟩⟩
      rintro ⟨⟨_, ⟨k, hk', _, _, hl⟩, _, _⟩, rfl, rfl⟩
      rw [hk] at hk'; cases hk'
      unfold neighbourAt at hu
      rw [hl] at hu; cases hu
    | some u =>
      have hl : kv.left.at t = some (some u) := by
        unfold neighbourAt at hu
        exact Option.join_eq_some_iff.1 hu
      obtain ⟨x, hx, hxr⟩ := hist_at_mem hl
      obtain ⟨q, hq⟩ := position_ok (hs.left v hv kv hk x hx u hxr) t
      dsimp only
      rw [hq]
      refine ⟨_, rfl, fun l => ⟨fun h => ?_, ?_⟩⟩
      · cases h
        exact ⟨⟨hv, ⟨kv, hk, ⟨a, ha, hat⟩, hst, hl⟩, by dsimp only; rw [hk]; exact hp, hq⟩, rfl, rfl⟩
      · rintro ⟨⟨_, ⟨k, hk', _, _, hl'⟩, hp', hq'⟩, ht, hv'⟩
        obtain ⟨p', q', t', v', u'⟩ := l
        dsimp only at ht hv' hk' hl' hp' hq'
        subst ht hv'
        rw [hk] at hk'; cases hk'
        rw [hl] at hl'; cases hl'
        rw [hk] at hp'
        rw [hp] at hp'; cases hp'
        rw [hq] at hq'; cases hq'
        rfl
  · rw [if_neg c]
    refine ⟨none, rfl, fun l => ⟨fun h => (by cases h), ?_⟩⟩
    rintro ⟨⟨_, ⟨k, hk', ⟨a', ha', hle⟩, hst, _⟩, _, _⟩, rfl, rfl⟩
    rw [hk] at hk'; cases hk'
    rw [ha] at ha'; cases ha'
    refine absurd ?_ c
    cases hb : kv.stopsAt with
    | none => exact .inr ⟨hle, rfl⟩
    | some b => exact .inl ⟨hle, b, rfl, hst b hb⟩

theorem collect_eq {A B : Type} {f : A → Except Err (Option B)} {g : A → Option B} :
    ∀ {l : List A}, (∀ x ∈ l, f x = .ok (g x)) → collect f l = .ok (l.filterMap g)
  | [], _ => rfl
  | x :: xs, h => by
    have h1 := h x (List.mem_cons_self ..)
    have h2 := collect_eq (l := xs) fun y hy => h y (List.mem_cons_of_mem _ hy)
    unfold collect
    rw [h1, h2]
    cases hg : g x <;> simp [bind, Except.bind, pure, Except.pure, hg]

/-- C43: for at least one step `calc_offsets` raises nothing; it visits the times `i*now/ct`, in order,
and for each of them the vertices of the skeleton, in order; each vertex contributes at most one
line, and it contributes a line exactly when it has started, has not stopped, and has a left
neighbour at that time; the line connects its position and that of the neighbour at that
time. -/
theorem C43_offsets (s : St K) (hs : Started s) (now : K) (ct : ℕ) [CharZero K] (hct : 0 < ct) :
    ∃ line : ℕ → VId → Option (OffsetLine K),
      calcOffsets s now ct = .ok ((List.range ct).flatMap fun i => s.skVertices.filterMap (line i)) ∧
      ∀ i < ct, ∀ v ∈ s.skVertices, ∀ l,
        line i v = some l ↔ (IsOffset s l ∧ l.time = i * now / ct ∧ l.v = v) := by
  classical
  have hc0 : ((ct : ℤ) : K) ≠ 0 := by
    rw [Int.cast_natCast, Nat.cast_ne_zero]; omega
  choose! o ho using fun (v : VId) (hv : v ∈ s.skVertices) (t : K) => offsetOf_spec hs hv t
  refine ⟨fun i v => o v ((i : K) * (now / ((ct : ℤ) : K))), ?_, ?_⟩
  · unfold calcOffsets pdiv
    rw [if_neg hc0]
    show offsetsAt s _ = _
    rw [Int.toNat_natCast]
    have : ∀ ts : List ℕ, offsetsAt s (ts.map fun (i : ℕ) => (i : K) * (now / ((ct : ℤ) : K))) =
        .ok (ts.flatMap fun (i : ℕ) => s.skVertices.filterMap fun v => o v ((i : K) * (now / ((ct : ℤ) : K)))) := by
      intro ts
      induction ts with
      | nil => rfl
      | cons i ts ih =>
        rw [List.map_cons]
        unfold offsetsAt
        rw [ih, collect_eq (g := fun v => o v ((i : K) * (now / ((ct : ℤ) : K))))
          (fun v hv => (ho v hv _).1)]
        rfl
    exact this _
  · intro i _ v hv l
    rw [(ho v hv _).2 l, Int.cast_natCast, mul_div_assoc]

/-- C43: with `ct = 0` there is a ZeroDivisionError. -/
theorem C43_zero (s : St K) (now : K) : calcOffsets s now 0 = .error .zeroDivisionError := by
  unfold calcOffsets pdiv
  rw [Int.cast_zero, if_pos rfl]
  rfl

/-- the conditions hold after a complete run -/
theorem completed_started [IsStrictOrderedRing K] [HasSqrt K] [HasTrig K] {depth : ℕ} {s0 : St K}
    {now : K} {s : St K} (h : Completed depth s0 now s) : Started s := by
  obtain ⟨n, tr, _, he⟩ := completed_execution h
  have i := (execution_inv he).1
  refine ⟨fun v hv => ?_, fun v hv kv hk x hx u hu ku hku => ?_⟩
  · obtain ⟨kv, hk, _⟩ := i.numbered v hv
    obtain ⟨⟨a, ha, _⟩, ⟨b, _, hb⟩, _⟩ := i.lives v kv (i.refs.skVertices v hv) hk
    exact ⟨kv, hk, by rw [ha]; simp, by rw [hb]; simp⟩
  · have hun := i.refs.left v kv (i.refs.skVertices v hv) hk x hx u hu
    obtain ⟨_, ⟨b, _, hb⟩, _⟩ := i.lives u ku hun hku
    rw [hb]; simp

/-- C43: for every complete run, with the returned time. -/
theorem C43_after_loop [IsStrictOrderedRing K] [HasSqrt K] [HasTrig K] {depth : ℕ} {s0 : St K}
    {now : K} {s : St K} (h : Completed depth s0 now s) (t : K) (ct : ℕ) (hct : 0 < ct) :
    ∃ ls, calcOffsets s t ct = .ok ls ∧
      ∀ l, l ∈ ls ↔ (IsOffset s l ∧ ∃ i < ct, l.time = i * t / ct) := by
  obtain ⟨line, h1, h2⟩ := C43_offsets s (completed_started h) t ct hct
  refine ⟨_, h1, fun l => ?_⟩
  rw [List.mem_flatMap]
  constructor
  · rintro ⟨i, hi, hl⟩
    obtain ⟨v, hv, hl⟩ := List.mem_filterMap.1 hl
    obtain ⟨a, b, c⟩ := (h2 i (List.mem_range.1 hi) v hv l).1 hl
    exact ⟨a, i, List.mem_range.1 hi, b⟩
  · rintro ⟨a, i, hi, b⟩
    exact ⟨i, List.mem_range.2 hi, List.mem_filterMap.2
      ⟨l.v, a.inSkeleton, (h2 i hi l.v a.inSkeleton l).2 ⟨a, b, rfl⟩⟩⟩

/-- The hypotheses are met: the offsets of the rectangle at time 1/2. -/
example : Sample.outcome Sample.complete
      (fun now s => (calcOffsets s now 2).toOption.map fun ls => ls.map fun l => (l.time, l.p, l.q))
      Sample.rectangle =
    some (some
      [(0, (0, 0), (0, 2)), (0, (4, 0), (0, 0)), (0, (4, 2), (4, 0)), (0, (0, 2), (4, 2)),
       (1/2, (1/2, 1/2), (1/2, 3/2)), (1/2, (7/2, 1/2), (1/2, 1/2)),
       (1/2, (7/2, 3/2), (7/2, 1/2)), (1/2, (1/2, 3/2), (7/2, 3/2))]) := by
  decide +kernel

/-! ### C51 -/

theorem collect_error {A B : Type} {f : A → Except Err (Option B)} {P : Err → Prop} :
    ∀ {l : List A}, (∀ x ∈ l, ∀ e, f x = .error e → P e) → (∃ x ∈ l, ∃ e, f x = .error e) →
      ∃ e, collect f l = .error e ∧ P e
  | [], _, ⟨x, hx, _⟩ => by cases hx
  | x :: xs, h, hex => by
    unfold collect
    cases hf : f x with
    | error e => exact ⟨e, rfl, h x (List.mem_cons_self ..) e hf⟩
    | ok o =>
      obtain ⟨y, hy, e, he⟩ := hex
      rcases List.mem_cons.1 hy with rfl | hy
      · rw [hf] at he; cases he
      · obtain ⟨e', h1, h2⟩ := collect_error (l := xs)
          (fun z hz => h z (List.mem_cons_of_mem _ hz)) ⟨y, hy, e, he⟩
        refine ⟨e', ?_, h2⟩
        rw [h1]; rfl

/-- C51: when some vertex of the skeleton that starts at time 0 never stops, `output_offsets` raises a
TypeError at its first time, so that `calc_skel` with `output=True` does not deliver the
skeleton. -/
theorem C51_unstopped (s : St K) (hs : Started s) (now : K) (ct : ℕ) [CharZero K] (hct : 0 < ct)
    (h : ∃ v ∈ s.skVertices, ∃ kv, s.vert v = .kin kv ∧ kv.startsAt = some 0 ∧ kv.stopsAt = none) :
    outputOffsets s now ct = .error .typeError := by
  have hc0 : ((ct : ℤ) : K) ≠ 0 := by
    rw [Int.cast_natCast, Nat.cast_ne_zero]; omega
  obtain ⟨v, hv, kv, hk, h0, hn⟩ := h
  have key : collect (outputOffset true s 0) s.skVertices = .error .typeError := by
    have A : ∀ w ∈ s.skVertices, ∀ e, outputOffset true s (0 : K) w = .error e → e = .typeError := by
      intro w hw e he
      obtain ⟨kw, hkw, h1, h2⟩ := hs.kinetic w hw
      obtain ⟨a, ha⟩ := Option.ne_none_iff_exists'.1 h1
      unfold outputOffset at he
      rw [hkw] at he
      dsimp only at he
      rw [ha] at he
      dsimp only at he
      by_cases c : a ≤ 0
      · rw [if_pos c] at he
        cases hb : kw.stopsAt with
        | none => rw [hb] at he; cases he; rfl
        | some b =>
          rw [hb] at he
          dsimp only at he
          by_cases c2 : b > 0
          · rw [if_pos c2] at he
            obtain ⟨p, hp⟩ := position_ok (s := s) (v := w)
              (fun k hk' => by rw [hkw] at hk'; cases hk'; exact h2) 0
            rw [hkw] at hp
            unfold offsetLine at he
            rw [hp, if_pos rfl] at he
            dsimp only at he
            cases hu : neighbourAt kw.left 0 with
            | none => rw [hu] at he; cases he
            | some u =>
              rw [hu] at he
              have hl : kw.left.at 0 = some (some u) := by
                unfold neighbourAt at hu
                exact Option.join_eq_some_iff.1 hu
              obtain ⟨x, hx, hxr⟩ := hist_at_mem hl
              obtain ⟨q, hq⟩ := position_ok (hs.left w hw kw hkw x hx u hxr) 0
              dsimp only at he
              rw [hq] at he
              cases he
          · rw [if_neg c2] at he; cases he
      · rw [if_neg c] at he; cases he
    have B : outputOffset true s (0 : K) v = .error .typeError := by
      unfold outputOffset
      rw [hk]
      dsimp only
      rw [h0]
      dsimp only
      rw [if_pos le_rfl, hn]
    obtain ⟨e, he, rfl⟩ := collect_error A ⟨v, hv, _, B⟩
    exact he
  unfold outputOffsets pdiv
  rw [if_neg hc0]
  obtain ⟨m, rfl⟩ := Nat.exists_eq_succ_of_ne_zero hct.ne'
  rw [Int.toNat_natCast, List.range_succ_eq_map]
  simp only [bind, Except.bind]
  rw [List.map_cons, Nat.cast_zero, zero_mul]
  unfold outputAt
  rw [key]
  rfl

/-- The hypothesis of `C51_unstopped` is met by a vertex outside of the polygon. -/
example : Started ({ exUnstopped with
    vert := fun _ => .kin { origin := (1, 1), velocity := (1, 0), startsAt := some 0, startNode := some 0 } } : St ℚ) :=
  ⟨fun v _ => ⟨_, rfl, by simp, by simp⟩, fun v _ kv hk x hx => by cases hk; cases hx⟩

end Grassfire
