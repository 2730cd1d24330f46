/-
When collapse.py raises (lemmas for C86).
-/
import Verif.Proofs.Meetings
import Verif.Props.Calc
import Verif.Spec.Ambiguity

set_option linter.unusedSectionVars false

namespace Grassfire

open Spec

variable {K : Type} [Field K] [LinearOrder K] [IsStrictOrderedRing K] [HasSqrt K]

theorem bind_error_iff {α β : Type} {x : Except Err α} {f : α → Except Err β} {e : Err} :
    (x >>= f) = .error e ↔ x = .error e ∨ ∃ a, x = .ok a ∧ f a = .error e := by
  cases x with
  | error e' =>
    refine ⟨fun h => .inl (by cases h; rfl), ?_⟩
    rintro (h | ⟨_, h, _⟩)
    · cases h; rfl
    · cases h
  | ok a =>
    refine ⟨fun h => .inr ⟨a, rfl, h⟩, ?_⟩
    rintro (h | ⟨_, h, g⟩)
    · cases h
    · cases h; exact g

theorem passert_error {c : Bool} (hc : c = true) {e : Err} : passert c ≠ .error e := by
  unfold passert; rw [if_pos hc]; intro h; cases h

theorem indexE_error {α : Type} [DecidableEq α] {f : Fin 3 → α} {x : α} (h : ∃ i, f i = x) {e : Err} :
    indexE f x ≠ .error e := by
  obtain ⟨i, hi⟩ := h
  unfold indexE index3
  intro he
  split_ifs at he with h0 h1 h2
  fin_cases i
  · exact h0 hi
  · exact h1 hi
  · exact h2 hi

theorem list3_error {α : Type} {f : Fin 3 → Except Err α} (h : ∀ i, ∃ a, f i = .ok a) {e : Err} :
    list3 f ≠ .error e := by
  obtain ⟨a, ha⟩ := h 0
  obtain ⟨b, hb⟩ := h 1
  obtain ⟨c, hc⟩ := h 2
  unfold list3
  rw [ha, hb, hc]
  intro h; cases h

theorem Spec.Followable.uniform {T : TView K} (h : Followable T) (i : Fin 3) : Uniform (T.v i) := by
  cases hk : (T.v i).kinetic with
  | true => exact .inl ⟨hk, h.slow i⟩
  | false => exact .inr ⟨h.still i hk, .inl hk⟩

section
variable {T : TView K} (h : Followable T)
include h

theorem Spec.Followable.distance (i j : Fin 3) (x : K) :
    (T.v i).distance2At (T.v j) x = .ok (distSq (cornerAt T i x) (cornerAt T j x)) := by
  unfold VView.distance2At
  rw [C17_position _ (h.uniform i) x, C17_position _ (h.uniform j) x]
  rfl

theorem Spec.Followable.dists2 (x : K) : ∃ d, T.dists2 x = .ok d := by
  cases hd : T.dists2 x with
  | ok d => exact ⟨d, rfl⟩
  | error e => exact absurd hd (list3_error fun i => ⟨_, h.distance _ _ x⟩)

theorem Spec.Followable.dists (x : K) : ∃ d, T.dists x = .ok d := by
  obtain ⟨d2, h2⟩ := h.dists2 x
  have hd : T.dists x = list3 fun i => psqrt (d2 i) := by
    unfold TView.dists
    rw [h2]
    rfl
  cases hs : T.dists x with
  | ok d => exact ⟨d, rfl⟩
  | error e =>
    rw [hd] at hs
    refine absurd hs (list3_error fun i => ⟨HasSqrt.sqrt (d2 i), ?_⟩)
    unfold psqrt
    rw [if_neg]
    rw [dists2_at h.uniform h2 i, not_lt]
    exact lengthSq_nonneg T i x

theorem flipLongest_error (x : K) {e : Err} : flipLongest T x ≠ .error e := by
  obtain ⟨d, hd⟩ := h.dists2 x
  unfold flipLongest
  rw [hd]
  intro he
  rcases bind_error_iff.1 he with he | ⟨a, ha, he⟩
  · cases he
  · rcases bind_error_iff.1 he with he | ⟨_, _, he⟩
    · exact indexE_error (max3_mem _) he
    · cases he

end

theorem where3_three {p : Fin 3 → Bool} {a b c : Fin 3} (h : where3 p = [a, b, c]) (i : Fin 3) : p i = true := by
  have : (where3 p).length = 3 := by rw [h]; rfl
  cases h0 : p 0 <;> cases h1 : p 1 <;> cases h2 : p 2 <;> simp [where3, h0, h1, h2] at this
  fin_cases i <;> assumption

theorem where3_other {p : Fin 3 → Bool} (h3 : ∀ a b c, where3 p ≠ [a, b, c]) (h1 : ∀ a, where3 p ≠ [a]) :
    (∃ i, p i = false) ∧ ∀ i, p i = true → ∃ j, j ≠ i ∧ p j = true := by
  cases e0 : p 0 <;> cases e1 : p 1 <;> cases e2 : p 2 <;>
    simp only [where3, e0, e1, e2, List.filter_cons, List.filter_nil, if_true, if_false, Bool.false_eq_true, ne_eq,
      List.cons.injEq, and_true, not_and, reduceCtorEq, not_false_eq_true, implies_true, and_false] at h1 h3
  all_goals first
    | exact absurd rfl (h1 _)
    | exact absurd rfl (h3 _ _ _ rfl rfl)
    | (refine ⟨?_, ?_⟩
       · first | exact ⟨0, e0⟩ | exact ⟨1, e1⟩ | exact ⟨2, e2⟩
       · intro i hi
         fin_cases i <;> simp_all <;> first
           | exact ⟨0, by decide, e0⟩ | exact ⟨1, by decide, e1⟩ | exact ⟨2, by decide, e2⟩)

theorem where3_two {p : Fin 3 → Bool} {a b : Fin 3} (h : where3 p = [a, b]) :
    a ≠ b ∧ p a = true ∧ p b = true ∧ ∃ c, b ≠ c ∧ c ≠ a ∧ p c = false := by
  cases e0 : p 0 <;> cases e1 : p 1 <;> cases e2 : p 2 <;>
    simp [where3, e0, e1, e2] at h
  · obtain ⟨rfl, rfl⟩ := h; exact ⟨by decide, e1, e2, 0, by decide, by decide, e0⟩
  · obtain ⟨rfl, rfl⟩ := h; exact ⟨by decide, e0, e2, 1, by decide, by decide, e1⟩
  · obtain ⟨rfl, rfl⟩ := h; exact ⟨by decide, e0, e1, 2, by decide, by decide, e2⟩

section
variable {T : TView K} (h : Followable T)
include h

theorem degenerateNow0_error (h0 : T.type = 0) {now : K} {e : Err} (he : degenerateNow0 T now = .error e) :
    e = .valueError ∧ Ambiguous0 T now := by
  obtain ⟨d, hd⟩ := h.dists now
  unfold degenerateNow0 at he
  rw [hd] at he
  rcases bind_error_iff.1 he with he | ⟨a, ha, he⟩
  · cases he
  cases ha
  dsimp only at he
  split at he
  · cases he
  · rename_i hw
    cases he
    refine ⟨rfl, type_zero T h0, .inl fun i => ?_⟩
    have := where3_three hw i
    rw [nearZero_iff, dists_at h.uniform hd] at this
    exact (le_abs_self _).trans this
  · exact absurd he (flipLongest_error h now)

theorem edgeCollapse0_error (h0 : T.type = 0) {now x : K} {e : Err} (hx : now ≤ x)
    (hv : ∃ i, HasSqrt.sqrt (lengthSq T i x) ≤ 1 / 10 ^ 10) (he : edgeCollapse0 T x = .error e) :
    e = .valueError ∧ Ambiguous0 T now := by
  obtain ⟨d, hd⟩ := h.dists2 x
  unfold edgeCollapse0 at he
  rw [hd] at he
  rcases bind_error_iff.1 he with he | ⟨a, ha, he⟩
  · cases he
  cases ha
  have near : ∀ i, nearZero (d i) = true ↔ lengthSq T i x ≤ 1 / 10 ^ 10 := by
    intro i
    rw [nearZero_iff, dists2_at h.uniform hd, abs_of_nonneg (lengthSq_nonneg T i x)]
  split at he
  · cases he
  · cases he
  · rename_i h3 h1
    cases he
    obtain ⟨⟨i, hi⟩, hj⟩ := where3_other h3 h1
    refine ⟨rfl, type_zero T h0, .inr ⟨x, hx, hv, ⟨i, fun hc => ?_⟩, fun i hi => ?_⟩⟩
    · rw [← near, hi] at hc; cases hc
    · obtain ⟨j, hji, hj⟩ := hj i ((near i).2 hi)
      exact ⟨j, hji, (near j).1 hj⟩

theorem computeEvent0_error (h0 : T.type = 0) {now : K} {sv : Sieve} {e : Err}
    (he : computeEvent0 T now sv = .error e) : e = .valueError ∧ Ambiguous0 T now := by
  unfold computeEvent0 at he
  rcases bind_error_iff.1 he with he | ⟨_, _, he⟩
  · exact absurd he (passert_error (by rw [decide_eq_true_eq]; exact h0))
  dsimp only at he
  split_ifs at he with hd
  · exact degenerateNow0_error h h0 he
  rcases bind_error_iff.1 he with he | ⟨d2, hd2, he⟩
  · refine absurd he (list3_error fun i => ?_)
    fin_cases i <;> exact ⟨_, h.distance _ _ _⟩
  have e2 := list3_ok hd2
  have nn : ∀ i, 0 ≤ d2 i := by
    intro i
    have := e2 i
    fin_cases i
    all_goals
      dsimp only at this
      rw [h.distance] at this
      rw [← Except.ok.inj this]
      unfold distSq
      positivity
  have hroot : ∀ i, psqrt (d2 i) = .ok (HasSqrt.sqrt (d2 i)) := by
    intro i; unfold psqrt; rw [if_neg (not_lt.2 (nn i))]
  rcases bind_error_iff.1 he with he | ⟨d, hd1, he⟩
  · exact absurd he (list3_error fun i => ⟨_, hroot i⟩)
  have e1 := list3_ok hd1
  -- an edge collapse time that the sieve admits
  have key : ∀ te, sv.apply ((where3 fun i => nearZero (d i)).map fun i => some
      ((![collapseTimeEdge (T.v 0) (T.v 1), collapseTimeEdge (T.v 1) (T.v 2), collapseTimeEdge (T.v 2) (T.v 0)] :
        Fin 3 → K) i)) now = some te → now ≤ te ∧ ∃ i, HasSqrt.sqrt (lengthSq T i te) ≤ 1 / 10 ^ 10 := by
    intro te hte
    obtain ⟨hm, hle⟩ := sieve_some sv _ now te hte
    refine ⟨hle, ?_⟩
    obtain ⟨i, hi, hit⟩ := List.mem_map.1 hm
    rw [mem_where3] at hi
    have hs := e1 i
    rw [hroot i] at hs
    rw [← Except.ok.inj hs, nearZero_iff] at hi
    have hi := (le_abs_self _).trans hi
    have h2 := e2 i
    have hit := Option.some.inj hit
    fin_cases i
    · refine ⟨2, ?_⟩
      dsimp only at h2 hit
      rw [h.distance] at h2
      rw [← Except.ok.inj h2] at hi
      rw [← hit]; exact hi
    · refine ⟨0, ?_⟩
      dsimp only at h2 hit
      rw [h.distance] at h2
      rw [← Except.ok.inj h2] at hi
      rw [← hit]; exact hi
    · refine ⟨1, ?_⟩
      dsimp only at h2 hit
      rw [h.distance] at h2
      rw [← Except.ok.inj h2] at hi
      rw [← hit]; exact hi
  split at he
  · cases he
  · rename_i te ta hte hta
    obtain ⟨hle, hv⟩ := key te hte
    split_ifs at he with c1 c2
    · obtain ⟨d3, hd3⟩ := h.dists2 te
      rw [hd3] at he
      rcases bind_error_iff.1 he with he | ⟨_, _, he⟩
      · cases he
      split at he
      · cases he
      · cases he
      · exact absurd he (flipLongest_error h _)
    · exact absurd he (flipLongest_error h _)
    · exact edgeCollapse0_error h h0 hle hv he
  · rename_i te hte hta
    obtain ⟨hle, hv⟩ := key te hte
    exact edgeCollapse0_error h h0 hle hv he
  · exact absurd he (flipLongest_error h _)

theorem crash_total {i : Fin 3} (hi : T.noNeighbour i = true) {e : Err} :
    vertexCrashTime (T.v (ccw i)) (T.v (cw i)) (T.v i) ≠ .error e := by
  obtain ⟨_, _, l, h1, h2⟩ := h.front i hi
  have a : T.v (ccw i) = T.v (i + 1) := rfl
  have b : T.v (cw i) = T.v (i + 2) := rfl
  unfold vertexCrashTime
  rw [a, b, h1, h2]
  dsimp only
  rw [if_neg (by simp)]
  split_ifs <;> intro h <;> cases h

theorem crashNow1_error {now : K} {ws : Fin 3} {e : Err} : crashNow1 T now ws ≠ .error e := by
  obtain ⟨d, hd⟩ := h.dists now
  unfold crashNow1
  rw [hd]
  intro he
  rcases bind_error_iff.1 he with he | ⟨a, ha, he⟩
  · cases he
  split at he
  · cases he
  · rcases bind_error_iff.1 he with he | ⟨_, _, he⟩
    · exact indexE_error (max3_mem _) he
    · cases he

theorem case1A_error {now : K} {sv : Sieve} {ws : Fin 3} {e : Err} : case1A T now sv ws ≠ .error e := by
  unfold case1A
  dsimp only
  intro he
  split at he
  · cases he
  · split_ifs at he
    rcases bind_error_iff.1 he with he | ⟨a, ha, he⟩
    · refine list3_error (fun i => ?_) he
      split_ifs
      · exact ⟨_, h.distance _ _ _⟩
      · exact ⟨_, rfl⟩
    · rcases bind_error_iff.1 he with he | ⟨_, _, he⟩
      · exact indexE_error (max3_mem _) he
      · cases he

theorem case1B_error {ws : Fin 3} {ta : Option K} {tv : K} {e : Err} : case1B T ws ta tv ≠ .error e := by
  obtain ⟨d, hd⟩ := h.dists (time1B ta tv)
  unfold case1B
  dsimp only
  rw [hd]
  intro he
  rcases bind_error_iff.1 he with he | ⟨a, ha, he⟩
  · cases he
  split_ifs at he
  · rcases bind_error_iff.1 he with he | ⟨_, _, he⟩
    · exact indexE_error (min3_mem _) he
    · cases he
  · rcases bind_error_iff.1 he with he | ⟨_, _, he⟩
    · exact indexE_error (max3_mem _) he
    · cases he

theorem case1D_error {te tv : K} {e : Err} : case1D T te tv ≠ .error e := by
  obtain ⟨d2, hd2⟩ := h.dists2 te
  obtain ⟨d, hd⟩ := h.dists tv
  unfold case1D
  rw [hd, hd2]
  intro he
  split_ifs at he with c1 c2
  · rcases bind_error_iff.1 he with he | ⟨a, ha, he⟩
    · cases he
    rcases bind_error_iff.1 he with he | ⟨_, _, he⟩
    · exact indexE_error (min3_mem _) he
    · cases he
  · rcases bind_error_iff.1 he with he | ⟨a, ha, he⟩
    · cases he
    split at he
    · cases he
    · cases he
    · rcases bind_error_iff.1 he with he | ⟨_, _, he⟩
      · exact indexE_error (max3_mem _) he
      · cases he
  · rcases lt_trichotomy te tv with c | c | c
    · exact c1 (.inl c)
    · exact c1 (.inr c)
    · exact c2 c

theorem computeEvent1_error (h1 : T.type = 1) {now : K} {sv : Sieve} {e : Err} : computeEvent1 T now sv ≠ .error e := by
  intro he
  unfold computeEvent1 at he
  rcases bind_error_iff.1 he with he | ⟨_, _, he⟩
  · exact absurd he (passert_error (by rw [decide_eq_true_eq]; exact h1))
  rcases bind_error_iff.1 he with he | ⟨ws, hw, he⟩
  · refine indexE_error ?_ he
    by_contra hn
    push Not at hn
    have : ∀ i, T.noNeighbour i = false := fun i => by simpa using hn i
    unfold TView.type count3 at h1
    simp [this] at h1
  have hws := (indexE_ok hw).1
  rcases bind_error_iff.1 he with he | ⟨tv, _, he⟩
  · exact crash_total h hws he
  split_ifs at he with c
  · exact crashNow1_error h he
  dsimp only at he
  split at he
  · exact case1A_error h he
  · exact case1B_error h he
  · cases he
  · exact case1D_error h he

theorem computeEvent2_error (h2 : T.type = 2) {now : K} {sv : Sieve} {e : Err}
    (he : computeEvent2 T now sv = .error e) : e = .valueError ∧ Ambiguous2 T now := by
  have two : ∃ k, ∀ j, T.noNeighbour j = false ↔ j = k := by
    unfold TView.type count3 at h2
    cases n0 : T.noNeighbour 0 <;> cases n1 : T.noNeighbour 1 <;> cases n2 : T.noNeighbour 2 <;>
      simp [n0, n1, n2] at h2
    · exact ⟨0, fun j => by fin_cases j <;> simp [n0, n1, n2]⟩
    · exact ⟨1, fun j => by fin_cases j <;> simp [n0, n1, n2]⟩
    · exact ⟨2, fun j => by fin_cases j <;> simp [n0, n1, n2]⟩
  unfold computeEvent2 at he
  rcases bind_error_iff.1 he with he | ⟨_, _, he⟩
  · exact absurd he (passert_error (by rw [decide_eq_true_eq]; exact h2))
  dsimp only at he
  rcases bind_error_iff.1 he with he | ⟨ts, hts, he⟩
  · obtain ⟨k, hk⟩ := two
    have ex : ∃ x, some x ∈ (if T.noNeighbour 2 then [some (collapseTimeEdge (T.v 0) (T.v 1))] else []) ++
        (if T.noNeighbour 0 then [some (collapseTimeEdge (T.v 1) (T.v 2))] else []) ++
        (if T.noNeighbour 1 then [some (collapseTimeEdge (T.v 2) (T.v 0))] else []) := by
      by_cases e2 : T.noNeighbour 2 = true
      · exact ⟨_, List.mem_append_left _ (List.mem_append_left _ (by rw [if_pos e2]; exact List.mem_singleton_self _))⟩
      · have k2 : 2 = k := (hk 2).1 (by simpa using e2)
        have e0 : T.noNeighbour 0 = true := by
          by_contra hc
          have := (hk 0).1 (by simpa using hc)
          rw [← k2] at this
          exact absurd this (by decide)
        exact ⟨_, List.mem_append_left _ (List.mem_append_right _ (by rw [if_pos e0]; exact List.mem_singleton_self _))⟩
    obtain ⟨out, ho, _⟩ := C05_get_unique_times_partial _ ex
    rw [ho] at he; cases he
  split at he
  · cases he
  · rename_i x hx
    have hle : now ≤ x := by
      split at hx
      · exact (sieve_some sv _ now x hx).2
      · exact (sieve_some sv _ now x hx).2
    obtain ⟨d, hd⟩ := h.dists x
    rw [hd] at he
    rcases bind_error_iff.1 he with he | ⟨a, ha, he⟩
    · cases he
    cases ha
    split at he
    · cases he
    · rename_i a b hw
      cases he
      obtain ⟨hab, ha, hb, c, hbc, hca, hc⟩ := where3_two hw
      refine ⟨rfl, two, x, hle, ?_⟩
      have ev : ∀ i, (![d 0 - min3 d, d 1 - min3 d, d 2 - min3 d] : Fin 3 → K) i = d i - min3 d := by
        intro i; fin_cases i <;> rfl
      have near : ∀ i, nearZero ((![d 0 - min3 d, d 1 - min3 d, d 2 - min3 d] : Fin 3 → K) i) = true ↔
          d i ≤ min3 d + 1 / 10 ^ 10 := by
        intro i
        rw [ev, nearZero_iff, abs_of_nonneg (sub_nonneg.2 (min3_le d i)), sub_le_iff_le_add, add_comm]
      have hc' : min3 d + 1 / 10 ^ 10 < d c := by
        rw [← not_le, ← near, hc]; simp
      have ha' := (near a).1 ha
      have hb' := (near b).1 hb
      have hpos : (0 : K) < 1 / 10 ^ 10 := by positivity
      obtain ⟨m, hm⟩ := min3_mem d
      have hmc : m ≠ c := by
        rintro rfl
        rw [hm] at hc'
        linarith
      have L : ∀ i, d i = HasSqrt.sqrt (lengthSq T i x) := dists_at h.uniform hd
      rcases le_total (d a) (d b) with hle' | hle'
      · have hma : d a = min3 d := by
          refine le_antisymm ?_ (min3_le d a)
          by_cases hm1 : m = a
          · rw [← hm1, hm]
          · have hm2 : m = b := by omega
            rw [← hm, hm2]; exact hle'
        refine ⟨a, b, c, hab, hbc, hca, ?_, ?_, ?_⟩
        · rw [← L, ← L]; exact hle'
        · rw [← L, ← L, hma]; exact hb'
        · rw [← L, ← L, hma]; exact hc'
      · have hmb : d b = min3 d := by
          refine le_antisymm ?_ (min3_le d b)
          by_cases hm1 : m = b
          · rw [← hm1, hm]
          · have hm2 : m = a := by omega
            rw [← hm, hm2]; exact hle'
        refine ⟨b, a, c, hab.symm, hca.symm, hbc.symm, ?_, ?_, ?_⟩
        · rw [← L, ← L]; exact hle'
        · rw [← L, ← L, hmb]; exact ha'
        · rw [← L, ← L, hmb]; exact hc'
    · rcases bind_error_iff.1 he with he | ⟨_, _, he⟩
      · exact absurd he (indexE_error (min3_mem _))
      · cases he
    · cases he

theorem computeEvent3_error (h3 : T.type = 3) {now : K} {sv : Sieve} {e : Err} : computeEvent3 T now sv ≠ .error e := by
  intro he
  unfold computeEvent3 at he
  dsimp only at he
  rcases bind_error_iff.1 he with he | ⟨d2, hd2, he⟩
  · refine absurd he (list3_error fun i => ?_)
    fin_cases i <;> exact ⟨_, h.distance _ _ _⟩
  have e2 := list3_ok hd2
  have nn : ∀ i, 0 ≤ d2 i := by
    intro i
    have := e2 i
    fin_cases i
    all_goals
      dsimp only at this
      rw [h.distance] at this
      rw [← Except.ok.inj this]
      unfold distSq
      positivity
  rcases bind_error_iff.1 he with he | ⟨d, hd1, he⟩
  · refine absurd he (list3_error fun i => ⟨HasSqrt.sqrt (d2 i), ?_⟩)
    unfold psqrt; rw [if_neg (not_lt.2 (nn i))]
  rcases bind_error_iff.1 he with he | ⟨_, _, he⟩
  · exact absurd he (passert_error (by rw [decide_eq_true_eq]; exact h3))
  split at he
  · cases he
  · split at he <;> cases he

theorem computeEventInf_error (hf : T.isFinite = false) {now : K} {sv : Sieve} {e : Err} :
    computeEventInf T now sv ≠ .error e := by
  intro he
  have hk : (T.v (infIdx T)).kinetic = false := by
    unfold infIdx
    unfold TView.isFinite at hf
    split_ifs with h0 h1
    · exact h0
    · exact h1
    · simpa [h0, h1] using hf
  unfold computeEventInf at he
  dsimp only at he
  split_ifs at he with hn
  · rcases bind_error_iff.1 he with he | ⟨_, _, he⟩
    · refine absurd he (passert_error ?_)
      rw [decide_eq_true_eq]
      have other : ∀ j, j ≠ infIdx T → T.noNeighbour j = false := by
        intro j hj
        by_contra hc
        obtain ⟨k1, k2, _⟩ := h.front j (by simpa using hc)
        have : infIdx T = j + 1 ∨ infIdx T = j + 2 := by
          have : ∀ a b : Fin 3, b ≠ a → a = b + 1 ∨ a = b + 2 := by decide
          exact this _ _ hj
        rcases this with e | e
        · rw [← e, hk] at k1; cases k1
        · rw [← e, hk] at k2; cases k2
      unfold TView.type count3
      generalize infIdx T = i at hn other
      fin_cases i
      · have a := other 1 (by decide); have b := other 2 (by decide); simp at hn; simp [hn, a, b]
      · have a := other 0 (by decide); have b := other 2 (by decide); simp at hn; simp [hn, a, b]
      · have a := other 0 (by decide); have b := other 1 (by decide); simp at hn; simp [hn, a, b]
    · split at he
      · rw [h.distance] at he
        rcases bind_error_iff.1 he with he | ⟨_, _, he⟩
        · cases he
        · split_ifs at he
      · cases he
  · split at he
    · rw [h.distance] at he
      rcases bind_error_iff.1 he with he | ⟨_, _, he⟩
      · cases he
      · split_ifs at he
        rw [h.distance, h.distance] at he
        rcases bind_error_iff.1 he with he | ⟨_, _, he⟩
        · cases he
        · rcases bind_error_iff.1 he with he | ⟨_, _, he⟩
          · cases he
          · cases he
    · cases he

/-- with clear motion and exact roots, what happens to a triangle with two wavefront edges is never ambiguous -/
theorem computeEvent2_clear (h2 : T.type = 2) (hc : ClearMotion T) (hs : Solvable T) (z : HasSqrt.sqrt (0 : K) = 0)
    (nn : ∀ y : K, 0 ≤ y → 0 ≤ HasSqrt.sqrt y) {now : K} (h0 : 0 ≤ now) {sv : Sieve} {e : Err} :
    computeEvent2 T now sv ≠ .error e := by
  intro he
  obtain ⟨-, ⟨k, hk⟩, -⟩ := computeEvent2_error h h2 he
  have n1 : T.noNeighbour (k + 1) = true := by
    by_contra q
    exact absurd ((hk (k + 1)).1 (by simpa using q)) ((by decide : ∀ z : Fin 3, z + 1 ≠ z) k)
  have n2 : T.noNeighbour (k + 2) = true := by
    by_contra q
    exact absurd ((hk (k + 2)).1 (by simpa using q)) ((by decide : ∀ z : Fin 3, z + 2 ≠ z) k)
  obtain ⟨l, hl⟩ := hc.rides _ n1
  obtain ⟨m, hm⟩ := hc.rides _ n2
  unfold computeEvent2 at he
  rcases bind_error_iff.1 he with he | ⟨_, _, he⟩
  · exact absurd he (passert_error (by rw [decide_eq_true_eq]; exact h2))
  dsimp only at he
  generalize hT : ((if T.noNeighbour 2 = true then [some (collapseTimeEdge (T.v 0) (T.v 1))] else []) ++
    (if T.noNeighbour 0 = true then [some (collapseTimeEdge (T.v 1) (T.v 2))] else []) ++
    (if T.noNeighbour 1 = true then [some (collapseTimeEdge (T.v 2) (T.v 0))] else [])) = L at he
  have hfrom : ∀ x, some x ∈ L → ∃ j, T.noNeighbour j = true ∧ collapseTimeEdge (T.v (j + 1)) (T.v (j + 2)) = x := by
    intro x hx
    rw [← hT] at hx
    simp only [List.mem_append] at hx
    rcases hx with (hx | hx) | hx
    · split_ifs at hx with c
      · exact ⟨2, c, by simpa [eq_comm] using hx⟩
      · simp at hx
    · split_ifs at hx with c
      · exact ⟨0, c, by simpa [eq_comm] using hx⟩
      · simp at hx
    · split_ifs at hx with c
      · exact ⟨1, c, by simpa [eq_comm] using hx⟩
      · simp at hx
  have hin : ∃ u, some u ∈ L := by
    rw [← hT]
    fin_cases k
    · exact ⟨_, by rw [if_pos (show T.noNeighbour 1 = true from n1)]; simp; exact .inr (.inr rfl)⟩
    · exact ⟨_, by rw [if_pos (show T.noNeighbour 2 = true from n1)]; simp; exact .inl rfl⟩
    · exact ⟨_, by rw [if_pos (show T.noNeighbour 0 = true from n1)]; simp; exact .inr (.inl rfl)⟩
  obtain ⟨out, hout, -, hsub, -⟩ := C05_get_unique_times_partial L hin
  rw [hout] at he
  rcases bind_error_iff.1 he with he | ⟨_, ho, he⟩
  · cases he
  cases ho
  split at he
  · cases he
  rename_i x htime
  have hle : now ≤ x := by
    split at htime
    · exact (sieve_some sv _ now x htime).2
    · exact (sieve_some sv _ now x htime).2
  have hx : ∃ i, cornerAt T (i + 1) x = cornerAt T (i + 2) x := by
    split at htime
    · exact root_vanish hs hl hm (root_of_sieve hs htime)
    · obtain ⟨y, hy, q⟩ := List.mem_map.1 (sieve_mem htime)
      obtain rfl := Option.some.inj q
      obtain ⟨j, hj, hjt⟩ := hfrom y (hsub y hy)
      rcases edge_time_cases hc j hj with q | q
      · rw [hjt] at q
        rw [q] at hle
        linarith
      · exact ⟨j, hjt ▸ q⟩
  obtain ⟨v, hv⟩ := hx
  obtain ⟨d, hd⟩ := h.dists x
  rw [hd] at he
  rcases bind_error_iff.1 he with he | ⟨_, ha, he⟩
  · cases he
  cases ha
  split at he
  · cases he
  · rename_i a b hw
    obtain ⟨hab, ha, hb, c, hbc, hca, hc⟩ := where3_two hw
    have D : ∀ i, d i = HasSqrt.sqrt (lengthSq T i x) := dists_at h.uniform hd
    have dv : d v = 0 := by
      rw [D]
      have : lengthSq T v x = 0 := by unfold lengthSq; rw [hv]; unfold distSq; ring
      rw [this, z]
    have same : d (v + 1) = d (v + 2) := by
      rw [D, D]
      have : lengthSq T (v + 1) x = lengthSq T (v + 2) x := by
        unfold lengthSq
        have e1 : v + 1 + 1 = v + 2 := (by decide : ∀ x : Fin 3, x + 1 + 1 = x + 2) v
        have e2 : v + 1 + 2 = v := (by decide : ∀ x : Fin 3, x + 1 + 2 = x) v
        have e3 : v + 2 + 1 = v := (by decide : ∀ x : Fin 3, x + 2 + 1 = x) v
        have e4 : v + 2 + 2 = v + 1 := (by decide : ∀ x : Fin 3, x + 2 + 2 = x + 1) v
        rw [e1, e2, e3, e4, hv]
        unfold distSq; ring
      rw [this]
    have pos : ∀ i, 0 ≤ d i := fun i => by rw [D]; exact nn _ (lengthSq_nonneg T i x)
    have hmin : min3 d = 0 := by
      obtain ⟨m, hm⟩ := min3_mem d
      exact le_antisymm (dv ▸ min3_le d v) (hm ▸ pos m)
    have ev : ∀ i, (![d 0 - min3 d, d 1 - min3 d, d 2 - min3 d] : Fin 3 → K) i = d i := by
      intro i; fin_cases i <;> simp [hmin]
    rw [ev] at ha hb hc
    have key : ∀ a b c v : Fin 3, a ≠ b → b ≠ c → c ≠ a → c = v ∨ (a = v ∨ b = v) ∧
        ((b = v + 1 ∧ c = v + 2 ∨ b = v + 2 ∧ c = v + 1) ∨ (a = v + 1 ∧ c = v + 2 ∨ a = v + 2 ∧ c = v + 1)) := by
      decide
    rcases key a b c v hab hbc hca with q | ⟨-, (⟨q, r⟩ | ⟨q, r⟩) | (⟨q, r⟩ | ⟨q, r⟩)⟩
    · rw [q, dv] at hc
      rw [nearZero_false_iff, abs_zero] at hc
      have : (0 : K) < 1 / 10 ^ 10 := by positivity
      linarith
    · rw [q, same, ← r, hc] at hb; cases hb
    · rw [q, ← same, ← r, hc] at hb; cases hb
    · rw [q, same, ← r, hc] at ha; cases ha
    · rw [q, ← same, ← r, hc] at ha; cases ha
  · rcases bind_error_iff.1 he with he | ⟨_, _, he⟩
    · exact absurd he (indexE_error (min3_mem _))
    · cases he
  · cases he

/-- collapse.py raises only when it is ambiguous what happens to the triangle -/
theorem computeCollapse_error {now : K} {sv : Sieve} {e : Err} (he : computeCollapse T now sv = .error e) :
    e = .valueError ∧ Ambiguous T now := by
  unfold computeCollapse at he
  split_ifs at he with hs hf
  · have fin : ∀ i, (T.v i).kinetic = true := by
      unfold TView.isFinite at hf
      simp only [Bool.and_eq_true] at hf
      intro i
      fin_cases i
      · exact hf.1.1
      · exact hf.1.2
      · exact hf.2
    have run : T.stopped = false := by simpa using hs
    rcases bind_error_iff.1 he with he | ⟨ev, _, he⟩
    · unfold computeFinite at he
      split_ifs at he with h0 h1 h2 h3
      · obtain ⟨a, b⟩ := computeEvent0_error h h0 he
        exact ⟨a, run, fin, .inl b⟩
      · exact absurd he (computeEvent1_error h h1)
      · obtain ⟨a, b⟩ := computeEvent2_error h h2 he
        exact ⟨a, run, fin, .inr b⟩
      · exact absurd he (computeEvent3_error h h3)
    · split at he
      · cases he
      · rcases bind_error_iff.1 he with he | ⟨_, _, he⟩
        · refine absurd he (list3_error fun i => ⟨_, C17_position _ (h.uniform i) _⟩)
        · cases he
  · exact absurd he (computeEventInf_error h (by simpa using hf))

end

end Grassfire
