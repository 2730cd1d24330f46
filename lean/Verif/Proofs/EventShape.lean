/-
Lemmas on the events that collapse.py computes: time, shape and side.
-/
import Verif.Proofs.CollapseLemmas

set_option linter.unusedSectionVars false

namespace Grassfire

variable {K : Type} [Field K] [LinearOrder K] [IsStrictOrderedRing K] [HasSqrt K]

/-- an edge event with `sides` at `time` -/
structure EvOk (t : TView K) (now : K) (e : EvCore K) : Prop where
  time : now ≤ e.time
  triTp : e.triTp = t.type
  nonempty : e.side ≠ []
  nodup : e.side.Nodup
  edge : e.tp = .edge → e.side.length = 1 ∨ e.side.length = 3
  split : e.tp = .split → ∃ s, e.side = [s] ∧ t.noNeighbour s = true
  flip : e.tp = .flip → ∃ s, e.side = [s] ∧
    (t.noNeighbour s = false ∨
      (t.isFinite = true ∧ t.type = 1 ∧ ∃ d s', t.dists e.time = .ok d ∧ s' ≠ s ∧
        |d s - d s'| ≤ 1 / 10 ^ 10 ∧ (∀ i, d i ≤ d s) ∧
        (where3 fun i => nearZero (d i)).length ≠ 1) ∨
      (t.isFinite = false ∧ s ≠ infIdx t))

theorem evOk_edge1 (t : TView K) (now time : K) (s : Fin 3) (h : now ≤ time) :
    EvOk t now ⟨time, [s], .edge, t.type⟩ :=
  ⟨h, rfl, by simp, by simp, fun _ => Or.inl rfl, (fun h => by cases h), (fun h => by cases h)⟩

theorem evOk_edge3 (t : TView K) (now time : K) (h : now ≤ time) :
    EvOk t now ⟨time, [0, 1, 2], .edge, t.type⟩ :=
  ⟨h, rfl, by simp, by simp, fun _ => Or.inr rfl, (fun h => by cases h), (fun h => by cases h)⟩

theorem evOk_split (t : TView K) (now time : K) (s : Fin 3) (h : now ≤ time)
    (hs : t.noNeighbour s = true) : EvOk t now ⟨time, [s], .split, t.type⟩ :=
  ⟨h, rfl, by simp, by simp, (fun h => by cases h), fun _ => ⟨s, rfl, hs⟩, (fun h => by cases h)⟩

theorem evOk_flip (t : TView K) (now time : K) (s : Fin 3) (h : now ≤ time)
    (hs : t.noNeighbour s = false) : EvOk t now ⟨time, [s], .flip, t.type⟩ :=
  ⟨h, rfl, by simp, by simp, (fun h => by cases h), (fun h => by cases h),
    fun _ => ⟨s, rfl, Or.inl hs⟩⟩

theorem type_zero (t : TView K) (h : t.type = 0) (s : Fin 3) : t.noNeighbour s = false := by
  unfold TView.type count3 at h
  cases hs : t.noNeighbour s
  · rfl
  · exfalso
    fin_cases s <;> simp only [Fin.isValue, Fin.zero_eta, Fin.mk_one, Fin.reduceFinMk] at hs <;>
      simp only [hs, if_true] at h <;> omega

theorem type_one (t : TView K) (h : t.type = 1) (w s : Fin 3) (hw : t.noNeighbour w = true)
    (hs : s ≠ w) : t.noNeighbour s = false := by
  unfold TView.type count3 at h
  cases hn : t.noNeighbour s
  · rfl
  · exfalso
    fin_cases s <;> fin_cases w <;>
      simp only [Fin.isValue, Fin.zero_eta, Fin.mk_one, Fin.reduceFinMk, ne_eq,
        not_true] at hs hn hw <;>
      simp only [hn, hw, if_true] at h <;> omega

theorem ok_some_inj {a b : EvCore K} (h : (Except.ok (some a) : Except Err (Option (EvCore K))) =
    .ok (some b)) : a = b := by
  simpa using h

theorem flipLongest_ok (t : TView K) (time : K) (e : EvCore K)
    (h : flipLongest t time = .ok (some e)) : ∃ s, e = ⟨time, [s], .flip, t.type⟩ := by
  unfold flipLongest at h
  simp only [bind_ok_iff] at h
  obtain ⟨d, _, s, _, h⟩ := h
  exact ⟨s, (ok_some_inj h).symm⟩

theorem flipLongest_evOk (t : TView K) (h0 : t.type = 0) (now time : K) (hn : now ≤ time)
    (e : EvCore K) (h : flipLongest t time = .ok (some e)) : EvOk t now e := by
  obtain ⟨s, rfl⟩ := flipLongest_ok t time e h
  exact evOk_flip t now time s hn (type_zero t h0 s)

theorem degenerateNow0_evOk (t : TView K) (h0 : t.type = 0) (now : K)
    (e : EvCore K) (h : degenerateNow0 t now = .ok (some e)) : EvOk t now e := by
  unfold degenerateNow0 at h
  simp only [bind_ok_iff] at h
  obtain ⟨d, _, h⟩ := h
  split at h
  · rw [← ok_some_inj h]; exact evOk_edge1 t now now _ le_rfl
  · cases h
  · exact flipLongest_evOk t h0 now now le_rfl e h

theorem edgeCollapse0_evOk (t : TView K) (now time : K) (hn : now ≤ time)
    (e : EvCore K) (h : edgeCollapse0 t time = .ok (some e)) : EvOk t now e := by
  unfold edgeCollapse0 at h
  simp only [bind_ok_iff] at h
  obtain ⟨d, _, h⟩ := h
  split at h
  · rw [← ok_some_inj h]; exact evOk_edge3 t now time hn
  · rw [← ok_some_inj h]; exact evOk_edge1 t now time _ hn
  · cases h

theorem computeEvent0_evOk (t : TView K) (now : K) (sv : Sieve) (e : EvCore K)
    (h : computeEvent0 t now sv = .ok (some e)) : EvOk t now e := by
  unfold computeEvent0 at h
  simp only [bind_ok_iff, passert_ok_iff, decide_eq_true_eq] at h
  obtain ⟨-, h0, h⟩ := h
  split_ifs at h with hd
  · exact degenerateNow0_evOk t h0 now e h
  · simp only [bind_ok_iff] at h
    obtain ⟨d2, hd2, d, hd1, h⟩ := h
    split at h
    · cases h
    · rename_i te ta hte hta
      have h1 := (sieve_some sv _ now te hte).2
      have h2 := (sieve_some sv _ now ta hta).2
      split_ifs at h with c1 c2
      · simp only [bind_ok_iff] at h
        obtain ⟨d3, _, h⟩ := h
        split at h
        · rw [← ok_some_inj h]; exact evOk_edge3 t now te h1
        · rw [← ok_some_inj h]; exact evOk_edge1 t now te _ h1
        · exact flipLongest_evOk t h0 now ta h2 e h
      · exact flipLongest_evOk t h0 now ta h2 e h
      · exact edgeCollapse0_evOk t now te h1 e h
    · rename_i te hte hta
      exact edgeCollapse0_evOk t now te (sieve_some sv _ now te hte).2 e h
    · rename_i ta hte hta
      exact flipLongest_evOk t h0 now ta (sieve_some sv _ now ta hta).2 e h

theorem crashNow1_evOk (t : TView K) (h1 : t.type = 1) (now : K) (ws : Fin 3)
    (hw : t.noNeighbour ws = true) (e : EvCore K) (h : crashNow1 t now ws = .ok (some e)) :
    EvOk t now e := by
  unfold crashNow1 at h
  simp only [bind_ok_iff] at h
  obtain ⟨d, _, h⟩ := h
  split at h
  · rw [← ok_some_inj h]; exact evOk_edge1 t now now _ le_rfl
  · simp only [bind_ok_iff] at h
    obtain ⟨l, _, h⟩ := h
    rw [← ok_some_inj h]
    by_cases hl : l = ws
    · rw [if_pos hl]; exact evOk_split t now now l le_rfl (hl ▸ hw)
    · rw [if_neg hl]; exact evOk_flip t now now l le_rfl (type_one t h1 ws l hw hl)

theorem dist2_nonneg (v w : VView K) (time d : K) (h : v.distance2At w time = .ok d) : 0 ≤ d := by
  unfold VView.distance2At at h
  simp only [bind_ok_iff] at h
  obtain ⟨p, _, q, _, h⟩ := h
  simp only [Except.ok.injEq] at h
  rw [← h]
  exact add_nonneg (sq_nonneg _) (sq_nonneg _)

theorem case1A_evOk (t : TView K) (h1 : t.type = 1) (now : K) (sv : Sieve) (ws : Fin 3)
    (hw : t.noNeighbour ws = true) (e : EvCore K) (h : case1A t now sv ws = .ok (some e)) :
    EvOk t now e := by
  unfold case1A at h
  simp only at h
  split at h
  · cases h
  · rename_i time htime
    have hn := (sieve_some sv _ now time htime).2
    split_ifs at h with c
    · rw [← ok_some_inj h]; exact evOk_split t now now ws le_rfl hw
    · simp only [bind_ok_iff] at h
      obtain ⟨d, hd, s, hs, h⟩ := h
      rw [← ok_some_inj h]
      refine evOk_flip t now time s hn ?_
      by_contra hns
      rw [Bool.not_eq_false] at hns
      have hd' := list3_ok hd
      have hmax := (indexE_ok hs).1
      have e1 := hd' s
      rw [if_neg (by rw [hns]; simp), Except.ok.injEq] at e1
      have hne : ccw s ≠ ws := by
        intro hc
        have : s = ws := by
          by_contra hsw
          rw [type_one t h1 ws s hw hsw] at hns
          cases hns
        rw [← this] at hc
        revert hc; unfold ccw; fin_cases s <;> decide
      have hn2 := type_one t h1 ws (ccw s) hw hne
      have e2 := hd' (ccw s)
      rw [if_pos hn2] at e2
      have h3 := dist2_nonneg _ _ _ _ e2
      have h4 := le_max3 d (ccw s)
      rw [← hmax] at h4
      linarith

theorem psqrt_dists_nearZero (d : K) : nearZero d = true ↔ |d| ≤ 1 / 10 ^ 10 := nearZero_iff d

theorem case1B_evOk (t : TView K) (hf : t.isFinite = true) (h1 : t.type = 1) (now : K)
    (ws : Fin 3) (hw : t.noNeighbour ws = true) (ta : Option K) (tv : K)
    (hta : ∀ a, ta = some a → now ≤ a) (htv : now ≤ tv) (e : EvCore K)
    (h : case1B t ws ta tv = .ok (some e)) : EvOk t now e := by
  unfold case1B at h
  simp only [bind_ok_iff] at h
  obtain ⟨d, hd, h⟩ := h
  have hn : now ≤ time1B ta tv := by
    unfold time1B
    cases ta with
    | none => exact htv
    | some a =>
      simp only
      split_ifs
      · exact hta a rfl
      · exact htv
  generalize time1B ta tv = time at hd h hn
  split_ifs at h with c1 c2
  · rw [← ok_some_inj h]; exact evOk_split t now tv ws htv hw
  · simp only [bind_ok_iff] at h
    obtain ⟨s, _, h⟩ := h
    rw [← ok_some_inj h]; exact evOk_edge1 t now time s hn
  · simp only [bind_ok_iff] at h
    obtain ⟨s, hs, h⟩ := h
    rw [← ok_some_inj h]
    have hmax := (indexE_ok hs).1
    by_cases hsw : s = ws
    · refine ⟨hn, rfl, by simp, by simp, (fun h => by cases h), (fun h => by cases h),
        fun _ => ⟨s, rfl, Or.inr (Or.inl ⟨hf, h1, d, ?_⟩)⟩⟩
      have hmem : s ∈ where3 (fun i => nearZero (d i - max3 d)) := by
        rw [mem_where3, hmax, sub_self, nearZero_zero]
      have hex : ∃ s', s' ≠ s ∧ s' ∈ where3 (fun i => nearZero (d i - max3 d)) := by
        by_contra hc
        push Not at hc
        apply c1
        rw [← hsw]
        have hnd := where3_nodup (fun i => nearZero (d i - max3 d))
        generalize where3 (fun i => nearZero (d i - max3 d)) = L at hmem hc hnd
        have hall : ∀ x ∈ L, x = s := by
          intro x hx
          by_contra hxs
          exact hc x hxs hx
        have hrep := List.eq_replicate_of_mem hall
        have hlen : L.length ≤ 1 := by
          rw [hrep] at hnd
          exact List.nodup_replicate.mp hnd
        have hlen' : 0 < L.length := List.length_pos_of_mem hmem
        have : L.length = 1 := by omega
        rw [this] at hrep
        exact hrep
      obtain ⟨s', hs', hm'⟩ := hex
      rw [mem_where3, nearZero_iff, ← hmax, abs_sub_comm] at hm'
      refine ⟨s', hd, hs', hm', ?_, c2⟩
      intro i
      rw [hmax]
      exact le_max3 d i
    · exact evOk_flip t now time s hn (type_one t h1 ws s hw hsw)

theorem case1D_evOk (t : TView K) (now te tv : K) (hte : now ≤ te) (htv : now ≤ tv)
    (e : EvCore K) (h : case1D t te tv = .ok (some e)) : EvOk t now e := by
  unfold case1D at h
  split_ifs at h with c1 c2
  · simp only [bind_ok_iff] at h
    obtain ⟨d, _, s, _, h⟩ := h
    rw [← ok_some_inj h]; exact evOk_edge1 t now te s hte
  · simp only [bind_ok_iff] at h
    obtain ⟨d, _, h⟩ := h
    split at h
    · rw [← ok_some_inj h]; exact evOk_edge1 t now tv _ htv
    · rw [← ok_some_inj h]; exact evOk_edge3 t now tv htv
    · simp only [bind_ok_iff] at h
      obtain ⟨s, _, h⟩ := h
      rw [← ok_some_inj h]
      cases hs : t.noNeighbour s with
      | true => exact evOk_split t now tv s htv hs
      | false => exact evOk_flip t now tv s htv hs

theorem computeEvent1_evOk (t : TView K) (hf : t.isFinite = true) (now : K) (sv : Sieve)
    (e : EvCore K) (h : computeEvent1 t now sv = .ok (some e)) : EvOk t now e := by
  unfold computeEvent1 at h
  simp only [bind_ok_iff, passert_ok_iff, decide_eq_true_eq] at h
  obtain ⟨-, h1, ws, hws, tv, htv, h⟩ := h
  have hw := (indexE_ok hws).1
  split_ifs at h with c
  · exact crashNow1_evOk t h1 now ws hw e h
  · split at h
    · exact case1A_evOk t h1 now sv ws hw e h
    · rename_i tv' hte htv'
      refine case1B_evOk t hf h1 now ws hw _ tv' ?_ (sieve_some sv _ now tv' htv').2 e h
      intro a ha
      exact (sieve_some sv _ now a ha).2
    · rename_i te hte htv'
      rw [← ok_some_inj h]
      exact evOk_edge1 t now te ws (sieve_some sv _ now te hte).2
    · rename_i te tv' hte htv'
      exact case1D_evOk t now te tv' (sieve_some sv _ now te hte).2
        (sieve_some sv _ now tv' htv').2 e h

theorem computeEvent2_evOk (t : TView K) (now : K) (sv : Sieve)
    (e : EvCore K) (h : computeEvent2 t now sv = .ok (some e)) : EvOk t now e := by
  unfold computeEvent2 at h
  simp only [bind_ok_iff, passert_ok_iff, decide_eq_true_eq] at h
  obtain ⟨-, h2, times, htimes, h⟩ := h
  split at h
  · cases h
  · rename_i time htime
    have hn : now ≤ time := by
      split at htime
      · exact (sieve_some sv _ now time htime).2
      · exact (sieve_some sv _ now time htime).2
    simp only [bind_ok_iff] at h
    obtain ⟨d, _, h⟩ := h
    split at h
    · rw [← ok_some_inj h]; exact evOk_edge3 t now time hn
    · cases h
    · simp only [bind_ok_iff] at h
      obtain ⟨s, _, h⟩ := h
      rw [← ok_some_inj h]; exact evOk_edge1 t now time s hn
    · cases h

theorem truthy_some (o : Option K) (x : K) (h : truthy o = some x) : o = some x := by
  unfold truthy at h
  cases o with
  | none => simp at h
  | some y =>
    simp only at h
    split_ifs at h
    exact h

theorem computeEvent3_evOk (t : TView K) (now : K) (sv : Sieve)
    (e : EvCore K) (h : computeEvent3 t now sv = .ok (some e)) : EvOk t now e := by
  unfold computeEvent3 at h
  simp only [bind_ok_iff, passert_ok_iff, decide_eq_true_eq] at h
  obtain ⟨d2, _, d, _, -, h3, h⟩ := h
  split at h
  · rename_i te hte
    have hn := (sieve_some sv _ now te (truthy_some _ _ hte)).2
    rw [← ok_some_inj h]
    have hnd := where3_nodup (fun i => nearZero (d i))
    have hle := (where3_sublist (fun i => nearZero (d i))).length_le
    generalize where3 (fun i => nearZero (d i)) = L at hnd hle
    simp only [List.length_cons, List.length_nil, Nat.zero_add, Nat.reduceAdd] at hle
    split_ifs with hl
    · exact evOk_edge3 t now te hn
    · refine ⟨hn, rfl, ?_, hnd, ?_, (fun h => by cases h), (fun h => by cases h)⟩
      · intro hc
        simp only at hc
        rw [hc] at hl; simp at hl
      · intro _
        simp only
        omega
  · split at h
    · rename_i ta hta
      rw [← ok_some_inj h]
      exact evOk_edge3 t now ta (sieve_some sv _ now ta (truthy_some _ _ hta)).2
    · cases h

theorem computeEventInf_evOk (t : TView K) (hf : t.isFinite = false) (now : K) (sv : Sieve)
    (e : EvCore K) (h : computeEventInf t now sv = .ok (some e)) : EvOk t now e := by
  unfold computeEventInf at h
  simp only at h
  split_ifs at h with c
  · simp only [bind_ok_iff, passert_ok_iff, decide_eq_true_eq] at h
    obtain ⟨-, h1, h⟩ := h
    split at h
    · rename_i time htime
      simp only [bind_ok_iff] at h
      obtain ⟨d, _, h⟩ := h
      split_ifs at h with c2
      · rw [← ok_some_inj h]
        exact evOk_edge1 t now time _ (findGt_some _ now time (truthy_some _ _ htime)).2.1.le
      · cases h
    · cases h
  · split at h
    · rename_i time htime
      have hn := (sieve_some sv _ now time (truthy_some _ _ htime)).2
      simp only [bind_ok_iff] at h
      obtain ⟨d, _, h⟩ := h
      split_ifs at h with c2
      · rw [← ok_some_inj h]
        exact evOk_edge1 t now time _ hn
      · simp only [bind_ok_iff] at h
        obtain ⟨d0, _, d1, _, h⟩ := h
        rw [← ok_some_inj h]
        refine ⟨hn, rfl, by simp, by simp, (fun h => by cases h), (fun h => by cases h),
          fun _ => ⟨_, rfl, Or.inr (Or.inr ⟨hf, ?_⟩)⟩⟩
        generalize infIdx t = i
        split_ifs <;> fin_cases i <;> decide
    · cases h

theorem computeCollapse_evOk (t : TView K) (now : K) (sv : Sieve)
    (e : EvCore K) (h : computeCollapse t now sv = .ok (some e)) :
    t.stopped = false ∧ EvOk t now e := by
  unfold computeCollapse at h
  split_ifs at h with c1 c2
  · cases h
  · refine ⟨by simpa using c1, ?_⟩
    simp only [bind_ok_iff] at h
    obtain ⟨ev, hev, h⟩ := h
    cases ev with
    | none =>
      simp only [bind_ok_iff] at h
      obtain ⟨_, _, h⟩ := h
      cases h
    | some e' =>
      simp only at h
      rw [ok_some_inj h] at hev
      unfold computeFinite at hev
      split_ifs at hev with t0 t1 t2 t3
      · exact computeEvent0_evOk t now sv e hev
      · exact computeEvent1_evOk t c2 now sv e hev
      · exact computeEvent2_evOk t now sv e hev
      · exact computeEvent3_evOk t now sv e hev
      · cases hev
  · exact ⟨by simpa using c1, computeEventInf_evOk t (by simpa using c2) now sv e h⟩

end Grassfire
