/-
Properties C64 and C65: no wavefront side of a triangle vanishes before the event that is computed for the triangle, and
the side that an event names.
-/
import Verif.Props.CollapseEvents
import Verif.Props.Calc
import Verif.Spec.RatSqrt

set_option linter.unusedSectionVars false

namespace Grassfire

open Spec

variable {K : Type} [Field K] [LinearOrder K] [IsStrictOrderedRing K]

/-- times that `find_gte` respectively `find_gt` consider -/
def Admitted (sv : Sieve) (now u : K) : Prop :=
  match sv with
  | .gte => now ≤ u
  | .gt => now + 1 / 10 ^ 10 < u

/-- two vertices are at the same place -/
def Meet (v w : VView K) (u : K) : Prop := ∃ p, v.positionAt u = .ok p ∧ w.positionAt u = .ok p

/-- the relative speed of two vertices is not negligible -/
def Moving (v w : VView K) : Prop := 1 / 10 ^ 10 < distSq v.velocity w.velocity

theorem later_le {sv : Sieve} {now u : K} (h : Admitted sv now u) : now ≤ u := by
  cases sv with
  | gte => exact h
  | gt =>
    have : (0 : K) < 1 / 10 ^ 10 := by positivity
    have h' : now + 1 / 10 ^ 10 < u := h
    linarith

theorem sieve_le {sv : Sieve} {a : List (Option K)} {now x u : K} (h : sv.apply a now = some x) (hu : some u ∈ a)
    (hl : Admitted sv now u) : x ≤ u := by
  cases sv with
  | gte => exact ((C03_find_gte a now).1 x |>.1 h).2.2 u hu hl
  | gt => exact ((C04_find_gt a now).1 x |>.1 h).2.2 u hu hl

theorem sieve_not {sv : Sieve} {a : List (Option K)} {now u : K} (h : sv.apply a now = none) (hu : some u ∈ a) :
    ¬ Admitted sv now u := by
  cases sv with
  | gte => exact not_le.2 ((C03_find_gte a now).2.1 h u hu)
  | gt => exact not_lt.2 ((C04_find_gt a now).2.1 h u hu)

theorem sieve_later {sv : Sieve} {a : List (Option K)} {now u : K} (h : sv.apply a now = some u) : Admitted sv now u := by
  cases sv with
  | gte => exact ((C03_find_gte a now).1 u |>.1 h).2.1
  | gt => exact ((C04_find_gt a now).1 u |>.1 h).2.1

theorem sieve_mem {sv : Sieve} {a : List (Option K)} {now u : K} (h : sv.apply a now = some u) : some u ∈ a := by
  cases sv with
  | gte => exact ((C03_find_gte a now).1 u |>.1 h).1
  | gt => exact ((C04_find_gt a now).1 u |>.1 h).1

theorem meet_symm {v w : VView K} {u : K} (h : Meet v w u) : Meet w v u := by
  obtain ⟨p, a, b⟩ := h
  exact ⟨p, b, a⟩

theorem moving_symm {v w : VView K} (h : Moving v w) : Moving w v := by
  unfold Moving distSq at *
  have : (w.velocity.1 - v.velocity.1) ^ 2 + (w.velocity.2 - v.velocity.2) ^ 2 =
      (v.velocity.1 - w.velocity.1) ^ 2 + (v.velocity.2 - w.velocity.2) ^ 2 := by ring
  rw [this]
  exact h

theorem meet_time {v w : VView K} {u : K} (h : Meet v w u) (hv : Uniform v) (hw : Uniform w) (hm : Moving v w) :
    collapseTimeEdge v w = u := by
  obtain ⟨p, a, b⟩ := h
  exact C19_meeting_time v w hv hw hm u p a b

variable [HasSqrt K]

theorem computeCollapse_finite {t : TView K} {now : K} {sv : Sieve} {r : Option (EvCore K)}
    (h : computeCollapse t now sv = .ok r) (hact : t.stopped = false) (hf : t.isFinite = true) :
    computeFinite t now sv = .ok r := by
  unfold computeCollapse at h
  rw [if_neg (by rw [hact]; simp), if_pos hf] at h
  obtain ⟨ev, hev, h⟩ := bind_ok_iff.1 h
  cases ev with
  | some e => rw [hev]; exact h
  | none =>
    obtain ⟨_, -, h⟩ := bind_ok_iff.1 h
    rw [hev]; exact h

/-! ### C64 -/

theorem crashNow1_some {t : TView K} {now : K} {ws : Fin 3} {r : Option (EvCore K)} (h : crashNow1 t now ws = .ok r) :
    ∃ e, r = some e ∧ e.time = now := by
  unfold crashNow1 at h
  obtain ⟨d, -, h⟩ := bind_ok_iff.1 h
  split at h
  · injection h with h; exact ⟨_, h.symm, rfl⟩
  · obtain ⟨l, -, h⟩ := bind_ok_iff.1 h
    injection h with h; exact ⟨_, h.symm, rfl⟩

theorem case1B_some {t : TView K} {ws : Fin 3} {ta : Option K} {tv : K} {r : Option (EvCore K)}
    (h : case1B t ws ta tv = .ok r) : ∃ e, r = some e ∧ e.time ≤ tv := by
  have hle : time1B ta tv ≤ tv := by
    unfold time1B
    cases ta with
    | none => exact le_rfl
    | some a =>
      dsimp only
      split_ifs with c
      · exact c.le
      · exact le_rfl
  unfold case1B at h
  dsimp only at h
  obtain ⟨d, -, h⟩ := bind_ok_iff.1 h
  split_ifs at h
  · injection h with h; exact ⟨_, h.symm, le_rfl⟩
  · obtain ⟨s, -, h⟩ := bind_ok_iff.1 h
    injection h with h; exact ⟨_, h.symm, hle⟩
  · obtain ⟨s, -, h⟩ := bind_ok_iff.1 h
    injection h with h; exact ⟨_, h.symm, hle⟩

theorem case1D_some {t : TView K} {te tv : K} {r : Option (EvCore K)}
    (h : case1D t te tv = .ok r) : ∃ e, r = some e ∧ e.time ≤ te ∧ e.time ≤ tv := by
  unfold case1D at h
  by_cases c : te < tv ∨ te = tv
  · rw [if_pos c] at h
    obtain ⟨d, -, h⟩ := bind_ok_iff.1 h
    obtain ⟨s, -, h⟩ := bind_ok_iff.1 h
    injection h with h
    refine ⟨_, h.symm, le_rfl, ?_⟩
    rcases c with c | c
    · exact c.le
    · exact c.le
  · rw [if_neg c] at h
    push Not at c
    have hlt : tv < te := lt_of_le_of_ne c.1 (Ne.symm c.2)
    rw [if_pos hlt] at h
    obtain ⟨d, -, h⟩ := bind_ok_iff.1 h
    split at h
    · injection h with h; exact ⟨_, h.symm, hlt.le, le_rfl⟩
    · injection h with h; exact ⟨_, h.symm, hlt.le, le_rfl⟩
    · obtain ⟨s, -, h⟩ := bind_ok_iff.1 h
      injection h with h; exact ⟨_, h.symm, hlt.le, le_rfl⟩

/-- common part of C64 and C76: only what is used of the two speeds is required -/
theorem one_triangle_event [SqrtUnit K] (t : TView K) (now : K) (sv : Sieve) (r : Option (EvCore K))
    (h : computeCollapse t now sv = .ok r) (hact : t.stopped = false) (hf : t.isFinite = true)
    (ws : Fin 3) (hws : ∀ i, t.noNeighbour i = true ↔ i = ws) (hun : ∀ i, Uniform (t.v i))
    (l : Line2 K) (hl : (t.v (ws + 1)).ur = some l) (hunit : l.w.1 ^ 2 + l.w.2 ^ 2 = 1)
    (hon : l.signedDistance (t.v (ws + 1)).origin = 0) (u : K) (hu : Admitted sv now u)
    (hcol : (Moving (t.v (ws + 1)) (t.v (ws + 2)) ∧ Meet (t.v (ws + 1)) (t.v (ws + 2)) u) ∨
      (1 / 10 ^ 10 < |1 - dot2 (t.v ws).velocity l.w| ∧
      ∃ p lu, (t.v ws).positionAt u = .ok p ∧ l.atTime u = .ok lu ∧ lu.signedDistance p = 0)) :
    ∃ e, r = some e ∧ e.time ≤ u := by
  have htp : t.type = 1 := by
    unfold TView.type count3
    have : ∀ i : Fin 3, (if t.noNeighbour i = true then 1 else 0) = (if i = ws then 1 else 0) := by
      intro i
      by_cases hi : i = ws
      · rw [if_pos hi, if_pos ((hws i).2 hi)]
      · rw [if_neg hi, if_neg (fun q => hi ((hws i).1 q))]
    rw [this, this, this]
    fin_cases ws <;> decide
  replace h := computeCollapse_finite h hact hf
  unfold computeFinite at h
  rw [if_neg (by omega), if_pos htp] at h
  unfold computeEvent1 at h
  obtain ⟨_, -, h⟩ := bind_ok_iff.1 h
  obtain ⟨w, hw, h⟩ := bind_ok_iff.1 h
  obtain rfl : w = ws := (hws w).1 (indexE_ok hw).1
  dsimp only at h
  obtain ⟨tv, htv, h⟩ := bind_ok_iff.1 h
  have hcrash : 1 / 10 ^ 10 < |1 - dot2 (t.v w).velocity l.w| → ∀ p lu, (t.v w).positionAt u = .ok p →
      l.atTime u = .ok lu → lu.signedDistance p = 0 → tv = some u := by
    intro happ p lu hp hlu h0
    cases tv with
    | some x =>
      have := (C20_crash_time (t.v (w + 1)) (t.v (w + 2)) (t.v w) l hl hunit hon (hun w) x htv u p lu hp hlu).1 h0
      rw [this]
    | none =>
      exfalso
      unfold vertexCrashTime at htv
      rw [show (t.v (ccw w)).ur = some l from hl] at htv
      dsimp only at htv
      split at htv
      · cases htv
      · split_ifs at htv with c1 c2
        · cases htv
        · exact c2 ((nearZero_false_iff _).2 happ)
  have hedge : Moving (t.v (w + 1)) (t.v (w + 2)) → Meet (t.v (w + 1)) (t.v (w + 2)) u →
      collapseTimeEdge (t.v (ccw w)) (t.v (cw w)) = u :=
    fun hside hm => meet_time hm (hun _) (hun _) hside
  have hcase : collapseTimeEdge (t.v (ccw w)) (t.v (cw w)) = u ∨ tv = some u := by
    rcases hcol with ⟨hside, hm⟩ | ⟨happ, p, lu, a, b, c⟩
    · exact .inl (hedge hside hm)
    · exact .inr (hcrash happ p lu a b c)
  clear hcol hcrash hedge
  split_ifs at h with hc
  · obtain ⟨e, he, ht⟩ := crashNow1_some h
    exact ⟨e, he, ht ▸ later_le hu⟩
  · split at h
    · rename_i h1 h2
      rcases hcase with q | q
      · exact absurd hu (sieve_not h1 (by rw [q]; simp))
      · exact absurd hu (sieve_not h2 (by rw [q]; simp))
    · rename_i tv' h1 h2
      obtain ⟨e, he, ht⟩ := case1B_some h
      rcases hcase with q | q
      · exact absurd hu (sieve_not h1 (by rw [q]; simp))
      · exact ⟨e, he, ht.trans (sieve_le h2 (by rw [q]; simp) hu)⟩
    · rename_i te h1 h2
      injection h with h
      rcases hcase with q | q
      · exact ⟨_, h.symm, sieve_le h1 (by rw [q]; simp) hu⟩
      · exact absurd hu (sieve_not h2 (by rw [q]; simp))
    · rename_i te tv' h1 h2
      obtain ⟨e, he, ht1, ht2⟩ := case1D_some h
      rcases hcase with q | q
      · exact ⟨e, he, ht1.trans (sieve_le h1 (by rw [q]; simp) hu)⟩
      · exact ⟨e, he, ht2.trans (sieve_le h2 (by rw [q]; simp) hu)⟩

/-- C64, triangles with one wavefront side: when at a time `u` from `now` on the side vanishes, or the apex is on the
moving support line of the side, then the triangle has an event, not later than `u`. -/
theorem C64_one_triangle [SqrtUnit K] (t : TView K) (now : K) (sv : Sieve) (r : Option (EvCore K))
    (h : computeCollapse t now sv = .ok r) (hact : t.stopped = false) (hf : t.isFinite = true)
    (ws : Fin 3) (hws : ∀ i, t.noNeighbour i = true ↔ i = ws) (hun : ∀ i, Uniform (t.v i))
    (l : Line2 K) (hl : (t.v (ws + 1)).ur = some l) (hunit : l.w.1 ^ 2 + l.w.2 ^ 2 = 1)
    (hon : l.signedDistance (t.v (ws + 1)).origin = 0)
    (hside : Moving (t.v (ws + 1)) (t.v (ws + 2))) (happ : 1 / 10 ^ 10 < |1 - dot2 (t.v ws).velocity l.w|)
    (u : K) (hu : Admitted sv now u)
    (hcol : Meet (t.v (ws + 1)) (t.v (ws + 2)) u ∨
      ∃ p lu, (t.v ws).positionAt u = .ok p ∧ l.atTime u = .ok lu ∧ lu.signedDistance p = 0) :
    ∃ e, r = some e ∧ e.time ≤ u :=
  one_triangle_event t now sv r h hact hf ws hws hun l hl hunit hon u hu
    (hcol.imp (fun q => ⟨hside, q⟩) fun q => ⟨happ, q⟩)

/-- a wavefront side (side 2) that vanishes at t = 4, hit by the apex at t = 3 -/
def exOne : TView ℚ :=
  exT { exV 0 0 (1 / 2) 1 with ur := some ⟨(0, 1), 0⟩ } { exV 4 0 (-1 / 2) 1 with ul := some ⟨(0, 1), 0⟩ }
    (exV 2 6 0 (-1)) false false true

-- the hypotheses of C64_one_triangle, with the time 4 at which the ends of the side meet and the time 3 of the crash
example : computeCollapse exOne 0 .gte = .ok (some ⟨3, [2], .split, 1⟩) ∧ exOne.stopped = false ∧
    exOne.isFinite = true ∧ (∀ i, exOne.noNeighbour i = true ↔ i = 2) := by decide +kernel
example : (∀ i, Uniform (exOne.v i)) ∧ (exOne.v 0).ur = some ⟨(0, 1), 0⟩ ∧
    (⟨(0, 1), 0⟩ : Line2 ℚ).signedDistance (exOne.v 0).origin = 0 := by
  refine ⟨fun i => ?_, rfl, by decide +kernel⟩
  fin_cases i <;> exact .inl ⟨rfl, rfl⟩
example : Moving (exOne.v 0) (exOne.v 1) ∧ (1 : ℚ) / 10 ^ 10 < |1 - dot2 (exOne.v 2).velocity (0, 1)| := by
  unfold Moving; decide +kernel
example : Meet (exOne.v 0) (exOne.v 1) 4 ∧ Admitted .gte (0 : ℚ) 4 :=
  ⟨⟨(2, 4), by decide +kernel, by decide +kernel⟩, by unfold Admitted; decide +kernel⟩
example : (exOne.v 2).positionAt 3 = .ok (2, 3) ∧ (⟨(0, 1), 0⟩ : Line2 ℚ).atTime 3 = .ok ⟨(0, 1), -3⟩ ∧
    (⟨(0, 1), -3⟩ : Line2 ℚ).signedDistance (2, 3) = 0 := by decide +kernel

/-- when a list of three has no entry with a property, no entry has it -/
theorem where3_nil {p : Fin 3 → Bool} (h : where3 p = []) (i : Fin 3) : p i = false := by
  cases hp : p i with
  | false => rfl
  | true =>
    have : i ∈ where3 p := (mem_where3 p i).2 hp
    rw [h] at this
    simp at this

/-- C64, triangles with two wavefront sides: when one of the sides vanishes at a time `u` from `now` on, then the
triangle has an event, not later than `u`.  The two candidate times are first merged when they differ by less than the
relative tolerance 1e-7, therefore `u` must not be that close after a side's time that is over already. -/
theorem C64_two_triangle (t : TView K) (now : K) (sv : Sieve) (r : Option (EvCore K))
    (h : computeCollapse t now sv = .ok r) (hact : t.stopped = false) (hf : t.isFinite = true) (htp : t.type = 2)
    (hun : ∀ i, Uniform (t.v i)) (i : Fin 3) (hi : t.noNeighbour i = true)
    (hside : Moving (t.v (i + 1)) (t.v (i + 2)))
    (u : K) (hu : Admitted sv now u) (hcol : Meet (t.v (i + 1)) (t.v (i + 2)) u)
    (hsep : ∀ j, j ≠ i → t.noNeighbour j = true → ¬ Admitted sv now (collapseTimeEdge (t.v (j + 1)) (t.v (j + 2))) →
      1 / 10 ^ 7 * |(u + collapseTimeEdge (t.v (j + 1)) (t.v (j + 2))) / 2| <
        u - collapseTimeEdge (t.v (j + 1)) (t.v (j + 2))) :
    ∃ e, r = some e ∧ e.time ≤ u := by
  replace h := computeCollapse_finite h hact hf
  unfold computeFinite at h
  rw [if_neg (by omega), if_neg (by omega), if_pos htp] at h
  have hct := meet_time hcol (hun _) (hun _) hside
  unfold computeEvent2 at h
  obtain ⟨_, -, h⟩ := bind_ok_iff.1 h
  dsimp only at h
  generalize hT : ((if t.noNeighbour 2 = true then [some (collapseTimeEdge (t.v 0) (t.v 1))] else []) ++
    (if t.noNeighbour 0 = true then [some (collapseTimeEdge (t.v 1) (t.v 2))] else []) ++
    (if t.noNeighbour 1 = true then [some (collapseTimeEdge (t.v 2) (t.v 0))] else [])) = T at h
  have hin : some u ∈ T := by
    rw [← hT, ← hct]
    fin_cases i
    · rw [if_pos (show t.noNeighbour 0 = true from hi)]; simp
    · rw [if_pos (show t.noNeighbour 1 = true from hi)]; simp
    · rw [if_pos (show t.noNeighbour 2 = true from hi)]; simp
  have hfrom : ∀ x, some x ∈ T → ∃ j, t.noNeighbour j = true ∧ collapseTimeEdge (t.v (j + 1)) (t.v (j + 2)) = x := by
    intro x hx
    rw [← hT] at hx
    simp only [List.mem_append] at hx
    rcases hx with (hx | hx) | hx
    · split_ifs at hx with c
      · exact ⟨2, c, by simpa [eq_comm] using hx⟩
      · simp at hx
    · split_ifs at hx with c
      · exact ⟨0, c, by simpa [eq_comm] using hx⟩
      · simp at hx
    · split_ifs at hx with c
      · exact ⟨1, c, by simpa [eq_comm] using hx⟩
      · simp at hx
  obtain ⟨out, hout, h⟩ := bind_ok_iff.1 h
  obtain ⟨out', hout', -, hsub, -, hclose, -⟩ := C05_get_unique_times_partial T ⟨u, hin⟩
  obtain rfl : out = out' := Except.ok.inj (hout.symm.trans hout')
  obtain ⟨o, ho, hou, hoc⟩ := hclose u hin
  have hol : Admitted sv now o := by
    by_contra hn
    obtain ⟨j, hj, rfl⟩ := hfrom o (hsub o ho)
    by_cases hji : j = i
    · rw [hji, hct] at hn
      exact hn hu
    · exact absurd (hsep j hji hj hn) (not_lt.2 hoc)
  have hom : some o ∈ out.map some := List.mem_map.2 ⟨o, ho, rfl⟩
  cases hx : sv.apply (out.map some) now with
  | none => exact absurd hol (sieve_not hx hom)
  | some x =>
    rw [hx] at h
    dsimp only at h
    have hxu : x ≤ u := (sieve_le hx hom hol).trans hou
    obtain ⟨d, -, h⟩ := bind_ok_iff.1 h
    split at h
    · injection h with h; exact ⟨_, h.symm, hxu⟩
    · cases h
    · obtain ⟨_, -, h⟩ := bind_ok_iff.1 h
      injection h with h; exact ⟨_, h.symm, hxu⟩
    · rename_i n3 n2 n1
      exfalso
      obtain ⟨k, hk⟩ := min3_mem d
      rcases hw : where3 (fun i => nearZero ((![d 0 - min3 d, d 1 - min3 d, d 2 - min3 d] : Fin 3 → K) i)) with
        _ | ⟨a, _ | ⟨b, _ | ⟨c, _ | ⟨e, q⟩⟩⟩⟩
      · have h0 := where3_nil hw k
        have : (![d 0 - min3 d, d 1 - min3 d, d 2 - min3 d] : Fin 3 → K) k = 0 := by
          have hk' : d k - min3 d = 0 := by rw [hk, sub_self]
          fin_cases k <;> simpa using hk'
        rw [this, nearZero_false_iff] at h0
        norm_num at h0
      · exact n1 _ hw
      · exact n2 _ _ hw
      · exact n3 _ _ _ hw
      · have hl : (where3 (fun i => nearZero ((![d 0 - min3 d, d 1 - min3 d, d 2 - min3 d] : Fin 3 → K) i))).length
            ≤ 3 := List.length_filter_le _ _
        rw [hw] at hl
        simp only [List.length_cons] at hl
        omega

/-- the wavefront sides 2 and 0 vanish at t = 2 and t = 4 -/
def exTwo : TView ℚ := exT (exV 0 0 1 0) (exV 4 0 (-1) 0) (exV 0 4 0 (-1)) true false true

example : computeCollapse exTwo 0 .gte = .ok (some ⟨2, [2], .edge, 2⟩) ∧ exTwo.isFinite = true ∧ exTwo.type = 2 := by
  decide +kernel
example : Meet (exTwo.v 0) (exTwo.v 1) 2 ∧ Moving (exTwo.v 0) (exTwo.v 1) ∧
    ∀ j, exTwo.noNeighbour j = true → 0 ≤ collapseTimeEdge (exTwo.v (j + 1)) (exTwo.v (j + 2)) :=
  ⟨⟨(2, 0), by decide +kernel, by decide +kernel⟩, by unfold Moving; decide +kernel, by decide +kernel⟩

/-- C64, triangles with three wavefront sides: as for two.  Python tests the truth value of the time, so a side that
vanishes at time 0 is not seen, here excluded by `h0`. -/
theorem C64_three_triangle (t : TView K) (now : K) (sv : Sieve) (r : Option (EvCore K))
    (h : computeCollapse t now sv = .ok r) (hact : t.stopped = false) (hf : t.isFinite = true) (htp : t.type = 3)
    (hun : ∀ i, Uniform (t.v i)) (i : Fin 3) (hside : Moving (t.v (i + 1)) (t.v (i + 2)))
    (h0 : ∀ j, Admitted sv now (collapseTimeEdge (t.v (j + 1)) (t.v (j + 2))) →
      collapseTimeEdge (t.v (j + 1)) (t.v (j + 2)) ≠ 0)
    (u : K) (hu : Admitted sv now u) (hcol : Meet (t.v (i + 1)) (t.v (i + 2)) u) :
    ∃ e, r = some e ∧ e.time ≤ u := by
  replace h := computeCollapse_finite h hact hf
  unfold computeFinite at h
  rw [if_neg (by omega), if_neg (by omega), if_neg (by omega), if_pos htp] at h
  have hct := meet_time hcol (hun _) (hun _) hside
  unfold computeEvent3 at h
  dsimp only at h
  obtain ⟨_, -, h⟩ := bind_ok_iff.1 h
  obtain ⟨_, -, h⟩ := bind_ok_iff.1 h
  obtain ⟨_, -, h⟩ := bind_ok_iff.1 h
  have hin : some u ∈ [some ((![collapseTimeEdge (t.v 1) (t.v 2), collapseTimeEdge (t.v 2) (t.v 0),
      collapseTimeEdge (t.v 0) (t.v 1)] : Fin 3 → K) 0), some ((![collapseTimeEdge (t.v 1) (t.v 2),
      collapseTimeEdge (t.v 2) (t.v 0), collapseTimeEdge (t.v 0) (t.v 1)] : Fin 3 → K) 1),
      some ((![collapseTimeEdge (t.v 1) (t.v 2), collapseTimeEdge (t.v 2) (t.v 0),
      collapseTimeEdge (t.v 0) (t.v 1)] : Fin 3 → K) 2)] := by
    rw [← hct]
    fin_cases i <;> simp
  have hall : ∀ y, some y ∈ [some ((![collapseTimeEdge (t.v 1) (t.v 2), collapseTimeEdge (t.v 2) (t.v 0),
      collapseTimeEdge (t.v 0) (t.v 1)] : Fin 3 → K) 0), some ((![collapseTimeEdge (t.v 1) (t.v 2),
      collapseTimeEdge (t.v 2) (t.v 0), collapseTimeEdge (t.v 0) (t.v 1)] : Fin 3 → K) 1),
      some ((![collapseTimeEdge (t.v 1) (t.v 2), collapseTimeEdge (t.v 2) (t.v 0),
      collapseTimeEdge (t.v 0) (t.v 1)] : Fin 3 → K) 2)] → Admitted sv now y → y ≠ 0 := by
    intro y hy ha
    simp only [List.mem_cons, Option.some.injEq, List.not_mem_nil, or_false] at hy
    rcases hy with rfl | rfl | rfl
    · exact h0 0 ha
    · exact h0 1 ha
    · exact h0 2 ha
  generalize [some ((![collapseTimeEdge (t.v 1) (t.v 2), collapseTimeEdge (t.v 2) (t.v 0),
      collapseTimeEdge (t.v 0) (t.v 1)] : Fin 3 → K) 0), some ((![collapseTimeEdge (t.v 1) (t.v 2),
      collapseTimeEdge (t.v 2) (t.v 0), collapseTimeEdge (t.v 0) (t.v 1)] : Fin 3 → K) 1),
      some ((![collapseTimeEdge (t.v 1) (t.v 2), collapseTimeEdge (t.v 2) (t.v 0),
      collapseTimeEdge (t.v 0) (t.v 1)] : Fin 3 → K) 2)] = T at h hin hall
  cases hx : sv.apply T now with
  | none => exact absurd hu (sieve_not hx hin)
  | some x =>
    have hne := hall x (sieve_mem hx) (sieve_later hx)
    rw [hx, show truthy (some x) = some x by unfold truthy; exact if_neg hne] at h
    injection h with h
    exact ⟨_, h.symm, sieve_le hx hin hu⟩

/-- three wavefront sides, side 2 vanishes at t = 2 -/
def exThree : TView ℚ := exT (exV 0 0 1 0) (exV 4 0 (-1) 0) (exV 0 4 0 (-1)) true true true

example : computeCollapse exThree 1 .gte = .ok (some ⟨2, [0, 1, 2], .edge, 3⟩) ∧ exThree.isFinite = true ∧
    exThree.type = 3 := by decide +kernel
example : Meet (exThree.v 0) (exThree.v 1) 2 ∧ Moving (exThree.v 0) (exThree.v 1) ∧
    ∀ j, collapseTimeEdge (exThree.v (j + 1)) (exThree.v (j + 2)) ≠ 0 :=
  ⟨⟨(2, 0), by decide +kernel, by decide +kernel⟩, by unfold Moving; decide +kernel, by decide +kernel⟩

/-- C64, wavefront edges on the convex hull: when such a side vanishes at a time `u` after `now`, then the infinite
triangle has an event, at `u`. -/
theorem C64_hull_edge (t : TView K) (now : K) (sv : Sieve) (r : Option (EvCore K))
    (h : computeCollapse t now sv = .ok r) (hact : t.stopped = false)
    (i : Fin 3) (hinf : ∀ j, (t.v j).kinetic = false ↔ j = i) (hi : t.noNeighbour i = true)
    (hun : ∀ j, j ≠ i → Uniform (t.v j)) (hside : Moving (t.v (i + 1)) (t.v (i + 2))) (hnow : 0 ≤ now)
    (u : K) (hu : Admitted .gt now u) (hcol : Meet (t.v (i + 1)) (t.v (i + 2)) u) :
    ∃ e, r = some e ∧ e.time = u ∧ e.tp = .edge ∧ e.side = [i] := by
  have hfin : t.isFinite = false := by
    unfold TView.isFinite
    have := (hinf i).2 rfl
    fin_cases i <;> simp_all
  have hidx : infIdx t = i := by
    unfold infIdx
    fin_cases i
    · exact if_pos ((hinf _).2 rfl)
    · rw [if_neg (fun q => absurd ((hinf _).1 q) (by decide))]
      exact if_pos ((hinf _).2 rfl)
    · rw [if_neg (fun q => absurd ((hinf _).1 q) (by decide)), if_neg (fun q => absurd ((hinf _).1 q) (by decide))]
      rfl
  unfold computeCollapse at h
  rw [if_neg (by rw [hact]; simp), if_neg (by rw [hfin]; simp)] at h
  unfold computeEventInf at h
  rw [hidx] at h
  dsimp only at h
  rw [if_pos hi] at h
  obtain ⟨_, -, h⟩ := bind_ok_iff.1 h
  have hne1 : i + 1 ≠ i := by fin_cases i <;> decide
  have hne2 : i + 2 ≠ i := by fin_cases i <;> decide
  have hct : collapseTimeEdge (t.v (cw i)) (t.v (ccw i)) = u :=
    meet_time (meet_symm hcol) (hun _ hne2) (hun _ hne1) (moving_symm hside)
  rw [hct] at h
  have hu' : now + 1 / 10 ^ 10 < u := hu
  have hpos : (0 : K) < 1 / 10 ^ 10 := by positivity
  cases hx : findGt [some u] now with
  | none => exact absurd hu (sieve_not (sv := .gt) hx (by simp))
  | some x =>
    obtain rfl : x = u := by
      have := (sieve_some .gt _ _ _ hx).1
      simpa using this
    have hne : x ≠ 0 := by
      intro q; subst q; linarith
    rw [hx, show truthy (some x) = some x by unfold truthy; exact if_neg hne] at h
    dsimp only at h
    obtain ⟨d, hd, h⟩ := bind_ok_iff.1 h
    obtain ⟨p, hp1, hp2⟩ := hcol
    have : d = 0 := by
      unfold VView.distance2At at hd
      have e1 : (t.v (cw i)).positionAt x = .ok p := hp2
      have e2 : (t.v (ccw i)).positionAt x = .ok p := hp1
      rw [e1, e2] at hd
      have := Except.ok.inj hd
      rw [← this]
      simp
    rw [this, if_pos ((nearZero_iff _).2 (by simp))] at h
    injection h with h
    exact ⟨_, h.symm, rfl, rfl, rfl⟩

/-- an infinite triangle with a wavefront side on the hull that vanishes at t = 2 -/
def exHull : TView ℚ := exT { exV 2 3 0 0 with kinetic := false } (exV 0 0 1 0) (exV 4 0 (-1) 0) true false false

example : computeCollapse exHull 0 .gte = .ok (some ⟨2, [0], .edge, 1⟩) ∧
    ∀ j, (exHull.v j).kinetic = false ↔ j = 0 := by decide +kernel
example : Meet (exHull.v 1) (exHull.v 2) 2 ∧ Moving (exHull.v 1) (exHull.v 2) ∧ Admitted .gt (0 : ℚ) 2 :=
  ⟨⟨(2, 0), by decide +kernel, by decide +kernel⟩, by unfold Moving; decide +kernel, by unfold Admitted; decide +kernel⟩

/-! ### C65 -/

/-- the positions of the three vertices at a time -/
def Placed (t : TView K) (u : K) (p : Fin 3 → Pt K) : Prop := ∀ i, (t.v i).positionAt u = .ok (p i)

/-- the squared length of a side of a triangle -/
def sideSq (p : Fin 3 → Pt K) (i : Fin 3) : K := distSq (p (i + 1)) (p (i + 2))

theorem distance2At_sq {v w : VView K} {u d : K} {p q : Pt K} (hv : v.positionAt u = .ok p) (hw : w.positionAt u = .ok q)
    (h : v.distance2At w u = .ok d) : d = distSq p q := by
  unfold VView.distance2At at h
  rw [hv, hw] at h
  exact (Except.ok.inj h).symm

theorem dists2_sq {t : TView K} {u : K} {p : Fin 3 → Pt K} (hp : Placed t u p) {d : Fin 3 → K}
    (h : t.dists2 u = .ok d) (i : Fin 3) : d i = sideSq p i :=
  distance2At_sq (hp _) (hp _) (list3_ok h i)

theorem dists_sq [SqrtLaws K] {t : TView K} {u : K} {p : Fin 3 → Pt K} (hp : Placed t u p) {d : Fin 3 → K}
    (h : t.dists u = .ok d) (i : Fin 3) : 0 ≤ d i ∧ d i * d i = sideSq p i := by
  unfold TView.dists at h
  obtain ⟨d2, h2, h⟩ := bind_ok_iff.1 h
  have hs := list3_ok h i
  have h0 : 0 ≤ d2 i := by
    rw [dists2_sq hp h2]
    unfold sideSq distSq
    positivity
  rw [← dists2_sq hp h2]
  unfold psqrt at hs
  rw [if_neg (not_lt.2 h0)] at hs
  rw [← Except.ok.inj hs]
  exact ⟨SqrtLaws.sqrt_nonneg _ h0, SqrtLaws.sqrt_mul_self _ h0⟩

theorem dists_le [SqrtLaws K] {t : TView K} {u : K} {p : Fin 3 → Pt K} (hp : Placed t u p) {d : Fin 3 → K}
    (h : t.dists u = .ok d) {i j : Fin 3} (hle : d i ≤ d j) : sideSq p i ≤ sideSq p j := by
  rw [← (dists_sq hp h i).2, ← (dists_sq hp h j).2]
  exact mul_self_le_mul_self (dists_sq hp h i).1 hle

/-- the only entry near zero is the smallest -/
theorem only_nearZero {d : Fin 3 → K} (h0 : ∀ i, 0 ≤ d i) {s : Fin 3} (h : where3 (fun i => nearZero (d i)) = [s])
    (j : Fin 3) : d s ≤ d j := by
  by_cases hj : j = s
  · rw [hj]
  · have hs : s ∈ where3 (fun i => nearZero (d i)) := by rw [h]; simp
    have hn : j ∉ where3 (fun i => nearZero (d i)) := by rw [h]; simpa using hj
    rw [mem_where3, nearZero_iff, abs_of_nonneg (h0 s)] at hs
    rw [mem_where3, nearZero_iff, abs_of_nonneg (h0 j), not_le] at hn
    exact hs.trans hn.le

/-- the only entry near the minimum is the minimum -/
theorem only_nearMin {d : Fin 3 → K} {s : Fin 3} (h : where3 (fun i => nearZero (d i - min3 d)) = [s])
    (j : Fin 3) : d s ≤ d j := by
  obtain ⟨k, hk⟩ := min3_mem d
  have hk' : k ∈ where3 (fun i => nearZero (d i - min3 d)) := by
    rw [mem_where3, nearZero_iff, hk, sub_self, abs_zero]; positivity
  rw [h] at hk'
  obtain rfl : k = s := by simpa using hk'
  rw [hk]
  exact min3_le d j

theorem index_min {d : Fin 3 → K} {s : Fin 3} (h : indexE d (min3 d) = .ok s) (j : Fin 3) : d s ≤ d j := by
  rw [(indexE_ok h).1]; exact min3_le d j

theorem index_max {d : Fin 3 → K} {s : Fin 3} (h : indexE d (max3 d) = .ok s) (j : Fin 3) : d j ≤ d s := by
  rw [(indexE_ok h).1]; exact le_max3 d j

/-- what C65 says about the side of an event of a finite triangle -/
def SideOk (t : TView K) (e : EvCore K) : Prop :=
  ∀ p, Placed t e.time p → ∀ s, e.side = [s] →
    (e.tp = .flip → ∀ j, t.noNeighbour j = false → sideSq p j ≤ sideSq p s) ∧
    (e.tp = .edge → (∀ j, sideSq p s ≤ sideSq p j) ∨ (t.type = 1 ∧ t.noNeighbour s = true))

theorem flipLongest_side {t : TView K} {time : K} {e : EvCore K} (h : flipLongest t time = .ok (some e)) :
    SideOk t e := by
  unfold flipLongest at h
  obtain ⟨d, hd, h⟩ := bind_ok_iff.1 h
  obtain ⟨x, hx, h⟩ := bind_ok_iff.1 h
  obtain rfl := ok_some_inj h
  intro p hp s hs
  obtain rfl : x = s := by simpa using hs
  refine ⟨fun _ j _ => ?_, fun q => by cases q⟩
  rw [← dists2_sq hp hd, ← dists2_sq hp hd]
  exact index_max hx j

theorem degenerateNow0_side [SqrtLaws K] {t : TView K} {now : K} {e : EvCore K}
    (h : degenerateNow0 t now = .ok (some e)) : SideOk t e := by
  unfold degenerateNow0 at h
  obtain ⟨d, hd, h⟩ := bind_ok_iff.1 h
  dsimp only at h
  split at h
  · rename_i x hx
    obtain rfl := ok_some_inj h
    intro p hp s hs
    obtain rfl : x = s := by simpa using hs
    exact ⟨fun q => (by cases q), fun _ => .inl fun j => dists_le hp hd (only_nearZero (fun i => (dists_sq hp hd i).1) hx j)⟩
  · cases h
  · exact flipLongest_side h

theorem edgeCollapse0_side {t : TView K} {time : K} {e : EvCore K}
    (h : edgeCollapse0 t time = .ok (some e)) : SideOk t e := by
  unfold edgeCollapse0 at h
  obtain ⟨d, hd, h⟩ := bind_ok_iff.1 h
  split at h
  · obtain rfl := ok_some_inj h
    intro p hp s hs
    cases hs
  · rename_i x hx
    obtain rfl := ok_some_inj h
    intro p hp s hs
    obtain rfl : x = s := by simpa using hs
    refine ⟨fun q => (by cases q), fun _ => .inl fun j => ?_⟩
    rw [← dists2_sq hp hd, ← dists2_sq hp hd]
    refine only_nearZero (fun i => ?_) hx j
    rw [dists2_sq hp hd]
    unfold sideSq distSq
    positivity
  · cases h

theorem computeEvent0_side [SqrtLaws K] {t : TView K} {now : K} {sv : Sieve} {e : EvCore K}
    (h : computeEvent0 t now sv = .ok (some e)) : SideOk t e := by
  unfold computeEvent0 at h
  obtain ⟨_, -, h⟩ := bind_ok_iff.1 h
  dsimp only at h
  split_ifs at h with c
  · exact degenerateNow0_side h
  obtain ⟨_, -, h⟩ := bind_ok_iff.1 h
  obtain ⟨_, -, h⟩ := bind_ok_iff.1 h
  split at h
  · cases h
  · split_ifs at h with c1 c2
    · obtain ⟨d, hd, h⟩ := bind_ok_iff.1 h
      split at h
      · obtain rfl := ok_some_inj h
        intro p hp s hs
        cases hs
      · rename_i x hx
        obtain rfl := ok_some_inj h
        intro p hp s hs
        obtain rfl : x = s := by simpa using hs
        refine ⟨fun q => (by cases q), fun _ => .inl fun j => ?_⟩
        rw [← dists2_sq hp hd, ← dists2_sq hp hd]
        exact only_nearMin hx j
      · exact flipLongest_side h
    · exact flipLongest_side h
    · exact edgeCollapse0_side h
  · exact edgeCollapse0_side h
  · exact flipLongest_side h

theorem crashNow1_side [SqrtLaws K] {t : TView K} {now : K} {ws : Fin 3} {e : EvCore K}
    (h : crashNow1 t now ws = .ok (some e)) : SideOk t e := by
  unfold crashNow1 at h
  obtain ⟨d, hd, h⟩ := bind_ok_iff.1 h
  split at h
  · rename_i x hx
    obtain rfl := ok_some_inj h
    intro p hp s hs
    obtain rfl : x = s := by simpa using hs
    exact ⟨fun q => (by cases q), fun _ => .inl fun j => dists_le hp hd (only_nearZero (fun i => (dists_sq hp hd i).1) hx j)⟩
  · obtain ⟨x, hx, h⟩ := bind_ok_iff.1 h
    obtain rfl := ok_some_inj h
    intro p hp s hs
    obtain rfl : x = s := by simpa using hs
    refine ⟨fun _ j _ => dists_le hp hd (index_max hx j), fun q => ?_⟩
    dsimp only at q
    split_ifs at q

theorem case1A_side {t : TView K} {now : K} {sv : Sieve} {ws : Fin 3}
    {e : EvCore K} (h : case1A t now sv ws = .ok (some e)) : SideOk t e := by
  unfold case1A at h
  dsimp only at h
  split at h
  · cases h
  · split_ifs at h with c
    · obtain rfl := ok_some_inj h
      intro p hp s hs
      exact ⟨fun q => (by cases q), fun q => (by cases q)⟩
    · obtain ⟨d, hd, h⟩ := bind_ok_iff.1 h
      obtain ⟨x, hx, h⟩ := bind_ok_iff.1 h
      obtain rfl := ok_some_inj h
      intro p hp s hs
      obtain rfl : x = s := by simpa using hs
      refine ⟨fun _ j hj => ?_, fun q => (by cases q)⟩
      have hall := list3_ok hd
      have hdj := hall j
      rw [if_pos hj] at hdj
      have ej : d j = sideSq p j := distance2At_sq (hp _) (hp _) hdj
      have hle := index_max hx j
      by_cases hn : t.noNeighbour x = false
      · have hdx := hall x
        rw [if_pos hn] at hdx
        have ex : d x = sideSq p x := distance2At_sq (hp _) (hp _) hdx
        rw [← ej, ← ex]
        exact hle
      · exfalso
        have hdx := hall x
        rw [if_neg hn] at hdx
        have ex := Except.ok.inj hdx
        have h0 : 0 ≤ sideSq p j := by unfold sideSq distSq; positivity
        rw [ej, ← ex] at hle
        linarith

theorem case1B_side [SqrtLaws K] {t : TView K} {ws : Fin 3} {ta : Option K} {tv : K} {e : EvCore K}
    (h : case1B t ws ta tv = .ok (some e)) : SideOk t e := by
  unfold case1B at h
  dsimp only at h
  obtain ⟨d, hd, h⟩ := bind_ok_iff.1 h
  split_ifs at h
  · obtain rfl := ok_some_inj h
    intro p hp s hs
    exact ⟨fun q => (by cases q), fun q => (by cases q)⟩
  · obtain ⟨x, hx, h⟩ := bind_ok_iff.1 h
    obtain rfl := ok_some_inj h
    intro p hp s hs
    obtain rfl : x = s := by simpa using hs
    exact ⟨fun q => (by cases q), fun _ => .inl fun j => dists_le hp hd (index_min hx j)⟩
  · obtain ⟨x, hx, h⟩ := bind_ok_iff.1 h
    obtain rfl := ok_some_inj h
    intro p hp s hs
    obtain rfl : x = s := by simpa using hs
    exact ⟨fun _ j _ => dists_le hp hd (index_max hx j), fun q => (by cases q)⟩

theorem case1D_side [SqrtLaws K] {t : TView K} {te tv : K} {e : EvCore K}
    (h : case1D t te tv = .ok (some e)) : SideOk t e := by
  unfold case1D at h
  split_ifs at h
  · obtain ⟨d, hd, h⟩ := bind_ok_iff.1 h
    obtain ⟨x, hx, h⟩ := bind_ok_iff.1 h
    obtain rfl := ok_some_inj h
    intro p hp s hs
    obtain rfl : x = s := by simpa using hs
    refine ⟨fun q => (by cases q), fun _ => .inl fun j => ?_⟩
    rw [← dists2_sq hp hd, ← dists2_sq hp hd]
    exact index_min hx j
  · obtain ⟨d, hd, h⟩ := bind_ok_iff.1 h
    split at h
    · rename_i x hx
      obtain rfl := ok_some_inj h
      intro p hp s hs
      obtain rfl : x = s := by simpa using hs
      exact ⟨fun q => (by cases q),
        fun _ => .inl fun j => dists_le hp hd (only_nearZero (fun i => (dists_sq hp hd i).1) hx j)⟩
    · obtain rfl := ok_some_inj h
      intro p hp s hs
      cases hs
    · obtain ⟨x, hx, h⟩ := bind_ok_iff.1 h
      obtain rfl := ok_some_inj h
      intro p hp s hs
      obtain rfl : x = s := by simpa using hs
      refine ⟨fun _ j _ => dists_le hp hd (index_max hx j), fun q => ?_⟩
      dsimp only at q
      split_ifs at q

theorem computeEvent1_side [SqrtLaws K] {t : TView K} {now : K} {sv : Sieve} {e : EvCore K}
    (h : computeEvent1 t now sv = .ok (some e)) : SideOk t e := by
  unfold computeEvent1 at h
  obtain ⟨_, hp, h⟩ := bind_ok_iff.1 h
  have h1 : t.type = 1 := by simpa using passert_ok_iff.1 hp
  obtain ⟨ws, hws, h⟩ := bind_ok_iff.1 h
  have hw : t.noNeighbour ws = true := (indexE_ok hws).1
  dsimp only at h
  obtain ⟨tv, -, h⟩ := bind_ok_iff.1 h
  split_ifs at h
  · exact crashNow1_side h
  · split at h
    · exact case1A_side h
    · exact case1B_side h
    · obtain rfl := ok_some_inj h
      intro p hp s hs
      obtain rfl : ws = s := by simpa using hs
      exact ⟨fun q => (by cases q), fun _ => .inr ⟨h1, hw⟩⟩
    · exact case1D_side h

theorem computeEvent2_side [SqrtLaws K] {t : TView K} {now : K} {sv : Sieve} {e : EvCore K}
    (h : computeEvent2 t now sv = .ok (some e)) : SideOk t e := by
  unfold computeEvent2 at h
  obtain ⟨_, -, h⟩ := bind_ok_iff.1 h
  dsimp only at h
  obtain ⟨_, -, h⟩ := bind_ok_iff.1 h
  split at h
  · cases h
  · obtain ⟨d, hd, h⟩ := bind_ok_iff.1 h
    split at h
    · obtain rfl := ok_some_inj h
      intro p hp s hs
      cases hs
    · cases h
    · obtain ⟨y, hy, h⟩ := bind_ok_iff.1 h
      obtain rfl := ok_some_inj h
      intro p hp s hs
      obtain rfl : y = s := by simpa using hs
      refine ⟨fun q => (by cases q), fun _ => .inl fun j => dists_le hp hd ?_⟩
      have hj := index_min hy j
      have key : ∀ k, (![d 0 - min3 d, d 1 - min3 d, d 2 - min3 d] : Fin 3 → K) k = d k - min3 d := by
        intro k; fin_cases k <;> rfl
      rw [key, key] at hj
      linarith
    · cases h

/-- C65: of a finite triangle a flip event names the longest of the sides that are not a wavefront, and an edge event
that names one side names the shortest side, at the time of the event.  With one wavefront side, when only that side has
a collapse time, the wavefront side itself is named, at the time its ends are closest.  (Triangles with three wavefront
sides are excluded.) -/
theorem C65_named_side [SqrtLaws K] (t : TView K) (now : K) (sv : Sieve) (e : EvCore K)
    (h : computeCollapse t now sv = .ok (some e)) (hf : t.isFinite = true) (h3 : t.type ≠ 3)
    (p : Fin 3 → Pt K) (hp : ∀ i, (t.v i).positionAt e.time = .ok (p i)) (s : Fin 3) (hs : e.side = [s]) :
    (e.tp = .flip → ∀ j, t.noNeighbour j = false →
      distSq (p (j + 1)) (p (j + 2)) ≤ distSq (p (s + 1)) (p (s + 2))) ∧
    (e.tp = .edge → (∀ j, distSq (p (s + 1)) (p (s + 2)) ≤ distSq (p (j + 1)) (p (j + 2))) ∨
      (t.type = 1 ∧ t.noNeighbour s = true)) := by
  have hact := (C24_event_not_stopped t now sv e h)
  have h := computeCollapse_finite h hact hf
  have : SideOk t e := by
    unfold computeFinite at h
    split_ifs at h
    · exact computeEvent0_side h
    · exact computeEvent1_side h
    · exact computeEvent2_side h
    · cases h
  exact this p hp s hs

/-- C65: when the three wavefront sides of a triangle vanish together at `u`, the event is at `u` and names all three. -/
theorem C65_three_sides [SqrtLaws K] (t : TView K) (now : K) (sv : Sieve) (r : Option (EvCore K))
    (h : computeCollapse t now sv = .ok r) (hact : t.stopped = false) (hf : t.isFinite = true) (htp : t.type = 3)
    (hun : ∀ i, Uniform (t.v i)) (hmov : ∀ i, Moving (t.v (i + 1)) (t.v (i + 2)))
    (u : K) (hu : Admitted sv now u) (hu0 : u ≠ 0) (hcol : ∀ i, Meet (t.v (i + 1)) (t.v (i + 2)) u) :
    r = some ⟨u, [0, 1, 2], .edge, 3⟩ := by
  replace h := computeCollapse_finite h hact hf
  unfold computeFinite at h
  rw [if_neg (by omega), if_neg (by omega), if_neg (by omega), if_pos htp] at h
  have e0 : collapseTimeEdge (t.v 1) (t.v 2) = u := meet_time (hcol 0) (hun _) (hun _) (hmov 0)
  have e1 : collapseTimeEdge (t.v 2) (t.v 0) = u := meet_time (hcol 1) (hun _) (hun _) (hmov 1)
  have e2 : collapseTimeEdge (t.v 0) (t.v 1) = u := meet_time (hcol 2) (hun _) (hun _) (hmov 2)
  have z : ∀ {v w : VView K}, Meet v w u → v.distance2At w u = .ok 0 := by
    intro v w hm
    obtain ⟨p, a, b⟩ := hm
    unfold VView.distance2At
    rw [a, b]
    simp [bind, Except.bind]
  have z0 : (t.v 1).distance2At (t.v 2) u = .ok 0 := z (hcol 0)
  have z1 : (t.v 2).distance2At (t.v 0) u = .ok 0 := z (hcol 1)
  have z2 : (t.v 0).distance2At (t.v 1) u = .ok 0 := z (hcol 2)
  unfold computeEvent3 at h
  dsimp only at h
  rw [e0, e1, e2] at h
  obtain ⟨d, hd, h⟩ := bind_ok_iff.1 h
  obtain ⟨d', hd', h⟩ := bind_ok_iff.1 h
  obtain ⟨_, -, h⟩ := bind_ok_iff.1 h
  have hz : ∀ i, d i = 0 := by
    intro i
    have := list3_ok hd i
    fin_cases i
    · exact (Except.ok.inj (z0.symm.trans this)).symm
    · exact (Except.ok.inj (z1.symm.trans this)).symm
    · exact (Except.ok.inj (z2.symm.trans this)).symm
  have hz' : ∀ i, d' i = 0 := by
    intro i
    have := list3_ok hd' i
    rw [hz i] at this
    unfold psqrt at this
    rw [if_neg (lt_irrefl _)] at this
    rw [← Except.ok.inj this]
    exact mul_self_eq_zero.1 (SqrtLaws.sqrt_mul_self (0 : K) le_rfl)
  have hw : where3 (fun i => nearZero (d' i)) = [0, 1, 2] := by
    have hn : ∀ i, nearZero (d' i) = true := fun i => by
      rw [nearZero_iff, hz' i, abs_zero]; positivity
    unfold where3
    rw [List.filter_eq_self.2 fun i _ => hn i]
  rw [hw] at h
  have hT : sv.apply [some ((![u, u, u] : Fin 3 → K) 0), some ((![u, u, u] : Fin 3 → K) 1),
      some ((![u, u, u] : Fin 3 → K) 2)] now = some u := by
    cases hx : sv.apply [some ((![u, u, u] : Fin 3 → K) 0), some ((![u, u, u] : Fin 3 → K) 1),
      some ((![u, u, u] : Fin 3 → K) 2)] now with
    | none => exact absurd hu (sieve_not hx (by simp))
    | some x =>
      have := (sieve_some _ _ _ _ hx).1
      simpa using this
  rw [hT, show truthy (some u) = some u by unfold truthy; exact if_neg hu0] at h
  rw [htp] at h
  exact (Except.ok.inj h).symm

/-- three wavefront sides that vanish together at t = 1 -/
def exTogether : TView ℚ := exT (exV 0 0 1 1) (exV 4 0 (-3) 1) (exV 0 3 1 (-2)) true true true

example : computeCollapse exTogether 0 .gte = .ok (some ⟨1, [0, 1, 2], .edge, 3⟩) ∧
    ∀ i, (exTogether.v i).positionAt 1 = .ok (1, 1) := by decide +kernel

/-- C65, three wavefront sides that do not vanish together: the event is at the first time at which two vertices are
closest (here 2, side 2 with length 1), but it names the only side that vanishes at some time (side 0, at time 4). -/
theorem C65_three_sides_wrong :
    let t := exT (exV 0 0 1 0) (exV 4 1 (-1) 0) (exV 0 5 0 (-1)) true true true
    computeCollapse t 1 .gte = .ok (some ⟨2, [0], .edge, 3⟩) ∧ (t.v 1).distance2At (t.v 2) 2 = .ok 8 ∧
    (t.v 1).distance2At (t.v 2) 4 = .ok 0 := by decide +kernel

/-- C65: a flip event of an infinite triangle names the shorter of the two sides at the infinite vertex. -/
theorem C65_infinite_flip (t : TView K) (now : K) (sv : Sieve) (e : EvCore K)
    (h : computeCollapse t now sv = .ok (some e)) (hfl : e.tp = .flip)
    (i : Fin 3) (hinf : ∀ j, (t.v j).kinetic = false ↔ j = i)
    (p : Fin 3 → Pt K) (hp : ∀ i, (t.v i).positionAt e.time = .ok (p i)) :
    ∃ s, e.side = [s] ∧ s ≠ i ∧ ∀ j, j ≠ i → distSq (p (s + 1)) (p (s + 2)) ≤ distSq (p (j + 1)) (p (j + 2)) := by
  have hact := (C24_event_not_stopped t now sv e h)
  have hfin : t.isFinite = false := by
    unfold TView.isFinite
    have := (hinf i).2 rfl
    fin_cases i <;> simp_all
  have hidx : infIdx t = i := by
    unfold infIdx
    fin_cases i
    · exact if_pos ((hinf _).2 rfl)
    · rw [if_neg (fun q => absurd ((hinf _).1 q) (by decide))]
      exact if_pos ((hinf _).2 rfl)
    · rw [if_neg (fun q => absurd ((hinf _).1 q) (by decide)), if_neg (fun q => absurd ((hinf _).1 q) (by decide))]
      rfl
  unfold computeCollapse at h
  rw [if_neg (by rw [hact]; simp), if_neg (by rw [hfin]; simp)] at h
  unfold computeEventInf at h
  rw [hidx] at h
  dsimp only at h
  split_ifs at h with c
  · obtain ⟨_, -, h⟩ := bind_ok_iff.1 h
    split at h
    · obtain ⟨d, -, h⟩ := bind_ok_iff.1 h
      split_ifs at h
      · obtain rfl := ok_some_inj h
        cases hfl
      · cases h
    · cases h
  · split at h
    · obtain ⟨d, -, h⟩ := bind_ok_iff.1 h
      split_ifs at h with c1
      · obtain rfl := ok_some_inj h
        cases hfl
      · obtain ⟨d0, h0, h⟩ := bind_ok_iff.1 h
        obtain ⟨d1, h1, h⟩ := bind_ok_iff.1 h
        obtain rfl := ok_some_inj h
        have e0 : d0 = sideSq p (cw i) := distance2At_sq (hp _) (hp _) h0
        have e1 : d1 = sideSq p (ccw i) := distance2At_sq (hp _) (hp _) h1
        have hthree : ∀ j, j ≠ i → j = cw i ∨ j = ccw i := by clear * -; revert i; decide
        have hn : cw i ≠ i ∧ ccw i ≠ i := by clear * -; revert i; decide
        by_cases hm : d0 = min d0 d1
        · refine ⟨cw i, by simp [← hm], hn.1, fun j hj => ?_⟩
          change sideSq p (cw i) ≤ sideSq p j
          have hle : d0 ≤ d1 := by rw [hm]; exact min_le_right _ _
          rcases hthree j hj with rfl | rfl
          · exact le_rfl
          · rw [← e0, ← e1]; exact hle
        · refine ⟨ccw i, by simp only [if_neg hm], hn.2, fun j hj => ?_⟩
          change sideSq p (ccw i) ≤ sideSq p j
          have hle : d1 ≤ d0 := by
            rcases le_total d0 d1 with q | q
            · exact absurd (min_eq_left q).symm hm
            · exact q
          rcases hthree j hj with rfl | rfl
          · rw [← e0, ← e1]; exact hle
          · exact le_rfl
    · cases h

-- the flip of `exFlip` is on side 2, the longest, at t = 3; the edge event of `exTwo` on side 2, the shortest
example : computeCollapse exFlip 0 .gte = .ok (some ⟨3, [2], .flip, 1⟩) ∧ exFlip.isFinite = true ∧ exFlip.type ≠ 3 ∧
    ∀ i, (exFlip.v i).positionAt 3 = .ok ((![(7, 3), (0, 3), (4, 3)] : Fin 3 → Pt ℚ) i) := by decide +kernel
example : ∀ i, (exTwo.v i).positionAt 2 = .ok ((![(2, 0), (2, 0), (0, 2)] : Fin 3 → Pt ℚ) i) := by decide +kernel

/-- an infinite triangle whose hull edge passes the infinite vertex at t = 5 -/
def exHullFlip : TView ℚ :=
  exT { exV 0 5 0 0 with kinetic := false } (exV (-2) 0 0 1) (exV 1 0 0 1) false false false

example : computeCollapse exHullFlip 0 .gte = .ok (some ⟨5, [1], .flip, 0⟩) ∧
    (∀ j, (exHullFlip.v j).kinetic = false ↔ j = 0) ∧
    ∀ i, (exHullFlip.v i).positionAt 5 = .ok ((![(0, 5), (-2, 5), (1, 5)] : Fin 3 → Pt ℚ) i) := by decide +kernel

end Grassfire
