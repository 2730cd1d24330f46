/-
Properties C51 and C94: the two files of `output_offsets`.
-/
import Verif.Props.Inout
import Verif.Props.Rings

set_option linter.unusedSectionVars false

namespace Grassfire

open Spec

variable {K : Type} [Field K] [LinearOrder K] [IsStrictOrderedRing K]

/-- Specification: `o` is the line from a vertex on the wavefront at time `o.time` to its neighbour at that time, on its
left (`left = true`) or on its right. -/
structure LineTo (left : Bool) (s : St K) (o : OffsetLine K) : Prop where
  front : OnFront s o.time o.v
  next : if left then LeftAt s o.time o.v o.u else RightAt s o.time o.v o.u
  p : DrawnAt s o.v o.time o.p
  q : DrawnAt s o.u o.time o.q

theorem DrawnAt.unique {s : St K} {v : VId} {T : K} {p q : Pt K} (hp : DrawnAt s v T p) (hq : DrawnAt s v T q) : p = q := by
  cases hp with
  | moving h1 h2 =>
    cases hq with
    | moving g1 g2 => rw [h1] at g1; cases g1; rfl
    | fast g1 g2 g3 => rw [h1] at g1; cases g1; rw [h2] at g2; cases g2
    | infinite g1 => rw [h1] at g1; cases g1
  | fast h1 h2 h3 =>
    cases hq with
    | moving g1 g2 => rw [h1] at g1; cases g1; rw [h2] at g2; cases g2
    | fast g1 g2 g3 => rw [h1] at g1; cases g1; rw [h3] at g3; cases g3; rfl
    | infinite g1 => rw [h1] at g1; cases g1
  | infinite h1 =>
    cases hq with
    | moving g1 g2 => rw [h1] at g1; cases g1
    | fast g1 g2 g3 => rw [h1] at g1; cases g1
    | infinite g1 => rw [h1] at g1; cases g1; rfl

theorem lineTo_unique {left : Bool} {s : St K} {o o' : OffsetLine K} (h : LineTo left s o) (h' : LineTo left s o')
    (ht : o.time = o'.time) (hv : o.v = o'.v) : o = o' := by
  obtain ⟨p, q, t, v, u⟩ := o
  obtain ⟨p', q', t', v', u'⟩ := o'
  dsimp only at ht hv
  subst ht hv
  have hu : u = u' := by
    have a := h.next
    have b := h'.next
    cases left with
    | true =>
      rw [if_pos rfl] at a b
      obtain ⟨k, a1, a2⟩ := a
      obtain ⟨k', b1, b2⟩ := b
      dsimp only at a1 a2 b1 b2
      rw [a1] at b1; cases b1
      rw [a2] at b2; cases b2
      rfl
    | false =>
      rw [if_neg (by decide)] at a b
      obtain ⟨k, a1, a2⟩ := a
      obtain ⟨k', b1, b2⟩ := b
      dsimp only at a1 a2 b1 b2
      rw [a1] at b1; cases b1
      rw [a2] at b2; cases b2
      rfl
  subst hu
  obtain rfl := DrawnAt.unique h.p h'.p
  obtain rfl := DrawnAt.unique h.q h'.q
  rfl

/-- one row of a file -/
theorem outputOffset_row {s : St K} (h : Drawable s) (left : Bool) {v : VId} (hv : v ∈ s.skVertices) (t : K)
    (hE : ¬ Endless s t) : ∃ o, outputOffset left s t v = .ok o ∧ ∀ l, o = some l ↔ LineTo left s l ∧ l.time = t ∧ l.v = v := by
  obtain ⟨hvn, k, hk⟩ := h.vertices v hv
  obtain ⟨⟨a, ha⟩, -, -⟩ := h.starts v k hvn hk
  have none_of : ¬ (OnFront s t v ∧ ∃ u, if left then LeftAt s t v u else RightAt s t v u) →
      ∀ l : OffsetLine K, (none = some l ↔ LineTo left s l ∧ l.time = t ∧ l.v = v) := by
    intro hn l
    refine ⟨nofun, ?_⟩
    rintro ⟨q, rfl, rfl⟩
    exact absurd ⟨q.front, _, q.next⟩ hn
  unfold outputOffset
  rw [hk]
  dsimp only
  rw [ha]
  dsimp only
  by_cases c : a ≤ t
  · rw [if_pos c]
    cases hst : k.stopsAt with
    | none => exact absurd ⟨v, hv, k, a, hk, ha, c, hst⟩ hE
    | some b =>
      dsimp only
      by_cases c2 : b > t
      · rw [if_pos c2]
        have front : OnFront s t v := ⟨hv, k, hk, ⟨a, ha, c⟩, fun b' e => by rw [hst] at e; cases e; exact c2⟩
        unfold offsetLine
        obtain ⟨p, hp, dp⟩ := h.place hvn t
        unfold visualizeAt at hp
        rw [hk] at hp
        rw [hp]
        dsimp only
        cases hu : neighbourAt (if left = true then k.left else k.right) t with
        | none =>
          refine ⟨none, rfl, none_of ?_⟩
          rintro ⟨-, u, q⟩
          unfold neighbourAt at hu
          cases left with
          | true =>
            rw [if_pos rfl] at q hu
            obtain ⟨k', q1, q2⟩ := q
            rw [hk] at q1; cases q1
            rw [q2] at hu; cases hu
          | false =>
            rw [if_neg (by decide)] at q hu
            obtain ⟨k', q1, q2⟩ := q
            rw [hk] at q1; cases q1
            rw [q2] at hu; cases hu
        | some u =>
          have hl : (if left = true then k.left else k.right).at t = some (some u) := by
            unfold neighbourAt at hu
            exact Option.join_eq_some_iff.1 hu
          obtain ⟨x, hx, hxr⟩ := hist_at_mem hl
          have hun : u < s.nV := by
            cases left with
            | true => exact h.left v k hvn hk x hx u hxr
            | false => exact h.right v k hvn hk x hx u hxr
          obtain ⟨q, hq, dq⟩ := h.place hun t
          unfold visualizeAt at hq
          dsimp only
          rw [hq]
          have row : LineTo left s ⟨p, q, t, v, u⟩ := by
            refine ⟨front, ?_, dp, dq⟩
            cases left with
            | true => exact ⟨k, hk, hl⟩
            | false => exact ⟨k, hk, hl⟩
          refine ⟨_, rfl, fun l => ⟨fun e => ?_, fun ⟨e1, e2, e3⟩ => ?_⟩⟩
          · cases e
            exact ⟨row, rfl, rfl⟩
          · exact congrArg some (lineTo_unique row e1 e2.symm e3.symm)
      · rw [if_neg c2]
        refine ⟨none, rfl, none_of ?_⟩
        rintro ⟨⟨-, k', q1, -, q2⟩, -⟩
        rw [hk] at q1; cases q1
        exact c2 (q2 b hst)
  · rw [if_neg c]
    refine ⟨none, rfl, none_of ?_⟩
    rintro ⟨⟨-, k', q1, ⟨a', q2, q3⟩, -⟩, -⟩
    rw [hk] at q1; cases q1
    rw [ha] at q2; cases q2
    exact c q3

/-- one file -/
theorem outputAt_rows {s : St K} (h : Drawable s) (left : Bool) : ∀ ts : List K, (∀ t ∈ ts, ¬ Endless s t) →
    ∃ rows, outputAt left s ts = .ok rows ∧ ∀ o, o ∈ rows ↔ LineTo left s o ∧ o.time ∈ ts
  | [], _ => ⟨[], rfl, fun o => by simp⟩
  | t :: ts, hE => by
    obtain ⟨rows, e1, e2⟩ := outputAt_rows h left ts fun x hx => hE x (List.mem_cons_of_mem _ hx)
    choose! o ho hl using fun v (hv : v ∈ s.skVertices) => outputOffset_row h left hv t (hE t List.mem_cons_self)
    refine ⟨s.skVertices.filterMap o ++ rows, ?_, fun l => ?_⟩
    · unfold outputAt
      rw [collect_eq ho, e1]
      rfl
    · rw [List.mem_append, List.mem_filterMap, e2, List.mem_cons]
      constructor
      · rintro (⟨v, hv, q⟩ | ⟨q1, q2⟩)
        · obtain ⟨a, b, -⟩ := (hl v hv l).1 q
          exact ⟨a, .inl b⟩
        · exact ⟨q1, .inr q2⟩
      · rintro ⟨q1, q2 | q2⟩
        · exact .inl ⟨l.v, q1.front.1, (hl l.v q1.front.1 l).2 ⟨q1, q2, rfl⟩⟩
        · exact .inr ⟨q1, q2⟩

/-- where no vertex is endless, the first file is what `calc_offsets` yields -/
theorem outputOffset_left {s : St K} (h : Drawable s) {v : VId} (hv : v ∈ s.skVertices) (t : K) (hE : ¬ Endless s t) :
    outputOffset true s t v = offsetOf s t v := by
  obtain ⟨hvn, k, hk⟩ := h.vertices v hv
  obtain ⟨⟨a, ha⟩, -, -⟩ := h.starts v k hvn hk
  unfold outputOffset offsetOf
  rw [hk]
  dsimp only
  rw [ha]
  dsimp only
  by_cases c : a ≤ t
  · rw [if_pos c]
    cases hst : k.stopsAt with
    | none => exact absurd ⟨v, hv, k, a, hk, ha, c, hst⟩ hE
    | some b =>
      dsimp only
      by_cases c2 : b > t
      · rw [if_pos c2]
        exact (if_pos (Or.inl ⟨c, b, rfl, c2⟩)).symm
      · rw [if_neg c2, if_neg]
        rintro (⟨-, b', e, q⟩ | ⟨-, e⟩)
        · cases e; exact c2 q
        · cases e
  · rw [if_neg c, if_neg]
    rintro (⟨q, -⟩ | ⟨q, -⟩) <;> exact c q

theorem outputAt_left {s : St K} (h : Drawable s) : ∀ ts : List K, (∀ t ∈ ts, ¬ Endless s t) →
    outputAt true s ts = offsetsAt s ts
  | [], _ => rfl
  | t :: ts, hE => by
    have e : ∀ l : List VId, (∀ v ∈ l, v ∈ s.skVertices) →
        collect (outputOffset true s t) l = collect (offsetOf s t) l := by
      intro l
      induction l with
      | nil => intro _; rfl
      | cons v l ih =>
        intro hl
        unfold collect
        rw [outputOffset_left h (hl v List.mem_cons_self) t (hE t List.mem_cons_self),
          ih fun w hw => hl w (List.mem_cons_of_mem _ hw)]
    unfold outputAt offsetsAt
    rw [e _ fun _ hv => hv, outputAt_left h ts fun x hx => hE x (List.mem_cons_of_mem _ hx)]

theorem outputOffsets_rows {s : St K} (h : Drawable s) (t : K) {ct : ℕ} (hct : 0 < ct)
    (hE : ∀ i < ct, ¬ Endless s (i * t / ct)) : ∃ l r, outputOffsets s t ct = .ok (l, r) ∧ calcOffsets s t ct = .ok l ∧
      (∀ o, o ∈ l ↔ LineTo true s o ∧ ∃ i < ct, o.time = i * t / ct) ∧
      ∀ o, o ∈ r ↔ LineTo false s o ∧ ∃ i < ct, o.time = i * t / ct := by
  have hc0 : ((ct : ℤ) : K) ≠ 0 := by
    rw [Int.cast_natCast, Nat.cast_ne_zero]; omega
  have mem : ∀ x, x ∈ (List.range (ct : ℤ).toNat).map (fun i : ℕ => (i : K) * (t / ((ct : ℤ) : K))) ↔
      ∃ i < ct, x = i * t / ct := by
    intro x
    rw [List.mem_map]
    constructor
    · rintro ⟨i, hi, rfl⟩
      exact ⟨i, by simpa using hi, by rw [Int.cast_natCast, mul_div_assoc]⟩
    · rintro ⟨i, hi, rfl⟩
      exact ⟨i, by simpa using hi, by rw [Int.cast_natCast, mul_div_assoc]⟩
  have hE' : ∀ x ∈ (List.range (ct : ℤ).toNat).map (fun i : ℕ => (i : K) * (t / ((ct : ℤ) : K))), ¬ Endless s x := by
    intro x hx
    obtain ⟨i, hi, rfl⟩ := (mem x).1 hx
    exact hE i hi
  obtain ⟨l, l1, l2⟩ := outputAt_rows h true _ hE'
  obtain ⟨r, r1, r2⟩ := outputAt_rows h false _ hE'
  have e := outputAt_left h _ hE'
  refine ⟨l, r, ?_, ?_, fun o => by rw [l2, mem], fun o => by rw [r2, mem]⟩
  · unfold outputOffsets pdiv
    rw [if_neg hc0]
    simp only [bind, Except.bind]
    rw [l1, r1]
    rfl
  · unfold calcOffsets pdiv
    rw [if_neg hc0]
    simp only [bind, Except.bind]
    rw [← e, l1]

variable [HasSqrt K] [HasTrig K]

/-- **C51.** When every vertex that has started stops at some time, `output_offsets` succeeds: the first file has exactly
the lines that `calc_offsets` yields, from each vertex on the wavefront to its neighbour on the left, the second one the
lines to the neighbour on the right. -/
theorem C51_files {depth : ℕ} {s0 : St K} {n : ℕ} {now : K} {s : St K} {tr : List (Event K × K)}
    (h : Execution depth s0 n now s tr) (t : K) {ct : ℕ} (hct : 0 < ct)
    (hstop : ∀ v ∈ s.skVertices, ∀ k, s.vert v = .kin k → ∃ b, k.stopsAt = some b) :
    ∃ l r, outputOffsets s t ct = .ok (l, r) ∧ calcOffsets s t ct = .ok l ∧
      (∀ o, o ∈ l ↔ LineTo true s o ∧ ∃ i < ct, o.time = i * t / ct) ∧
      ∀ o, o ∈ r ↔ LineTo false s o ∧ ∃ i < ct, o.time = i * t / ct := by
  refine outputOffsets_rows (execution_drawable h) t hct fun i _ => ?_
  rintro ⟨v, hv, k, a, hk, -, -, hn⟩
  obtain ⟨b, hb⟩ := hstop v hv k hk
  rw [hn] at hb
  cases hb

variable [SqrtUnit K] {dt : Dt K} {depth : ℕ} {skel s0 : St K} {n : ℕ} {now : K} {s : St K} {trace : List (Event K × K)}

/-- at the end of a run in general position every vertex has stopped -/
theorem GeneralRun.all_stopped (h : GeneralRun dt depth skel s0 n now s trace) (hl : LoneEvents depth s0 n)
    (hi : s.immediate = []) (hq : s.queue = []) :
    ∀ v ∈ s.skVertices, ∀ k, s.vert v = .kin k → ∃ b, k.stopsAt = some b := by
  intro v hv k hk
  have hdone : ∀ t ∈ s.skTriangles, ¬ Live s t := fun t ht hl =>
    h.finished hi hq (h.run.triangles ▸ ht) hl
  obtain ⟨hI, -⟩ := execution_inv h.run
  obtain ⟨-, -, n', -, -, e, -⟩ := (C88_complete (h.lone hl) hdone).1 v hv
  obtain ⟨-, -, both, o, -⟩ := hI.lives v k (hI.refs.skVertices v hv) hk
  rw [endOf_kin hk] at e
  exact Option.isSome_iff_exists.1 (both.2 (by rw [e]; rfl))

/-- **C94.** In general position both files of `output_offsets` show the same closed curves: the second one has the lines
of the first one, walked through the other way round, and the first one those of `calc_offsets`. -/
theorem C94_output_offsets (h : GeneralRun dt depth skel s0 n now s trace) (hl : LoneEvents depth s0 n)
    (hi : s.immediate = []) (hq : s.queue = []) {t : K} (ht : 0 ≤ t) {ct : ℕ} (hct : 0 < ct) :
    ∃ l r, outputOffsets s t ct = .ok (l, r) ∧ calcOffsets s t ct = .ok l ∧
      ∀ p q x v u, ⟨p, q, x, v, u⟩ ∈ r ↔ ⟨q, p, x, u, v⟩ ∈ l := by
  obtain ⟨l, r, e1, e2, e3, e4⟩ := C51_files h.run t hct (h.all_stopped hl hi hq)
  refine ⟨l, r, e1, e2, fun p q x v u => ?_⟩
  rw [e3, e4]
  dsimp only
  refine and_congr_left ?_
  rintro ⟨i, hict, hxi⟩
  have hx0 : 0 ≤ x := by rw [hxi]; exact div_nonneg (mul_nonneg (Nat.cast_nonneg _) ht) (Nat.cast_nonneg _)
  obtain ⟨ring, -⟩ := C94_rings h hl hx0 (.inr ⟨hi, by rw [hq]; nofun⟩)
  constructor
  · rintro ⟨f, ⟨k, hk, hn⟩, hp, hq⟩
    dsimp only at f hk hn hp hq
    obtain ⟨w, a1, ⟨k', a2, a3⟩, a4⟩ := ring.right v f
    rw [hk] at a2; cases a2
    rw [hn] at a3; cases a3
    exact ⟨a1, a4, hq, hp⟩
  · rintro ⟨f, ⟨k, hk, hn⟩, hp, hq⟩
    dsimp only at f hk hn hp hq
    obtain ⟨w, a1, ⟨k', a2, a3⟩, a4⟩ := ring.left u f
    rw [hk] at a2; cases a2
    rw [hn] at a3; cases a3
    exact ⟨a1, a4, hq, hp⟩

/-- The two files for the pentagon with a notch at the times 0 and 9/5, after its split: eleven lines each. -/
example : ∃ s tr l r, GeneralRun Sample.notchDt 100 Sample.notchSkeleton Sample.notchStart 4 (29 / 12) s tr ∧
    LoneEvents 100 Sample.notchStart 4 ∧ s.immediate = [] ∧ s.queue = [] ∧ outputOffsets s (18 / 5) 2 = .ok (l, r) ∧
    l.length = 11 ∧ r.map (fun o => (o.time, o.v, o.u)) = [(0, 0, 2), (0, 2, 4), (0, 4, 6), (0, 6, 8), (0, 8, 0), (9 / 5, 2, 4),
      (9 / 5, 4, 12), (9 / 5, 6, 8), (9 / 5, 8, 11), (9 / 5, 11, 6), (9 / 5, 12, 2)] := by
  obtain ⟨s, tr, hs, hi, hq, h⟩ := Sample.notch_done
  have hv : (stateAt 100 Sample.notchFirst 4).map (fun r => (outputOffsets r.2 (18 / 5) 2).toOption.map fun x =>
      (x.1.length, x.2.map fun o => (o.time, o.v, o.u))) = some (some (11, [(0, 0, 2), (0, 2, 4), (0, 4, 6), (0, 6, 8),
        (0, 8, 0), (9 / 5, 2, 4), (9 / 5, 4, 12), (9 / 5, 6, 8), (9 / 5, 8, 11), (9 / 5, 11, 6), (9 / 5, 12, 2)])) := by
    decide +kernel
  obtain ⟨l, r, e1, -, -⟩ := C94_output_offsets h (Sample.notch_input.lone 4) hi hq (t := 18 / 5) (by norm_num) (ct := 2)
    (by norm_num)
  have e1 : outputOffsets s (18 / 5) 2 = .ok (l, r) := e1
  rw [hs] at hv
  simp only [Option.map_some] at hv
  rw [e1] at hv
  obtain ⟨h1, h2⟩ := Prod.mk.inj (Option.some.inj (Option.some.inj hv))
  exact ⟨s, tr, l, r, h, Sample.notch_input.lone 4, hi, hq, e1, h1, h2⟩

end Grassfire
