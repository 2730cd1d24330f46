/-
Counting the iterations of the event loop in general position (lemmas for C92).
-/
import Mathlib.Data.Finset.Card
import Mathlib.Data.Finset.Powerset
import Verif.Proofs.FlatSteps
import Verif.Proofs.InwardEnd
import Verif.Props.Cubic

set_option linter.unusedSectionVars false

namespace Grassfire

open Spec

variable {K : Type} [Field K] [LinearOrder K] [IsStrictOrderedRing K]

theorem countP_lt {α : Type} {p q : α → Bool} {l : List α} (h : ∀ x ∈ l, p x = true → q x = true) {x : α} (hx : x ∈ l)
    (hp : p x = false) (hq : q x = true) : l.countP p < l.countP q := by
  obtain ⟨l1, l2, rfl⟩ := List.append_of_mem hx
  have h1 : l1.countP p ≤ l1.countP q := List.countP_mono_left fun y hy => h y (by simp [hy])
  have h2 : l2.countP p ≤ l2.countP q := List.countP_mono_left fun y hy => h y (by simp [hy])
  rw [List.countP_append, List.countP_append, List.countP_cons_of_neg (by rw [hp]; nofun), List.countP_cons_of_pos hq]
  omega

/-- a polynomial of the second degree with three zeros -/
theorem three_roots {A B C x y z : K} (hx : A * x ^ 2 + B * x + C = 0) (hy : A * y ^ 2 + B * y + C = 0)
    (hz : A * z ^ 2 + B * z + C = 0) (hxy : x ≠ y) (hxz : x ≠ z) (hyz : y ≠ z) (u : K) : A * u ^ 2 + B * u + C = 0 := by
  have e1 : A * (x + y) + B = 0 :=
    (mul_eq_zero.1 (show (x - y) * (A * (x + y) + B) = 0 by linear_combination hx - hy)).resolve_left (sub_ne_zero.2 hxy)
  have e2 : A * (x + z) + B = 0 :=
    (mul_eq_zero.1 (show (x - z) * (A * (x + z) + B) = 0 by linear_combination hx - hz)).resolve_left (sub_ne_zero.2 hxz)
  have e3 : A = 0 :=
    (mul_eq_zero.1 (show (y - z) * A = 0 by linear_combination e1 - e2)).resolve_left (sub_ne_zero.2 hyz)
  have e4 : B = 0 := by rw [e3, zero_mul, zero_add] at e1; exact e1
  rw [e3, e4] at hx ⊢
  linear_combination hx

/-- the area between three moving points -/
def sweep (a b c : KVertex K) (u : K) : K := area2 (pointAt a u) (pointAt b u) (pointAt c u)

theorem sweep_quadratic (a b c : KVertex K) : ∃ A B C, ∀ u, sweep a b c u = A * u ^ 2 + B * u + C := by
  refine ⟨(b.velocity.1 - a.velocity.1) * (c.velocity.2 - a.velocity.2) -
      (b.velocity.2 - a.velocity.2) * (c.velocity.1 - a.velocity.1),
    (b.origin.1 - a.origin.1) * (c.velocity.2 - a.velocity.2) + (b.velocity.1 - a.velocity.1) * (c.origin.2 - a.origin.2) -
      (b.origin.2 - a.origin.2) * (c.velocity.1 - a.velocity.1) -
      (b.velocity.2 - a.velocity.2) * (c.origin.1 - a.origin.1),
    (b.origin.1 - a.origin.1) * (c.origin.2 - a.origin.2) - (b.origin.2 - a.origin.2) * (c.origin.1 - a.origin.1),
    fun u => ?_⟩
  unfold sweep area2 pointAt
  dsimp only
  ring

/-- `x`, `y` and `z` cannot all be times at which three points are in line that are not always in line -/
theorem sweep_roots {a b c : KVertex K} (h : ∃ u, sweep a b c u ≠ 0) {x y z : K} (hx : sweep a b c x = 0)
    (hy : sweep a b c y = 0) (hz : sweep a b c z = 0) : x = y ∨ x = z ∨ y = z := by
  by_contra q
  push Not at q
  obtain ⟨A, B, C, hq⟩ := sweep_quadratic a b c
  obtain ⟨u, hu⟩ := h
  rw [hq] at hx hy hz hu
  exact hu (three_roots hx hy hz q.1 q.2.1 q.2.2 u)

theorem sweep_cycle {a b c : KVertex K} (u : K) : sweep b c a u = sweep a b c u := by unfold sweep; exact area2_turn _ _ _

theorem sweep_swap {a b c : KVertex K} (u : K) : sweep b a c u = - sweep a b c u := by
  unfold sweep area2; ring

/-- vertices `a`, `b` and `c` are in line at time `u`, but not always -/
def Collinear3 (s : St K) (a b c : VId) (u : K) : Prop :=
  ∃ ka kb kc, s.vert a = .kin ka ∧ s.vert b = .kin kb ∧ s.vert c = .kin kc ∧ sweep ka kb kc u = 0 ∧
    ∃ y, sweep ka kb kc y ≠ 0

theorem Collinear3.cycle {s : St K} {a b c : VId} {u : K} (h : Collinear3 s a b c u) : Collinear3 s b c a u := by
  obtain ⟨ka, kb, kc, h1, h2, h3, h4, y, h5⟩ := h
  exact ⟨kb, kc, ka, h2, h3, h1, by rw [sweep_cycle]; exact h4, y, by rw [sweep_cycle]; exact h5⟩

theorem Collinear3.swap {s : St K} {a b c : VId} {u : K} (h : Collinear3 s a b c u) : Collinear3 s b a c u := by
  obtain ⟨ka, kb, kc, h1, h2, h3, h4, y, h5⟩ := h
  exact ⟨kb, ka, kc, h2, h1, h3, by rw [sweep_swap, h4, neg_zero], y, by rw [sweep_swap]; exact neg_ne_zero.2 h5⟩

theorem Collinear3.roots {s : St K} {a b c : VId} {x y z : K} (hx : Collinear3 s a b c x) (hy : Collinear3 s a b c y)
    (hz : Collinear3 s a b c z) : x = y ∨ x = z ∨ y = z := by
  obtain ⟨ka, kb, kc, h1, h2, h3, h4, h5⟩ := hx
  obtain ⟨ka', kb', kc', i1, i2, i3, i4, -⟩ := hy
  obtain ⟨ka'', kb'', kc'', j1, j2, j3, j4, -⟩ := hz
  rw [h1] at i1 j1
  rw [h2] at i2 j2
  rw [h3] at i3 j3
  cases i1; cases i2; cases i3; cases j1; cases j2; cases j3
  exact sweep_roots h5 h4 i4 j4

theorem Collinear3.different {s : St K} {a b c : VId} {u : K} (h : Collinear3 s a b c u) : a ≠ b ∧ a ≠ c ∧ b ≠ c := by
  have key : ∀ {a b c : VId}, Collinear3 s a b c u → a ≠ b := by
    rintro a b c ⟨ka, kb, kc, h1, h2, h3, h4, y, h5⟩ rfl
    rw [h1] at h2
    cases h2
    refine h5 ?_
    unfold sweep area2
    ring
  exact ⟨key h, (key h.cycle.cycle).symm, key h.cycle⟩

/-- the order does not matter -/
theorem Collinear3.set {s : St K} {a b c a' b' c' : VId} {u : K} (h : Collinear3 s a b c u)
    (he : ({a', b', c'} : Finset VId) = {a, b, c}) : Collinear3 s a' b' c' u ∨ ¬ (a' ≠ b' ∧ a' ≠ c' ∧ b' ≠ c') := by
  by_cases hd : a' ≠ b' ∧ a' ≠ c' ∧ b' ≠ c'
  swap
  · exact .inr hd
  refine .inl ?_
  obtain ⟨d1, d2, d3⟩ := hd
  have ha : a' ∈ ({a, b, c} : Finset VId) := he ▸ by simp
  have hb : b' ∈ ({a, b, c} : Finset VId) := he ▸ by simp
  have hc : c' ∈ ({a, b, c} : Finset VId) := he ▸ by simp
  simp only [Finset.mem_insert, Finset.mem_singleton] at ha hb hc
  rcases ha with rfl | rfl | rfl <;> rcases hb with rfl | rfl | rfl <;> rcases hc with rfl | rfl | rfl
  all_goals first
    | exact absurd rfl d1
    | exact absurd rfl d2
    | exact absurd rfl d3
    | exact h
    | exact h.swap
    | exact h.cycle
    | exact h.cycle.cycle
    | exact h.cycle.swap
    | exact h.cycle.cycle.swap

theorem Collinear3.grows {s s' : St K} (g : Grows s s') {a b c : VId} (ha : a < s.nV) (hb : b < s.nV) (hc : c < s.nV) {u : K}
    (h : Collinear3 s a b c u) : Collinear3 s' a b c u := by
  have key : ∀ {v : VId} {k : KVertex K}, v < s.nV → s.vert v = .kin k →
      ∃ k', s'.vert v = .kin k' ∧ k'.origin = k.origin ∧ k'.velocity = k.velocity := by
    intro v k hv hk
    have hb := g.vert v hv
    rw [hk] at hb
    cases q : s'.vert v with
    | inf o => rw [q] at hb; exact hb.elim
    | kin k' =>
      rw [q] at hb
      have hb : SameBirth k k' := hb
      exact ⟨k', rfl, hb.origin, hb.velocity⟩
  obtain ⟨ka, kb, kc, h1, h2, h3, h4, y, h5⟩ := h
  obtain ⟨ka', a1, a2, a3⟩ := key ha h1
  obtain ⟨kb', b1, b2, b3⟩ := key hb h2
  obtain ⟨kc', c1, c2, c3⟩ := key hc h3
  have e : ∀ u, sweep ka' kb' kc' u = sweep ka kb kc u := by
    intro u
    unfold sweep pointAt
    rw [a2, a3, b2, b3, c2, c3]
  exact ⟨ka', kb', kc', a1, b1, c1, (e u).trans h4, y, by rw [e]; exact h5⟩

variable [HasSqrt K] [SqrtUnit K] [HasTrig K]

/-- the record that is kept of the flips: the triangle and the time.  Every iteration is a flip, or stops a triangle, or takes
the event of a triangle that has been stopped. -/
structure Tally (S : List TId) (n : ℕ) (now : K) (s : St K) (rec : Finset (TId × K)) : Prop where
  tris : ∀ r ∈ rec, r.1 ∈ S
  past : ∀ r ∈ rec, r.2 ≤ now
  done : ∀ t, (t, now) ∈ rec → Live s t → ¬ FlatAt s t now
  cause : ∀ r ∈ rec, ∃ a b c, a ∈ s.skVertices ∧ b ∈ s.skVertices ∧ c ∈ s.skVertices ∧ Collinear3 s a b c r.2
  count : open Classical in n + S.countP (fun t => decide (Live s t ∨ ∃ f ∈ pending s, f.tri = t)) +
    S.countP (fun t => decide (Live s t)) ≤ rec.card + 2 * S.length

/-- how many there can be -/
theorem Tally.bound {S : List TId} {n : ℕ} {now : K} {s : St K} {rec : Finset (TId × K)} (h : Tally S n now s rec) :
    n ≤ 2 * S.length + 2 * (S.length * s.skVertices.length.choose 3) := by
  classical
  choose! A B C hA hB hC hX using h.cause
  let f : TId × K → TId × Finset VId := fun r => (r.1, {A r, B r, C r})
  have hd : ∀ r ∈ rec, A r ≠ B r ∧ A r ≠ C r ∧ B r ≠ C r := fun r hr => (hX r hr).different
  have fib : ∀ x ∈ rec.image f, (rec.filter fun r => f r = x).card ≤ 2 := by
    intro x hx
    by_contra hlt
    push Not at hlt
    obtain ⟨r1, r2, r3, m1, m2, m3, n12, n13, n23⟩ := Finset.two_lt_card_iff.1 hlt
    rw [Finset.mem_filter] at m1 m2 m3
    obtain ⟨m1, e1⟩ := m1
    obtain ⟨m2, e2⟩ := m2
    obtain ⟨m3, e3⟩ := m3
    have c1 := hX r1 m1
    have c2 : Collinear3 s (A r1) (B r1) (C r1) r2.2 :=
      ((hX r2 m2).set (congrArg Prod.snd (e1.trans e2.symm))).resolve_right (not_not.2 (hd r1 m1))
    have c3 : Collinear3 s (A r1) (B r1) (C r1) r3.2 :=
      ((hX r3 m3).set (congrArg Prod.snd (e1.trans e3.symm))).resolve_right (not_not.2 (hd r1 m1))
    have f12 : r1.1 = r2.1 := (Prod.mk.inj (e1.trans e2.symm)).1
    have f13 : r1.1 = r3.1 := (Prod.mk.inj (e1.trans e3.symm)).1
    rcases c1.roots c2 c3 with q | q | q
    · exact n12 (Prod.ext f12 q)
    · exact n13 (Prod.ext f13 q)
    · exact n23 (Prod.ext (f12.symm.trans f13) q)
  have h1 := Finset.card_le_mul_card_image rec 2 fib
  have h2 : rec.image f ⊆ S.toFinset ×ˢ s.skVertices.toFinset.powersetCard 3 := by
    intro x hx
    obtain ⟨r, hr, rfl⟩ := Finset.mem_image.1 hx
    obtain ⟨d1, d2, d3⟩ := hd r hr
    refine Finset.mem_product.2 ⟨List.mem_toFinset.2 (h.tris r hr), Finset.mem_powersetCard.2 ⟨?_, ?_⟩⟩
    · intro v hv
      simp only [f, Finset.mem_insert, Finset.mem_singleton] at hv
      rcases hv with rfl | rfl | rfl
      · exact List.mem_toFinset.2 (hA r hr)
      · exact List.mem_toFinset.2 (hB r hr)
      · exact List.mem_toFinset.2 (hC r hr)
    · show ({A r, B r, C r} : Finset VId).card = 3
      rw [Finset.card_eq_three]
      exact ⟨_, _, _, d1, d2, d3, rfl⟩
  have h3 := Finset.card_le_card h2
  rw [Finset.card_product, Finset.card_powersetCard] at h3
  have h4 : S.toFinset.card * s.skVertices.toFinset.card.choose 3 ≤ S.length * s.skVertices.length.choose 3 :=
    Nat.mul_le_mul (List.toFinset_card_le _) (Nat.choose_le_choose 3 (List.toFinset_card_le _))
  have h5 := h.count
  omega

variable {dt : Dt K} {depth : ℕ} {skel s0 : St K} {n : ℕ} {now : K} {s : St K} {trace : List (Event K × K)}

theorem GeneralRun.lone (h : GeneralRun dt depth skel s0 n now s trace) (hl : LoneEvents depth s0 n) :
    LoneExecution depth s0 n now s trace := by
  obtain ⟨G, -⟩ := C90_sharp h
  obtain ⟨pyid, tr, hid, h1, rfl⟩ := h.start
  exact ⟨G, C88_init_skeleton dt pyid (fun _ _ _ _ e => hid e) h.mesh h.regions skel h1 true tr,
    fun z hz m hm x u tr' e a b c => (hl z hz m hm x u tr' e a b c).1⟩

/-- the triangles of the skeleton stay the same -/
theorem Spec.Execution.triangles (h : Execution depth s0 n now s trace) : s.skTriangles = s0.skTriangles := by
  obtain ⟨s1, h1, hr⟩ := h.run
  obtain ⟨-, -, -, -, -, f6⟩ := start_frame h1
  have : ∀ {m : ℕ} {x : K} {u : St K} {tr' : List (Event K × K)}, Run depth { s1 with immediate := [] } 0 m x u tr' →
      u.skTriangles = s0.skTriangles := by
    intro m x u tr' hr'
    induction hr' with
    | start => exact f6
    | step hr' hs ih => exact (g_loopStep _ _ _ _ _ _ hs).skTriangles.trans ih
  exact this hr

theorem pending_take {e : Event K} {now' : K} {s2 : St K} (h : takeEvent now s = .ok (some (e, now'), s2)) :
    pending s = e :: pending s2 ∧ ∃ q i, s2 = { s with queue := q, immediate := i } := by
  rcases takeEvent_run now s with ⟨x, r, hi, hx⟩ | ⟨x, r, hi, hq, hx⟩ | ⟨-, -, hx⟩ <;> rw [hx] at h <;> cases h
  · exact ⟨by unfold pending; rw [hi]; rfl, _, _, rfl⟩
  · exact ⟨by unfold pending; dsimp only; rw [hi, hq]; rfl, _, _, rfl⟩

theorem GeneralRun.tally : ∀ {n : ℕ} {now : K} {s : St K} {trace : List (Event K × K)},
    GeneralRun dt depth skel s0 n now s trace → LoneEvents depth s0 n →
      ∃ rec, Tally s0.skTriangles n now s rec := by
  intro n
  induction n with
  | zero =>
    intro now s trace h hl
    classical
    refine ⟨∅, by simp, by simp, by simp, by simp, ?_⟩
    have h1 := List.countP_le_length (p := fun t => decide (Live s t ∨ ∃ f ∈ pending s, f.tri = t)) (l := s0.skTriangles)
    have h2 := List.countP_le_length (p := fun t => decide (Live s t)) (l := s0.skTriangles)
    simp only [Finset.card_empty]
    omega
  | succ n ih =>
    intro now' s' trace h hlone
    obtain ⟨s1, h1, hr⟩ := h.run.run
    cases hr with
    | @step _ now _ s _ tr e hr hs =>
      have hp := h.prefix (Nat.le_succ n) h1 hr
      obtain ⟨rec, T⟩ := ih hp fun z hz m hm => hlone z hz m (Nat.le_succ_of_le hm)
      have L := hp.lone fun z hz m hm => hlone z hz m (Nat.le_succ_of_le hm)
      obtain ⟨G, Sh⟩ := C90_sharp hp
      obtain ⟨R, hI, hg⟩ := G.ready
      obtain ⟨G', Sh'⟩ := C90_sharp h
      obtain ⟨St', -, -⟩ := Sh'.steady
      obtain ⟨_, -, C⟩ := Sh.steady
      have hSt := (C84_steady Sh).1.standing
      obtain ⟨s1', h1', p1, p2, -⟩ := L.state
      have htri := hp.run.triangles
      have hn := loopStep_next hs
      obtain ⟨c1, c2, c3, c4, c5, c6⟩ := cubic_loopStep R hI p1 p2
        (fun f q1 q2 => ⟨hg f q1 q2, (hlone s1 h1 n (Nat.le_succ n) _ _ _ f hr q1 q2).1⟩) hs
      have hnow : now ≤ now' := (wp_ok (i_loopStep depth (n + 1 : ℕ) hI) hs).2.2
      have g := g_loopStep _ _ _ _ _ _ hs
      obtain ⟨s2, h2, h3⟩ := loopStep_some hs
      obtain ⟨hpend, q, i, rfl⟩ := pending_take h2
      obtain ⟨i1, hte, -, hlt⟩ := wp_ok (i_takeEvent hI) h2
      have hsub : ∀ v ∈ s.skVertices, v ∈ s'.skVertices := by
        intro v hv
        by_cases hl : Live s e.tri
        · by_cases hf : e.tp = .flip
          · rw [(c5 hl hf).1.vertices]; exact hv
          · obtain ⟨x, y, hJ, -⟩ := c6 hl hf
            rw [hJ.vertices]
            exact List.mem_append_left _ hv
        · rw [(c4 hl).1.vertices]; exact hv
      have cause' : ∀ r ∈ rec, ∃ a b c, a ∈ s'.skVertices ∧ b ∈ s'.skVertices ∧ c ∈ s'.skVertices ∧
          Collinear3 s' a b c r.2 := by
        intro r hr
        obtain ⟨a, b, c, q1, q2, q3, q4⟩ := T.cause r hr
        exact ⟨a, b, c, hsub a q1, hsub b q2, hsub c q3, q4.grows g (hI.refs.skVertices a q1)
          (hI.refs.skVertices b q2) (hI.refs.skVertices c q3)⟩
      have past' : ∀ r ∈ rec, r.2 ≤ now' := fun r hr => (T.past r hr).trans hnow
      have hcount := T.count
      classical
      by_cases hl : Live s e.tri
      swap
      · -- the event of a triangle that has been stopped
        obtain ⟨U, hsame⟩ := c4 hl
        have hs' : s' = { s with queue := q, immediate := i } := by
          unfold handleEvent at h3
          obtain ⟨X, s3, h4, h3⟩ := bind_run_ok.1 h3
          obtain ⟨-, rfl, rfl⟩ := getT_run_ok.1 h4
          have : (s.tri e.tri).stopsAt.isSome = true := by
            rw [Option.isSome_iff_ne_none]
            exact fun z => hl ⟨hlt, z⟩
          dsimp only at h3
          rw [if_pos this] at h3
          exact (pure_run_ok.1 h3).2.symm
        refine ⟨rec, T.tris, past', fun t ht hlt hft => ?_, cause', ?_⟩
        · obtain rfl := le_antisymm hnow (T.past _ ht)
          subst hs'
          exact T.done t ht hlt hft
        · have d1 : s0.skTriangles.countP (fun t => decide (Live s' t ∨ ∃ f ∈ pending s', f.tri = t)) <
              s0.skTriangles.countP (fun t => decide (Live s t ∨ ∃ f ∈ pending s, f.tri = t)) := by
            refine countP_lt (fun t _ ht => ?_) (htri ▸ c2) ?_ ?_
            · simp only [decide_eq_true_eq] at ht ⊢
              rcases ht with ht | ⟨f, hf, ht⟩
              · exact .inl ((U.live t).1 ht)
              · rw [hs'] at hf
                exact .inr ⟨f, by rw [hpend]; exact List.mem_cons_of_mem _ hf, ht⟩
            · rw [decide_eq_false_iff_not]
              rintro (ht | ⟨f, hf, ht⟩)
              · exact hl ((U.live _).1 ht)
              · have := hI.once
                rw [hpend, List.map_cons, List.nodup_cons] at this
                rw [hs'] at hf
                exact this.1 (List.mem_map.2 ⟨f, hf, ht⟩)
            · rw [decide_eq_true_eq]
              exact .inr ⟨e, by rw [hpend]; exact List.mem_cons_self, rfl⟩
          have d2 : s0.skTriangles.countP (fun t => decide (Live s' t)) =
              s0.skTriangles.countP (fun t => decide (Live s t)) :=
            List.countP_congr fun t _ => by simp only [decide_eq_true_eq]; exact U.live t
          omega
      -- an event that happens
      have hback : ∀ t, Live s' t → Live s t := fun t ht => by
        by_cases hf : e.tp = .flip
        · exact ((c5 hl hf).1.live t).1 ht
        · obtain ⟨x, y, hJ, -⟩ := c6 hl hf
          exact ((hJ.live t).1 ht).1
      have hclosed : Closed (Live s) { s with queue := q, immediate := i } := fun t j x ht hx =>
        (facing R.mesh.consistent ht hx).1
      have hpend' := (w_handleEvent (S := Live s) depth e _ hl _ _ _ hclosed h3).2.2.1
      have d1 : s0.skTriangles.countP (fun t => decide (Live s' t ∨ ∃ f ∈ pending s', f.tri = t)) ≤
          s0.skTriangles.countP (fun t => decide (Live s t ∨ ∃ f ∈ pending s, f.tri = t)) := by
        refine List.countP_mono_left fun t _ ht => ?_
        simp only [decide_eq_true_eq] at ht ⊢
        rcases ht with ht | ⟨f, hf, rfl⟩
        · exact .inl (hback t ht)
        · rcases hpend' f hf with z | z
          · exact .inr ⟨f, by rw [hpend]; exact List.mem_cons_of_mem _ z, rfl⟩
          · exact .inl z
      have step' : ∀ t, Live s' t → FlatAt s' t now' → t ≠ e.tri ∧ Live s t ∧ FlatAt s t now' := by
        intro t ht hft
        obtain ⟨pyid, tr0, -, q1, q2⟩ := hp.start
        obtain ⟨ts, vs, nbr, unwanted, sorted, hd⟩ := initSkeleton_ok q1
        have hx := St'.exact.exact s1 h1 n (Nat.lt_succ_self n) _ _ _ _ _ _ hr hs hl.2
        obtain ⟨hfl, -⟩ := St'.events s1 h1 n (Nat.lt_succ_self n) _ _ _ _ _ _ hr hs
        obtain ⟨ho, -⟩ := G'.iteration h1 (Nat.lt_succ_self n) hr hs
        have hw0 := (hd.waves hp.mesh.toDtOk hp.lengths).prepare true tr0
        have ha0 := (hd.arcs hp.mesh.toDtOk hp.lengths hp.angles hp.spikes).prepare true tr0
        subst q2
        have htn := (hlone s1 h1 n (Nat.le_succ n) _ _ _ e hr hn hl).2
        have ha := execution_arcs hp.angles hw0 ha0 (C84_steady Sh).2.1
        have hw := execution_waves hw0 hp.run
        subst hte
        obtain ⟨a1, a2, a3, a4⟩ := hx
        obtain ⟨r1, r2, r3⟩ := flat_handleEvent hp.angles i1 hl ⟨R.mesh.consistent, R.mesh.distinct, R.mesh.vertices⟩
          (ha.relinked (Relinked.of_mesh rfl)) (hw.quiet (quiet_queues s q i)) h3 ⟨ho.slow, ho.edge, ho.flip, ho.three⟩
          ⟨a1, a2, a3, a4⟩ (hfl hl.2) htn ht hft
        exact ⟨r1, r2, r3⟩
      have done' : ∀ t, (t, now') ∈ rec → Live s' t → ¬ FlatAt s' t now' := by
        intro t ht hlt hft
        obtain ⟨r1, r2, r3⟩ := step' t hlt hft
        obtain rfl := le_antisymm hnow (T.past _ ht)
        exact T.done t ht r2 r3
      by_cases hf : e.tp = .flip
      swap
      · -- a triangle vanishes
        obtain ⟨x, y, hJ, -⟩ := c6 hl hf
        refine ⟨rec, T.tris, past', done', cause', ?_⟩
        have d2 : s0.skTriangles.countP (fun t => decide (Live s' t)) <
            s0.skTriangles.countP (fun t => decide (Live s t)) := by
          refine countP_lt (fun t _ ht => ?_) (htri ▸ c2) ?_ ?_
          · simp only [decide_eq_true_eq] at ht ⊢
            exact hback t ht
          · rw [decide_eq_false_iff_not]
            exact fun z => ((hJ.live _).1 z).2 rfl
          · rw [decide_eq_true_eq]
            exact hl
        omega
      -- a flip
      obtain ⟨U, -⟩ := c5 hl hf
      have d2 : s0.skTriangles.countP (fun t => decide (Live s' t)) =
          s0.skTriangles.countP (fun t => decide (Live s t)) :=
        List.countP_congr fun t _ => by simp only [decide_eq_true_eq]; exact U.live t
      have hk := C.kinetic e.tri (htri ▸ c2) hl
      obtain ⟨b0, k0, e0⟩ := hk 0
      obtain ⟨b1, k1, e1⟩ := hk 1
      obtain ⟨b2, k2, e2⟩ := hk 2
      have harea : ∀ u, areaAt (viewT s e.tri) u = sweep k0 k1 k2 u := fun u => by
        unfold areaAt sweep
        rw [corner_place e0, corner_place e1, corner_place e2]
      have hcr := h.unblurred.sharp s1 h1 n (Nat.lt_succ_self n) _ _ _ _ _ _ hr hs
      have hann := announced (C90_ordinary G).1 (Sh.run.clear s1 h1 n le_rfl _ _ _ hr) hs hSt.slow (htri ▸ c2) hl
        (hcr.step fun _ => generic_plain R hl (hg e hn hl)) C
      have him : s.immediate = [] := hann.early (by rw [hf]; nofun)
      obtain ⟨y, hy⟩ := (h.unblurred.clear s1 h1 n (Nat.le_succ n) _ _ _ hr him e.tri (htri ▸ c2) hl).2.nonzero
      have hflat : FlatAt s e.tri now' := by
        obtain ⟨hfl, -⟩ := St'.events s1 h1 n (Nat.lt_succ_self n) _ _ _ _ _ _ hr hs
        obtain ⟨j, hj, -⟩ := (hg e hn hl).flip hf
        obtain ⟨a, b, c, r, z1, z2, z3, -, -, z4⟩ := hfl hl.2 hf j hj
        rw [hte] at z1 z2 z3
        refine (flatAt_iff j).2 ⟨a, b, c, z1, z2, z3, ?_⟩
        rw [z4]
        unfold area2
        ring
      have hzero : sweep k0 k1 k2 now' = 0 := by
        obtain ⟨a, b, c, z1, z2, z3, z4⟩ := hflat
        obtain ⟨_, w1, rfl⟩ := placeAt_some z1
        obtain ⟨_, w2, rfl⟩ := placeAt_some z2
        obtain ⟨_, w3, rfl⟩ := placeAt_some z3
        rw [e0] at w1
        rw [e1] at w2
        rw [e2] at w3
        cases w1; cases w2; cases w3
        exact z4
      have hnew : (e.tri, now') ∉ rec := by
        intro z
        obtain rfl := le_antisymm hnow (T.past _ z)
        exact T.done _ z hl hflat
      refine ⟨insert (e.tri, now') rec, ?_, ?_, ?_, ?_, ?_⟩
      · intro r hr
        rcases Finset.mem_insert.1 hr with rfl | hr
        · exact htri ▸ c2
        · exact T.tris r hr
      · intro r hr
        rcases Finset.mem_insert.1 hr with rfl | hr
        · exact le_rfl
        · exact past' r hr
      · intro t ht hlt hft
        rcases Finset.mem_insert.1 ht with z | z
        · exact (step' t hlt hft).1 (congrArg Prod.fst z)
        · exact done' t z hlt hft
      · intro r hr
        rcases Finset.mem_insert.1 hr with rfl | hr
        · have hc := p1.corners e.tri c2 hl
          exact ⟨_, _, _, hsub _ (hc 0 (hk 0)), hsub _ (hc 1 (hk 1)), hsub _ (hc 2 (hk 2)),
            Collinear3.grows g b0 b1 b2 ⟨k0, k1, k2, e0, e1, e2, hzero, y, by rw [← harea]; exact hy⟩⟩
        · exact cause' r hr
      · rw [Finset.card_insert_of_notMem hnew]
        omega

/-- the number of arcs -/
theorem Spec.LoneExecution.arcs_bound (h : LoneExecution depth s0 n now s trace) :
    2 * s.skVertices.length ≤ s0.skVertices.length + 3 * liveTriangles s0 := by
  obtain ⟨-, hI, -⟩ := h.generic.ready
  obtain ⟨s1, h1, hP, -, -⟩ := h.state
  obtain ⟨-, c2⟩ := C88_count h
  have : openArcs s ≤ 3 * liveTriangles s := by
    classical
    have e1 : openArcs s = (s.skVertices.toFinset.filter fun v => (endOf s v).isNone = true).card := by
      unfold openArcs
      rw [List.countP_eq_length_filter, ← List.toFinset_filter, List.toFinset_card_of_nodup (hP.once.filter _)]
    have e2 : liveTriangles s = (s.skTriangles.toFinset.filter fun t => (s.tri t).stopsAt.isNone = true).card := by
      unfold liveTriangles
      rw [List.countP_eq_length_filter, ← List.toFinset_filter, List.toFinset_card_of_nodup (hP.different.filter _)]
    rw [e1, e2, mul_comm]
    refine (Finset.card_le_card ?_).trans (Finset.card_biUnion_le_card_mul _
      (fun t => Finset.univ.image (s.tri t).vertices) 3 fun t _ => Finset.card_image_le.trans (by simp))
    intro v hv
    obtain ⟨hv, hn⟩ := Finset.mem_filter.1 hv
    have hv := List.mem_toFinset.1 hv
    obtain ⟨t, ht, hl, j, hj⟩ := hP.held v hv ((open_iff hI hv).1 (Option.isNone_iff_eq_none.1 hn))
    exact Finset.mem_biUnion.2 ⟨t, Finset.mem_filter.2 ⟨List.mem_toFinset.2 ht, by rw [hl.2]; rfl⟩,
      Finset.mem_image.2 ⟨j, Finset.mem_univ _, hj⟩⟩
  omega

end Grassfire
