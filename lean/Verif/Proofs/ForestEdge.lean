/-
A side collapses in a region without holes (lemmas for C71).
-/
import Verif.Proofs.ForestSteps

set_option linter.unusedSectionVars false

namespace Grassfire

open Spec

variable {K : Type} [Field K] [LinearOrder K] {P P' : TId → Prop} {s s' : St K}

theorem fin3_third : ∀ m k j e : Fin 3, m ≠ k → m ≠ j → k ≠ j → k ≠ e → j ≠ e → m = e := by decide

/-- around the new vertex, within a fan -/
theorem Spec.FanWalk.around {dir : Dir} {v kv : VId} {ot : Option TId} {l : List TId} (hw : FanWalk dir v s.tri ot l)
    (hv : ∀ x ∈ l, ∀ i, (s.tri x).vertices i = v → (s'.tri x).vertices i = kv) (hl : ∀ x ∈ l, P' x)
    (hn : ∀ x ∈ l, ∀ i y, (s.tri x).neighbours i = some y → y ∈ l → (s'.tri x).neighbours i = some y) :
    ∀ a, ot = some a → ∀ x ∈ l, Relation.ReflTransGen (Bes P' s' kv) a x := by
  suffices ∀ l', (∀ x ∈ l, x ∈ l') → (∀ x ∈ l', ∀ i, (s.tri x).vertices i = v → (s'.tri x).vertices i = kv) →
      (∀ x ∈ l', P' x) → (∀ x ∈ l', ∀ i y, (s.tri x).neighbours i = some y → y ∈ l' → (s'.tri x).neighbours i = some y) →
      ∀ a, ot = some a → ∀ x ∈ l, Relation.ReflTransGen (Bes P' s' kv) a x from this l (fun _ h => h) hv hl hn
  clear hv hl hn
  induction hw with
  | stop => intro l' _ _ _ _ a h; cases h
  | @step t i l hi hw ih =>
    intro l' sub hv hl hn a ha x hx
    injection ha with ha
    subst ha
    rcases List.mem_cons.1 hx with rfl | hx
    · exact .refl
    cases hz : (s.tri t).neighbours (dir.fn i) with
    | none =>
      rw [hz] at hw
      cases hw
      cases hx
    | some z =>
      have ht := sub t List.mem_cons_self
      have hzl : z ∈ l := by
        rw [hz] at hw
        cases hw
        exact List.mem_cons_self
      refine .head ⟨hl t ht, dir.fn i, i, ?_, hv t ht i hi, hn t ht _ z hz (sub z (List.mem_cons_of_mem _ hzl))⟩
        (ih l' (fun x hx => sub x (List.mem_cons_of_mem _ hx)) hv hl hn z hz x hx)
      cases dir with
      | cw => exact fin3_ne_2 i
      | ccw => exact fin3_ne_1 i

theorem simple_edge {t : TId} {e : Fin 3} {kv : VId} (hC : Consistent P s) (hC' : Consistent P' s') (hN : Simple P s)
    (hf : ∀ x, P x → ∀ i, (s.tri x).vertices i ≠ kv) (hlt : P t) (live : ∀ x, P' x ↔ P x ∧ x ≠ t)
    {fanA fanB : List TId} (disj : ∀ x ∈ fanA, x ∉ fanB) (clA : ClosedFan P s t ((s.tri t).vertices (e + 2)) fanA)
    (clB : ClosedFan P s t ((s.tri t).vertices (e + 1)) fanB)
    (D : EdgeDone P s s' t e ((s.tri t).vertices (e + 1)) ((s.tri t).vertices (e + 2)) kv fanA fanB) : Simple P' s' := by
  obtain ⟨⟨rank, hr⟩, hR⟩ := hN
  have hL : ∀ {x}, P' x → P x ∧ x ≠ t := fun {x} hx => (live x).1 hx
  have e12 := fin3_1_ne_2 e
  -- a new connection is an old one or leads from the one neighbour of `t` to the other
  have cases' : ∀ {x i y}, P' x → (s'.tri x).neighbours i = some y →
      ((s.tri x).neighbours i ≠ some t ∧ (s.tri x).neighbours i = some y) ∨
      ∃ k k', k ≠ k' ∧ k ≠ e ∧ k' ≠ e ∧ Across P s x i t k ∧ (s.tri t).neighbours k' = some y := by
    intro x i y hx hi
    by_cases q : (s.tri x).neighbours i = some t
    · right
      obtain ⟨k, hk⟩ := across_of hC (hL hx).1 q
      rcases fin3_cases e k with rfl | rfl | rfl
      · have := (D.gapE x i hk.back q).2.2
        rw [hi] at this; cases this
      · have := (D.gapA x i hk.back q).2
        rw [hi] at this
        exact ⟨_, e + 2, e12, (fin3_ne_1 e).symm, (fin3_ne_2 e).symm, hk, this.symm⟩
      · have := (D.gapB x i hk.back q).2
        rw [hi] at this
        exact ⟨_, e + 1, e12.symm, (fin3_ne_2 e).symm, (fin3_ne_1 e).symm, hk, this.symm⟩
    · left
      rw [D.same x i (hL hx).1 (hL hx).2 q] at hi
      exact ⟨q, hi⟩
  have across' : ∀ {x i k y k'}, P' x → Across P s x i t k → (s.tri t).neighbours k' = some y → k ≠ e →
      k' ≠ e → k ≠ k' → (s'.tri x).neighbours i = some y := by
    intro x i k y k' hx hk hk' h1 h2 h3
    rcases fin3_cases e k with rfl | rfl | rfl
    · exact absurd rfl h1
    · rcases fin3_cases e k' with rfl | rfl | rfl
      · exact absurd rfl h2
      · exact absurd rfl h3
      · exact (D.gapA x i hk.back hk.go).2.trans hk'
    · rcases fin3_cases e k' with rfl | rfl | rfl
      · exact absurd rfl h2
      · exact (D.gapB x i hk.back hk.go).2.trans hk'
      · exact absurd rfl h3
  refine ⟨⟨rank, ?_⟩, ?_⟩
  · intro x hx i j n m hi hj hn hm
    have low : ∀ {i n}, (s'.tri x).neighbours i = some n → rank n ≤ rank x →
        ∃ n', (s.tri x).neighbours i = some n' ∧ rank n' ≤ rank x := by
      intro i n hi hn
      rcases cases' hx hi with ⟨-, q⟩ | ⟨k, k', hkk, -, -, ha, hk'⟩
      · exact ⟨n, q, hn⟩
      · refine ⟨t, ha.go, ?_⟩
        by_contra q
        have q := not_le.1 q
        exact hkk (hr t hlt k k' x n ha.back hk' q.le (hn.trans q.le))
    obtain ⟨n', a, b⟩ := low hi hn
    obtain ⟨m', c, d⟩ := low hj hm
    exact hr x (hL hx).1 i j n' m' a c b d
  intro w x y hx hy hc ⟨i, hi⟩ ⟨j, hj⟩
  have val : ∀ x j, (s'.tri x).vertices j = if x ∈ fanA then (if (s.tri x).vertices j = (s.tri t).vertices (e + 2) then kv
      else (s.tri x).vertices j) else if x ∈ fanB then (if (s.tri x).vertices j = (s.tri t).vertices (e + 1) then kv
      else (s.tri x).vertices j) else (s.tri x).vertices j := by
    intro x j
    rw [D.vertices x]
    split_ifs <;> simp_all [substitute]
  have inA : ∀ {x}, x ∈ fanA → P' x := fun {x} q => (live x).2 ⟨(clA x q).1, (clA x q).2.1⟩
  have inB : ∀ {x}, x ∈ fanB → P' x := fun {x} q => (live x).2 ⟨(clB x q).1, (clB x q).2.1⟩
  by_cases hk : w = kv
  · subst hk
    -- around the new vertex
    have fan : ∀ {x j}, P' x → (s'.tri x).vertices j = w → x ∈ fanA ∨ x ∈ fanB := by
      intro x j hx hj
      rw [val] at hj
      split_ifs at hj with q1 q2 q3 q4
      · exact .inl q1
      · exact .inl q1
      · exact .inr q3
      · exact .inr q3
      · exact absurd hj (hf x (hL hx).1 j)
    have wA := D.walkA.around (s' := s') (kv := w) (fun x hx i hi => by rw [val, if_pos hx, if_pos hi]) (fun x hx => inA hx)
      (fun x hx i y hi hy => by
        rw [D.same x i (hL (inA hx)).1 (hL (inA hx)).2 ?_]; · exact hi
        rw [hi]; exact fun q => (hL (inA hy)).2 (Option.some.inj q))
    have wB := D.walkB.around (s' := s') (kv := w) (fun x hx i hi => by rw [val, if_neg (fun z => disj x z hx), if_pos hx, if_pos hi])
      (fun x hx => inB hx) (fun x hx i y hi hy => by
        rw [D.same x i (hL (inB hx)).1 (hL (inB hx)).2 ?_]; · exact hi
        rw [hi]; exact fun q => (hL (inB hy)).2 (Option.some.inj q))
    have hsome : ∀ {dir v o l} {x : TId}, FanWalk dir v s.tri o l → x ∈ l → ∃ a, o = some a := by
      intro dir v o l x hw hx
      cases hw with
      | stop => cases hx
      | step _ _ => exact ⟨_, rfl⟩
    have AB : ∀ {x y}, x ∈ fanA → y ∈ fanB → Relation.ReflTransGen (Bes P' s' w) x y := by
      intro x y hx hy
      obtain ⟨a, ha⟩ := hsome D.walkA hx
      obtain ⟨b, hb⟩ := hsome D.walkB hy
      obtain ⟨k, hk⟩ := across_of hC hlt ha
      have ma := (D.gapA a k ha hk.back)
      refine (around_symm hC' (wA a ha x hx)).trans (.head ⟨inA ma.1, k, k + 2, (fin3_ne_2 k).symm, ?_, ma.2.trans hb⟩ (wB b hb y hy))
      have := hk.v2
      rw [fin3_add_1_1] at this
      rw [val, if_pos ma.1, if_pos this]
    rcases fan hx hi with hxA | hxB <;> rcases fan hy hj with hyA | hyB
    · obtain ⟨a, ha⟩ := hsome D.walkA hxA
      exact (around_symm hC' (wA a ha x hxA)).trans (wA a ha y hyA)
    · exact AB hxA hyB
    · exact around_symm hC' (AB hyA hxB)
    · obtain ⟨a, ha⟩ := hsome D.walkB hxB
      exact (around_symm hC' (wB a ha x hxB)).trans (wB a ha y hyB)
  by_cases hxy : x = y
  · rw [hxy]
  let Good : TId → Prop := fun x => (w = (s.tri t).vertices (e + 2) → x ∉ fanA) ∧ (w = (s.tri t).vertices (e + 1) → x ∉ fanB)
  have pre : ∀ {x j}, (s'.tri x).vertices j = w → (s.tri x).vertices j = w ∧ Good x := by
    intro x j hj
    rw [val] at hj
    have o1 : ∀ {p : Prop}, x ∈ fanA → (s.tri x).vertices j = w → (s.tri t).vertices (e + 1) = w → p := fun a b c =>
      absurd (b.trans c.symm) (D.otherA x a j)
    have o2 : ∀ {p : Prop}, x ∈ fanB → (s.tri x).vertices j = w → (s.tri t).vertices (e + 2) = w → p := fun a b c =>
      absurd (b.trans c.symm) (D.otherB x a j)
    split_ifs at hj with q1 q2 q3 q4
    · exact absurd hj.symm hk
    · exact ⟨hj, fun z => absurd (hj.trans z) q2, fun z => o1 q1 hj z.symm⟩
    · exact absurd hj.symm hk
    · exact ⟨hj, fun _ => q1, fun z => absurd (hj.trans z) q4⟩
    · exact ⟨hj, fun _ => q1, fun _ => q3⟩
  have post : ∀ {x j}, Good x → (s.tri x).vertices j = w → (s'.tri x).vertices j = w := by
    intro x j hg hj
    rw [val]
    split_ifs with q1 q2 q3 q4
    · exact absurd q1 (hg.1 (hj.symm.trans q2))
    · exact hj
    · exact absurd q3 (hg.2 (hj.symm.trans q4))
    · exact hj
    · exact hj
  let NE : TId → Fin 3 → TId → Fin 3 → Prop := fun x i y k => Across P s x i y k ∧ ¬ (x = t ∧ i = e) ∧ ¬ (y = t ∧ k = e)
  have star : Relation.ReflTransGen (fun x y => ∃ i k, NE x i y k) x y := by
    have adj : ∀ x y, Adj P' s' x y → Relation.ReflTransGen (fun x y => ∃ i k, NE x i y k) x y := by
      rintro x y ⟨hx, i, hi⟩
      have ly : P' y := (facing hC' hx hi).1
      rcases cases' hx hi with ⟨-, q⟩ | ⟨k, k', hkk, h1, h2, ha, hk'⟩
      · obtain ⟨k, hk⟩ := across_of hC (hL hx).1 q
        exact .single ⟨i, k, hk, fun z => (hL hx).2 z.1, fun z => (hL ly).2 z.1⟩
      · obtain ⟨m, hm⟩ := across_of hC hlt hk'
        exact .head ⟨i, k, ha, fun z => (hL hx).2 z.1, fun z => h1 z.2⟩
          (.single ⟨k', m, hm, fun z => h2 z.2, fun z => (hL ly).2 z.1⟩)
    clear hi hj hxy hy
    induction hc with
    | refl => exact .refl
    | tail _ hb ih => exact ih.trans (adj _ _ hb)
  have conn : Conn P s x y := star_mono star fun a b ⟨i, k, q⟩ => (adjacent_iff hC).2 ⟨i, k, q.1⟩
  obtain ⟨n1, i1, k1, tr1⟩ := (trail_of_star hC (S := NE) (fun _ _ _ _ q => q.1) star).resolve_left hxy
  obtain ⟨n2, i2, k2, tr2⟩ := around_trail hC hR (hL hx).1 (hL hy).1 conn ⟨i, (pre hi).1⟩ ⟨j, (pre hj).1⟩ hxy
  obtain ⟨-, -, tr⟩ := tr1.unique hC hr (fun _ _ _ _ q => q.1) (fun _ _ _ _ q => q.1) tr2
  have direct : ∀ {x i y k}, x ≠ t → y ≠ t → Good x → Rim P s w x i y k → Bes P' s' w x y ∧ Good y := by
    intro x i y k hxt hyt hg hb
    refine ⟨?_, fun z => ?_, fun z => ?_⟩
    · obtain ⟨ha, j, hj, hv⟩ := hb
      refine ⟨(live x).2 ⟨ha.px, hxt⟩, i, j, hj, post hg hv, ?_⟩
      rw [D.same x i ha.px hxt]
      · exact ha.go
      · rw [ha.go]; exact fun q => hyt (Option.some.inj q)
    · exact fun q => hg.1 z ((clA.stay (z ▸ hb) hxt hyt).2 q)
    · exact fun q => hg.2 z ((clB.stay (z ▸ hb) hxt hyt).2 q)
  have main : ∀ n x i y k, Trail (fun x i y k => NE x i y k ∧ Rim P s w x i y k) n x i y k → x ≠ t → y ≠ t → Good x →
      Relation.ReflTransGen (Bes P' s' w) x y := by
    intro n
    induction n using Nat.strong_induction_on with
    | _ n ih =>
      intro x i y k ht hxt hyt hg
      cases ht with
      | one a => exact .single (direct hxt hyt hg a.2).1
      | @cons n _ _ z k j _ _ a hkj ht =>
        by_cases hzt : z = t
        · subst hzt
          -- over `t`
          have hke : k ≠ e := fun q => a.1.2.2 ⟨rfl, q⟩
          have through : ∀ {y m}, NE z j y m ∧ Rim P s w z j y m → Bes P' s' w x y ∧ Good y ∧ y ≠ z := by
            intro y m b
            have hje : j ≠ e := fun q => b.1.2.1 ⟨rfl, q⟩
            have hyz : y ≠ z := (b.1.1.ne hC).symm
            obtain ⟨-, p, hp, hpv⟩ := a.2
            obtain ⟨-, q, hq, hqv⟩ := rim_symm a.2
            obtain ⟨-, q', hq', hqv'⟩ := b.2
            obtain rfl := (hC z hlt).2.1 (hqv.trans hqv'.symm)
            have hqe : q = e := fin3_third q k j e hq hq' hkj hke hje
            subst hqe
            have lx : P' x := (live x).2 ⟨a.1.1.px, hxt⟩
            refine ⟨⟨lx, i, p, hp, post hg hpv, across' lx a.1.1 b.1.1.go hke hje hkj⟩, ⟨fun c => ?_, fun c => ?_⟩, hyz⟩
            · exact absurd ((hC z hlt).2.1 (hqv.trans c)) (fin3_ne_2 q)
            · exact absurd ((hC z hlt).2.1 (hqv.trans c)) (fin3_ne_1 q)
          cases ht with
          | one b => exact .single (through b).1
          | @cons n' _ _ y' k' j' _ _ b hkj' ht' =>
            obtain ⟨b1, b2, b3⟩ := through b
            exact .head b1 (ih n' (by omega) _ _ _ _ ht' b3 hyt b2)
        · obtain ⟨b, g⟩ := direct hxt hzt hg a.2
          exact .head b (ih n (by omega) _ _ _ _ ht hzt hyt g)
  exact main _ _ _ _ _ tr (hL hx).2 (hL hy).2 (pre hi).2

end Grassfire
