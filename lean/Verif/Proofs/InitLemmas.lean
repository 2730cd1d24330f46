/-
Lemmas about `init_skeleton`: what it means that the stages return normally.
-/
import Verif.Proofs.StarLemmas
import Verif.Spec.Invariants
import Verif.Proofs.InvBasics

set_option linter.unusedSectionVars false

namespace Grassfire

open Spec

variable {K : Type} [Field K] [LinearOrder K] {dt : Dt K}

theorem liftE_ok {α : Type} {x : Except Err α} {a : α} (h : liftE x = .ok a) : x = .ok a := by
  cases x with
  | ok b => cases h; rfl
  | error e => cases h

theorem bindE_ok {ε α β : Type} {x : Except ε α} {f : α → Except ε β} {b : β}
    (h : (x >>= f) = .ok b) : ∃ a, x = .ok a ∧ f a = .ok b := by
  cases x with
  | ok a => exact ⟨a, rfl, h⟩
  | error e => cases h

theorem mapE_ok {α β ε : Type} {f : α → Except ε β} : ∀ {l : List α} {ys : List β},
    mapE f l = .ok ys → List.Forall₂ (fun x y => f x = .ok y) l ys
  | [], ys, h => by cases h; exact .nil
  | x :: xs, ys, h => by
    unfold mapE at h
    obtain ⟨y, hy, h⟩ := bindE_ok h
    obtain ⟨zs, hz, h⟩ := bindE_ok h
    cases h
    exact .cons hy (mapE_ok hz)

theorem mapE_getElem {α β ε : Type} {f : α → Except ε β} {l : List α} {ys : List β}
    (h : mapE f l = .ok ys) : ys.length = l.length ∧
      ∀ (i : ℕ) x, l[i]? = some x → ∃ y, ys[i]? = some y ∧ f x = .ok y := by
  have h' := mapE_ok h
  clear h
  refine ⟨h'.length_eq.symm, ?_⟩
  induction h' with
  | nil => intro i x hx; simp at hx
  | cons hy _ ih =>
    intro i x hx
    cases i with
    | zero => simp at hx; subst hx; exact ⟨_, rfl, hy⟩
    | succ i => simpa using ih i x (by simpa using hx)

/-- the stage that prepares the triangles -/
theorem tris_ok [HasSqrt K] {ts : List (TriStart K)} {n : ℕ}
    (h : mapE (initTri dt) (List.range n) = .ok ts) :
    ts.length = n ∧ ∀ (t : ℕ) x, ts[t]? = some x → initTri dt t = .ok x := by
  obtain ⟨h1, h2⟩ := mapE_getElem h
  rw [List.length_range] at h1
  refine ⟨h1, fun t x hx => ?_⟩
  have ht : t < n := by
    rw [← h1]
    exact (List.getElem?_eq_some_iff.1 hx).1
  obtain ⟨y, hy, hf⟩ := h2 t t (by rw [List.getElem?_range ht])
  rw [hx] at hy
  cases hy
  exact hf

theorem linkSide_ok {t : DT} {j : Fin 3} {o : Option (Option TId)} (h : linkSide dt t j = .ok o) :
    ∀ n, o.join = some n → n < dt.nT ∧ dt.neighbour t j = some n ∧ dt.constrained t j = false := by
  unfold linkSide at h
  intro n hn
  split_ifs at h with hc
  · cases h; cases hn
  · cases hb : dt.neighbour t j with
    | none => rw [hb] at h; cases h; cases hn
    | some m =>
      rw [hb] at h
      dsimp only at h
      split_ifs at h with h1 h2
      · cases h; cases hn
      · cases h; cases hn
        exact ⟨h2, rfl, by simpa using hc⟩

theorem initTri_ok [HasSqrt K] {t : DT} {x : TriStart K} (h : initTri dt t = .ok x) :
    (∀ i, supportLine dt t i = .ok (x.lines i)) ∧
    (∃ o : Fin 3 → Option (Option TId), (∀ i, linkSide dt t i = .ok (o i)) ∧
      (∀ i, x.neighbours i = (o i).join) ∧ x.unwanted = count3 o none) := by
  unfold initTri at h
  obtain ⟨l0, h0, h⟩ := bindE_ok h
  obtain ⟨l1, h1, h⟩ := bindE_ok h
  obtain ⟨l2, h2, h⟩ := bindE_ok h
  obtain ⟨n0, h3, h⟩ := bindE_ok h
  obtain ⟨n1, h4, h⟩ := bindE_ok h
  obtain ⟨n2, h5, h⟩ := bindE_ok h
  cases h
  refine ⟨fun i => ?_, ![n0, n1, n2], fun i => ?_, fun i => ?_, rfl⟩
  · fin_cases i <;> assumption
  · fin_cases i <;> assumption
  · fin_cases i <;> rfl

/-- what is known of a new kinetic vertex -/
structure NewVertex [HasSqrt K] (dt : Dt K) (ts : List (TriStart K)) (v : DV) (ct : ℕ) (g : List DEdge)
    (first last : DEdge) (kv : KVertex K) : Prop where
  head : g.head? = some first
  tail : g.getLast? = some last
  mid : dt.corner last.1 last.2 = dt.corner first.1 first.2
  bounds : ∀ e ∈ g, e.1 < dt.nT
  left : ∃ l r, lineAt ts last.1 (ccw last.2) = some l ∧ lineAt ts first.1 (cw first.2) = some r ∧
    getBisector l r = .ok kv.velocity
  fields : kv = { origin := dt.pos v, velocity := kv.velocity,
                  startsAt := some 0, startNode := some v,
                  ul := some (wfId last.1 (ccw last.2)), ur := some (wfId first.1 (cw first.2)),
                  wfl := some (wfId last.1 (ccw last.2)), wfr := some (wfId first.1 (cw first.2)),
                  info := ct + 1, internal := dt.internal last.1 }

theorem makeVertex_ok [HasSqrt K] {ts : List (TriStart K)} {v : DV} {ct : ℕ} {g : List DEdge}
    {kv : KVertex K} (h : makeVertex dt ts v ct g = .ok kv) :
    ∃ first last, NewVertex dt ts v ct g first last kv := by
  unfold makeVertex at h
  cases hf : g.head? with
  | none => rw [hf] at h; cases h
  | some first =>
    cases hl : g.getLast? with
    | none => rw [hf, hl] at h; cases h
    | some last =>
      rw [hf, hl] at h
      dsimp only at h
      obtain ⟨_, hm, h⟩ := bindE_ok h
      have hm := passert_ok hm
      rw [decide_eq_true_eq] at hm
      split at h
      · by_cases hlt : first.1 < dt.nT ∧ last.1 < dt.nT
        swap
        · rw [if_neg hlt] at h; cases h
        rw [if_pos hlt] at h
        cases h1 : lineAt ts last.1 (ccw last.2) with
        | none => rw [h1] at h; cases h
        | some l =>
          cases h2 : lineAt ts first.1 (cw first.2) with
          | none => rw [h1, h2] at h; cases h
          | some r =>
            rw [h1, h2] at h
            dsimp only at h
            obtain ⟨bi, hbi, h⟩ := bindE_ok h
            split_ifs at h with hall
            cases h
            refine ⟨first, last, hf, hl, hm, ?_, ⟨l, r, h1, h2, hbi⟩, rfl⟩
            intro e he
            have := List.all_eq_true.1 hall e he
            exact of_decide_eq_true this
      · cases h

theorem makeGroup_ok [HasSqrt K] {ts : List (TriStart K)} {v : DV} : ∀ {gs : List (List DEdge)} {ct : ℕ}
    {vs : List (KVertex K × List DEdge)}, makeGroup dt ts v ct gs = .ok vs →
    vs.map (·.2) = gs ∧ ∀ (i : ℕ) x, vs[i]? = some x → makeVertex dt ts v (ct + i) x.2 = .ok x.1
  | [], ct, vs, h => by
    cases h
    exact ⟨rfl, fun i x hx => by simp at hx⟩
  | g :: gs, ct, vs, h => by
    unfold makeGroup at h
    obtain ⟨kv, hk, h⟩ := bindE_ok h
    obtain ⟨rest, hr, h⟩ := bindE_ok h
    cases h
    obtain ⟨h1, h2⟩ := makeGroup_ok hr
    refine ⟨by rw [List.map_cons, h1], fun i x hx => ?_⟩
    cases i with
    | zero => simp at hx; subst hx; exact hk
    | succ i =>
      have := h2 i x (by simpa using hx)
      rw [Nat.add_assoc, Nat.add_comm 1 i] at this
      exact this

theorem vertexGroups_ok {v : DV} {gs : List (List DEdge)} (h : vertexGroups dt v = .ok gs) :
    dt.finite v = true ∧ splitStar dt v = .ok gs ∧ gs.length ≠ 1 := by
  unfold vertexGroups at h
  obtain ⟨_, h1, h⟩ := bindE_ok h
  obtain ⟨g2, h2, h⟩ := bindE_ok h
  split_ifs at h with hl
  cases h
  exact ⟨passert_ok h1, h2, hl⟩

/-- the loop over the vertices: where the kinetic vertices come from, and that every group is
present -/
theorem makeVertices_ok [HasSqrt K] {ts : List (TriStart K)} : ∀ {l : List DV} {ct : ℕ}
    {vs : List (KVertex K × List DEdge)}, makeVertices dt ts ct l = .ok vs →
    (∀ (i : ℕ) x, vs[i]? = some x → ∃ v ∈ l, ∃ gs, vertexGroups dt v = .ok gs ∧ x.2 ∈ gs ∧
      makeVertex dt ts v (ct + i) x.2 = .ok x.1) ∧
    (∀ v ∈ l, ∃ gs, vertexGroups dt v = .ok gs ∧ ∀ g ∈ gs, ∃ (i : ℕ) (x : _), vs[i]? = some x ∧ x.2 = g) ∧
    vs.map (·.2) = (l.map fun v => match vertexGroups dt v with | .ok gs => gs | .error _ => []).flatten
  | [], ct, vs, h => by
    cases h
    exact ⟨fun i x hx => by simp at hx, fun v hv => absurd hv List.not_mem_nil, rfl⟩
  | v :: l, ct, vs, h => by
    unfold makeVertices at h
    obtain ⟨gs, hg, h⟩ := bindE_ok h
    obtain ⟨here, hh, h⟩ := bindE_ok h
    obtain ⟨rest, hr, h⟩ := bindE_ok h
    cases h
    obtain ⟨a1, a2⟩ := makeGroup_ok hh
    obtain ⟨b1, b2, b3⟩ := makeVertices_ok hr
    have hlen : here.length = gs.length := by rw [← a1, List.length_map]
    refine ⟨fun i x hx => ?_, fun w hw => ?_, ?_⟩
    · by_cases hi : i < here.length
      · rw [List.getElem?_append_left hi] at hx
        refine ⟨v, List.mem_cons_self .., gs, hg, ?_, a2 i x hx⟩
        rw [← a1]
        exact List.mem_map.2 ⟨x, List.mem_of_getElem? hx, rfl⟩
      · rw [List.getElem?_append_right (by omega)] at hx
        obtain ⟨w, hw, gs', h1, h2, h3⟩ := b1 _ x hx
        refine ⟨w, List.mem_cons_of_mem _ hw, gs', h1, h2, ?_⟩
        rw [show ct + gs.length + (i - here.length) = ct + i by omega] at h3
        exact h3
    · rcases List.mem_cons.1 hw with rfl | hw
      · refine ⟨gs, hg, fun g hgm => ?_⟩
        rw [← a1] at hgm
        obtain ⟨x, hx, hxg⟩ := List.mem_map.1 hgm
        obtain ⟨i, hi⟩ := List.mem_iff_getElem?.1 hx
        refine ⟨i, x, ?_, hxg⟩
        rw [List.getElem?_append_left (List.getElem?_eq_some_iff.1 hi).1]
        exact hi
      · obtain ⟨gs', h1, h2⟩ := b2 w hw
        refine ⟨gs', h1, fun g hgm => ?_⟩
        obtain ⟨i, x, hi, hxg⟩ := h2 g hgm
        refine ⟨here.length + i, x, ?_, hxg⟩
        rw [List.getElem?_append_right (by omega), Nat.add_sub_cancel_left]
        exact hi
    · rw [List.map_append, a1, b3, List.map_cons, List.flatten_cons, hg]

/-! ### corners -/

theorem mem_assignments {vs : List (KVertex K × List DEdge)} {e : DEdge} {u : VId} :
    (e, u) ∈ assignments vs ↔ ∃ x, vs[u]? = some x ∧ e ∈ x.2 := by
  unfold assignments
  rw [List.mem_flatMap]
  constructor
  · rintro ⟨⟨x, i⟩, hx, he⟩
    obtain ⟨f, hf, hfe⟩ := List.mem_map.1 he
    cases hfe
    exact ⟨x, List.mem_zipIdx_iff_getElem?.1 hx, hf⟩
  · rintro ⟨x, hx, he⟩
    exact ⟨(x, u), List.mem_zipIdx_iff_getElem?.2 hx, List.mem_map.2 ⟨e, he, rfl⟩⟩

theorem kcorner_some {vs : List (KVertex K × List DEdge)} {t : DT} {i : Fin 3} {u : VId}
    (h : kcorner vs t i = some u) : ∃ x, vs[u]? = some x ∧ (t, i) ∈ x.2 := by
  unfold kcorner at h
  obtain ⟨⟨e, w⟩, hx, rfl⟩ := Option.map_eq_some_iff.1 h
  have h1 := List.find?_some hx
  have h2 := List.mem_reverse.1 (List.mem_of_find?_eq_some hx)
  have h1 : e = (t, i) := of_decide_eq_true h1
  subst h1
  exact mem_assignments.1 h2

theorem kcorner_isSome {vs : List (KVertex K × List DEdge)} {t : DT} {i : Fin 3} {u : VId}
    {x : KVertex K × List DEdge} (h : vs[u]? = some x) (he : (t, i) ∈ x.2) :
    (kcorner vs t i).isSome := by
  unfold kcorner
  rw [Option.isSome_map, List.find?_isSome]
  exact ⟨((t, i), u), List.mem_reverse.2 (mem_assignments.2 ⟨x, h, he⟩), by simp⟩

/-- a corner that occurs in one group only refers to the vertex of that group -/
theorem kcorner_eq {vs : List (KVertex K × List DEdge)} {t : DT} {i : Fin 3} {u : VId}
    {x : KVertex K × List DEdge} (h : vs[u]? = some x) (he : (t, i) ∈ x.2)
    (honly : ∀ w y, vs[w]? = some y → (t, i) ∈ y.2 → w = u) : kcorner vs t i = some u := by
  obtain ⟨w, hw⟩ := Option.isSome_iff_exists.1 (kcorner_isSome h he)
  obtain ⟨y, hy, hm⟩ := kcorner_some hw
  rw [hw, honly w y hy hm]

/-! ### linking -/

theorem linkVertex_fields {vs : List (KVertex K × List DEdge)} (x : KVertex K × List DEdge)
    {first last : DEdge} (hf : x.2.head? = some first) (hl : x.2.getLast? = some last) :
    linkVertex vs x = { x.1 with
      left := x.1.left.set (kcorner vs last.1 (cw last.2)) 0
      right := x.1.right.set (kcorner vs first.1 (ccw first.2)) 0 } := by
  unfold linkVertex
  rw [hf, hl]

theorem checkLink_ok {kvs : List (KVertex K)} {kv : KVertex K} (h : checkLink kvs kv = .ok ()) :
    ∃ a b l r, kv.leftRef = some a ∧ kv.rightRef = some b ∧ kvs[a]? = some l ∧ kvs[b]? = some r ∧
      l.wfr = kv.wfl ∧ kv.wfr = r.wfl := by
  unfold checkLink at h
  cases ha : kv.leftRef with
  | none => rw [ha] at h; cases h
  | some a =>
    cases hl : kvs[a]? with
    | none => rw [ha] at h; simp [hl] at h
    | some l =>
      cases hb : kv.rightRef with
      | none => rw [ha, hb] at h; simp [hl] at h; split_ifs at h
      | some b =>
        cases hr : kvs[b]? with
        | none => rw [ha, hb] at h; simp [hl, hr] at h; split_ifs at h
        | some r =>
          rw [ha, hb] at h
          simp only [Option.bind_some, hl, hr] at h
          obtain ⟨_, h1, h2⟩ := bindE_ok h
          exact ⟨a, b, l, r, rfl, rfl, hl, hr, of_decide_eq_true (passert_ok h1),
            of_decide_eq_true (passert_ok h2)⟩

/-! ### removing the unwanted triangles -/

section
variable {corner : DT → Fin 3 → Option (KRef K)} {nbr : TId → Fin 3 → Option TId}

theorem rotateOut_mem {v : VId} {dir : Fin 3 → Fin 3} {cands : List TId} : ∀ {fuel : ℕ} {seen : List TId}
    {t n : TId}, rotateOut corner nbr v dir cands fuel seen t = .ok (some n) →
    n ∉ cands ∧ ∃ u i, nbr u i = some n
  | 0, _, _, _, h => by cases h
  | fuel + 1, seen, t, n, h => by
    unfold rotateOut at h
    by_cases hs : t ∈ seen
    · rw [if_pos hs] at h; cases h
    rw [if_neg hs] at h
    cases hc : cornerOf corner v t with
    | error e => rw [hc] at h; cases h
    | ok side =>
      rw [hc] at h
      dsimp only at h
      cases hn : nbr t (dir side) with
      | none => rw [hn] at h; cases h
      | some m =>
        rw [hn] at h
        dsimp only at h
        split_ifs at h with hm
        · exact rotateOut_mem h
        · cases h; exact ⟨hm, t, dir side, hn⟩

/-- the walk around a vertex ends -/
theorem rotateOut_terminates {v : VId} {dir : Fin 3 → Fin 3} {cands : List TId} :
    ∀ {fuel : ℕ} {seen : List TId} {t : TId}, seen.Nodup → (∀ x ∈ seen, x ∈ cands) → t ∈ cands →
    cands.length < fuel + seen.length →
    rotateOut corner nbr v dir cands fuel seen t ≠ .error .nonTermination
  | 0, seen, t, hnd, hsub, ht, hlen => by
    have := (List.subperm_of_subset hnd hsub).length_le
    omega
  | fuel + 1, seen, t, hnd, hsub, ht, hlen => by
    unfold rotateOut
    split_ifs with hs
    · simp
    · cases hc : cornerOf corner v t with
      | error e => simp
      | ok side =>
        dsimp only
        cases hn : nbr t (dir side) with
        | none => simp
        | some m =>
          dsimp only
          split_ifs with hm
          · refine rotateOut_terminates (List.nodup_cons.2 ⟨hs, hnd⟩) ?_ hm ?_
            · intro x hx
              rcases List.mem_cons.1 hx with rfl | hx
              · exact ht
              · exact hsub x hx
            · rw [List.length_cons]; omega
          · simp

theorem relinkUnwanted_ok {unwanted : List TId} {kt : TId} {ls : List (TId × Fin 3 × TId)}
    (h : relinkUnwanted corner nbr unwanted kt = .ok ls) :
    ∃ i v a b sa sb, index3 (nbr kt) none = some i ∧ corner kt i = some (.kin v) ∧
      rotateOut corner nbr v cw unwanted (unwanted.length + 1) [] kt = .ok (some a) ∧
      rotateOut corner nbr v ccw unwanted (unwanted.length + 1) [] kt = .ok (some b) ∧
      cornerOf corner v a = .ok sa ∧ cornerOf corner v b = .ok sb ∧
      ls = [(a, ccw sa, b), (b, cw sb, a)] := by
  unfold relinkUnwanted at h
  cases hi : index3 (nbr kt) none with
  | none => rw [hi] at h; cases h
  | some i =>
    rw [hi] at h
    dsimp only at h
    split at h
    · rename_i v hv
      obtain ⟨a, ha, h⟩ := bindE_ok h
      obtain ⟨b, hb, h⟩ := bindE_ok h
      obtain ⟨a', ha', h⟩ := bindE_ok h
      obtain ⟨sa, hsa, h⟩ := bindE_ok h
      obtain ⟨b', hb', h⟩ := bindE_ok h
      obtain ⟨sb, hsb, h⟩ := bindE_ok h
      cases h
      cases a with
      | none => cases ha'
      | some a =>
        cases ha'
        cases b with
        | none => cases hb'
        | some b =>
          cases hb'
          exact ⟨i, v, _, _, sa, sb, rfl, hv, ha, hb, liftE_ok hsa, liftE_ok hsb, rfl⟩
    · cases h

/-- every neighbour afterwards was a neighbour before, or is one of the new ones -/
theorem applyLinks_some : ∀ {links : List (TId × Fin 3 × TId)} {nbr : TId → Fin 3 → Option TId} {t : TId}
    {i : Fin 3} {n : TId}, applyLinks nbr links t i = some n →
    nbr t i = some n ∨ (t, i, n) ∈ links
  | [], _, _, _, _, h => Or.inl h
  | (u, j, m) :: rest, nbr, t, i, n, h => by
    rcases applyLinks_some (links := rest) h with h | h
    · dsimp only at h
      by_cases hu : t = u
      · subst hu
        rw [Function.update_self] at h
        by_cases hj : i = j
        · subst hj
          rw [Function.update_self] at h
          cases h
          exact Or.inr (List.mem_cons_self ..)
        · rw [Function.update_of_ne hj] at h; exact Or.inl h
      · rw [Function.update_of_ne hu] at h; exact Or.inl h
    · exact Or.inr (List.mem_cons_of_mem _ h)

end

end Grassfire
