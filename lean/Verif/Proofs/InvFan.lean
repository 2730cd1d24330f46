/-
The invariant of the event loop: triangles, flips and fans.
-/
import Verif.Proofs.InvStop

set_option linter.unusedSectionVars false

namespace Grassfire

open Spec

variable {K : Type} [Field K] [LinearOrder K] {α β : Type} {N : Prop}

section
variable {L : VId → KVertex K → Prop} {now : K} {s : St K}

theorem index3_lt {N : ℕ} {f : Fin 3 → ℕ} (i : Fin 3) {x : ℕ} (h : ∀ j, f j < N) (hx : x < N) :
    ∀ j, Function.update f i x j < N := by
  intro j
  by_cases e : j = i
  · subst e; rw [Function.update_self]; exact hx
  · rw [Function.update_of_ne e]; exact h j

theorem i_setVertex (h : InvL N L now s) {t : TId} (i : Fin 3) {v : VId} (ht : t < s.nT)
    (hv : v < s.nV) : wp (setVertex t i v) (fun _ s' => InvL N L now s' ∧
      ∀ u, (s'.tri u).neighbours = (s.tri u).neighbours) s := by
  unfold setVertex
  refine wp_modifyT ht ⟨h.tri rfl (index3_lt i (h.refs.vertices t ht) hv) (h.refs.neighbours t ht), ?_⟩
  intro u
  dsimp only
  by_cases e : u = t
  · subst e; rw [Function.update_self]
  · rw [Function.update_of_ne e]

theorem i_setNeighbour (h : InvL N L now s) {t : TId} (i : Fin 3) {x : Option TId} (ht : t < s.nT)
    (hx : ∀ n, x = some n → n < s.nT) :
    wp (setNeighbour t i x) (fun _ s' => InvL N L now s') s := by
  unfold setNeighbour
  refine wp_modifyT ht (h.tri rfl (h.refs.vertices t ht) ?_)
  intro j n
  dsimp only
  by_cases e : j = i
  · subst e; rw [Function.update_self]; exact hx n
  · rw [Function.update_of_ne e]; exact h.refs.neighbours t ht j n

theorem i_setTriangle (h : InvL N L now s) {t : TId} {vs : Fin 3 → VId} {ns : Fin 3 → Option TId}
    (ht : t < s.nT) (hv : ∀ i, vs i < s.nV) (hn : ∀ i n, ns i = some n → n < s.nT) :
    wp (setTriangle t vs ns) (fun _ s' => InvL N L now s') s := by
  unfold setTriangle
  exact wp_modifyT ht (h.tri rfl hv hn)

theorem i_stopTriangle (h : InvL N L now s) {t : TId} (ht : t < s.nT) (time : K) :
    wp (stopTriangle t time) (fun _ s' => InvL N L now s') s := by
  unfold stopTriangle
  exact wp_modifyT ht (h.tri rfl (h.refs.vertices t ht) (h.refs.neighbours t ht))

theorem i_flipSide (n : Option TId) (v : VId) (hn : ∀ x, n = some x → x < s.nT) :
    wp (flipSide n v) (fun _ s' => s' = s) s := by
  unfold flipSide
  cases n with
  | none => exact rfl
  | some n =>
    refine wp_bind.2 (wp_getT (hn n rfl) ?_)
    exact wp_bind.2 (wp_needIdx fun _ _ => rfl)

theorem i_flipLink (h : InvL N L now s) (n : Option TId) (i : Option (Fin 3)) {t : TId}
    (ht : t < s.nT) (hn : ∀ x, n = some x → x < s.nT) :
    wp (flipLink n i t) (fun _ s' => InvL N L now s') s := by
  unfold flipLink
  cases n with
  | none => exact h
  | some n =>
    cases i with
    | none => exact h
    | some i =>
      exact i_setNeighbour h i (hn n rfl) fun _ e => by cases e; exact ht

theorem i_flip (h : InvL N L now s) {t0 t1 : TId} (a b : Fin 3) (h0 : t0 < s.nT) (h1 : t1 < s.nT) :
    wp (flip t0 a t1 b) (fun _ s' => InvL N L now s') s := by
  unfold flip
  refine wp_bind.2 (wp_getT h0 ?_)
  refine wp_bind.2 (wp_getT h1 ?_)
  refine wp_bind.2 (wp_assertM fun _ => ?_)
  refine wp_bind.2 (wp_assertM fun _ => ?_)
  refine wp_bind.2 (wp_assertM fun _ => ?_)
  refine wp_bind.2 (wp_assertM fun _ => ?_)
  dsimp only
  have n0 := h.refs.neighbours t0 h0
  have n1 := h.refs.neighbours t1 h1
  have v0 := h.refs.vertices t0 h0
  have v1 := h.refs.vertices t1 h1
  refine wp_bind.2 (wp_mono (i_flipSide _ _ (n0 _)) ?_)
  rintro sAB s' - rfl
  refine wp_bind.2 (wp_mono (i_flipSide _ _ (n1 _)) ?_)
  rintro sBC s' - rfl
  refine wp_bind.2 (wp_mono (i_flipSide _ _ (n1 _)) ?_)
  rintro sCD s' - rfl
  refine wp_bind.2 (wp_mono (i_flipSide _ _ (n0 _)) ?_)
  rintro sDA s' - rfl
  refine wp_step (i_flipLink h _ _ h0 (n0 _)) (g_flipLink _ _ _) fun _ s1 i1 g1 => ?_
  have e1 := g1.nT
  refine wp_step (i_flipLink i1 _ _ (e1 ▸ h0) (e1 ▸ n1 _)) (g_flipLink _ _ _) fun _ s2 i2 g2 => ?_
  have e2 := g2.nT.trans e1
  refine wp_step (i_flipLink i2 _ _ (e2 ▸ h1) (e2 ▸ n1 _)) (g_flipLink _ _ _) fun _ s3 i3 g3 => ?_
  have e3 := g3.nT.trans e2
  refine wp_step (i_flipLink i3 _ _ (e3 ▸ h1) (e3 ▸ n0 _)) (g_flipLink _ _ _) fun _ s4 i4 g4 => ?_
  have e4 := g4.nT.trans e3
  have f4 : s'.nV ≤ s4.nV := ((g1.nV.trans g2.nV).trans g3.nV).trans g4.nV
  refine wp_step (i_setTriangle i4 (e4 ▸ h0) ?_ ?_) (g_setTriangle _ _ _) fun _ s5 i5 g5 => ?_
  · intro i
    refine lt_of_lt_of_le ?_ f4
    match i with
    | 0 => exact v0 _
    | 1 => exact v0 _
    | 2 => exact v1 _
  · intro i n
    rw [e4]
    match i with
    | 0 => exact n1 _ n
    | 1 => intro e; cases e; exact h1
    | 2 => exact n0 _ n
  have e5 := g5.nT.trans e4
  refine i_setTriangle i5 (e5 ▸ h1) ?_ ?_
  · intro i
    refine lt_of_lt_of_le ?_ (f4.trans g5.nV)
    match i with
    | 0 => exact v1 _
    | 1 => exact v0 _
    | 2 => exact v0 _
  · intro i n
    rw [e5]
    match i with
    | 0 => exact n0 _ n
    | 1 => intro e; cases e; exact h0
    | 2 => exact n1 _ n

theorem i_relink (h : InvL N L now s) {n : TId} (t : TId) {x : Option TId} (hn : n < s.nT)
    (hx : ∀ m, x = some m → m < s.nT) : wp (relink n t x) (fun _ s' => InvL N L now s') s := by
  unfold relink
  refine wp_bind.2 (wp_getT hn ?_)
  refine wp_bind.2 (wp_needIdx fun i _ => ?_)
  exact i_setNeighbour h i hn hx

theorem i_legDist [HasSqrt K] (h : InvL N L now s) {t : TId} (leg : Fin 3) (ht : t < s.nT) (time : K) :
    wp (legDist t leg time) (fun _ s' => s' = s) s := by
  unfold legDist
  refine wp_bind.2 (wp_getT ht ?_)
  refine wp_bind.2 (wp_positionAt (h.refs.vertices t ht _) fun _ => ?_)
  exact wp_bind.2 (wp_positionAt (h.refs.vertices t ht _) fun _ => rfl)

theorem i_vertexIndex {t : TId} (v : VId) (ht : t < s.nT) :
    wp (vertexIndex t v) (fun i s' => s' = s ∧ (s.tri t).vertices i = v) s := by
  unfold vertexIndex
  refine wp_bind.2 (wp_getT ht ?_)
  exact wp_needIdx fun i hi => ⟨rfl, index3_some hi⟩

section
variable [IsStrictOrderedRing K] [HasSqrt K]

theorem i_handleFlip {e : Event K} (h : InvL N L e.time s) (ht : e.tri < s.nT) :
    wp (handleFlip e) (fun _ s' => InvL N L e.time s') s := by
  unfold handleFlip
  refine wp_bind.2 (wp_singleSide fun i _ => ?_)
  refine wp_bind.2 (wp_getT ht ?_)
  refine wp_bind.2 (wp_assertSome fun n hn => ?_)
  have hn' := h.refs.neighbours _ ht _ n hn
  refine wp_bind.2 (wp_getT hn' ?_)
  refine wp_bind.2 (wp_needIdx fun j _ => ?_)
  refine wp_step (i_flip h i j ht hn') (g_flip _ _ _ _) fun _ s1 i1 g1 => ?_
  refine wp_step (i_replaceInQueue i1 (g1.nT ▸ ht)) (g_replaceInQueue _ _) fun _ s2 i2 g2 => ?_
  exact i_replaceInQueue i2 ((g2.nT.trans g1.nT) ▸ hn')

theorem i_detachAndSchedule (h : InvL N L now s) (n : Option TId) (t : TId)
    (hn : ∀ x, n = some x → x < s.nT) :
    wp (detachAndSchedule n t now) (fun _ s' => InvL N L now s') s := by
  unfold detachAndSchedule
  cases n with
  | none => exact h
  | some n =>
    dsimp only
    refine wp_step (i_relink h t (hn n rfl) fun _ e => by cases e) (g_relink _ _ _) fun _ s1 i1 g1 => ?_
    have hn1 : n < s1.nT := g1.nT ▸ hn n rfl
    refine wp_bind.2 (wp_getT hn1 ?_)
    split_ifs
    · exact i_scheduleImmediately i1 hn1
    · exact i1

/-- `replace_kvertex`, as long as the loop is within its bound -/
theorem i_replaceLoop (v : VId) {newv : VId} (dir : Dir) : ∀ (fuel : ℕ) (ot : Option TId)
    (fan : List TId) {s : St K}, InvL N L now s → newv < s.nV → (∀ t, ot = some t → t < s.nT) →
    (∀ t ∈ fan, t < s.nT) →
    match replaceLoop v newv now dir fuel ot fan s with
    | .ok (l, s') => InvL N L now s' ∧ ∀ t ∈ l, t < s'.nT
    | .error f => f.isPy ∨ f = .nonTermination
  | fuel, none, fan, s, h, _, _, hf => by
    cases fuel <;> exact ⟨h, hf⟩
  | 0, some t, fan, s, h, _, _, _ => .inr rfl
  | fuel + 1, some t, fan, s, h, hv, ht, hf => by
    have ht := ht t rfl
    -- all but the recursive call
    have main : wp (do
        let T ← getT t
        let side ← needIdx (index3 T.vertices v)
        setVertex t side newv
        let nk ← getK newv
        renewEvent nk.infFast t now
        let T ← getT t
        pure (T.neighbours (dir.fn side)))
        (fun n s' => InvL N L now s' ∧ Grows s s' ∧ ∀ x, n = some x → x < s'.nT) s := by
      refine wp_bind.2 (wp_getT ht ?_)
      refine wp_bind.2 (wp_needIdx fun i _ => ?_)
      refine wp_step (i_setVertex h i ht hv) (g_setVertex _ _ _) fun _ s1 i1 g1 => ?_
      refine wp_bind.2 (wp_getK (hv.trans_le g1.nV) fun nk _ => ?_)
      have ht1 : t < s1.nT := g1.nT ▸ ht
      refine wp_step (i_renewEvent i1.1 nk.infFast ht1) (g_renewEvent _ _ _) fun _ s2 i2 g2 => ?_
      have ht2 : t < s2.nT := g2.nT ▸ ht1
      refine wp_bind.2 (wp_getT ht2 ?_)
      exact ⟨i2, growsPre.trans _ _ _ g1 g2, i2.refs.neighbours t ht2 _⟩
    have e : replaceLoop v newv now dir (fuel + 1) (some t) fan s = ((do
        let T ← getT t
        let side ← needIdx (index3 T.vertices v)
        setVertex t side newv
        let nk ← getK newv
        renewEvent nk.infFast t now
        let T ← getT t
        pure (T.neighbours (dir.fn side))) >>= fun n =>
          replaceLoop v newv now dir fuel n (fan ++ [t])) s := by
      simp only [bind_assoc, pure_bind]
      rfl
    rw [e, bind_run]
    unfold wp at main
    split at main
    · rename_i n s1 hm
      obtain ⟨i1, g1, hn⟩ := main
      refine i_replaceLoop v dir fuel n (fan ++ [t]) i1 (hv.trans_le g1.nV) hn ?_
      intro x hx
      rw [g1.nT]
      rcases List.mem_append.1 hx with hx | hx
      · exact hf x hx
      · rw [List.mem_singleton.1 hx]; exact ht
    · exact .inl main

theorem i_replaceKvertex (h : InvL N L now s) {t : TId} {v newv : VId} (dir : Dir) (ht : t < s.nT)
    (hv : newv < s.nV) (hne : newv ≠ v) :
    wp (replaceKvertex t v newv now dir) (fun l s' => InvL N L now s' ∧ ∀ x ∈ l, x < s'.nT) s := by
  have h1 := i_replaceLoop (L := L) (now := now) v dir (3 * s.nT + 1) (some t) [] h hv
    (fun _ e => by cases e; exact ht) (fun _ h => absurd h List.not_mem_nil)
  have h2 := replaceLoop_ends hne now dir (3 * s.nT + 1) (some t) [] s
    (Nat.lt_succ_of_le (places_le v s))
  unfold wp replaceKvertex
  split at h1
  · rename_i l s' hm; rw [hm]; exact h1
  · rename_i f hm
    rw [hm]
    rcases h1 with h1 | rfl
    · exact h1
    · exact absurd hm h2

end

end

end Grassfire
