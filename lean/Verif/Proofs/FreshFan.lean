/-
Freshness of the events: triangles and fans (lemmas for C66).
-/
import Verif.Proofs.FreshQueue
import Verif.Proofs.Aloof

set_option linter.unusedSectionVars false

namespace Grassfire

open Spec

variable {K : Type} [Field K] [LinearOrder K] {α β : Type} {N : Prop}

section
variable {now : K} {s s' : St K} {D D' : TId → Prop} {W : Prop} [IsStrictOrderedRing K] [HasSqrt K]

/-- after a block that keeps the invariant -/
theorem inv_run {m : M K α} {a : α}
    (h : wp m (fun _ s' => InvL N (fun _ => LifeOk now s.skNodes) now s') s) (g : Keeps Grows m)
    (hm : m s = .ok (a, s')) : Inv N now s' :=
  wp_ok (Q := fun _ s' => Inv N now s') (wp_inv h g) hm

/-- vertices are made, stopped and linked -/
theorem fr_aloof (h : Inv N now s) (hf : Fresh W D now s) (g : Grows s s') (a : Aloof s s') : Fresh W D now s' := by
  refine hf.step g.nT (fun t x => by rw [← a.1]; exact x) fun t ht _ hd => .inr ⟨hd, by rw [a.1], ?_, ?_, ?_⟩
  · exact viewT_same (InvL.sameVerts h g) (h.refs.vertices t ht) (by rw [a.1]) (fun i => by rw [a.1]) (by rw [a.1])
  · intro e _; rw [a.2.1]
  · intro e _; rw [a.2.2]

/-- one triangle changes -/
theorem fr_modifyT (hf : Fresh W D now s) {t : TId} {f : KTri K → KTri K} {a : Unit}
    (hs : (f (s.tri t)).stopsAt = none → (s.tri t).stopsAt = none)
    (hm : modifyT t f s = .ok (a, s')) : Fresh W (fun u => D u ∨ u = t) now s' := by
  obtain ⟨-, rfl⟩ := modifyT_run_ok.1 hm
  refine hf.step rfl (fun u x => ?_) fun u _ _ hd => .inr ⟨fun x => hd (.inl x), ?_, ?_, fun _ _ => Iff.rfl, fun _ _ => Iff.rfl⟩
  · dsimp only at x
    by_cases hu : u = t
    · subst hu; rw [Function.update_self] at x; exact hs x
    · rw [Function.update_of_ne hu] at x; exact x
  · dsimp only
    rw [Function.update_of_ne fun x => hd (.inr x)]
  · have hu : u ≠ t := fun x => hd (.inr x)
    unfold viewT
    dsimp only
    rw [Function.update_of_ne hu]
    rfl

theorem fresh_absorb {t : TId} (hf : Fresh W (fun u => D u ∨ u = t) now s)
    (hc : t < s.nT → (s.tri t).stopsAt = none → ¬ D t → Certified W now s t) : Fresh W D now s := by
  intro u hu hl hd
  by_cases h : u = t
  · subst h; exact hc hu hl hd
  · exact hf u hu hl fun x => x.elim hd h

theorem fr_stopTriangle {t : TId} {time : K} {a : Unit} (hf : Fresh W (fun u => D u ∨ u = t) now s)
    (hm : stopTriangle t time s = .ok (a, s')) : Fresh W D now s' := by
  unfold stopTriangle at hm
  have h1 := fr_modifyT hf (fun x => by cases x) hm
  obtain ⟨-, rfl⟩ := modifyT_run_ok.1 hm
  refine fresh_absorb (h1.mono fun u x => by rcases x with (x | x) | x <;> [exact .inl x; exact .inr x; exact .inr x])
    fun _ x _ => ?_
  dsimp only at x
  rw [Function.update_self] at x
  cases x

theorem fr_setVertex {t : TId} {i : Fin 3} {v : VId} {a : Unit} (hf : Fresh W (fun u => D u ∨ u = t) now s)
    (hm : setVertex t i v s = .ok (a, s')) : Fresh W (fun u => D u ∨ u = t) now s' := by
  unfold setVertex at hm
  exact (fr_modifyT hf (fun x => x) hm).mono fun u x => by
    rcases x with (x | x) | x <;> [exact .inl x; exact .inr x; exact .inr x]

theorem fr_relink {n t : TId} {x : Option TId} {a : Unit} (hf : Fresh W D now s)
    (hm : relink n t x s = .ok (a, s')) : Fresh W (fun u => D u ∨ u = n) now s' := by
  unfold relink at hm
  obtain ⟨T, s1, h1, hm⟩ := bind_run_ok.1 hm
  obtain ⟨-, rfl, rfl⟩ := getT_run_ok.1 h1
  obtain ⟨i, s1, h1, hm⟩ := bind_run_ok.1 hm
  obtain ⟨-, rfl⟩ := needIdx_run_ok.1 h1
  unfold setNeighbour at hm
  exact fr_modifyT hf (fun x => x) hm

/-- the loop of `replace_kvertex`; the first triangle need not be certified -/
theorem fr_replaceLoop (v : VId) {newv : VId} (dir : Dir) : ∀ (fuel : ℕ) (ot : Option TId) (fan : List TId)
    {s s' : St K} {l : List TId}, Inv N now s → newv < s.nV → (∀ t, ot = some t → t < s.nT) →
    Fresh W (fun u => D u ∨ ot = some u) now s →
    replaceLoop v newv now dir fuel ot fan s = .ok (l, s') → Fresh W D now s'
  | fuel, none, fan, s, s', l, h, _, _, hf, hm => by
    have : s' = s := by
      cases fuel <;> (unfold replaceLoop at hm; exact (pure_run_ok.1 hm).2.symm)
    subst this
    exact hf.mono fun u x => x.elim id fun q => by cases q
  | 0, some t, fan, s, s', l, h, _, _, _, hm => by cases hm
  | fuel + 1, some t, fan, s, s', l, h, hv, ht, hf, hm => by
    have ht := ht t rfl
    unfold replaceLoop at hm
    obtain ⟨T, s1, h1, hm⟩ := bind_run_ok.1 hm
    obtain ⟨-, rfl, rfl⟩ := getT_run_ok.1 h1
    obtain ⟨i, s1, h1, hm⟩ := bind_run_ok.1 hm
    obtain ⟨-, rfl⟩ := needIdx_run_ok.1 h1
    obtain ⟨_, s1, h1, hm⟩ := bind_run_ok.1 hm
    have g1 := g_setVertex _ _ _ _ _ _ h1
    have i1 : Inv N now s1 := inv_run (wp_mono (i_setVertex h i ht hv) fun _ _ _ x => x.1) (g_setVertex _ _ _) h1
    have f1 : Fresh W (fun u => D u ∨ u = t) now s1 := fr_setVertex
      (hf.mono fun u x => x.imp_right fun q => (Option.some.inj q).symm) h1
    have hcorner : (s1.tri t).vertices i = newv := by
      unfold setVertex at h1
      obtain ⟨-, rfl⟩ := modifyT_run_ok.1 h1
      dsimp only
      rw [Function.update_self]
      exact Function.update_self ..
    obtain ⟨nk, s2, h2, hm⟩ := bind_run_ok.1 hm
    obtain ⟨hlt, hnk, rfl⟩ := getK_run_ok.1 h2
    obtain ⟨_, s2, h2, hm⟩ := bind_run_ok.1 hm
    have ht1 := g1.tlt ht
    have g2 := g_renewEvent _ _ _ _ _ _ h2
    have i2 : Inv N now s2 := inv_run (i_renewEvent i1 nk.infFast ht1) (g_renewEvent _ _ _) h2
    have f2 : Fresh W D now s2 := by
      refine fr_renewEvent i1 nk.infFast ht1 (fun hb => ⟨i, ?_⟩) f1 h2
      unfold viewT
      dsimp only
      rw [hcorner]
      unfold viewOf
      rw [hnk]
      exact hb
    obtain ⟨T, s3, h3, hm⟩ := bind_run_ok.1 hm
    obtain ⟨-, rfl, rfl⟩ := getT_run_ok.1 h3
    exact fr_replaceLoop v dir fuel _ _ i2 (g2.vlt (g1.vlt hv)) (i2.refs.neighbours t (g2.tlt ht1) _)
      (f2.mono fun _ => .inl) hm

theorem fr_replaceKvertex (h : Inv N now s) {t : TId} {v newv : VId} {dir : Dir} {l : List TId} (ht : t < s.nT)
    (hv : newv < s.nV) (hf : Fresh W (fun u => D u ∨ u = t) now s)
    (hm : replaceKvertex t v newv now dir s = .ok (l, s')) : Fresh W D now s' := by
  unfold replaceKvertex at hm
  exact fr_replaceLoop v dir _ _ _ h hv (fun _ e => by cases e; exact ht)
    (hf.mono fun u x => x.imp_right fun q => by rw [q]) hm

theorem fr_detachAndSchedule (h : Inv N now s) {n : Option TId} {t : TId} {a : Unit} (hn : ∀ x, n = some x → x < s.nT)
    (hW : W ∨ n = none) (hf : Fresh W D now s) (hm : detachAndSchedule n t now s = .ok (a, s')) : Fresh W D now s' := by
  unfold detachAndSchedule at hm
  cases n with
  | none => cases hm; exact hf
  | some n =>
    dsimp only at hm
    have hn' := hn n rfl
    obtain ⟨_, s1, h1, hm⟩ := bind_run_ok.1 hm
    have g1 := g_relink _ _ _ _ _ _ h1
    have i1 : Inv N now s1 := inv_run (i_relink h t hn' fun _ e => by cases e) (g_relink _ _ _) h1
    have f1 := fr_relink hf h1
    obtain ⟨T, s2, h2, hm⟩ := bind_run_ok.1 hm
    obtain ⟨-, hT, hs⟩ := getT_run_ok.1 h2
    subst hT
    subst hs
    by_cases hc : (s1.tri n).event.isSome ∧ (s1.tri n).stopsAt.isNone
    · rw [if_pos hc] at hm
      exact fr_scheduleImmediately i1 (g1.tlt hn') f1 hm
    · rw [if_neg hc] at hm
      obtain rfl := (pure_run_ok.1 hm).2
      clear hm
      refine fresh_absorb f1 fun hlt hl hd => ?_
      -- the neighbour has no event
      have he1 : (s1.tri n).event = none := by
        by_contra q
        exact hc ⟨Option.isSome_iff_ne_none.2 q, by rw [hl]; rfl⟩
      have hnp := i1.noPending_of_none he1
      unfold relink at h1
      obtain ⟨T, s2, h2, h1⟩ := bind_run_ok.1 h1
      obtain ⟨-, rfl, rfl⟩ := getT_run_ok.1 h2
      obtain ⟨i, s2, h2, h1⟩ := bind_run_ok.1 h1
      obtain ⟨-, rfl⟩ := needIdx_run_ok.1 h2
      unfold setNeighbour at h1
      obtain ⟨-, rfl⟩ := modifyT_run_ok.1 h1
      refine .inr (.inr ⟨fun e he => hnp e (List.mem_append_right _ he), fun e he => hnp e (List.mem_append_left _ he),
        .inr ⟨hW.resolve_right nofun, he1, ?_⟩⟩)
      dsimp only at he1 hl
      rw [Function.update_self] at he1 hl
      have hc := hf n hn' hl hd
      have hnp := h.noPending_of_none he1
      have hv : (viewT { s with tri := Function.update s.tri n { s.tri n with neighbours := Function.update (s.tri n).neighbours i none } } n) =
          { viewT s n with noNeighbour := fun j => (Function.update (s.tri n).neighbours i none j).isNone } := by
        unfold viewT
        dsimp only
        rw [Function.update_self]
        rfl
      rw [hv]
      have hle : ∀ j, (viewT s n).noNeighbour j = true →
          (Function.update (s.tri n).neighbours i none j).isNone = true := by
        intro j hj
        by_cases q : j = i
        · subst q; rw [Function.update_self]; rfl
        · rw [Function.update_of_ne q]; exact hj
      rcases hc with ⟨e, he, ht, _⟩ | ⟨e, he, ht, _⟩ | ⟨-, -, hi⟩
      · exact absurd ht (hnp e (List.mem_append_right _ he))
      · exact absurd ht (hnp e (List.mem_append_left _ he))
      · rcases hi with hi | ⟨-, -, nb, hnb, hi⟩
        · exact ⟨_, hle, hi⟩
        · exact ⟨nb, fun j hj => hle j (hnb j hj), hi⟩

end

end Grassfire
