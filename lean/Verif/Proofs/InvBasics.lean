/-
The invariant of the event loop and the elementary steps (lemmas for C32, C33, C34, C44, C47).
-/
import Verif.Proofs.Growth
import Verif.Proofs.FanLemmas
import Verif.Proofs.EventShape
import Verif.Props.Queue
import Verif.Spec.Invariants

set_option linter.unusedSectionVars false

namespace Grassfire

open Spec

variable {K : Type} [Field K] [LinearOrder K] {α β : Type} {N : Prop}

/-! ### combining -/

/-- one step, with the growth of the skeleton -/
theorem wp_step {m : M K α} {f : α → M K β} {Q : β → St K → Prop} {s : St K}
    {P : α → St K → Prop} (h : wp m P s) (g : Keeps Grows m)
    (k : ∀ a s', P a s' → Grows s s' → wp (f a) Q s') : wp (m >>= f) Q s :=
  wp_bind.2 (wp_mono h fun a s' hm hp => k a s' hp (g _ _ _ hm))

theorem wp_forEach {f : α → M K Unit} {P : St K → Prop} {l : List α}
    (h : ∀ x ∈ l, ∀ s, P s → wp (f x) (fun _ => P) s) :
    ∀ {s : St K}, P s → wp (forEach f l) (fun _ => P) s := by
  induction l with
  | nil => intro s hs; exact hs
  | cons x xs ih =>
    intro s hs
    refine wp_bind.2 (wp_mono (h x (List.mem_cons_self ..) s hs) fun _ s' _ hs' => ?_)
    exact ih (fun y hy => h y (List.mem_cons_of_mem _ hy)) hs'

theorem wp_mapEach {f : α → M K β} {P : St K → Prop} {l : List α}
    (h : ∀ x ∈ l, ∀ s, P s → wp (f x) (fun _ => P) s) :
    ∀ {s : St K}, P s → wp (mapEach f l) (fun _ => P) s := by
  induction l with
  | nil => intro s hs; exact hs
  | cons x xs ih =>
    intro s hs
    refine wp_bind.2 (wp_mono (h x (List.mem_cons_self ..) s hs) fun _ s' _ hs' => ?_)
    exact wp_bind.2 (wp_mono (ih (fun y hy => h y (List.mem_cons_of_mem _ hy)) hs')
      fun _ _ _ h => h)

/-! ### the invariant -/

/-- The invariant; `L` is what is known of the kinetic vertices; `N`: the vertices were numbered
from 1 to their count at the start. -/
structure InvL (N : Prop) (L : VId → KVertex K → Prop) (now : K) (s : St K) : Prop where
  refs : Refs s
  lives : ∀ v kv, v < s.nV → s.vert v = .kin kv → L v kv
  hist : Chronological now s
  /-- the events of the triangles -/
  own : ∀ t, t < s.nT → ∀ e, (s.tri t).event = some e → e.tri = t ∧ e.eid < s.nE
  eids : ∀ t u, t < s.nT → u < s.nT → ∀ e f, (s.tri t).event = some e → (s.tri u).event = some f →
    e.eid = f.eid → t = u
  current : ∀ e ∈ pending s, e.tri < s.nT ∧ (s.tri e.tri).event = some e
  once : ((pending s).map (·.tri)).Nodup
  ordered : Ordered s.pyid s.queue
  ids : ∀ t u, t < s.nT → u < s.nT → s.pyid t = s.pyid u → t = u
  queued : ∀ e ∈ s.queue, now ≤ e.time
  immediate : ∀ e ∈ s.immediate, e.time = now
  numbered : ∀ v ∈ s.skVertices, ∃ kv, s.vert v = .kin kv ∧ (N → kv.info ≤ s.skVertices.length)
  distinct : N → DistinctInfos s

/-- The invariant at the beginning and the end of an iteration. -/
abbrev Inv (N : Prop) (now : K) (s : St K) : Prop := InvL N (fun _ => LifeOk now s.skNodes) now s

theorem histOk_nil {R : Type} (now : K) : HistOk now ([] : Hist K R) :=
  ⟨fun _ h => absurd h List.not_mem_nil, List.Pairwise.nil, List.IsChain.nil, fun x h => by cases h⟩

theorem Spec.HistOk.mono {R : Type} {now now' : K} {h : Hist K R} (hh : HistOk now h) (hn : now ≤ now') :
    HistOk now' h := { hh with past := fun x hx => (hh.past x hx).trans hn }

theorem Spec.HistOk.set {R : Type} {now : K} {h : Hist K R} (hh : HistOk now h) (r : R) :
    HistOk now (h.set r now) := by
  rcases List.eq_nil_or_concat h with rfl | ⟨init, last, rfl⟩
  · exact ⟨fun x hx => by rw [List.mem_singleton.1 hx], List.pairwise_singleton _ _,
      List.IsChain.singleton _, fun x hx => by cases hx; rfl⟩
  · rw [List.concat_eq_append] at hh ⊢
    have e : Hist.set (init ++ [last]) r now =
        init ++ [⟨last.start, some now, last.ref⟩, ⟨now, none, r⟩] := by
      simp [Hist.set]
    rw [e]
    obtain ⟨h1, h2, h3, h4⟩ := hh
    have hl : last.start ≤ now := h1 last (by simp)
    rw [List.pairwise_append] at h2
    rw [List.isChain_append] at h3
    refine ⟨?_, ?_, ?_, ?_⟩
    · intro x hx
      rcases List.mem_append.1 hx with hx | hx
      · exact h1 x (List.mem_append_left _ hx)
      · rcases List.mem_cons.1 hx with rfl | hx
        · exact hl
        · rw [List.mem_singleton.1 hx]
    · rw [List.pairwise_append]
      refine ⟨h2.1, ?_, ?_⟩
      · rw [List.pairwise_cons]
        exact ⟨fun y hy => by rw [List.mem_singleton.1 hy]; exact hl, List.pairwise_singleton _ _⟩
      · intro x hx y hy
        rcases List.mem_cons.1 hy with rfl | hy
        · exact h2.2.2 x hx last (List.mem_singleton_self _)
        · rw [List.mem_singleton.1 hy]; exact h1 x (List.mem_append_left _ hx)
    · rw [List.isChain_append]
      refine ⟨h3.1, ?_, ?_⟩
      · rw [List.isChain_cons_cons]; exact ⟨rfl, List.IsChain.singleton _⟩
      · intro x hx y hy
        cases hy
        exact h3.2.2 x hx last rfl
    · intro x hx
      simp at hx
      rw [← hx]

/-- no event of `t` is pending -/
def NoPending (t : TId) (s : St K) : Prop := ∀ e ∈ pending s, e.tri ≠ t

section
variable {L L' : VId → KVertex K → Prop} {now : K} {s : St K}

theorem InvL.mono (h : InvL N L now s) (hL : ∀ v kv, v < s.nV → s.vert v = .kin kv → L v kv → L' v kv) :
    InvL N L' now s := { h with lives := fun v kv hv hk => hL v kv hv hk (h.lives v kv hv hk) }

theorem InvL.leftRef (h : InvL N L now s) {v : VId} {kv : KVertex K} (hv : v < s.nV)
    (hk : s.vert v = .kin kv) {u : VId} (hu : kv.leftRef = some u) : u < s.nV := by
  unfold KVertex.leftRef Hist.last at hu
  cases hl : kv.left.getLast? with
  | none => rw [hl] at hu; cases hu
  | some x =>
    rw [hl] at hu
    exact h.refs.left v kv hv hk x (List.mem_of_getLast? hl) u hu

theorem InvL.rightRef (h : InvL N L now s) {v : VId} {kv : KVertex K} (hv : v < s.nV)
    (hk : s.vert v = .kin kv) {u : VId} (hu : kv.rightRef = some u) : u < s.nV := by
  unfold KVertex.rightRef Hist.last at hu
  cases hl : kv.right.getLast? with
  | none => rw [hl] at hu; cases hu
  | some x =>
    rw [hl] at hu
    exact h.refs.right v kv hv hk x (List.mem_of_getLast? hl) u hu

/-! ### steps -/

/-- triangles change, but not their events -/
theorem InvL.tri (h : InvL N L now s) {t : TId} {T : KTri K} (ev : T.event = (s.tri t).event)
    (hv : ∀ i, T.vertices i < s.nV) (hn : ∀ i n, T.neighbours i = some n → n < s.nT) :
    InvL N L now { s with tri := Function.update s.tri t T } := by
  have hev : ∀ u, (Function.update s.tri t T u).event = (s.tri u).event := by
    intro u
    by_cases hu : u = t
    · subst hu; rw [Function.update_self]; exact ev
    · rw [Function.update_of_ne hu]
  refine { h with
    refs := { h.refs with vertices := ?_, neighbours := ?_ }
    own := ?_, eids := ?_, current := ?_ }
  · intro u hu i
    dsimp only
    by_cases e : u = t
    · subst e; rw [Function.update_self]; exact hv i
    · rw [Function.update_of_ne e]; exact h.refs.vertices u hu i
  · intro u hu i n
    dsimp only
    by_cases e : u = t
    · subst e; rw [Function.update_self]; exact hn i n
    · rw [Function.update_of_ne e]; exact h.refs.neighbours u hu i n
  · intro u hu e he; dsimp only at he; rw [hev] at he; exact h.own u hu e he
  · intro u w hu hw e f he hf; dsimp only at he hf; rw [hev] at he hf; exact h.eids u w hu hw e f he hf
  · intro e he
    exact ⟨(h.current e he).1, by dsimp only; rw [hev]; exact (h.current e he).2⟩

/-- a kinetic vertex changes, but not its number -/
theorem InvL.vert (h : InvL N L now s) {v : VId} {kv kv' : KVertex K} (hk : s.vert v = .kin kv)
    (info : kv'.info = kv.info)
    (hl : ∀ x ∈ kv'.left, ∀ u, x.ref = some u → u < s.nV)
    (hr : ∀ x ∈ kv'.right, ∀ u, x.ref = some u → u < s.nV)
    (hh : HistOk now kv'.left ∧ HistOk now kv'.right)
    (hL : ∀ w kw, w < s.nV → s.vert w = .kin kw → L w kw → w ≠ v → L' w kw)
    (hL' : v < s.nV → L' v kv') :
    InvL N L' now { s with vert := Function.update s.vert v (.kin kv') } := by
  have hi : ∀ w, infoOf { s with vert := Function.update s.vert v (.kin kv') } w = infoOf s w := by
    intro w
    unfold infoOf
    dsimp only
    by_cases e : w = v
    · subst e; rw [Function.update_self, hk]; dsimp only; rw [info]
    · rw [Function.update_of_ne e]
  refine { h with
    refs := { h.refs with left := ?_, right := ?_ }
    lives := ?_, hist := ?_, numbered := ?_, distinct := ?_ }
  · intro w kw hw
    dsimp only
    by_cases e : w = v
    · subst e; rw [Function.update_self]; intro h; cases h; exact hl
    · rw [Function.update_of_ne e]; exact h.refs.left w kw hw
  · intro w kw hw
    dsimp only
    by_cases e : w = v
    · subst e; rw [Function.update_self]; intro h; cases h; exact hr
    · rw [Function.update_of_ne e]; exact h.refs.right w kw hw
  · intro w kw hw
    dsimp only
    by_cases e : w = v
    · subst e; rw [Function.update_self]; intro h; cases h; exact hL' hw
    · rw [Function.update_of_ne e]; exact fun hk => hL w kw hw hk (h.lives w kw hw hk) e
  · intro w kw hw
    dsimp only
    by_cases e : w = v
    · subst e; rw [Function.update_self]; intro h; cases h; exact hh
    · rw [Function.update_of_ne e]; exact h.hist w kw hw
  · intro w hw
    dsimp only
    by_cases e : w = v
    · subst e; rw [Function.update_self]
      obtain ⟨kw, h1, h2⟩ := h.numbered w hw
      rw [hk] at h1; cases h1
      exact ⟨kv', rfl, by rw [info]; exact h2⟩
    · rw [Function.update_of_ne e]; exact h.numbered w hw
  · unfold DistinctInfos
    rw [List.map_congr_left (fun w _ => hi w)]
    exact h.distinct

theorem InvL.newNode (h : InvL N L now s) (n : Node K) :
    InvL N L now { s with node := Function.update s.node s.nN n, nN := s.nN + 1 } :=
  { h with refs := { h.refs with skNodes := fun m hm => (h.refs.skNodes m hm).trans (Nat.lt_succ_self _) } }

theorem InvL.appendNode (h : InvL N L now s) {n : NodeId} (hn : n < s.nN) :
    InvL N L now { s with skNodes := s.skNodes ++ [n] } :=
  { h with refs := { h.refs with skNodes := fun m hm =>
      (List.mem_append.1 hm).elim (h.refs.skNodes m) fun hm => (List.mem_singleton.1 hm).symm ▸ hn } }

theorem InvL.newK (h : InvL N L now s) {kv : KVertex K} (hl : kv.left = []) (hr : kv.right = [])
    (hL : L s.nV kv) :
    InvL N L now { s with vert := Function.update s.vert s.nV (.kin kv), nV := s.nV + 1 } := by
  have old : ∀ w, w < s.nV → Function.update s.vert s.nV (.kin kv) w = s.vert w := by
    intro w hw; rw [Function.update_of_ne (Nat.ne_of_lt hw)]
  refine { h with
    refs := { h.refs with vertices := ?_, left := ?_, right := ?_, skVertices := ?_ }
    lives := ?_, hist := ?_, numbered := ?_, distinct := ?_ }
  · exact fun t ht i => (h.refs.vertices t ht i).trans (Nat.lt_succ_self _)
  · intro w kw hw hk x hx u hu
    dsimp only at hw hk ⊢
    rcases Nat.lt_succ_iff_lt_or_eq.1 hw with hw | rfl
    · rw [old w hw] at hk; exact (h.refs.left w kw hw hk x hx u hu).trans (Nat.lt_succ_self _)
    · rw [Function.update_self] at hk; cases hk; rw [hl] at hx; cases hx
  · intro w kw hw hk x hx u hu
    dsimp only at hw hk ⊢
    rcases Nat.lt_succ_iff_lt_or_eq.1 hw with hw | rfl
    · rw [old w hw] at hk; exact (h.refs.right w kw hw hk x hx u hu).trans (Nat.lt_succ_self _)
    · rw [Function.update_self] at hk; cases hk; rw [hr] at hx; cases hx
  · exact fun v hv => (h.refs.skVertices v hv).trans (Nat.lt_succ_self _)
  · intro w kw hw hk
    dsimp only at hw hk
    rcases Nat.lt_succ_iff_lt_or_eq.1 hw with hw | rfl
    · rw [old w hw] at hk; exact h.lives w kw hw hk
    · rw [Function.update_self] at hk; cases hk; exact hL
  · intro w kw hw hk
    dsimp only at hw hk
    rcases Nat.lt_succ_iff_lt_or_eq.1 hw with hw | rfl
    · rw [old w hw] at hk; exact h.hist w kw hw hk
    · rw [Function.update_self] at hk; cases hk; rw [hl, hr]; exact ⟨histOk_nil _, histOk_nil _⟩
  · intro w hw
    dsimp only
    rw [old w (h.refs.skVertices w hw)]; exact h.numbered w hw
  · unfold DistinctInfos
    rw [List.map_congr_left (g := infoOf s) fun w hw => ?_]
    · exact h.distinct
    · unfold infoOf
      dsimp only
      rw [old w (h.refs.skVertices w hw)]

theorem InvL.appendVertex (h : InvL N L now s) {v : VId} {kv : KVertex K} (hv : v < s.nV)
    (hk : s.vert v = .kin kv) (hi : kv.info = s.skVertices.length + 1) :
    InvL N L now { s with skVertices := s.skVertices ++ [v] } := by
  refine { h with refs := { h.refs with skVertices := ?_ }, numbered := ?_, distinct := ?_ }
  · intro w hw
    rcases List.mem_append.1 hw with hw | hw
    · exact h.refs.skVertices w hw
    · rw [List.mem_singleton.1 hw]; exact hv
  · intro w hw
    dsimp only at hw ⊢
    rw [List.length_append, List.length_singleton]
    rcases List.mem_append.1 hw with hw | hw
    · obtain ⟨kw, h1, h2⟩ := h.numbered w hw
      exact ⟨kw, h1, fun n => (h2 n).trans (Nat.le_succ _)⟩
    · rw [List.mem_singleton.1 hw]; exact ⟨kv, hk, fun _ => hi.le⟩
  · intro hn
    unfold DistinctInfos
    dsimp only
    rw [List.map_append, List.nodup_append]
    refine ⟨h.distinct hn, List.nodup_singleton _, ?_⟩
    intro a ha b hb
    rw [List.map_singleton, List.mem_singleton] at hb
    obtain ⟨w, hw, rfl⟩ := List.mem_map.1 ha
    obtain ⟨kw, h1, h2⟩ := h.numbered w hw
    subst hb
    unfold infoOf
    dsimp only
    rw [h1, hk]
    intro he
    have := Option.some.inj he
    have := h2 hn
    omega

/-- events disappear -/
theorem InvL.sub (h : InvL N L now s) {q i : List (Event K)} (hq : q.Sublist s.queue)
    (hi : i.Sublist s.immediate) : InvL N L now { s with queue := q, immediate := i } := by
  have hp : (pending { s with queue := q, immediate := i }).Sublist (pending s) := hi.append hq
  exact { h with
    refs := { h.refs with }
    current := fun e he => h.current e (hp.subset he)
    once := h.once.sublist (hp.map _)
    ordered := List.Pairwise.sublist hq h.ordered
    queued := fun e he => h.queued e (hq.subset he)
    immediate := fun e he => h.immediate e (hi.subset he) }

theorem NoPending.sub {t : TId} (h : NoPending t s) {q i : List (Event K)} (hq : q.Sublist s.queue)
    (hi : i.Sublist s.immediate) : NoPending t { s with queue := q, immediate := i } :=
  fun e he => h e ((hi.append hq :
    (pending { s with queue := q, immediate := i }).Sublist (pending s)).subset he)

/-- a triangle without pending event gets a new event -/
theorem InvL.store (h : InvL N L now s) {t : TId} (hp : NoPending t s) {e : Event K}
    (he : e.tri = t) (hid : e.eid = s.nE) :
    InvL N L now { s with
      nE := s.nE + 1, tri := Function.update s.tri t { s.tri t with event := some e } } := by
  have other : ∀ u, u ≠ t →
      Function.update s.tri t { s.tri t with event := some e } u = s.tri u :=
    fun u hu => by rw [Function.update_of_ne hu]
  refine { h with
    refs := { h.refs with vertices := ?_, neighbours := ?_ }
    own := ?_, eids := ?_, current := ?_ }
  · intro u hu i
    dsimp only
    by_cases x : u = t
    · subst x; rw [Function.update_self]; exact h.refs.vertices u hu i
    · rw [other u x]; exact h.refs.vertices u hu i
  · intro u hu i n
    dsimp only
    by_cases x : u = t
    · subst x; rw [Function.update_self]; exact h.refs.neighbours u hu i n
    · rw [other u x]; exact h.refs.neighbours u hu i n
  · intro u hu f hf
    dsimp only at hf ⊢
    by_cases x : u = t
    · subst x; rw [Function.update_self] at hf; cases hf; exact ⟨he, by omega⟩
    · rw [other u x] at hf
      exact ⟨(h.own u hu f hf).1, (h.own u hu f hf).2.trans (Nat.lt_succ_self _)⟩
  · intro u w hu hw f g hf hg hfg
    dsimp only at hf hg hu hw
    by_cases x : u = t
    · by_cases y : w = t
      · rw [x, y]
      · subst x
        rw [Function.update_self] at hf; rw [other w y] at hg; cases hf
        have := (h.own w hw g hg).2
        omega
    · by_cases y : w = t
      · subst y
        rw [Function.update_self] at hg; rw [other u x] at hf; cases hg
        have := (h.own u hu f hf).2
        omega
      · rw [other u x] at hf; rw [other w y] at hg
        exact h.eids u w hu hw f g hf hg hfg
  · intro f hf
    have := h.current f hf
    refine ⟨this.1, ?_⟩
    dsimp only
    rw [other _ (hp f hf)]; exact this.2

end

end Grassfire
