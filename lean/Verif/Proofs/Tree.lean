/-
What hangs together stays together, and nothing else comes to (lemmas for C89).
-/
import Verif.Spec.Tree
import Verif.Proofs.CubicCount

set_option linter.unusedSectionVars false

namespace Grassfire

open Spec

variable {K : Type} [Field K] [LinearOrder K] [IsStrictOrderedRing K] [HasSqrt K] [SqrtUnit K] {s s' : St K} {N : Prop}
  {now now' : K}

theorem joined_map {f : Item → Item} (h : ∀ a b, Touch s a b → Together s' (f a) (f b)) {a b : Item} (hj : Together s a b) :
    Together s' (f a) (f b) := by
  induction hj with
  | rel x y q => exact h x y q
  | refl x => exact .refl _
  | symm x y _ ih => exact .symm _ _ ih
  | trans x y z _ _ ih1 ih2 => exact .trans _ _ _ ih1 ih2

theorem joined_id (h : ∀ a b, Touch s a b → Together s' a b) {a b : Item} (hj : Together s a b) : Together s' a b :=
  joined_map (f := id) h hj

theorem Spec.Touch.join {a b : Item} (h : Touch s a b) : Together s a b := .rel _ _ h

theorem Spec.Together.comm {a b : Item} (h : Together s a b) : Together s b a := .symm _ _ h

theorem Spec.Together.then {a b c : Item} (h : Together s a b) (h' : Together s b c) : Together s a c := .trans _ _ _ h h'

/-- two corners of a triangle, or two triangles with a common corner -/
theorem joined_corner {t : TId} (ht : t ∈ s.skTriangles) (hl : Live s t) {v : VId} (h : ∃ i, (s.tri t).vertices i = v) :
    Together s (.arc v) (.triangle t) := by
  obtain ⟨i, rfl⟩ := h
  exact (Touch.corner t i ht hl).join

theorem joined_same (hU : Untouched s s') (ht : s'.tri = s.tri) (a b : Item) : Together s a b ↔ Together s' a b := by
  constructor
  · refine joined_id fun a b h => ?_
    cases h with
    | begins v x h1 h2 => exact (Touch.begins v x (hU.vertices ▸ h1) (hU.sameBegin v h1 ▸ h2)).join
    | ends v x h1 h2 => exact (Touch.ends v x (hU.vertices ▸ h1) (hU.sameEnd v h1 ▸ h2)).join
    | corner t i h1 h2 =>
      rw [← ht]
      exact (Touch.corner t i (hU.triangles ▸ h1) ((hU.live t).2 h2)).join
  · refine joined_id fun a b h => ?_
    cases h with
    | begins v x h1 h2 =>
      rw [hU.vertices] at h1
      exact (Touch.begins v x h1 (hU.sameBegin v h1 ▸ h2)).join
    | ends v x h1 h2 =>
      rw [hU.vertices] at h1
      exact (Touch.ends v x h1 (hU.sameEnd v h1 ▸ h2)).join
    | corner t i h1 h2 =>
      rw [ht]
      exact (Touch.corner t i (hU.triangles ▸ h1) ((hU.live t).1 h2)).join

theorem joined_flip {t n : TId} (hU : Untouched s s') (hF : Flipped s s' t n) (ht : t ∈ s.skTriangles)
    (hn : n ∈ s.skTriangles) (hl : Live s t) (a b : Item) : Together s a b ↔ Together s' a b := by
  have mem : ∀ {x y}, x ∈ s.skTriangles → (y = x ∨ (x = t ∨ x = n) ∧ (y = t ∨ y = n)) → y ∈ s.skTriangles := by
    rintro x y hx (rfl | ⟨-, rfl | rfl⟩) <;> assumption
  have tn : Together s (.triangle t) (.triangle n) := by
    obtain ⟨i, j, q⟩ := hF.shared
    exact (joined_corner ht hl ⟨i, rfl⟩).comm.then (joined_corner hn hF.live ⟨j, q.symm⟩)
  have tn' : Together s' (.triangle t) (.triangle n) := by
    obtain ⟨i, j, q⟩ := hF.shared'
    exact (joined_corner (hU.triangles ▸ ht) ((hU.live t).2 hl) ⟨i, rfl⟩).comm.then
      (joined_corner (hU.triangles ▸ hn) ((hU.live n).2 hF.live) ⟨j, q.symm⟩)
  have both : ∀ {u : St K}, Together u (.triangle t) (.triangle n) → ∀ {x y}, (y = x ∨ (x = t ∨ x = n) ∧ (y = t ∨ y = n)) →
      Together u (.triangle y) (.triangle x) := by
    rintro u q x y (rfl | ⟨rfl | rfl, rfl | rfl⟩)
    · exact .refl _
    · exact .refl _
    · exact q.comm
    · exact q
    · exact .refl _
  constructor
  · refine joined_id fun a b h => ?_
    cases h with
    | begins v x h1 h2 => exact (Touch.begins v x (hU.vertices ▸ h1) (hU.sameBegin v h1 ▸ h2)).join
    | ends v x h1 h2 => exact (Touch.ends v x (hU.vertices ▸ h1) (hU.sameEnd v h1 ▸ h2)).join
    | corner x i h1 h2 =>
      obtain ⟨y, j, q1, q2, q3⟩ := hF.ahead x h2 i
      exact (joined_corner (hU.triangles ▸ mem h1 q2) ((hU.live y).2 q1) ⟨j, q3⟩).then (both tn' q2)
  · refine joined_id fun a b h => ?_
    cases h with
    | begins v x h1 h2 =>
      rw [hU.vertices] at h1
      exact (Touch.begins v x h1 (hU.sameBegin v h1 ▸ h2)).join
    | ends v x h1 h2 =>
      rw [hU.vertices] at h1
      exact (Touch.ends v x h1 (hU.sameEnd v h1 ▸ h2)).join
    | corner x i h1 h2 =>
      obtain ⟨y, j, q1, q2, q3⟩ := hF.back x ((hU.live x).1 h2) i
      rw [hU.triangles] at h1
      exact (joined_corner (mem h1 q2) q1 ⟨j, q3⟩).then (both tn q2)

section
variable {t : TId} {gone made : List VId}

theorem gone_node (hJ : Junction s s' t gone made) {v : VId} (hv : v ∈ gone) : Together s' (.arc v) (.node s.nN) :=
  (Touch.ends v _ (by rw [hJ.vertices]; exact List.mem_append_left _ (hJ.before v hv).1) (hJ.after v hv)).join

theorem made_node (hJ : Junction s s' t gone made) {v : VId} (hv : v ∈ made) : Together s' (.arc v) (.node s.nN) :=
  (Touch.begins v _ (by rw [hJ.vertices]; exact List.mem_append_right _ hv) (hJ.fresh v hv).1).join

open Classical in
theorem joined_ahead (hJ : Junction s s' t gone made) (hR : Recast s s' t gone made) {a b : Item} (hj : Together s a b)
    (ha : a ≠ .triangle t) (hb : b ≠ .triangle t) : Together s' a b := by
  have key := joined_map (s' := s') (f := fun a => if a = .triangle t then .node s.nN else a) ?_ hj
  · rwa [if_neg ha, if_neg hb] at key
  intro a b h
  have mem : ∀ {v}, v ∈ s.skVertices → v ∈ s'.skVertices := fun q => by
    rw [hJ.vertices]; exact List.mem_append_left _ q
  cases h with
  | begins v x h1 h2 =>
    rw [if_neg (by simp), if_neg (by simp)]
    exact (Touch.begins v x (mem h1) (hJ.sameBegin v h1 ▸ h2)).join
  | ends v x h1 h2 =>
    rw [if_neg (by simp), if_neg (by simp)]
    have : v ∉ gone := fun q => by rw [(hJ.before v q).2] at h2; cases h2
    exact (Touch.ends v x (mem h1) (hJ.sameEnd v h1 this ▸ h2)).join
  | corner x i h1 h2 =>
    rw [if_neg (by simp)]
    by_cases hx : x = t
    · subst hx
      rw [if_pos rfl]
      by_cases hg : (s.tri x).vertices i ∈ gone
      · exact gone_node hJ hg
      · obtain ⟨n, j, q1, q2, q3, q4, k, q5⟩ := hR.other i hg
        have e : (s'.tri n).vertices j = (s.tri x).vertices i := by
          rw [← q4]
          exact (hR.change n q2 j).resolve_right fun z => hg (q4 ▸ z.2)
        have l := (hJ.live n).2 ⟨q2, q3⟩
        rw [← hJ.triangles] at q1
        exact (joined_corner q1 l ⟨j, e⟩).then ((joined_corner q1 l ⟨k, rfl⟩).comm.then (made_node hJ q5))
    · rw [if_neg (by simpa using hx)]
      have l := (hJ.live x).2 ⟨h2, hx⟩
      have h1' := h1
      rw [← hJ.triangles] at h1'
      rcases hR.change x h2 i with q | ⟨q1, q2⟩
      · exact joined_corner h1' l ⟨i, q⟩
      · exact (gone_node hJ q2).then ((made_node hJ q1).comm.then (joined_corner h1' l ⟨i, rfl⟩))

open Classical in
theorem joined_back (hI : Inv N now s) (hM : Mesh s) (hJ : Junction s s' t gone made) (hR : Recast s s' t gone made)
    (ht : t ∈ s.skTriangles) (hl : Live s t) {a b : Item} (hj : Together s' a b)
    (ha : a ≠ .node s.nN ∧ ∀ v ∈ made, a ≠ .arc v) (hb : b ≠ .node s.nN ∧ ∀ v ∈ made, b ≠ .arc v) : Together s a b := by
  have key := joined_map (s' := s)
    (f := fun a => if a = .node s.nN ∨ ∃ v ∈ made, a = .arc v then .triangle t else a) ?_ hj
  · rwa [if_neg, if_neg] at key
    · rintro (q | ⟨v, hv, q⟩)
      · exact hb.1 q
      · exact hb.2 v hv q
    · rintro (q | ⟨v, hv, q⟩)
      · exact ha.1 q
      · exact ha.2 v hv q
  have narc : ∀ v, ¬ v ∈ made → ¬ (Item.arc v = .node s.nN ∨ ∃ w ∈ made, Item.arc v = .arc w) := by
    rintro v hv (q | ⟨w, hw, q⟩)
    · cases q
    · cases q; exact hv hw
  have nnode : ∀ x, x < s.nN → ¬ (Item.node x = .node s.nN ∨ ∃ w ∈ made, Item.node x = .arc w) := by
    rintro x hx (q | ⟨w, hw, q⟩)
    · cases q; exact lt_irrefl _ hx
    · cases q
  have ntri : ∀ x, ¬ (Item.triangle x = .node s.nN ∨ ∃ w ∈ made, Item.triangle x = .arc w) := by
    rintro x (q | ⟨w, hw, q⟩) <;> cases q
  have yarc : ∀ v, v ∈ made → (Item.arc v = .node s.nN ∨ ∃ w ∈ made, Item.arc v = .arc w) :=
    fun v hv => .inr ⟨v, hv, rfl⟩
  intro a b h
  cases h with
  | begins v x h1 h2 =>
    rw [hJ.vertices] at h1
    rcases List.mem_append.1 h1 with h1 | h1
    · rw [hJ.sameBegin v h1] at h2
      rw [if_neg (narc v fun q => hJ.different.2.2 v q h1), if_neg (nnode x ((begin_old hI h1).2 x h2))]
      exact (Touch.begins v x h1 h2).join
    · rw [(hJ.fresh v h1).1] at h2
      cases h2
      rw [if_pos (yarc v h1), if_pos (.inl rfl)]
      exact .refl _
  | ends v x h1 h2 =>
    rw [hJ.vertices] at h1
    rcases List.mem_append.1 h1 with h1 | h1
    · rw [if_neg (narc v fun q => hJ.different.2.2 v q h1)]
      by_cases hg : v ∈ gone
      · rw [hJ.after v hg] at h2
        cases h2
        rw [if_pos (.inl rfl)]
        exact joined_corner ht hl (hR.corners v hg)
      · rw [hJ.sameEnd v h1 hg] at h2
        rw [if_neg (nnode x (end_old hI h1 h2))]
        exact (Touch.ends v x h1 h2).join
    · rw [(hJ.fresh v h1).2] at h2
      cases h2
  | corner x i h1 h2 =>
    rw [hJ.triangles] at h1
    obtain ⟨l, -⟩ := (hJ.live x).1 h2
    rw [if_neg (ntri x)]
    rcases hR.change x l i with q | ⟨q1, q2⟩
    · rw [q, if_neg (narc _ fun z => absurd (hM.vertices x l.1 i) (Nat.not_lt.2 (hR.new _ z)))]
      exact joined_corner h1 l ⟨i, rfl⟩
    · rw [if_pos (yarc _ q1)]
      exact (joined_corner ht hl (hR.corners _ q2)).comm.then (joined_corner h1 l ⟨i, rfl⟩)

end

/-- an arc or a node of `s0` -/
def OldItem (s0 : St K) (a : Item) : Prop := (∃ x < s0.nN, a = .node x) ∨ ∃ v ∈ s0.skVertices, a = .arc v

/-- what hangs together since `s0` -/
structure Kept (s0 s : St K) : Prop where
  sub : ∀ v ∈ s0.skVertices, v ∈ s.skVertices
  grow : s0.nN ≤ s.nN
  start : ∀ v ∈ s0.skVertices, beginOf s v = beginOf s0 v
  same : ∀ a b, OldItem s0 a → OldItem s0 b → (Together s0 a b ↔ Together s a b)
  root : ∀ v ∈ s.skVertices, ∃ w ∈ s0.skVertices, Together s (.arc v) (.arc w)

theorem Kept.refl (s : St K) : Kept s s := ⟨fun _ h => h, le_rfl, fun _ _ => rfl, fun _ _ _ _ => Iff.rfl, fun v hv => ⟨v, hv, .refl _⟩⟩

theorem kept_untouched {s0 : St K} (h : Kept s0 s) (hU : Untouched s s') (hj : ∀ a b, Together s a b ↔ Together s' a b) :
    Kept s0 s' := by
  refine ⟨fun v hv => hU.vertices ▸ h.sub v hv, hU.node ▸ h.grow,
    fun v hv => (hU.sameBegin v (h.sub v hv)).trans (h.start v hv), fun a b ha hb => (h.same a b ha hb).trans (hj a b),
    fun v hv => ?_⟩
  rw [hU.vertices] at hv
  obtain ⟨w, hw, q⟩ := h.root v hv
  exact ⟨w, hw, (hj _ _).1 q⟩

theorem kept_junction {s0 : St K} {t : TId} {gone made : List VId} (h : Kept s0 s) (hI : Inv N now s) (hM : Mesh s)
    (hJ : Junction s s' t gone made) (hR : Recast s s' t gone made) (ht : t ∈ s.skTriangles) (hl : Live s t) :
    Kept s0 s' := by
  have old : ∀ a, OldItem s0 a → a ≠ .triangle t ∧ a ≠ .node s.nN ∧ ∀ v ∈ made, a ≠ .arc v := by
    rintro a (⟨x, hx, rfl⟩ | ⟨v, hv, rfl⟩)
    · refine ⟨by simp, fun q => ?_, fun v hv q => by cases q⟩
      cases q
      exact absurd h.grow (Nat.not_le.2 hx)
    · refine ⟨by simp, by simp, fun w hw q => ?_⟩
      cases q
      exact hJ.different.2.2 v hw (h.sub v hv)
  refine ⟨fun v hv => ?_, ?_, fun v hv => (hJ.sameBegin v (h.sub v hv)).trans (h.start v hv), fun a b ha hb => ?_,
    fun v hv => ?_⟩
  · rw [hJ.vertices]
    exact List.mem_append_left _ (h.sub v hv)
  · rw [hJ.node]
    exact h.grow.trans (Nat.le_succ _)
  · rw [h.same a b ha hb]
    exact ⟨fun q => joined_ahead hJ hR q (old a ha).1 (old b hb).1,
      fun q => joined_back hI hM hJ hR ht hl q (old a ha).2 (old b hb).2⟩
  · have anc : ∀ w ∈ s.skVertices, ∃ u ∈ s0.skVertices, Together s' (.arc w) (.arc u) := by
      intro w hw
      obtain ⟨u, hu, q⟩ := h.root w hw
      exact ⟨u, hu, joined_ahead hJ hR q (by simp) (by simp)⟩
    rw [hJ.vertices] at hv
    rcases List.mem_append.1 hv with hv | hv
    · exact anc v hv
    · obtain ⟨g, hg⟩ := List.exists_mem_of_ne_nil _ hJ.nonempty
      obtain ⟨u, hu, q⟩ := anc g (hJ.before g hg).1
      exact ⟨u, hu, (made_node hJ hv).then ((gone_node hJ hg).comm.then q)⟩

theorem kept_run [HasTrig K] {P : Line2 K → Prop} {depth : ℕ} {s0 : St K} {now0 : K} {n : ℕ} {now : K} {s : St K}
    {tr : List (Event K × K)}
    (hr : Run depth s0 now0 n now s tr) (R : Ready P s0) (hI : Inv N now0 s0) (hP : Populated s0)
    (hp : ∀ e ∈ pending s0, e.tri ∈ s0.skTriangles) (hC : Counted s0 s0)
    (hg : ∀ m < n, ∀ x u tr' e, Run depth s0 now0 m x u tr' → NextEvent u e → Live u e.tri → Generic u e ∧ Alone u e) :
    Kept s0 s := by
  induction hr with
  | start => exact Kept.refl _
  | @step n now now' s s' tr e hr hs ih =>
    have k := ih fun m hm => hg m (Nat.lt_succ_of_lt hm)
    obtain ⟨p1, p2, -⟩ := cubic_run hr R hI hP hp hC fun m hm => hg m (Nat.lt_succ_of_lt hm)
    have R1 := ready_run hr R fun m hm x u tr' e a b c => (hg m (Nat.lt_succ_of_lt hm) x u tr' e a b c).1
    have I1 := (run_inv hr hI).1
    obtain ⟨-, c2, -, c4, c5, c6⟩ := cubic_loopStep R1 I1 p1 p2 (fun f => hg n (Nat.lt_succ_self n) _ _ _ f hr) hs
    by_cases hl : Live s e.tri
    · by_cases hf : e.tp = .flip
      · obtain ⟨hU, m, hm, hF⟩ := c5 hl hf
        exact kept_untouched k hU (joined_flip hU hF c2 hm hl)
      · obtain ⟨x, y, hJ, hR⟩ := c6 hl hf
        exact kept_junction k I1 R1.mesh hJ hR c2 hl
    · obtain ⟨hU, q⟩ := c4 hl
      exact kept_untouched k hU (joined_same hU q)

/-- when no triangle is left, what hangs together does so by arcs -/
theorem byArcs_of (hI : Inv N now s) (hdone : ∀ t ∈ s.skTriangles, ¬ Live s t) {a b : Item} (h : Together s a b) :
    ∀ x y, ((∃ v ∈ s.skVertices, a = .arc v ∧ beginOf s v = some x) ∨ a = .node x) →
      ((∃ v ∈ s.skVertices, b = .arc v ∧ beginOf s v = some y) ∨ b = .node y) → ByArcs s x y := by
  let f : Item → NodeId := fun a => match a with
    | .node x => x
    | .arc v => (beginOf s v).getD 0
    | .triangle _ => 0
  have key : ByArcs s (f a) (f b) := by
    induction h with
    | rel a b q =>
      cases q with
      | begins v x h1 h2 =>
        show ByArcs s ((beginOf s v).getD 0) x
        rw [h2]
        exact .refl _
      | ends v x h1 h2 =>
        obtain ⟨⟨n, hn⟩, -⟩ := begin_old hI h1
        show ByArcs s ((beginOf s v).getD 0) x
        rw [hn]
        exact .rel _ _ ⟨v, h1, hn, h2⟩
      | corner t i h1 h2 => exact absurd h2 (hdone t h1)
    | refl a => exact .refl _
    | symm a b _ ih => exact .symm _ _ ih
    | trans a b c _ _ ih1 ih2 => exact .trans _ _ _ ih1 ih2
  intro x y hx hy
  have ex : f a = x := by
    rcases hx with ⟨v, -, rfl, q⟩ | rfl
    · show (beginOf s v).getD 0 = x
      rw [q]; rfl
    · rfl
  have ey : f b = y := by
    rcases hy with ⟨v, -, rfl, q⟩ | rfl
    · show (beginOf s v).getD 0 = y
      rw [q]; rfl
    · rfl
  rw [← ex, ← ey]
  exact key

theorem byArcs_together {x y : NodeId} (h : ByArcs s x y) : Together s (.node x) (.node y) := by
  induction h with
  | rel x y q =>
    obtain ⟨v, hv, h1, h2⟩ := q
    exact (Touch.begins v x hv h1).join.comm.then (Touch.ends v y hv h2).join
  | refl x => exact .refl _
  | symm x y _ ih => exact .symm _ _ ih
  | trans x y z _ _ ih1 ih2 => exact .trans _ _ _ ih1 ih2

end Grassfire
