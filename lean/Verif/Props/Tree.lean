/-
Property C89: the skeleton hangs together as the triangles did, and that of a polygon without holes is a tree.
-/
import Verif.Proofs.Tree
import Verif.Props.Cubic
import Mathlib.Data.Set.Card

set_option linter.unusedSectionVars false

namespace Grassfire

open Spec

variable {K : Type} [Field K] [LinearOrder K] [IsStrictOrderedRing K] [HasSqrt K] [SqrtUnit K] [HasTrig K]

theorem together_start {s0 s1 : St K} (h1 : initEventList s0 = .ok ((), s1)) (hv : s1.skVertices = s0.skVertices)
    (a b : Item) : Together { s1 with immediate := [] } a b ↔ Together s0 a b := by
  obtain ⟨f1, f2, f3, f4, f5, f6⟩ := start_frame h1
  have live : ∀ x, Live { s1 with immediate := [] } x ↔ Live s0 x := fun x => by unfold Live; dsimp only; rw [f3, f5]
  have b1 : beginOf { s1 with immediate := [] } = beginOf s0 := by funext v; unfold beginOf; dsimp only; rw [f1]
  have b2 : endOf { s1 with immediate := [] } = endOf s0 := by funext v; unfold endOf; dsimp only; rw [f1]
  constructor
  · refine joined_id fun a b h => ?_
    cases h with
    | begins v x h1 h2 => exact (Touch.begins v x (hv ▸ h1) (b1 ▸ h2)).join
    | ends v x h1 h2 => exact (Touch.ends v x (hv ▸ h1) (b2 ▸ h2)).join
    | corner t i h1 h2 =>
      have : ((s1.tri t).vertices i) = (s0.tri t).vertices i := by rw [f4]
      show Together s0 (.arc ((s1.tri t).vertices i)) _
      rw [this]
      exact (Touch.corner t i (f6 ▸ h1) ((live t).1 h2)).join
  · refine joined_id fun a b h => ?_
    cases h with
    | begins v x h1 h2 => exact (Touch.begins v x (by rw [← hv] at h1; exact h1) (b1 ▸ h2)).join
    | ends v x h1 h2 => exact (Touch.ends v x (by rw [← hv] at h1; exact h1) (b2 ▸ h2)).join
    | corner t i h1 h2 =>
      have : ((s1.tri t).vertices i) = (s0.tri t).vertices i := by rw [f4]
      rw [← this]
      exact (Touch.corner (s := { s1 with immediate := [] }) t i (by rw [← f6] at h1; exact h1) ((live t).2 h2)).join

theorem Spec.LoneExecution.kept {depth n : ℕ} {s0 s : St K} {now : K} {tr : List (Event K × K)}
    (h : LoneExecution depth s0 n now s tr) : Kept s0 s := by
  obtain ⟨⟨hs, s1, h1, hr, hg⟩, hp, ha⟩ := h
  obtain ⟨R, hI⟩ := ready_start hs h1
  obtain ⟨c1, c2, c3, c4, -, c6, -⟩ := cubic_start hs.initial hp h1
  obtain ⟨d1, d2, d0, d3, d4⟩ := kept_run hr R hI c1 c2 c3 fun m hm x u tr' e q1 q2 q3 =>
    ⟨hg m hm.le x u tr' e q1 q2 q3, ha s1 h1 m hm.le x u tr' e q1 q2 q3⟩
  have old : ∀ a, OldItem s0 a → OldItem { s1 with immediate := [] } a := by
    rintro a (⟨x, hx, rfl⟩ | ⟨v, hv, rfl⟩)
    · exact .inl ⟨x, hx.trans_eq c4.symm, rfl⟩
    · exact .inr ⟨v, by rw [← c6] at hv; exact hv, rfl⟩
  refine ⟨fun v hv => d1 v (by rw [← c6] at hv; exact hv), c4.symm.trans_le d2, fun v hv => ?_,
    fun a b ha hb => ?_, fun v hv => ?_⟩
  · rw [d0 v (by rw [← c6] at hv; exact hv)]
    unfold beginOf
    dsimp only
    rw [(start_frame h1).1]
  · rw [← together_start h1 c6]
    exact d3 a b (old a ha) (old b hb)
  · obtain ⟨w, hw, q⟩ := d4 v hv
    exact ⟨w, c6 ▸ hw, q⟩

/-- **C89.** In general position, two input nodes hang together by arcs and triangles after any number of events if and only
if they did so at the start, and every arc hangs together with one of the start. -/
theorem C89_together {depth n : ℕ} {s0 s : St K} {now : K} {tr : List (Event K × K)}
    (h : LoneExecution depth s0 n now s tr) :
    (∀ x y, x < s0.nN → y < s0.nN → (Together s0 (.node x) (.node y) ↔ Together s (.node x) (.node y))) ∧
    ∀ v ∈ s.skVertices, ∃ w ∈ s0.skVertices, Together s (.arc v) (.arc w) :=
  ⟨fun x y hx hy => h.kept.same _ _ (.inl ⟨x, hx, rfl⟩) (.inl ⟨y, hy, rfl⟩), h.kept.root⟩

theorem initial_begin {s0 : St K} (h : Initial s0) {v : VId} (hv : v ∈ s0.skVertices) :
    ∃ x < s0.nN, beginOf s0 v = some x ∧ endOf s0 v = none := by
  obtain ⟨k, hk⟩ := h.kinetic v hv
  obtain ⟨-, ⟨n, hn, q⟩, -, q'⟩ := h.lives v k (h.refs.skVertices v hv) hk
  exact ⟨n, h.refs.skNodes n hn, by rw [beginOf_kin hk, q], by rw [endOf_kin hk, q']⟩


theorem used_start {s0 : St K} (h : Initial s0) {x : NodeId} : Used s0 x ↔ ∃ v ∈ s0.skVertices, beginOf s0 v = some x := by
  constructor
  · rintro ⟨v, hv, q | q⟩
    · exact ⟨v, hv, q⟩
    · obtain ⟨-, -, -, z⟩ := initial_begin h hv
      rw [z] at q; cases q
  · rintro ⟨v, hv, q⟩
    exact ⟨v, hv, .inl q⟩

/-- **C89.** When in general position all triangles have vanished, two nodes of the input are connected by arcs of the
skeleton if and only if they hung together at the start; every node of the skeleton is connected with one of the input. -/
theorem C89_components {depth n : ℕ} {s0 s : St K} {now : K} {tr : List (Event K × K)}
    (h : LoneExecution depth s0 n now s tr) (hdone : ∀ t ∈ s.skTriangles, ¬ Live s t) :
    (∀ x y, x < s0.nN → y < s0.nN → (Together s0 (.node x) (.node y) ↔ ByArcs s x y)) ∧
    ∀ x, Used s x → ∃ y, Used s0 y ∧ ByArcs s x y := by
  obtain ⟨-, hI, -⟩ := h.generic.ready
  refine ⟨fun x y hx hy => ?_, ?_⟩
  · rw [(C89_together h).1 x y hx hy]
    exact ⟨fun q => byArcs_of hI hdone q x y (.inr rfl) (.inr rfl), byArcs_together⟩
  · have key : ∀ v ∈ s.skVertices, ∀ x, beginOf s v = some x → ∃ y, Used s0 y ∧ ByArcs s x y := by
      intro v hv x hx
      obtain ⟨w, hw, q⟩ := h.kept.root v hv
      obtain ⟨y, -, hy, -⟩ := initial_begin h.generic.start.initial hw
      refine ⟨y, ⟨w, hw, .inl hy⟩, byArcs_of hI hdone q x y (.inl ⟨v, hv, rfl, hx⟩) (.inl ⟨w, h.kept.sub w hw, rfl, ?_⟩)⟩
      rw [h.kept.start w hw, hy]
    rintro x ⟨v, hv, q | q⟩
    · exact key v hv x q
    · obtain ⟨a, -, b, -, h1, h2, -⟩ := (C88_complete h hdone).1 v hv
      rw [h2] at q
      cases q
      obtain ⟨y, hy, z⟩ := key v hv a h1
      exact ⟨y, hy, .trans _ _ _ (.symm _ _ (.rel _ _ ⟨v, hv, h1, h2⟩)) z⟩

theorem reachable_of (s : St K) {x y : NodeId} (h : ByArcs s x y) (hx : Used s x) (hy : Used s y) :
    (graph s).Reachable ⟨x, hx⟩ ⟨y, hy⟩ := by
  have key : (x = y ∨ ∃ (hx : Used s x) (hy : Used s y), (graph s).Reachable ⟨x, hx⟩ ⟨y, hy⟩) := by
    clear hx hy
    induction h with
    | rel x y q =>
      obtain ⟨v, hv, h1, h2⟩ := q
      by_cases e : x = y
      · exact .inl e
      · refine .inr ⟨⟨v, hv, .inl h1⟩, ⟨v, hv, .inr h2⟩, SimpleGraph.Adj.reachable ⟨fun q => e ?_, v, hv, .inl ⟨h1, h2⟩⟩⟩
        exact congrArg Subtype.val q
    | refl x => exact .inl rfl
    | symm x y _ ih => exact ih.imp Eq.symm fun ⟨a, b, q⟩ => ⟨b, a, q.symm⟩
    | trans x y z _ _ ih1 ih2 =>
      rcases ih1 with rfl | ⟨a, b, q⟩
      · exact ih2
      · rcases ih2 with rfl | ⟨c, d, r⟩
        · exact .inr ⟨a, b, q⟩
        · exact .inr ⟨a, d, q.trans r⟩
  rcases key with rfl | ⟨_, _, q⟩
  · exact .refl _
  · exact q

/-- **C89.** When in general position all triangles have vanished and the input hung together, the skeleton is a connected
graph. -/
theorem C89_connected {depth n : ℕ} {s0 s : St K} {now : K} {tr : List (Event K × K)}
    (h : LoneExecution depth s0 n now s tr) (hdone : ∀ t ∈ s.skTriangles, ¬ Live s t)
    (hne : s0.skVertices ≠ []) (hone : ∀ v ∈ s0.skVertices, ∀ w ∈ s0.skVertices, Together s0 (.arc v) (.arc w)) :
    (graph s).Connected := by
  obtain ⟨c1, c2⟩ := C89_components h hdone
  have hi := h.generic.start.initial
  have all : ∀ x y, Used s0 x → Used s0 y → ByArcs s x y := by
    intro x y hx hy
    obtain ⟨v, hv, q⟩ := (used_start hi).1 hx
    obtain ⟨w, hw, r⟩ := (used_start hi).1 hy
    obtain ⟨x', lx, q', -⟩ := initial_begin hi hv
    obtain ⟨y', ly, r', -⟩ := initial_begin hi hw
    rw [q] at q'
    rw [r] at r'
    cases q'
    cases r'
    exact (c1 x y lx ly).1 ((Touch.begins v x hv q).join.comm.then ((hone v hv w hw).then (Touch.begins w y hw r).join))
  obtain ⟨v, hv⟩ := List.exists_mem_of_ne_nil _ hne
  obtain ⟨x, -, hx, -⟩ := initial_begin hi hv
  have : Nonempty {x : NodeId // Used s x} :=
    ⟨x, v, h.kept.sub v hv, .inl (by rw [h.kept.start v hv, hx])⟩
  refine ⟨fun a b => ?_⟩
  obtain ⟨x, hx⟩ := a
  obtain ⟨y, hy⟩ := b
  obtain ⟨x', h1, h2⟩ := c2 x hx
  obtain ⟨y', h3, h4⟩ := c2 y hy
  exact reachable_of s (.trans _ _ _ h2 (.trans _ _ _ (all x' y' h1 h3) (.symm _ _ h4))) hx hy

theorem used_count (s : St K) (x : NodeId) : Used s x ↔ 0 < begins s x + ends s x := by
  unfold Used begins ends
  constructor
  · rintro ⟨v, hv, q | q⟩
    · exact Nat.add_pos_left (List.countP_pos_iff.2 ⟨v, hv, by simpa using q⟩) _
    · exact Nat.add_pos_right _ (List.countP_pos_iff.2 ⟨v, hv, by simpa using q⟩)
  · intro h
    rcases Nat.add_pos_iff_pos_or_pos.1 h with h | h
    · obtain ⟨v, hv, q⟩ := List.countP_pos_iff.1 h
      exact ⟨v, hv, .inl (by simpa using q)⟩
    · obtain ⟨v, hv, q⟩ := List.countP_pos_iff.1 h
      exact ⟨v, hv, .inr (by simpa using q)⟩

/-- **C89.** In general position the nodes of the skeleton are those of the input at which arcs begin, and one for every
triangle that has vanished. -/
theorem C89_nodes {depth n : ℕ} {s0 s : St K} {now : K} {tr : List (Event K × K)}
    (h : LoneExecution depth s0 n now s tr) :
    Nat.card {x // Used s x} + liveTriangles s = Nat.card {x // Used s0 x} + liveTriangles s0 := by
  obtain ⟨-, hI, -⟩ := h.generic.ready
  obtain ⟨s1, h1, -, -, d⟩ := h.state
  obtain ⟨-, -, -, e1, -, -, -, -, -, e7⟩ := cubic_start h.generic.start.initial h.populated h1
  obtain ⟨d1, d2⟩ := C88_degrees h
  have hn := d.nodes
  have hg := d.grow
  rw [e7] at hn
  dsimp only at hn hg
  rw [e1] at hn hg
  have lt0 : ∀ x, Used s0 x → x < s0.nN := by
    intro x hx
    obtain ⟨v, hv, q⟩ := (used_start h.generic.start.initial).1 hx
    obtain ⟨y, hy, q', -⟩ := initial_begin h.generic.start.initial hv
    rw [q] at q'
    cases q'
    exact hy
  have hset : {x | Used s x} = {x | Used s0 x} ∪ ↑(Finset.Ico s0.nN s.nN) := by
    ext x
    simp only [Set.mem_ofPred_eq, Set.mem_union, Finset.coe_Ico, Set.mem_Ico]
    rcases Nat.lt_or_ge x s0.nN with q | q
    · obtain ⟨a, b⟩ := d2 x q
      rw [used_count, used_count, a, b, ends_start h.generic.start.initial]
      constructor
      · exact .inl
      · rintro (z | z)
        · exact z
        · exact absurd z.1 (Nat.not_le.2 q)
    · constructor
      · rintro ⟨v, hv, z | z⟩
        · exact .inr ⟨q, (begin_old hI hv).2 x z⟩
        · exact .inr ⟨q, end_old hI hv z⟩
      · rintro (z | z)
        · exact absurd (lt0 x z) (Nat.not_lt.2 q)
        · rw [used_count, (d1 x z.2 q).1]
          decide
  have e : Nat.card {x // Used s x} = Set.ncard {x | Used s x} := Nat.card_coe_set_eq _
  have e' : Nat.card {x // Used s0 x} = Set.ncard {x | Used s0 x} := Nat.card_coe_set_eq _
  have hfin : {x | Used s0 x}.Finite := (Set.finite_Iio s0.nN).subset fun x hx => lt0 x hx
  rw [e, e', hset, Set.ncard_union_eq ?_ hfin (Finset.finite_toSet _), Set.ncard_coe_finset, Nat.card_Ico]
  · omega
  · rw [Set.disjoint_left]
    intro x hx hx'
    simp only [Finset.coe_Ico, Set.mem_Ico] at hx'
    exact absurd (lt0 x hx) (Nat.not_lt.2 hx'.1)

theorem card_mem {l : List VId} (h : l.Nodup) : Nat.card {v // v ∈ l} = l.length := by
  classical
  rw [← List.toFinset_card_of_nodup h, ← Nat.card_eq_finsetCard]
  exact Nat.card_congr (Equiv.subtypeEquivRight fun v => by simp)

/-- when the arcs begin at different nodes, there are as many of these at the start as arcs -/
theorem start_nodes {depth n : ℕ} {s0 s : St K} {now : K} {tr : List (Event K × K)} (h : LoneExecution depth s0 n now s tr)
    (hdiff : ∀ v ∈ s0.skVertices, ∀ w ∈ s0.skVertices, beginOf s0 v = beginOf s0 w → v = w) :
    Nat.card {x // Used s0 x} = s0.skVertices.length := by
  rw [← card_mem h.populated.once]
  have hb : ∀ v : {v // v ∈ s0.skVertices}, ∃ x, beginOf s0 v.1 = some x := fun v => by
    obtain ⟨x, -, q, -⟩ := initial_begin h.generic.start.initial v.2
    exact ⟨x, q⟩
  choose f hf using hb
  refine (Nat.card_congr (Equiv.ofBijective (fun v => (⟨f v, v.1, v.2, .inl (hf v)⟩ : {x // Used s0 x})) ⟨?_, ?_⟩)).symm
  · intro v w q
    have q' : f v = f w := congrArg Subtype.val q
    exact Subtype.ext (hdiff v v.2 w w.2 (by rw [hf, hf, q']))
  · rintro ⟨x, hx⟩
    obtain ⟨v, hv, q⟩ := (used_start h.generic.start.initial).1 hx
    refine ⟨⟨v, hv⟩, Subtype.ext ?_⟩
    have := hf ⟨v, hv⟩
    rw [q] at this
    exact (Option.some.inj this).symm

/-- **C89.** When in general position all triangles have vanished: if the input hung together, all arcs began at different
nodes, and the triangulation had `h` holes (so that `n` corners make `n - 2 + 2 h` triangles), the skeleton has as many
independent cycles as there are holes. -/
theorem C89_cycles {depth n : ℕ} {s0 s : St K} {now : K} {tr : List (Event K × K)} {holes : ℕ}
    (h : LoneExecution depth s0 n now s tr) (hdone : ∀ t ∈ s.skTriangles, ¬ Live s t)
    (hdiff : ∀ v ∈ s0.skVertices, ∀ w ∈ s0.skVertices, beginOf s0 v = beginOf s0 w → v = w)
    (heuler : liveTriangles s0 + 2 = s0.skVertices.length + 2 * holes) :
    s.skVertices.length + 1 = Nat.card {x // Used s x} + holes := by
  obtain ⟨-, -, c, -⟩ := C88_complete h hdone
  have d := C89_nodes h
  obtain ⟨-, hI, -⟩ := h.generic.ready
  have hlt : liveTriangles s = 0 := by
    unfold liveTriangles
    rw [List.countP_eq_zero]
    intro t ht q
    exact hdone t ht ⟨hI.refs.skTriangles t ht, Option.isNone_iff_eq_none.1 q⟩
  have e := start_nodes h hdiff
  omega

/-- **C89.** When in general position all triangles of a polygon without holes have vanished, the skeleton is a tree, and no
two arcs join the same nodes. -/
theorem C89_tree {depth n : ℕ} {s0 s : St K} {now : K} {tr : List (Event K × K)}
    (h : LoneExecution depth s0 n now s tr) (hdone : ∀ t ∈ s.skTriangles, ¬ Live s t)
    (hone : ∀ v ∈ s0.skVertices, ∀ w ∈ s0.skVertices, Together s0 (.arc v) (.arc w))
    (hdiff : ∀ v ∈ s0.skVertices, ∀ w ∈ s0.skVertices, beginOf s0 v = beginOf s0 w → v = w)
    (heuler : liveTriangles s0 + 2 = s0.skVertices.length) :
    (graph s).IsTree ∧ ∀ v ∈ s.skVertices, ∀ w ∈ s.skVertices, beginOf s v = beginOf s w → endOf s v = endOf s w → v = w := by
  have hne : s0.skVertices ≠ [] := fun q => by rw [q] at heuler; simp at heuler
  have conn := C89_connected h hdone hne hone
  have card := C89_cycles (holes := 0) h hdone hdiff heuler
  have hnd : s.skVertices.Nodup := by obtain ⟨-, -, p, -⟩ := h.state; exact p.once
  have hb : ∀ v : {v // v ∈ s.skVertices}, ∃ a b, beginOf s v.1 = some a ∧ endOf s v.1 = some b ∧ a < b := fun v => by
    obtain ⟨a, -, b, -, h1, h2, h3, -⟩ := (C88_complete h hdone).1 v.1 v.2
    exact ⟨a, b, h1, h2, h3⟩
  choose f g hf hg hlt using hb
  let F : {v // v ∈ s.skVertices} → (graph s).edgeSet := fun v =>
    ⟨s(⟨f v, v.1, v.2, .inl (hf v)⟩, ⟨g v, v.1, v.2, .inr (hg v)⟩),
      ⟨fun q => (hlt v).ne (congrArg Subtype.val q), v.1, v.2, .inl ⟨hf v, hg v⟩⟩⟩
  have surj : Function.Surjective F := by
    rintro ⟨e, he⟩
    induction e with
    | h x y =>
      obtain ⟨-, v, hv, q | q⟩ := he
      · refine ⟨⟨v, hv⟩, Subtype.ext ?_⟩
        have h1 := hf ⟨v, hv⟩
        have h2 := hg ⟨v, hv⟩
        dsimp only at h1 h2
        rw [q.1] at h1
        rw [q.2] at h2
        exact Sym2.eq_iff.2 (.inl ⟨Subtype.ext (Option.some.inj h1).symm, Subtype.ext (Option.some.inj h2).symm⟩)
      · refine ⟨⟨v, hv⟩, Subtype.ext ?_⟩
        have h1 := hf ⟨v, hv⟩
        have h2 := hg ⟨v, hv⟩
        dsimp only at h1 h2
        rw [q.1] at h1
        rw [q.2] at h2
        exact Sym2.eq_iff.2 (.inr ⟨Subtype.ext (Option.some.inj h1).symm, Subtype.ext (Option.some.inj h2).symm⟩)
  have : Finite {v // v ∈ s.skVertices} := List.finite_toSet s.skVertices
  have : Finite (graph s).edgeSet := Finite.of_surjective F surj
  have le1 := conn.card_vert_le_card_edgeSet_add_one
  have le2 := Nat.card_le_card_of_surjective F surj
  rw [card_mem hnd] at le2
  have hfin : Finite {x // Used s x} := by
    refine Nat.finite_of_card_ne_zero ?_
    omega
  refine ⟨SimpleGraph.isTree_iff_connected_and_card.2 ⟨conn, by omega⟩, ?_⟩
  have inj : Function.Injective F := by
    refine (Function.Surjective.bijective_of_nat_card_le surj ?_).1
    rw [card_mem hnd]
    omega
  intro v hv w hw h1 h2
  have e1 : f ⟨v, hv⟩ = f ⟨w, hw⟩ := Option.some.inj (by rw [← hf, ← hf]; exact h1)
  have e2 : g ⟨v, hv⟩ = g ⟨w, hw⟩ := Option.some.inj (by rw [← hg, ← hg]; exact h2)
  have : F ⟨v, hv⟩ = F ⟨w, hw⟩ := by
    exact Subtype.ext (Sym2.eq_iff.2 (.inl ⟨Subtype.ext e1, Subtype.ext e2⟩))
  exact congrArg Subtype.val (inj this)

/-- **C89.** When the triangles are connected by their sides at the start, everything hangs together. -/
theorem C89_piece {s0 : St K} (h : GoodStart s0) (hp : Populated s0) (hone : OnePiece s0) :
    ∀ v ∈ s0.skVertices, ∀ w ∈ s0.skVertices, Together s0 (.arc v) (.arc w) := by
  have key : ∀ t u, Relation.EqvGen (fun t u => t ∈ s0.skTriangles ∧ Live s0 t ∧
      ∃ i, (s0.tri t).neighbours i = some u) t u → Together s0 (.triangle t) (.triangle u) := by
    intro t u q
    induction q with
    | rel t u q =>
      obtain ⟨ht, hl, i, q⟩ := q
      obtain ⟨q1, -, ⟨j, q3⟩, -⟩ := neighbour_other h.mesh hl q
      exact (joined_corner ht hl ⟨_, rfl⟩).comm.then (joined_corner (hp.closed t i u ht q) q1 ⟨j, q3⟩)
    | refl t => exact .refl _
    | symm t u _ ih => exact .symm _ _ ih
    | trans t u x _ _ ih1 ih2 => exact .trans _ _ _ ih1 ih2
  have held : ∀ v ∈ s0.skVertices, ∃ t ∈ s0.skTriangles, Together s0 (.arc v) (.triangle t) := by
    intro v hv
    obtain ⟨k, hk⟩ := h.initial.kinetic v hv
    have hlt := h.initial.refs.skVertices v hv
    obtain ⟨t, ht, hl, q⟩ := hp.held v hv ⟨hlt, k, hk, (h.initial.lives v k hlt hk).2.2.1⟩
    exact ⟨t, ht, joined_corner ht hl q⟩
  intro v hv w hw
  obtain ⟨t, ht, q1⟩ := held v hv
  obtain ⟨u, hu, q2⟩ := held w hw
  exact q1.then ((key t u (hone t ht u hu)).then q2.comm)

/-! ### the hypotheses are met -/

/-- a sufficient test that a triangulation is in one piece, for the samples: every triangle shares a corner with triangle
`r`, and every arc touches a triangle -/
def pieceCheck (s : St ℚ) (r : TId) : Bool :=
  decide (r ∈ s.skTriangles) && (s.skTriangles.all fun t => decide (t < s.nT) && (s.tri t).stopsAt.isNone &&
    decide (∃ i j, (s.tri t).vertices i = (s.tri r).vertices j)) &&
  s.skVertices.all fun v => s.skTriangles.any fun t => decide (∃ i, (s.tri t).vertices i = v)

theorem piece_of_check {s : St ℚ} {r : TId} (h : pieceCheck s r = true) :
    ∀ v ∈ s.skVertices, ∀ w ∈ s.skVertices, Together s (.arc v) (.arc w) := by
  unfold pieceCheck at h
  simp only [Bool.and_eq_true, List.all_eq_true, List.any_eq_true, decide_eq_true_eq] at h
  obtain ⟨⟨h1, h2⟩, h3⟩ := h
  have live : ∀ t ∈ s.skTriangles, Live s t := fun t ht => ⟨(h2 t ht).1.1, Option.isNone_iff_eq_none.1 (h2 t ht).1.2⟩
  have key : ∀ v ∈ s.skVertices, Together s (.arc v) (.triangle r) := by
    intro v hv
    obtain ⟨t, ht, q⟩ := h3 v hv
    obtain ⟨-, i, j, e⟩ := h2 t ht
    exact (joined_corner ht (live t ht) q).then ((joined_corner ht (live t ht) ⟨i, rfl⟩).comm.then
      (joined_corner h1 (live r h1) ⟨j, e.symm⟩))
  exact fun v hv w hw => (key v hv).then (key w hw).comm

/-- The skeletons of the trapezoid and of the polygon with a notch are trees. -/
example : ∃ now s tr, LoneExecution 100 Sample.trapezoid 2 now s tr ∧ (graph s).IsTree := by
  obtain ⟨now, s, tr, h, hd⟩ : ∃ now s tr, LoneExecution 100 Sample.trapezoid 2 now s tr ∧ ∀ t ∈ s.skTriangles, ¬ Live s t :=
    lone_sample (by decide +kernel) (by decide +kernel) (by decide +kernel) (by decide +kernel) (by decide +kernel)
      (by decide +kernel) (by decide +kernel) (by decide +kernel)
  exact ⟨now, s, tr, h, (C89_tree h hd (piece_of_check (r := 0) (by decide +kernel)) (by decide +kernel)
    (by decide +kernel)).1⟩
example : ∃ now s tr, LoneExecution 100 Sample.notched 3 now s tr ∧ (graph s).IsTree := by
  obtain ⟨now, s, tr, h, hd⟩ : ∃ now s tr, LoneExecution 100 Sample.notched 3 now s tr ∧ ∀ t ∈ s.skTriangles, ¬ Live s t :=
    lone_sample (by decide +kernel) (by decide +kernel) (by decide +kernel) (by decide +kernel) (by decide +kernel)
      (by decide +kernel) (by decide +kernel) (by decide +kernel)
  exact ⟨now, s, tr, h, (C89_tree h hd (piece_of_check (r := 0) (by decide +kernel)) (by decide +kernel)
    (by decide +kernel)).1⟩

end Grassfire
