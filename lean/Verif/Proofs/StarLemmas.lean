/-
Lemmas for C41 (`split_star`).
-/
import Verif.Spec.Star

set_option linter.unusedSectionVars false

namespace Grassfire

open Spec

variable {K : Type} [Field K] [LinearOrder K] {dt : Dt K}

theorem passert_ok {c : Bool} {u : Unit} (h : passert c = .ok u) : c = true := by
  unfold passert at h
  split_ifs at h with hc
  exact hc

theorem allE_ok {α ε : Type} {f : α → Except ε Unit} : ∀ {l : List α} {u : Unit},
    allE f l = .ok u → ∀ x ∈ l, f x = .ok ()
  | [], _, _, x, hx => by cases hx
  | y :: ys, u, h, x, hx => by
    unfold allE at h
    cases hy : f y with
    | error e => rw [hy] at h; cases h
    | ok w =>
      rw [hy] at h
      rcases List.mem_cons.1 hx with rfl | hx
      · exact hy
      · exact allE_ok (u := u) h x hx

theorem allE_of {α ε : Type} {f : α → Except ε Unit} : ∀ {l : List α},
    (∀ x ∈ l, f x = .ok ()) → allE f l = .ok ()
  | [], _ => rfl
  | y :: ys, h => by
    unfold allE
    rw [h y (List.mem_cons_self ..)]
    exact allE_of fun x hx => h x (List.mem_cons_of_mem _ hx)

theorem splitLoop_flatten : ∀ (es g : List DEdge), (splitLoop dt es g).flatten = g ++ es
  | [], g => by
    unfold splitLoop
    cases g <;> simp
  | e :: es, g => by
    unfold splitLoop
    split_ifs
    · rw [List.flatten_cons, splitLoop_flatten es []]; simp
    · rw [splitLoop_flatten es (g ++ [e])]; simp

theorem splitLoop_nonempty : ∀ (es g : List DEdge), ∀ x ∈ splitLoop dt es g, x ≠ []
  | [], g, x, hx => by
    unfold splitLoop at hx
    cases g with
    | nil => simp at hx
    | cons a as =>
      have : x = a :: as := by simpa using hx
      rw [this]; simp
  | e :: es, g, x, hx => by
    unfold splitLoop at hx
    split_ifs at hx
    · rcases List.mem_cons.1 hx with rfl | hx
      · simp
      · exact splitLoop_nonempty es [] x hx
    · exact splitLoop_nonempty es (g ++ [e]) x hx

theorem splitLoop_inside : ∀ (es g : List DEdge), (∀ e ∈ g, ¬ Ahead dt e) →
    ∀ x ∈ splitLoop dt es g, ∀ e ∈ x.dropLast, ¬ Ahead dt e
  | [], g, hg, x, hx => by
    unfold splitLoop at hx
    cases g with
    | nil => simp at hx
    | cons a as =>
      have : x = a :: as := by simpa using hx
      rw [this]
      exact fun e he => hg e (List.mem_of_mem_dropLast he)
  | e :: es, g, hg, x, hx => by
    unfold splitLoop at hx
    split_ifs at hx with hc
    · rcases List.mem_cons.1 hx with rfl | hx
      · rw [List.dropLast_concat]; exact hg
      · exact splitLoop_inside es [] (by simp) x hx
    · refine splitLoop_inside es (g ++ [e]) ?_ x hx
      intro f hf
      rcases List.mem_append.1 hf with hf | hf
      · exact hg f hf
      · rw [List.mem_singleton.1 hf]; exact hc

theorem splitLoop_last : ∀ (es g : List DEdge),
    ∀ x ∈ (splitLoop dt es g).dropLast, ∀ e ∈ x.getLast?, Ahead dt e
  | [], g, x, hx => by
    unfold splitLoop at hx
    cases g <;> simp at hx
  | e :: es, g, x, hx => by
    unfold splitLoop at hx
    split_ifs at hx with hc
    · cases hs : splitLoop dt es [] with
      | nil => rw [hs] at hx; simp at hx
      | cons y ys =>
        rw [hs, List.dropLast_cons_of_ne_nil (by simp), ← hs] at hx
        rcases List.mem_cons.1 hx with rfl | hx
        · intro f hf
          rw [List.getLast?_concat] at hf
          cases hf
          exact hc
        · exact splitLoop_last es [] x hx
    · exact splitLoop_last es (g ++ [e]) x hx

theorem splitLoop_count : ∀ (es g : List DEdge),
    (splitLoop dt es g).length = es.countP (fun e => dt.constrained e.1 (ccw e.2)) +
      if (g ++ es).getLast?.any (fun e => !dt.constrained e.1 (ccw e.2)) ∨ (es = [] ∧ g ≠ []) then 1 else 0
  | [], g => by
    unfold splitLoop
    cases g <;> simp
  | e :: es, g => by
    unfold splitLoop
    by_cases hc : dt.constrained e.1 (ccw e.2)
    · rw [if_pos hc, List.length_cons, splitLoop_count es [], List.countP_cons_of_pos (p := fun e : DEdge => dt.constrained e.1 (ccw e.2)) hc]
      cases es with
      | nil => simp [hc]
      | cons f fs =>
        rw [List.getLast?_append_of_ne_nil g (by simp), List.getLast?_cons_cons]
        simp
        omega
    · rw [if_neg hc, splitLoop_count es (g ++ [e]), List.countP_cons_of_neg (p := fun e : DEdge => dt.constrained e.1 (ccw e.2)) hc]
      cases es with
      | nil => simp [hc]
      | cons f fs => simp [List.getLast?_append, List.getLast?_cons_cons]

/-- inside a group of a consistent star -/
theorem tail_behind {g : List DEdge} (hc : g.IsChain fun e f => (Ahead dt e ↔ Behind dt f))
    (hi : ∀ e ∈ g.dropLast, ¬ Ahead dt e) : ∀ e ∈ g.tail, ¬ Behind dt e := by
  induction g with
  | nil => simp
  | cons a as ih =>
    cases as with
    | nil => simp
    | cons b bs =>
      rw [List.isChain_cons_cons] at hc
      rw [List.dropLast_cons_of_ne_nil (by simp)] at hi
      have := ih hc.2 (fun e he => hi e (List.mem_cons_of_mem _ he))
      intro e he
      rw [List.tail_cons] at he
      rcases List.mem_cons.1 he with rfl | he
      · exact fun hb => hi a (List.mem_cons_self ..) (hc.1.2 hb)
      · exact this e he

theorem checkGroup_ok {g : List DEdge} (h : GroupOk dt g) : checkGroup dt g = .ok () := by
  unfold checkGroup
  cases hf : g.head? with
  | none => exact absurd (List.head?_eq_none_iff.1 hf) h.nonempty
  | some f =>
    cases hl : g.getLast? with
    | none => exact absurd (List.getLast?_eq_none_iff.1 hl) h.nonempty
    | some l =>
      have h1 : dt.constrained f.1 (cw f.2) = true := h.first f hf
      have h2 : dt.constrained l.1 (ccw l.2) = true := h.last l hl
      have h3 : allE (fun middle => do
          passert (!dt.constrained middle.1 (cw middle.2))
          passert (!dt.constrained middle.1 (ccw middle.2))) g.tail.dropLast = .ok () := by
        refine allE_of fun m hm => ?_
        have a1 : ¬ Behind dt m := h.behind m (List.mem_of_mem_dropLast hm)
        have a2 : ¬ Ahead dt m := by
          refine h.ahead m ?_
          rw [← List.tail_dropLast] at hm
          exact List.mem_of_mem_tail hm
        unfold Behind at a1
        unfold Ahead at a2
        rw [Bool.not_eq_true] at a1 a2
        rw [a1, a2]; rfl
      dsimp only
      rw [h1, h2, h3]; rfl

/-- the groups before merging, when the star is consistent -/
theorem rotate_groups {gs : List (List DEdge)} {star : List DEdge} (hs : StarOk dt star)
    (hf : gs.flatten = star) (hne : ∀ g ∈ gs, g ≠ [])
    (hin : ∀ g ∈ gs, ∀ e ∈ g.dropLast, ¬ Ahead dt e) :
    (∀ g ∈ gs, ∀ e ∈ g.tail, ¬ Behind dt e) ∧
    gs.IsChain (fun a b => ∀ x ∈ a.getLast?, ∀ y ∈ b.head?, (Ahead dt x ↔ Behind dt y)) := by
  have hn : ([] : List DEdge) ∉ gs := fun h => hne _ h rfl
  have := (List.isChain_flatten hn).1 (by rw [hf]; exact hs.chain)
  exact ⟨fun g hg => tail_behind (this.1 g hg) (hin g hg), this.2⟩

theorem mergeEnds_flatten {gs gs' : List (List DEdge)} (hm : mergeEnds dt gs = .ok gs')
    (h2 : 1 < gs.length) (hne : ∀ g ∈ gs, g ≠ []) :
    gs'.flatten ~r gs.flatten ∧ (∀ g ∈ gs', g ≠ []) := by
  unfold mergeEnds at hm
  match gs, hm, h2, hne with
  | [] :: _, hm, _, _ => cases hm
  | (e :: g) :: rest, hm, h2, hne =>
    dsimp only at hm
    split_ifs at hm with hc
    · cases hm; exact ⟨List.IsRotated.refl _, hne⟩
    · cases hm
      have hr : rest ≠ [] := by rintro rfl; simp at h2
      obtain ⟨init, l, rfl⟩ : ∃ init l, rest = init ++ [l] :=
        ⟨rest.dropLast, rest.getLast hr, (List.dropLast_append_getLast hr).symm⟩
      have e1 : (init ++ [l]).getLastD [] = l := by
        simp
      rw [e1, List.dropLast_concat]
      constructor
      · have := List.isRotated_append (l := l) (l' := (e :: g) ++ init.flatten)
        simpa [List.append_assoc] using this
      · intro x hx
        rcases List.mem_cons.1 hx with rfl | hx
        · simp
        · exact hne x (by simp [hx])

/-- what merging does to consistent groups -/
theorem mergeEnds_groups {gs : List (List DEdge)} {star : List DEdge} (hs : StarOk dt star)
    (hf : gs.flatten = star) (hne : ∀ g ∈ gs, g ≠ [])
    (hin : ∀ g ∈ gs, ∀ e ∈ g.dropLast, ¬ Ahead dt e)
    (hl : ∀ g ∈ gs.dropLast, ∀ e ∈ g.getLast?, Ahead dt e) (h2 : 1 < gs.length) :
    ∃ gs', mergeEnds dt gs = .ok gs' ∧ ∀ g ∈ gs', GroupOk dt g := by
  obtain ⟨ht, hch⟩ := rotate_groups hs hf hne hin
  -- shape of the list
  match gs, hf, hne, hin, hl, h2, ht, hch with
  | [] :: _, _, hne, _, _, _, _, _ => exact absurd rfl (hne [] (List.mem_cons_self ..))
  | (e :: g) :: rest, hf, hne, hin, hl, h2, ht, hch =>
    have hr : rest ≠ [] := by rintro rfl; simp at h2
    obtain ⟨init, l, rfl⟩ : ∃ init l, rest = init ++ [l] :=
      ⟨rest.dropLast, rest.getLast hr, (List.dropLast_append_getLast hr).symm⟩
    rw [show (e :: g) :: (init ++ [l]) = ((e :: g) :: init) ++ [l] from rfl, List.dropLast_concat] at hl
    have hlne : l ≠ [] := hne l (by simp)
    -- the closing condition, for the last edge of `l` and `e`
    have hclose : ∀ x ∈ l.getLast?, (Ahead dt x ↔ Behind dt e) := by
      intro x hx
      refine hs.closed x ?_ e ?_
      · rw [← hf]
        simp only [List.flatten_cons, List.flatten_append, List.flatten_nil, List.append_nil]
        rw [List.getLast?_append_of_ne_nil _ (by simp [hlne]), List.getLast?_append_of_ne_nil _ hlne]
        exact hx
      · rw [← hf]; rfl
    -- first edges of the groups after the first one
    have hfirst : ∀ x ∈ init ++ [l], ∀ y ∈ x.head?, Behind dt y := by
      intro x hx
      have key : ∀ (a : List DEdge) (L : List (List DEdge)), (∀ z ∈ (a :: L).dropLast, ∀ f ∈ z.getLast?, Ahead dt f) →
          (∀ z ∈ a :: L, z ≠ []) →
          (a :: L).IsChain (fun a b => ∀ x ∈ a.getLast?, ∀ y ∈ b.head?, (Ahead dt x ↔ Behind dt y)) →
          ∀ x ∈ L, ∀ y ∈ x.head?, Behind dt y := by
        intro a L
        induction L generalizing a with
        | nil => intro _ _ _ x hx; cases hx
        | cons b L ih =>
          intro k1 k2 k3 x hx y hy
          rw [List.isChain_cons_cons] at k3
          rw [List.dropLast_cons_of_ne_nil (by simp)] at k1
          rcases List.mem_cons.1 hx with rfl | hx
          · obtain ⟨f, hf⟩ : ∃ f, a.getLast? = some f :=
              ⟨_, List.getLast?_eq_some_getLast (k2 a (List.mem_cons_self ..))⟩
            exact (k3.1 f hf y hy).1 (k1 a (List.mem_cons_self ..) f hf)
          · exact ih b (fun z hz => k1 z (List.mem_cons_of_mem _ hz))
              (fun z hz => k2 z (List.mem_cons_of_mem _ hz)) k3.2 x hx y hy
      refine key (e :: g) (init ++ [l]) ?_ hne hch x hx
      rw [show (e :: g) :: (init ++ [l]) = ((e :: g) :: init) ++ [l] from rfl, List.dropLast_concat]
      exact hl
    have hmid : ∀ x ∈ init, GroupOk dt x := fun x hx =>
      { nonempty := hne x (by simp [hx])
        first := hfirst x (by simp [hx])
        last := hl x (by simp [hx])
        ahead := hin x (by simp [hx])
        behind := ht x (by simp [hx]) }
    unfold mergeEnds
    dsimp only
    split_ifs with hc
    · refine ⟨_, rfl, fun x hx => ?_⟩
      rcases List.mem_cons.1 hx with rfl | hx
      · exact { nonempty := by simp
                first := fun y hy => by cases hy; exact hc
                last := hl _ (by simp)
                ahead := hin _ (by simp)
                behind := ht _ (by simp) }
      · rcases List.mem_append.1 hx with hx | hx
        · exact hmid x hx
        · rw [List.mem_singleton.1 hx]
          exact { nonempty := hlne
                  first := hfirst l (by simp)
                  last := fun y hy => (hclose y hy).2 hc
                  ahead := hin _ (by simp)
                  behind := ht _ (by simp) }
    · have e1 : (init ++ [l]).getLastD [] = l := by
        simp
      rw [e1, List.dropLast_concat]
      refine ⟨_, rfl, fun x hx => ?_⟩
      rcases List.mem_cons.1 hx with rfl | hx
      · refine { nonempty := by simp, first := ?_, last := ?_, ahead := ?_, behind := ?_ }
        · intro y hy
          rw [List.head?_append_of_ne_nil _ hlne] at hy
          exact hfirst l (by simp) y hy
        · intro y hy
          rw [List.getLast?_append_of_ne_nil _ (by simp)] at hy
          exact hl (e :: g) (by simp) y hy
        · intro y hy
          rw [List.dropLast_append_of_ne_nil (by simp)] at hy
          rcases List.mem_append.1 hy with hy | hy
          · rw [← List.dropLast_append_getLast hlne] at hy
            rcases List.mem_append.1 hy with hy | hy
            · exact hin l (by simp) y hy
            · rw [List.mem_singleton.1 hy]
              exact fun ha => hc ((hclose _ (List.getLast?_eq_some_getLast hlne)).1 ha)
          · exact hin (e :: g) (by simp) y hy
        · intro y hy
          rw [List.tail_append_of_ne_nil hlne] at hy
          rcases List.mem_append.1 hy with hy | hy
          · exact ht l (by simp) y hy
          · rcases List.mem_cons.1 hy with rfl | hy
            · exact hc
            · exact ht (e :: g) (by simp) y hy
      · exact hmid x hx

theorem mergeEnds_length {gs gs' : List (List DEdge)} (hm : mergeEnds dt gs = .ok gs')
    (h2 : 1 < gs.length) : ∃ e g rest, gs = (e :: g) :: rest ∧
      gs'.length = gs.length - if dt.constrained e.1 (cw e.2) then 0 else 1 := by
  unfold mergeEnds at hm
  match gs, hm, h2 with
  | [] :: _, hm, _ => cases hm
  | (e :: g) :: rest, hm, h2 =>
    refine ⟨e, g, rest, rfl, ?_⟩
    dsimp only at hm
    split_ifs at hm with hc
    · cases hm; simp [hc]
    · cases hm
      simp at h2
      simp [hc]
      omega

end Grassfire
