/-
Properties C55 and C56: `calc_skel` as a whole.
-/
import Verif.CalcSkel
import Verif.Props.Initialize
import Verif.Props.Invariants
import Verif.Props.Transform
import Verif.Props.Growth
import Verif.Props.Primitives

set_option linter.unusedSectionVars false

namespace Grassfire

open Spec

variable {K : Type} [Field K] [LinearOrder K] [IsStrictOrderedRing K] [HasSqrt K] [HasTrig K]

/-- What `calc_skel` may assume of `triangulate` on the points it passes: the triangulation is
consistent, and its vertices are at the given points. -/
structure Triangulates (triangulate : List (Pt K) → Except Err (Dt K)) : Prop where
  consistent : ∀ pts dt, triangulate pts = .ok dt → DtOk dt
  points : ∀ pts dt, triangulate pts = .ok dt → ∀ v, v < dt.nV → dt.pos v ∈ pts

theorem Spec.Initial.prepare {s : St K} (h : Initial s) (internal : Bool) (tr : Option (Transform K)) :
    Initial (prepare internal tr s) := by
  have key : ∀ (s : St K) tr, Initial s → Initial { s with transform := tr } := fun s tr h =>
    { refs := { h.refs with }, lives := h.lives, hist := h.hist, kinetic := h.kinetic,
      triangles := h.triangles, immediate := h.immediate, events := h.events, ids := h.ids }
  unfold Grassfire.prepare
  cases internal <;> cases tr <;> simp only [if_true, if_false, Bool.false_eq_true]
  · exact h
  · exact key _ _ h
  · exact C42_initial _ h
  · exact key _ _ (C42_initial _ h)

theorem prepare_fields (s : St K) (internal : Bool) (tr : Option (Transform K)) :
    (prepare internal tr s).vert = s.vert ∧ (prepare internal tr s).node = s.node ∧
    (prepare internal tr s).skVertices.Sublist s.skVertices := by
  unfold prepare
  cases internal <;> cases tr
  · exact ⟨rfl, rfl, List.Sublist.refl _⟩
  · exact ⟨rfl, rfl, List.Sublist.refl _⟩
  · exact ⟨rfl, rfl, List.filter_sublist⟩
  · exact ⟨rfl, rfl, List.filter_sublist⟩

theorem runEvents_ok {depth : ℕ} {s0 s : St K} {now : K} (h : runEvents depth s0 = .ok (now, s)) :
    ∃ s1, initEventList s0 = .ok ((), s1) ∧ eventLoop depth s1 = .ok (now, s) := by
  unfold runEvents at h
  cases h1 : initEventList s0 with
  | error f => rw [h1] at h; cases h
  | ok x => obtain ⟨u, s1⟩ := x; rw [h1] at h; exact ⟨s1, rfl, h⟩

/-- C55: whatever the input: when `calc_skel` returns a skeleton, it is the outcome of a complete
execution of `init_event_list` and `event_loop` on what `init_skeleton` (and
`internal_only_skeleton`) delivered.  So everything that is proved about complete executions
(C32-C37, C44, C47, C48) holds of it. -/
theorem C55_completed (depth : ℕ) (pyid : TId → ℕ) (hid : Function.Injective pyid)
    (triangulate : List (Pt K) → Except Err (Dt K)) (points : List (Pt K)) (shrink internal : Bool)
    (now : K) (s : St K) (h : calcSkel depth pyid triangulate points shrink internal = .ok (now, s)) :
    ∃ pts tr dt skel, shrinkPoints shrink points = .ok (pts, tr) ∧ triangulate pts = .ok dt ∧
      initSkeleton dt pyid = .ok skel ∧ Completed depth (prepare internal tr skel) now s := by
  unfold calcSkel at h
  obtain ⟨x, h1, h⟩ := bindE_ok h
  obtain ⟨dt, h2, h⟩ := bindE_ok h
  obtain ⟨skel, h3, h⟩ := bindE_ok h
  obtain ⟨_, h4, h⟩ := bindE_ok h
  refine ⟨x.1, x.2, dt, skel, liftE_ok h1, liftE_ok h2, h3, ?_⟩
  have hi := (C52_initial dt pyid (fun _ _ _ _ e => hid e) skel h3).1
  obtain ⟨s1, ha, hb⟩ := runEvents_ok h
  exact ⟨hi.prepare _ _, s1, ha, hb⟩

/-- C55: when `calc_skel` does not return, it has raised a python exception: it neither runs
forever nor follows a reference that does not exist.  (`triangulate` delivers consistent
triangulations.) -/
theorem C55_faults (depth : ℕ) (pyid : TId → ℕ) (hid : Function.Injective pyid)
    (triangulate : List (Pt K) → Except Err (Dt K)) (ht : Triangulates triangulate)
    (points : List (Pt K)) (shrink internal : Bool) (f : Fault)
    (h : calcSkel depth pyid triangulate points shrink internal = .error f) : ∃ e, f = .py e := by
  unfold calcSkel at h
  rcases bindE_error h with h | ⟨x, _, h⟩
  · exact liftE_error h
  rcases bindE_error h with h | ⟨dt, h2, h⟩
  · exact liftE_error h
  rcases bindE_error h with h | ⟨skel, h3, h⟩
  · exact C54_faults dt pyid (ht.consistent _ _ (liftE_ok h2)) f h
  rcases bindE_error h with h | ⟨_, _, h⟩
  · exact liftE_error h
  have hi := ((C52_initial dt pyid (fun _ _ _ _ e => hid e) skel h3).1).prepare internal x.2
  unfold runEvents at h
  cases h1 : initEventList (prepare internal x.2 skel) with
  | error g => rw [h1] at h; cases h; exact C47_init hi _ h1
  | ok y =>
    obtain ⟨u, s1⟩ := y
    rw [h1] at h
    exact C47_event_loop hi h1 depth f h

theorem mapE_mem {α β ε : Type} {f : α → Except ε β} : ∀ {l : List α} {ys : List β},
    mapE f l = .ok ys → ∀ y ∈ ys, ∃ x ∈ l, f x = .ok y
  | [], ys, h, y, hy => by cases h; cases hy
  | x :: xs, ys, h, y, hy => by
    unfold mapE at h
    obtain ⟨z, hz, h⟩ := bindE_ok h
    obtain ⟨zs, hzs, h⟩ := bindE_ok h
    cases h
    rcases List.mem_cons.1 hy with rfl | hy
    · exact ⟨x, List.mem_cons_self, hz⟩
    · obtain ⟨w, hw, e⟩ := mapE_mem hzs y hy
      exact ⟨w, List.mem_cons_of_mem _ hw, e⟩

/-- the vertices start at the nodes of `dt.vertices` -/
theorem Delivered.start {dt : Dt K} {pyid : TId → ℕ} {ts : List (TriStart K)}
    {vs : List (KVertex K × List DEdge)} {nbr : TId → Fin 3 → Option TId} {unwanted sorted : List TId}
    {s : St K} (h : Delivered dt pyid ts vs nbr unwanted sorted s) {u : VId} {kv : KVertex K}
    (hk : s.vert u = .kin kv) :
    ∃ v, v < dt.nV ∧ kv.startNode = some v ∧ (s.node v).pos = dt.pos v := by
  obtain ⟨x, hx, rfl⟩ := h.vert hk
  obtain ⟨v, first, last, hv, _, hn, _⟩ := h.origin hx
  obtain ⟨a, b, y, z, _, _, _, _, _, _, e⟩ := h.linked hx hn.head hn.tail hn.empty
  refine ⟨v, hv, ?_, ?_⟩
  · rw [e, hn.fields]
  · rw [h.state]; rfl

/-- the check of one vertex passes iff its start is within the square -/
theorem checkStart_iff {s : St K} {v : VId} {kv : KVertex K} {n : NodeId} (hk : s.vert v = .kin kv)
    (hn : kv.startNode = some n) :
    (checkStart s v = .ok () ↔ |(s.node n).pos.1| ≤ 2 ∧ |(s.node n).pos.2| ≤ 2) ∧
    (checkStart s v ≠ .ok () → checkStart s v = .error .assertionError) := by
  unfold checkStart
  rw [hk]
  dsimp only
  rw [hn]
  dsimp only
  rw [abs_le, abs_le]
  unfold passert
  by_cases h1 : (-2 ≤ (s.node n).pos.1 ∧ (s.node n).pos.1 ≤ 2) <;>
    by_cases h2 : (-2 ≤ (s.node n).pos.2 ∧ (s.node n).pos.2 ≤ 2) <;>
    simp [h1, h2, ← Bool.decide_and, bind, Except.bind]

/-- C55: with `shrink=True` the check that all start points are within [-2,2] never fails: after
`init_skeleton` has succeeded `calc_skel` proceeds to the events. -/
theorem C55_shrink_check (depth : ℕ) (pyid : TId → ℕ) (triangulate : List (Pt K) → Except Err (Dt K))
    (ht : Triangulates triangulate) (points : List (Pt K)) (internal : Bool)
    {pts : List (Pt K)} {tr : Option (Transform K)} {dt : Dt K} {skel : St K}
    (h1 : shrinkPoints true points = .ok (pts, tr)) (h2 : triangulate pts = .ok dt)
    (h3 : initSkeleton dt pyid = .ok skel) :
    calcSkel depth pyid triangulate points true internal = runEvents depth (prepare internal tr skel) := by
  have hpts : ∀ q ∈ pts, |q.1| ≤ 2 ∧ |q.2| ≤ 2 := by
    unfold shrinkPoints at h1
    rw [if_pos rfl] at h1
    obtain ⟨⟨ll, ur⟩, hb, h1⟩ := bindE_ok h1
    obtain ⟨qs, hm, h1⟩ := bindE_ok h1
    cases h1
    intro q hq
    obtain ⟨p, hp, hf⟩ := mapE_mem hm q hq
    by_cases hne : ∃ p ∈ points, ∃ q ∈ points, p ≠ q
    · obtain ⟨_, _, hall⟩ := C16_unit_box points ll ur hb hne
      obtain ⟨q', hq', a, b, c, d⟩ := hall p hp
      rw [hf] at hq'
      cases hq'
      rw [abs_le, abs_le]
      exact ⟨⟨by linarith, by linarith⟩, by linarith, by linarith⟩
    · -- all points are the same: `forward` has raised
      push Not at hne
      exfalso
      have hrep : points = p :: List.replicate (points.length - 1) p := by
        have : points = List.replicate points.length p :=
          List.eq_replicate_iff.2 ⟨rfl, fun b hb => hne b hb p hp⟩
        obtain ⟨n, hn⟩ : ∃ n, points.length = n + 1 :=
          ⟨points.length - 1, by have := List.length_pos_of_mem hp; omega⟩
        rw [hn, List.replicate_succ] at this
        rw [hn, Nat.add_sub_cancel]
        exact this
      obtain ⟨b, hb', hz⟩ := C16_single_point p (points.length - 1) p
      rw [← hrep, hb] at hb'
      cases hb'
      rw [hf] at hz
      cases hz
  obtain ⟨ts, vs, nbr, unwanted, sorted, hd⟩ := initSkeleton_ok h3
  obtain ⟨e1, e2, e3⟩ := prepare_fields skel internal tr
  have hcheck : allE (checkStart (prepare internal tr skel)) (prepare internal tr skel).skVertices = .ok () := by
    refine allE_of fun v hv => ?_
    have hv' := e3.subset hv
    have hsk : skel.skVertices = List.range vs.length := by
      rw [hd.state]; dsimp only [initState]; rw [List.length_map]
    rw [hsk, List.mem_range] at hv'
    have hk := hd.vert_of (List.getElem?_eq_getElem hv')
    obtain ⟨w, hw, hs, hpos⟩ := hd.start hk
    have := (checkStart_iff (s := prepare internal tr skel) (v := v) (by rw [e1]; exact hk) hs).1
    rw [this, e2, hpos]
    exact hpts _ (ht.points _ _ h2 w hw)
  unfold calcSkel
  rw [h1]
  change (liftE (triangulate pts) >>= _) = _
  rw [h2]
  change (initSkeleton dt pyid >>= _) = _
  rw [h3]
  change (liftE (allE _ _) >>= _) = _
  rw [hcheck]
  rfl

/-- C55: with `shrink=False` `calc_skel` raises AssertionError as soon as one of the vertices starts
outside of [-2,2] x [-2,2], however harmless the input is. -/
theorem C55_no_shrink (depth : ℕ) (pyid : TId → ℕ) (hid : Function.Injective pyid)
    (triangulate : List (Pt K) → Except Err (Dt K))
    (points : List (Pt K)) (internal : Bool) {dt : Dt K} {skel : St K}
    (h2 : triangulate points = .ok dt) (h3 : initSkeleton dt pyid = .ok skel) {v : VId} {kv : KVertex K}
    {n : NodeId} (hv : v ∈ (prepare internal none skel).skVertices) (hk : skel.vert v = .kin kv)
    (hn : kv.startNode = some n) (hout : 2 < |(skel.node n).pos.1| ∨ 2 < |(skel.node n).pos.2|) :
    calcSkel depth pyid triangulate points false internal = .error (.py .assertionError) := by
  obtain ⟨e1, e2, e3⟩ := prepare_fields skel internal none
  have hi := (C52_initial dt pyid (fun _ _ _ _ e => hid e) skel h3).1
  have hcheck : allE (checkStart (prepare internal none skel)) (prepare internal none skel).skVertices =
      .error .assertionError := by
    have hbad : checkStart (prepare internal none skel) v ≠ .ok () := by
      intro hc
      have := (checkStart_iff (s := prepare internal none skel) (v := v) (by rw [e1]; exact hk) hn).1.1 hc
      rw [e2] at this
      rcases hout with h | h
      · exact absurd this.1 (not_le.2 h)
      · exact absurd this.2 (not_le.2 h)
    have hall : ∀ w ∈ (prepare internal none skel).skVertices,
        checkStart (prepare internal none skel) w ≠ .ok () →
        checkStart (prepare internal none skel) w = .error .assertionError := by
      intro w hw
      obtain ⟨kw, hkw⟩ := hi.kinetic w (e3.subset hw)
      obtain ⟨_, ⟨m, _, hm⟩, _⟩ := hi.lives w kw (hi.refs.skVertices w (e3.subset hw)) hkw
      exact (checkStart_iff (s := prepare internal none skel) (v := w) (by rw [e1]; exact hkw) hm).2
    generalize (prepare internal none skel).skVertices = l at hv hall
    induction l with
    | nil => cases hv
    | cons w l ih =>
      unfold allE
      by_cases hw : checkStart (prepare internal none skel) w = .ok ()
      · rw [hw]
        change allE _ _ = _
        refine ih ?_ fun u hu => hall u (List.mem_cons_of_mem _ hu)
        rcases List.mem_cons.1 hv with rfl | h
        · exact absurd hw hbad
        · exact h
      · rw [hall w List.mem_cons_self hw]; rfl
  unfold calcSkel shrinkPoints
  change (liftE (triangulate points) >>= _) = _
  rw [h2]
  change (initSkeleton dt pyid >>= _) = _
  rw [h3]
  change (liftE (allE _ _) >>= _) = _
  rw [hcheck]
  rfl

theorem Spec.Completed.grows {depth : ℕ} {s0 s : St K} {now : K} (h : Completed depth s0 now s) : Grows s0 s := by
  obtain ⟨s1, h1, h2⟩ := h.run
  exact growsPre.trans _ _ _ (C37_init_event_list s0 s1 h1) (C37_event_loop depth s1 s now h2)

theorem prepare_transform (s : St K) (hs : s.transform = none) (internal : Bool) (tr : Option (Transform K)) :
    (prepare internal tr s).transform = tr := by
  unfold prepare
  cases internal <;> cases tr <;> first | rfl | exact hs

/-- C56: the skeleton that `calc_skel` returns contains the transform computed from the box of the
input (none with `shrink=False`), and its first nodes are the input vertices, at their places. -/
theorem C56_nodes (depth : ℕ) (pyid : TId → ℕ) (hid : Function.Injective pyid)
    (triangulate : List (Pt K) → Except Err (Dt K)) (points : List (Pt K)) (shrink internal : Bool)
    (now : K) (s : St K) (h : calcSkel depth pyid triangulate points shrink internal = .ok (now, s)) :
    ∃ pts dt, triangulate pts = .ok dt ∧
      (shrink = false → s.transform = none ∧ pts = points) ∧
      (shrink = true → ∃ box tr, getBox points = .ok box ∧ tr = getTransform box ∧ s.transform = some tr ∧
        List.Forall₂ (fun p q => tr.forward p = .ok q) points pts) ∧
      (List.range dt.nV).filter dt.finite <+: s.skNodes ∧
      ∀ n, n < dt.nV → (s.node n).pos = dt.pos n ∧ (s.node n).info = dt.info n := by
  obtain ⟨pts, tr, dt, skel, h1, h2, h3, hc⟩ := C55_completed depth pyid hid triangulate points shrink internal
    now s h
  have g := hc.grows
  obtain ⟨ts, vs, nbr, unwanted, sorted, hd⟩ := initSkeleton_ok h3
  have htr0 : skel.transform = none := by rw [hd.state]; rfl
  have htr : s.transform = tr := g.transform.trans (prepare_transform skel htr0 internal tr)
  have hnodes : (prepare internal tr skel).skNodes = (List.range dt.nV).filter dt.finite := by
    have : skel.skNodes = (List.range dt.nV).filter dt.finite := by rw [hd.state]; rfl
    rw [← this]
    unfold prepare
    cases internal <;> cases tr <;> rfl
  have hnN : (prepare internal tr skel).nN = dt.nV := by
    have : skel.nN = dt.nV := by rw [hd.state]; rfl
    rw [← this]
    unfold prepare
    cases internal <;> cases tr <;> rfl
  refine ⟨pts, dt, h2, ?_, ?_, ?_, ?_⟩
  · rintro rfl
    unfold shrinkPoints at h1
    cases h1
    exact ⟨htr, rfl⟩
  · rintro rfl
    unfold shrinkPoints at h1
    rw [if_pos rfl] at h1
    obtain ⟨box, hb, h1⟩ := bindE_ok h1
    obtain ⟨qs, hm, h1⟩ := bindE_ok h1
    cases h1
    exact ⟨box, _, hb, rfl, htr, mapE_ok hm⟩
  · rw [← hnodes]; exact g.skNodes
  · intro n hn
    rw [g.node n (by rw [hnN]; exact hn), (prepare_fields skel internal tr).2.1, hd.state]
    exact ⟨rfl, rfl⟩

/-- C56: `segments()` never raises on a skeleton that `calc_skel` has returned; it gives one segment
per vertex whose start and stop node differ: from the start to the stop node, in input
coordinates; for a vertex that never stops, to its position at time 1000 (C40: not in input
coordinates). -/
theorem C56_segments (depth : ℕ) (pyid : TId → ℕ) (hid : Function.Injective pyid)
    (triangulate : List (Pt K) → Except Err (Dt K)) (points : List (Pt K)) (shrink internal : Bool)
    (now : K) (s : St K) (h : calcSkel depth pyid triangulate points shrink internal = .ok (now, s)) :
    ∃ (kv : VId → KVertex K) (a b : VId → NodeId),
      (∀ v ∈ s.skVertices, s.vert v = .kin (kv v) ∧ (kv v).startNode = some (a v) ∧ a v ∈ s.skNodes ∧
        ((kv v).stopsAt ≠ none → (kv v).stopNode = some (b v) ∧ b v ∈ s.skNodes)) ∧
      segments s = .ok (s.skVertices.filterMap fun v =>
        if (kv v).stopsAt ≠ none then
          if a v = b v then none
          else some (((s.transform.elim id (·.backward)) (s.node (a v)).pos,
            (s.transform.elim id (·.backward)) (s.node (b v)).pos),
            ((s.node (a v)).info, (s.node (b v)).info))
        else some (((s.node (a v)).pos,
          if (kv v).infFast then (s.node (a v)).pos
          else ((kv v).origin.1 + 1000 * (kv v).velocity.1, (kv v).origin.2 + 1000 * (kv v).velocity.2)),
          ((s.node (a v)).info, none))) := by
  obtain ⟨_, _, _, _, _, _, _, hc⟩ := C55_completed depth pyid hid triangulate points shrink internal now s h
  have hl := C34_returned hc
  have hex : ∀ v, ∃ (kv : KVertex K) (a b : NodeId), v ∈ s.skVertices →
      s.vert v = .kin kv ∧ kv.startNode = some a ∧ a ∈ s.skNodes ∧
        (kv.stopsAt ≠ none → kv.stopNode = some b ∧ b ∈ s.skNodes) := by
    intro v
    by_cases hv : v ∈ s.skVertices
    · obtain ⟨kv, hk, l⟩ := hl v hv
      obtain ⟨a, ha, hs⟩ := l.startNode
      cases hb : kv.stopNode with
      | none =>
        refine ⟨kv, a, 0, fun _ => ⟨hk, hs, ha, fun hne => ?_⟩⟩
        have := l.both.1 (Option.isSome_iff_ne_none.2 hne)
        rw [hb] at this
        cases this
      | some b => exact ⟨kv, a, b, fun _ => ⟨hk, hs, ha, fun _ => ⟨hb, l.stopNode b hb⟩⟩⟩
    · exact ⟨⟨(0, 0), (0, 0), [], [], none, none, none, none, none, none, none, none, 0, false, false⟩, 0, 0,
        fun h => absurd h hv⟩
  choose kv a b hall using hex
  exact ⟨kv, a, b, hall, C39_segments s kv a b (fun v hv => (hall v hv).1) (fun v hv => (hall v hv).2.1)
    fun v hv hne => ((hall v hv).2.2.2 hne).1⟩

/-- C55: degenerate input: without points `calc_skel` raises AssertionError, when all points are the
same ZeroDivisionError. -/
theorem C55_degenerate (depth : ℕ) (pyid : TId → ℕ) (triangulate : List (Pt K) → Except Err (Dt K))
    (internal : Bool) (p : Pt K) (n : ℕ) :
    calcSkel depth pyid triangulate [] true internal = .error (.py .assertionError) ∧
    calcSkel depth pyid triangulate (p :: List.replicate n p) true internal = .error (.py .zeroDivisionError) := by
  constructor
  · unfold calcSkel shrinkPoints
    rw [if_pos rfl, (C16_get_box ([] : List (Pt K))).1 rfl]
    rfl
  · obtain ⟨b, hb, hf⟩ := C16_single_point p n p
    unfold calcSkel shrinkPoints
    rw [if_pos rfl, hb]
    change (liftE (mapE (getTransform b).forward (p :: List.replicate n p) >>= _) >>= _) = _
    unfold mapE
    rw [hf]
    rfl

/-! ### the hypotheses are met -/

/-- a `triangulate` for four points, meant for rectangles -/
def Sample.triangulate (pts : List (Pt ℚ)) : Except Err (Dt ℚ) :=
  if pts.length = 4 then .ok { Sample.rectangleDt with pos := fun v => pts.getD v (Sample.rectangleDt.pos v) }
  else .error .valueError

theorem Sample.triangulate_ok : Triangulates Sample.triangulate where
  consistent := by
    intro pts dt h
    unfold Sample.triangulate at h
    split_ifs at h
    cases h
    have h := Sample.rectangleDt_ok
    exact ⟨h.corners, h.star_corner, h.star_nodup, fun v hv => ⟨(h.star_ok v hv).chain, (h.star_ok v hv).closed⟩⟩
  points := by
    intro pts dt h v hv
    unfold Sample.triangulate at h
    split_ifs at h with hp
    cases h
    have hv : v < 4 := hv
    change pts.getD v _ ∈ pts
    rw [List.getD, List.getElem?_eq_getElem (hp ▸ hv)]
    exact List.getElem_mem _

/-- `calc_skel` with `shrink=False` refuses a rectangle of 4 by 2 -/
example : (match calcSkel 100 id Sample.triangulate [(0, 0), (4, 0), (4, 2), (0, 2)] false true with
    | .error (.py e) => some e
    | _ => none) = some .assertionError := by decide +kernel

/-- the segments `calc_skel` computes for the rectangle of 4 by 2 -/
def Sample.skeletonOf (internal : Bool) : Option (List (Pt ℚ × Pt ℚ)) :=
  match calcSkel 100 id Sample.triangulate [(0, 0), (4, 0), (4, 2), (0, 2)] true internal with
  | .ok (_, s) => (segments s).toOption.map (·.map (·.1))
  | .error _ => none

/-- with `shrink=True` it is computed: the four bisectors and the ridge from (3,1) to (1,1), in the
coordinates of the input -/
theorem Sample.skeletonOf_internal : Sample.skeletonOf true =
    some [((0, 0), 1, 1), ((4, 0), 3, 1), ((4, 2), 3, 1), ((0, 2), 1, 1), ((3, 1), 1, 1)] := by
  decide +kernel

/-- with the exterior as well, the bisectors outside never stop: they are in the coordinates of the
box (C40) -/
theorem Sample.skeletonOf_all : Sample.skeletonOf false =
    some [((0, 0), 1, 1), ((-1, -1 / 2), -1001, -2001 / 2), ((4, 0), 3, 1), ((1, -1 / 2), 1001, -2001 / 2),
      ((4, 2), 3, 1), ((1, 1 / 2), 1001, 2001 / 2), ((0, 2), 1, 1), ((-1, 1 / 2), -1001, 2001 / 2),
      ((3, 1), 1, 1)] := by
  decide +kernel

/-- C40 fails for a complete run of `calc_skel`: among the segments of the rectangle is one that
starts at (-1,-1/2), which is none of the vertices; its vertex starts at the node of (0,0). -/
theorem C40_calc_skel_violated : ∃ l, Sample.skeletonOf false = some l ∧
    ((-1, -1 / 2), (-1001, -2001 / 2)) ∈ l :=
  ⟨_, Sample.skeletonOf_all, by decide +kernel⟩

/-- so the hypotheses of C55 and C56 are met -/
example : ∃ now s, calcSkel 100 id Sample.triangulate [(0, 0), (4, 0), (4, 2), (0, 2)] true true = .ok (now, s) := by
  have h := Sample.skeletonOf_internal
  unfold Sample.skeletonOf at h
  split at h
  · rename_i now s hs
    exact ⟨now, s, hs⟩
  · cases h

end Grassfire
