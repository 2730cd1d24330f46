/-
Property C88: in general position the skeleton is a graph whose inner nodes have three arcs.
-/
import Verif.Proofs.CubicCount
import Verif.Props.Primitives
import Verif.Props.Progress
import Verif.Props.Within

set_option linter.unusedSectionVars false

namespace Grassfire

open Spec

variable {K : Type} [Field K] [LinearOrder K] [IsStrictOrderedRing K] [HasSqrt K] [SqrtUnit K] [HasTrig K]

/-- what is known after the iterations of such an execution -/
theorem Spec.LoneExecution.state {depth n : ℕ} {s0 s : St K} {now : K} {tr : List (Event K × K)}
    (h : LoneExecution depth s0 n now s tr) :
    ∃ s1, initEventList s0 = .ok ((), s1) ∧ Populated s ∧ (∀ e ∈ pending s, e.tri ∈ s.skTriangles) ∧
      Counted { s1 with immediate := [] } s := by
  obtain ⟨⟨hs, s1, h1, hr, hg⟩, hp, ha⟩ := h
  obtain ⟨R, hI⟩ := ready_start hs h1
  obtain ⟨c1, c2, c3, -⟩ := cubic_start hs.initial hp h1
  obtain ⟨d1, d2, d3⟩ := cubic_run hr R hI c1 c2 c3 fun m hm x u tr' e q1 q2 q3 =>
    ⟨hg m hm.le x u tr' e q1 q2 q3, ha s1 h1 m hm.le x u tr' e q1 q2 q3⟩
  exact ⟨s1, h1, d1, d2, d3⟩

/-- **C88.** At every event in general position that is not a flip, one triangle vanishes and one node appears, where
exactly three arcs meet; a flip, and an event of a triangle that was stopped before, changes nothing in the skeleton. -/
theorem C88_event {depth n : ℕ} {s0 s s' : St K} {now now' : K} {tr : List (Event K × K)} {e : Event K}
    (h : LoneExecution depth s0 n now s tr) (hs : loopStep depth (n + 1 : ℕ) now s = .ok (some (e, now'), s')) :
    (¬ Live s e.tri ∨ e.tp = .flip → Untouched s s') ∧
    (Live s e.tri → e.tp ≠ .flip → ∃ gone made, Junction s s' e.tri gone made) := by
  obtain ⟨R, hI, hg⟩ := h.generic.ready
  obtain ⟨s1, h1, p1, p2, -⟩ := h.state
  obtain ⟨s1', h1', hr, -⟩ := h.generic.run
  rw [h1] at h1'
  cases h1'
  obtain ⟨-, -, -, c4, c5, c6⟩ := cubic_loopStep R hI p1 p2
    (fun f q1 q2 => ⟨hg f q1 q2, h.alone s1 h1 n le_rfl _ _ _ f hr q1 q2⟩) hs
  refine ⟨fun q => ?_, fun q1 q2 => ?_⟩
  swap
  · obtain ⟨x, y, hJ, -⟩ := c6 q1 q2
    exact ⟨x, y, hJ⟩
  by_cases hl : Live s e.tri
  · rcases q with q | q
    · exact absurd hl q
    · exact (c5 hl q).1
  · exact (c4 hl).1

theorem ends_start {s0 : St K} (h : Initial s0) (x : NodeId) : ends s0 x = 0 := by
  unfold ends
  rw [List.countP_eq_zero]
  intro v hv
  obtain ⟨k, hk⟩ := h.kinetic v hv
  rw [endOf_kin hk, (h.lives v k (h.refs.skVertices v hv) hk).2.2.2]
  simp

theorem open_start {s0 : St K} (h : Initial s0) : openArcs s0 = s0.skVertices.length := by
  unfold openArcs
  rw [List.countP_eq_length]
  intro v hv
  obtain ⟨k, hk⟩ := h.kinetic v hv
  rw [endOf_kin hk, (h.lives v k (h.refs.skVertices v hv) hk).2.2.2]
  rfl

/-- **C88.** In general position three arcs meet at every node that the event loop makes, one of which at least ends there;
at the nodes of the input no arc ends, and as many begin as did at the start. -/
theorem C88_degrees {depth n : ℕ} {s0 s : St K} {now : K} {tr : List (Event K × K)}
    (h : LoneExecution depth s0 n now s tr) :
    (∀ x < s.nN, s0.nN ≤ x → begins s x + ends s x = 3 ∧ 1 ≤ ends s x) ∧
    ∀ x < s0.nN, begins s x = begins s0 x ∧ ends s x = 0 := by
  obtain ⟨s1, h1, -, -, d⟩ := h.state
  obtain ⟨-, -, -, e1, -, -, e4, e5, -, -⟩ := cubic_start h.generic.start.initial h.populated h1
  refine ⟨fun x hx hy => d.new x hx (e1.trans_le hy), fun x hx => ?_⟩
  obtain ⟨a, b⟩ := d.old x (hx.trans_eq e1.symm)
  rw [e4] at a
  rw [e5, ends_start h.generic.start.initial] at b
  exact ⟨a, b⟩

/-- **C88.** In general position an arc ends at a node that was made after the node where it begins; so no arc joins a node
to itself, and going along the arcs never leads back. -/
theorem C88_forward {depth n : ℕ} {s0 s : St K} {now : K} {tr : List (Event K × K)}
    (h : LoneExecution depth s0 n now s tr) :
    ∀ v ∈ s.skVertices, ∀ a b, beginOf s v = some a → endOf s v = some b → a < b ∧ s0.nN ≤ b := by
  obtain ⟨s1, h1, -, -, d⟩ := h.state
  obtain ⟨-, -, -, e1, -⟩ := cubic_start h.generic.start.initial h.populated h1
  intro v hv a b ha hb
  obtain ⟨q1, q2⟩ := d.forward v hv a b ha hb
  exact ⟨q1, e1.symm.trans_le q2⟩

/-- **C88.** In general position every node that is made costs one triangle, and the number of arcs follows. -/
theorem C88_count {depth n : ℕ} {s0 s : St K} {now : K} {tr : List (Event K × K)}
    (h : LoneExecution depth s0 n now s tr) :
    s.skNodes.length + liveTriangles s = s0.skNodes.length + liveTriangles s0 ∧
    2 * s.skVertices.length + 3 * liveTriangles s = s0.skVertices.length + 3 * liveTriangles s0 + openArcs s := by
  obtain ⟨s1, h1, -, -, d⟩ := h.state
  obtain ⟨-, -, -, e1, e2, e3, -, -, e6, e7⟩ := cubic_start h.generic.start.initial h.populated h1
  have a := d.nodes
  have b := d.recorded
  have c := d.arcs
  rw [e7] at a c
  rw [e6, open_start h.generic.start.initial] at c
  dsimp only at a b c
  rw [e1] at a b
  rw [e2] at b
  rw [e3] at c
  have g := d.grow
  dsimp only at g
  rw [e1] at g
  omega

theorem filterMap_all {α β : Type} {f : α → Option β} {l : List α} (h : ∀ x ∈ l, (f x).isSome) :
    (l.filterMap f).length = l.length := by
  induction l with
  | nil => rfl
  | cons x l ih =>
    obtain ⟨y, hy⟩ := Option.isSome_iff_exists.1 (h x List.mem_cons_self)
    rw [List.filterMap_cons_some hy, List.length_cons, List.length_cons, ih fun z hz => h z (List.mem_cons_of_mem _ hz)]

/-- **C88.** When in general position all triangles have vanished, the skeleton is complete: every arc joins two different
nodes of it, and is delivered as a segment; there are `T` nodes in the interior and `(A + 3 T) / 2` arcs, if `T` triangles and
`A` arcs were there at the start. -/
theorem C88_complete {depth n : ℕ} {s0 s : St K} {now : K} {tr : List (Event K × K)}
    (h : LoneExecution depth s0 n now s tr) (hdone : ∀ t ∈ s.skTriangles, ¬ Live s t) :
    (∀ v ∈ s.skVertices, ∃ a ∈ s.skNodes, ∃ b ∈ s.skNodes, beginOf s v = some a ∧ endOf s v = some b ∧ a < b ∧ s0.nN ≤ b) ∧
    s.skNodes.length = s0.skNodes.length + liveTriangles s0 ∧
    2 * s.skVertices.length = s0.skVertices.length + 3 * liveTriangles s0 ∧
    ∃ l, segments s = .ok l ∧ l.length = s.skVertices.length := by
  obtain ⟨-, hI, -⟩ := h.generic.ready
  obtain ⟨s1, h1, hP, -, -⟩ := h.state
  obtain ⟨c1, c2⟩ := C88_count h
  have hlt : liveTriangles s = 0 := by
    unfold liveTriangles
    rw [List.countP_eq_zero]
    intro t ht q
    exact hdone t ht ⟨hI.refs.skTriangles t ht, Option.isNone_iff_eq_none.1 q⟩
  have hno : ∀ v ∈ s.skVertices, endOf s v ≠ none := by
    intro v hv q
    obtain ⟨t, ht, hl, -⟩ := hP.held v hv ((open_iff hI hv).1 q)
    exact hdone t ht hl
  have hop : openArcs s = 0 := by
    unfold openArcs
    rw [List.countP_eq_zero]
    intro v hv q
    exact hno v hv (Option.isNone_iff_eq_none.1 q)
  rw [hlt] at c1 c2
  rw [hop] at c2
  have key : ∀ v ∈ s.skVertices, ∃ k a b, s.vert v = .kin k ∧ a ∈ s.skNodes ∧ b ∈ s.skNodes ∧ k.startNode = some a ∧
      k.stopNode = some b ∧ a < b ∧ s0.nN ≤ b := by
    intro v hv
    obtain ⟨k, hk, -⟩ := hI.numbered v hv
    have L := hI.lives v k (hI.refs.skVertices v hv) hk
    obtain ⟨a, ha, hak⟩ := L.startNode
    have he := hno v hv
    rw [endOf_kin hk] at he
    obtain ⟨b, hb⟩ := Option.ne_none_iff_exists'.1 he
    have := C88_forward h v hv a b (by rw [beginOf_kin hk]; exact hak) (by rw [endOf_kin hk]; exact hb)
    exact ⟨k, a, b, hk, ha, L.stopNode b hb, hak, hb, this.1, this.2⟩
  refine ⟨fun v hv => ?_, by omega, by omega, ?_⟩
  · obtain ⟨k, a, b, q1, q2, q3, q4, q5, q6⟩ := key v hv
    exact ⟨a, q2, b, q3, by rw [beginOf_kin q1]; exact q4, by rw [endOf_kin q1]; exact q5, q6⟩
  · classical
    refine ⟨_, C39_segments s
      (fun v => if hv : v ∈ s.skVertices then (key v hv).choose else { origin := (0, 0), velocity := (0, 0) })
      (fun v => (beginOf s v).getD 0) (fun v => (endOf s v).getD 0) ?_ ?_ ?_, filterMap_all ?_⟩
    all_goals
      intro v hv
      rw [dif_pos hv]
      obtain ⟨a, b, q1, q2, q3, q4, q5, q6, q7⟩ := (key v hv).choose_spec
    · exact q1
    · rw [beginOf_kin q1, q4]; rfl
    · rw [endOf_kin q1, q5]; exact fun _ => rfl
    · rw [beginOf_kin q1, endOf_kin q1, q4, q5]
      split_ifs with r1 r2
      · exact absurd r2 (Nat.ne_of_lt q6)
      all_goals rfl

/-! ### the start -/

section
variable {dt : Dt K} {pyid : TId → ℕ} {ts : List (TriStart K)} {vs : List (KVertex K × List DEdge)}
  {nbr : TId → Fin 3 → Option TId} {unwanted sorted : List TId} {s : St K}

/-- the triangles in the row of a kinetic vertex are inside or outside together, and so is the vertex -/
theorem Delivered.inside (h : Delivered dt pyid ts vs nbr unwanted sorted s) (hdt : DtMesh dt) (hr : DtRegions dt) {u : VId}
    {x : KVertex K × List DEdge} (hx : vs[u]? = some x) {e : DEdge} (he : e ∈ x.2) :
    (linkVertex vs x).internal = dt.internal e.1 := by
  obtain ⟨v, ha⟩ := h.around hdt hx
  obtain ⟨v', first, last, -, -, hn, -⟩ := h.origin hx
  have e1 : (linkVertex vs x).internal = x.1.internal := by unfold linkVertex; split <;> rfl
  rw [e1, hn.fields]
  dsimp only
  have hl : x.2 = x.2.dropLast ++ [last] := by
    rw [List.dropLast_append_getLast? _ hn.tail]
  rw [hl] at he
  rcases List.mem_append.1 he with q | q
  · obtain ⟨p, r, q⟩ := List.append_of_mem q
    rw [q] at hl
    exact ha.regions hdt hr (p := p) (mid := r) (q := []) (by rw [hl]; simp)
  · rw [List.mem_singleton.1 q]

/-- the last triangle in the row of a kinetic vertex is not taken out -/
theorem Delivered.last_wanted (h : Delivered dt pyid ts vs nbr unwanted sorted s) (hdt : DtMesh dt) {u : VId}
    {x : KVertex K × List DEdge} (hx : vs[u]? = some x) :
    ∃ e ∈ x.2, e.1 ∉ unwanted := by
  obtain ⟨v, first, last, -, -, hn, -⟩ := h.origin hx
  obtain ⟨a, b, y, z, h1, -⟩ := h.linked hx hn.head hn.tail hn.empty
  have hm : last ∈ x.2 := List.mem_of_getLast? hn.tail
  refine ⟨last, hm, fun hu => ?_⟩
  have hk := h.kref_member hdt hx hm
  obtain ⟨y', hy', hmem⟩ := kcorner_some h1
  have hk' := h.kref_member hdt hy' hmem
  have := h.unwanted_inf hu hk (j := cw last.2) (by unfold cw; generalize last.2 = i; fin_cases i <;> decide)
  rw [hk'] at this
  cases this

/-- **C88.** What `init_skeleton` delivers (also after `internal_only_skeleton`): the moving corners of the triangles of the
skeleton are its vertices. -/
theorem C88_init_skeleton (dt : Dt K) (pyid : TId → ℕ) (hid : ∀ t u, t < dt.nT → u < dt.nT → pyid t = pyid u → t = u)
    (hm : DtMesh dt) (hr : DtRegions dt) (s : St K) (h : initSkeleton dt pyid = .ok s) (internal : Bool)
    (tr : Option (Transform K)) : Populated (prepare internal tr s) := by
  obtain ⟨ts, vs, nbr, unwanted, sorted, hd⟩ := initSkeleton_ok h
  have hi := (C52_initial dt pyid hid s h).1.prepare internal tr
  have hlive := (C70_mesh dt pyid hm s h).2
  have htri : (prepare internal tr s).tri = s.tri := by unfold prepare; cases internal <;> cases tr <;> rfl
  have hvert : (prepare internal tr s).vert = s.vert := by unfold prepare; cases internal <;> cases tr <;> rfl
  have hnT : (prepare internal tr s).nT = s.nT := by unfold prepare; cases internal <;> cases tr <;> rfl
  have hnV : (prepare internal tr s).nV = s.nV := by unfold prepare; cases internal <;> cases tr <;> rfl
  have hL : ∀ t, Live (prepare internal tr s) t ↔ Live s t := fun t => by unfold Live; rw [htri, hnT]
  have hsk : s.skVertices = List.range vs.length := by
    rw [hd.state]
    show List.range (List.map _ vs).length = _
    rw [List.length_map]
  have hint : ∀ t, (s.tri t).internal = dt.internal t := by
    intro t
    by_cases hu : t ∈ unwanted
    · rw [hd.tri_unwanted hu]
    · rw [hd.tri_wanted hu]
  have hmem : ∀ t, t ∈ (prepare internal tr s).skTriangles ↔ Live s t ∧ (internal = true → dt.internal t = true) := by
    intro t
    rw [hlive, ← hint]
    unfold prepare
    cases internal <;> cases tr <;> simp [internalOnly, List.mem_filter]
  have hvm : ∀ v x, vs[v]? = some x →
      (v ∈ (prepare internal tr s).skVertices ↔ (internal = true → (linkVertex vs x).internal = true)) := by
    intro v x hx
    have hv : v ∈ s.skVertices := by
      rw [hsk]
      exact List.mem_range.2 (List.getElem?_eq_some_iff.1 hx).1
    unfold prepare
    cases internal <;> cases tr <;> simp [internalOnly, List.mem_filter, hv, hd.vert_of hx]
  have hvs : ∀ v, v ∈ (prepare internal tr s).skVertices → v ∈ s.skVertices := by
    intro v
    unfold prepare
    cases internal <;> cases tr <;> simp +contextual [internalOnly, List.mem_filter]
  refine ⟨?_, hi.triangles, (C72_internal dt pyid hm hr s h internal tr).1, ?_, ?_⟩
  · have : s.skVertices.Nodup := hsk ▸ List.nodup_range
    unfold prepare
    cases internal <;> cases tr
    · exact this
    · exact this
    · exact this.filter _
    · exact this.filter _
  · intro t ht hl i hk
    rw [htri] at hk ⊢
    obtain ⟨q1, q2⟩ := (hmem t).1 ht
    have hu : t ∉ unwanted := by
      intro hu
      have := q1.2
      rw [hd.tri_unwanted hu] at this
      cases this
    have e : (s.tri t).vertices i = vidOf vs.length (kref dt vs t i) := by rw [hd.tri_wanted hu]
    obtain ⟨-, k, hk⟩ := hk
    rw [hvert] at hk
    obtain ⟨x, hx, -⟩ := hd.vert hk
    obtain ⟨y, hy⟩ : ∃ u, kref dt vs t i = some (.kin u) := by
      generalize hq : kref dt vs t i = o at e
      have hno : (s.tri t).vertices i ≠ vs.length := fun q => by
        rw [q] at hx
        exact absurd (List.getElem?_eq_some_iff.1 hx).1 (lt_irrefl _)
      cases o with
      | none => exact absurd e hno
      | some r => cases r with
        | kin u => exact ⟨u, rfl⟩
        | inf p => exact absurd e hno
    rw [hy] at e
    change (s.tri t).vertices i = y at e
    rw [e] at hx ⊢
    obtain ⟨x', w, hx', hin, -⟩ := hd.kin_corner hm hy
    rw [hx] at hx'
    cases hx'
    rw [hvm y x hx, hd.inside hm hr hx hin]
    exact q2
  · intro v hv hrun
    have hlt : v < vs.length := List.mem_range.1 (hsk ▸ hvs v hv)
    have hx : vs[v]? = some vs[v] := List.getElem?_eq_getElem hlt
    obtain ⟨e, he, hu⟩ := hd.last_wanted hm hx
    obtain ⟨w, ha⟩ := hd.around hm hx
    have hl : Live s e.1 := by
      refine ⟨?_, by rw [hd.tri_wanted hu]⟩
      have : s.nT = dt.nT := by rw [hd.state]; rfl
      rw [this]
      exact ha.bound e he
    refine ⟨e.1, (hmem _).2 ⟨hl, fun q => ?_⟩, (hL _).2 hl, e.2, ?_⟩
    · rw [← hd.inside hm hr hx he]
      exact (hvm v _ hx).1 hv q
    · rw [htri, hd.tri_wanted hu]
      dsimp only
      rw [hd.kref_member hm hx he]
      rfl
end

/-! ### the hypotheses are met -/

/-- test of `Populated` -/
def populatedCheck (s : St ℚ) : Bool :=
  decide s.skVertices.Nodup && decide s.skTriangles.Nodup &&
  (s.skTriangles.all fun t => sides.all fun i => match (s.tri t).neighbours i with
    | none => true
    | some n => decide (n ∈ s.skTriangles)) &&
  (s.skTriangles.all fun t => sides.all fun i => match s.vert ((s.tri t).vertices i) with
    | .inf _ => true
    | .kin _ => decide ((s.tri t).vertices i ∈ s.skVertices)) &&
  s.skVertices.all fun v => s.skTriangles.any fun t => decide (t < s.nT) && (s.tri t).stopsAt.isNone &&
    decide (∃ i, (s.tri t).vertices i = v)

theorem populated_of_check {s : St ℚ} (h : populatedCheck s = true) : Populated s := by
  unfold populatedCheck at h
  simp only [Bool.and_eq_true, List.all_eq_true, List.any_eq_true, decide_eq_true_eq] at h
  obtain ⟨⟨⟨⟨h1, h2⟩, h3⟩, h4⟩, h5⟩ := h
  refine ⟨h1, h2, ?_, ?_, ?_⟩
  · intro t i n ht hn
    have := h3 t ht i (mem_sides i)
    rw [hn] at this
    exact of_decide_eq_true this
  · rintro t ht - i ⟨-, k, hk⟩
    have := h4 t ht i (mem_sides i)
    rw [hk] at this
    exact of_decide_eq_true this
  · rintro v hv -
    obtain ⟨t, ht, ⟨a, b⟩, c⟩ := h5 v hv
    exact ⟨t, ht, ⟨a, Option.isNone_iff_eq_none.1 b⟩, c⟩

/-- test of `Alone` -/
def aloneCheck (s : St ℚ) (e : Event ℚ) : Bool :=
  (decide (e.tp ≠ .edge) || decide (∃ j, ((s.tri e.tri).neighbours j).isSome) || decide (e.side.length = 3)) &&
  (decide (e.tp = .flip) || sides.all fun i => match s.vert ((s.tri e.tri).vertices i) with
    | .inf _ => true
    | .kin k => match k.startsAt with
      | none => true
      | some u => decide (1 / 10 ^ 10 < |u - e.time|))

theorem alone_of_check {s : St ℚ} {e : Event ℚ} (h : aloneCheck s e = true) : Alone s e := by
  unfold aloneCheck at h
  simp only [Bool.and_eq_true, Bool.or_eq_true, decide_eq_true_eq, List.all_eq_true] at h
  obtain ⟨h1, h2⟩ := h
  refine ⟨fun q1 q2 => ?_, fun q1 i k u hk hu => ?_⟩
  · rcases h1 with (h1 | ⟨j, h1⟩) | h1
    · exact absurd q1 h1
    · rw [q2 j] at h1; cases h1
    · exact h1
  · rcases h2 with h2 | h2
    · exact absurd h2 q1
    · have := h2 i (mem_sides i)
      rw [hk] at this
      dsimp only at this
      rw [hu] at this
      exact of_decide_eq_true this

theorem lone_execution {depth n : ℕ} {s0 : St ℚ} {now : ℚ} {s : St ℚ} {tr : List (Event ℚ × ℚ)} (h1 : goodCheck s0 = true)
    (h2 : Execution depth s0 n now s tr)
    (h3 : genericRun (fun s e => genericCheck s e && aloneCheck s e) depth n 0 0
      { Sample.after initEventList s0 with immediate := [] } = true)
    (h4 : populatedCheck s0 = true) : LoneExecution depth s0 n now s tr := by
  obtain ⟨-, s1, q1, q2⟩ := h2
  have e1 : Sample.after initEventList s0 = s1 := by unfold Sample.after; rw [q1]
  rw [e1] at h3
  have key : ∀ m ≤ n, ∀ x u tr' e, Run depth { s1 with immediate := [] } 0 m x u tr' → NextEvent u e → Live u e.tri →
      genericCheck u e = true ∧ aloneCheck u e = true := by
    intro m hm x u tr' e hr he hl
    have := genericRun_run n 0 .start h3 m (Nat.zero_le _) (by omega) x u tr' e hr he hl
    rwa [Bool.and_eq_true] at this
  refine ⟨⟨good_of_check h1, s1, q1, q2, fun m hm x u tr' e r1 r2 r3 => generic_of_check (key m hm x u tr' e r1 r2 r3).1⟩,
    populated_of_check h4, fun s1' q m hm x u tr' e r1 r2 r3 => alone_of_check ?_⟩
  rw [q1] at q
  cases q
  exact (key m hm x u tr' e r1 r2 r3).2

theorem lone_sample {n : ℕ} {s0 : St ℚ} (h1 : Sample.initialOk s0 = true) (h2 : meshCheck s0 = true)
    (h3 : Sample.outcome initEventList (fun _ _ => ()) s0 = some ())
    (h4 : (ordinaryRun 100 n 0 0 { Sample.after initEventList s0 with immediate := [] }).isSome = true)
    (h5 : goodCheck s0 = true)
    (h6 : genericRun (fun s e => genericCheck s e && aloneCheck s e) 100 n 0 0
      { Sample.after initEventList s0 with immediate := [] } = true)
    (h7 : populatedCheck s0 = true)
    (h8 : ((ordinaryRun 100 n 0 0 { Sample.after initEventList s0 with immediate := [] }).map
      fun r => r.2.skTriangles.all fun t => (r.2.tri t).stopsAt.isSome) = some true) :
    ∃ now s tr, LoneExecution 100 s0 n now s tr ∧ ∀ t ∈ s.skTriangles, ¬ Live s t := by
  obtain ⟨now, s, tr, q, -, -, s1, r1, r2, -⟩ := ordinary_execution h1 h2 h3 h4
  refine ⟨now, s, tr, lone_execution h5 ⟨Sample.initialOk_sound h1, s1, r1, r2⟩ h6 h7, fun t ht hl => ?_⟩
  rw [q, Option.map_some, Option.some.injEq, List.all_eq_true] at h8
  have := h8 t ht
  rw [hl.2] at this
  cases this

/-- The complete runs of the trapezoid and of the polygon with a notch. -/
example : ∃ now s tr, LoneExecution 100 Sample.trapezoid 2 now s tr ∧ ∀ t ∈ s.skTriangles, ¬ Live s t :=
  lone_sample (by decide +kernel) (by decide +kernel) (by decide +kernel) (by decide +kernel) (by decide +kernel)
    (by decide +kernel) (by decide +kernel) (by decide +kernel)
example : ∃ now s tr, LoneExecution 100 Sample.notched 3 now s tr ∧ ∀ t ∈ s.skTriangles, ¬ Live s t :=
  lone_sample (by decide +kernel) (by decide +kernel) (by decide +kernel) (by decide +kernel) (by decide +kernel)
    (by decide +kernel) (by decide +kernel) (by decide +kernel)

end Grassfire
