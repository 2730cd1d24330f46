/-
C84: when no tolerance blurs anything, everything happens exactly.
-/
import Verif.Proofs.SharpExact
import Verif.Props.Links
import Verif.Props.Forest

set_option linter.unusedSectionVars false

namespace Grassfire

open Spec

variable {K : Type} [Field K] [LinearOrder K] [IsStrictOrderedRing K] [HasSqrt K] [SqrtUnit K] [HasTrig K]

/-- an execution in which no tolerance blurs anything, on what `init_skeleton` (and, if asked for,
`internal_only_skeleton`) has delivered for the triangulation `dt`; `s0` is the state at its beginning -/
structure SharpRun (dt : Dt K) (depth : ℕ) (skel s0 : St K) (n : ℕ) (now : K) (s : St K) (trace : List (Event K × K)) :
    Prop where
  consistent : DtOk dt
  lengths : ExactLengths dt
  angles : ClearAngles dt
  spikes : NoSpikes skel
  start : ∃ pyid internal tr, initSkeleton dt pyid = .ok skel ∧ s0 = prepare internal tr skel
  run : SharpExecution depth s0 n now s trace

theorem SharpRun.steady {dt : Dt K} {depth : ℕ} {skel s0 : St K} {n : ℕ} {now : K} {s : St K}
    {trace : List (Event K × K)} (h : SharpRun dt depth skel s0 n now s trace) :
    SteadyExecution depth s0 n now s trace ∧ PlainExecution depth s0 n now s trace ∧
      Crisp (· ∈ s0.skTriangles) now s := by
  obtain ⟨hc, hx, ha, hs, ⟨pyid, internal, tr, h1, rfl⟩, h2⟩ := h
  obtain ⟨ts, vs, nbr, unwanted, sorted, hd⟩ := initSkeleton_ok h1
  exact sharp_steady ha ((hd.waves hc hx).prepare internal tr) ((hd.arcs hc hx ha hs).prepare internal tr) h2

/-- **C84.** An execution in which no tolerance blurs anything is steady (see `SteadyExecution`) and plain (see
`PlainExecution`): the vertices that an event stops are at the same place at its time, those that hit a side are on its
wavefront, and flips are made when the apex is on the side.  So what C75, C77 and C69 tell holds for it. -/
theorem C84_steady {dt : Dt K} {depth : ℕ} {skel s0 : St K} {n : ℕ} {now : K} {s : St K}
    {trace : List (Event K × K)} (h : SharpRun dt depth skel s0 n now s trace) :
    SteadyRun dt depth skel s0 n now s ∧ ExactExecution depth s0 n now s trace ∧
      PlainExecution depth s0 n now s trace :=
  ⟨⟨h.consistent, h.lengths, h.angles, h.spikes, h.start, trace, h.steady.1⟩, h.steady.1.exact, h.steady.2.1⟩

/-- **C84.** What the next event announces does happen: at its time the ends of the sides that are to collapse are at the
same place, the apex of a split or flip event is on the side. -/
theorem C84_happens {dt : Dt K} {depth : ℕ} {skel s0 : St K} {n : ℕ} {now now' : K} {s s' : St K}
    {trace : List (Event K × K)} {e : Event K} (h : SharpRun dt depth skel s0 n now s trace)
    (hm : loopStep depth (n + 1 : ℕ) now s = .ok (some (e, now'), s')) (hx : SharpStep s e now now')
    (hl : (s.tri e.tri).stopsAt = none) : Happens (viewT s e.tri) e.toEvCore := by
  obtain ⟨hT, -, C⟩ := h.steady
  have hSt := (C84_steady h).1.standing
  obtain ⟨hi, -, -⟩ := ordinary_inv hT.ordinary
  obtain ⟨-, -, s1, h1, hr, -⟩ := hT.ordinary
  obtain ⟨-, -, -, c4⟩ := w_loopStep hSt.closed hSt.events hm
  refine (announced hT.ordinary (h.run.clear s1 h1 n le_rfl _ _ _ hr) hm hSt.slow c4 ⟨?_, hl⟩ hx C).happens
  obtain ⟨s2, h2, -⟩ := loopStep_some hm
  have := (wp_ok (i_takeEvent hi) h2).2.2.2
  rcases takeEvent_run now s with ⟨x, r, -, hx⟩ | ⟨x, r, -, -, hx⟩ | ⟨-, -, hx⟩ <;> rw [hx] at h2 <;> cases h2 <;>
    exact this

/-- **C84.** The corners of the triangles that have not been stopped are running, or have been stopped at this very time,
and then a side of a triangle has vanished that has not been dealt with yet: its ends have been stopped at this time, and
at the same place. -/
theorem C84_stopped {dt : Dt K} {depth : ℕ} {skel s0 : St K} {n : ℕ} {now : K} {s : St K}
    {trace : List (Event K × K)} (h : SharpRun dt depth skel s0 n now s trace) {t : TId} (hS : t ∈ s0.skTriangles)
    (hl : Live s t) (i : Fin 3) : Running s ((s.tri t).vertices i) ∨
      ∃ x ∈ s0.skTriangles, ∃ j ka kb, Live s x ∧ (s.tri x).neighbours j = none ∧
        s.vert ((s.tri x).vertices (j + 1)) = .kin ka ∧ s.vert ((s.tri x).vertices (j + 2)) = .kin kb ∧
        ka.stopsAt = some now ∧ kb.stopsAt = some now ∧ pointAt ka now = pointAt kb now ∧
        ((s.tri x).vertices (j + 1) = (s.tri t).vertices i ∨ (s.tri x).vertices (j + 2) = (s.tri t).vertices i) := by
  obtain ⟨hT, -, C⟩ := h.steady
  by_cases hr : Running s ((s.tri t).vertices i)
  · exact .inl hr
  · obtain ⟨x, j, h1, h2, h3, ⟨ka, kb, -, -, h4, h5, h6, h7, h8⟩, h9⟩ :=
      stopped_side (ordinary_inv hT.ordinary).2.1 C.fits hl (C.kinetic t hS hl i) hr
    exact .inr ⟨x, h1, j, ka, kb, h2, h3, h4, h5, h6, h7, h8, h9⟩

/-- `calc_skel(internal_only=True)` on polygons without holes: an execution on what `init_skeleton` has delivered for the
triangulation `dt`, in which wavefronts that meet are not parallel (`calm`) and no tolerance blurs anything.
`upright`: the triangles inside are counter-clockwise, and stay so for a little time;
`clear`, `sharp`: as in `SharpExecution`. -/
structure PolygonRun (dt : Dt K) (depth : ℕ) (skel s0 : St K) (n : ℕ) (now : K) (s : St K) (trace : List (Event K × K)) :
    Prop where
  mesh : DtMesh dt
  regions : DtRegions dt
  inside : DtInside dt
  forest : DtForest dt
  lengths : ExactLengths dt
  angles : ClearAngles dt
  spikes : NoSpikes skel
  start : ∃ pyid tr, initSkeleton dt pyid = .ok skel ∧ s0 = prepare true tr skel
  run : Execution depth s0 n now s trace
  calm : CalmIterations depth s0 n
  upright : ∀ t ∈ s0.skTriangles, Live s0 t → ∀ x, 0 ≤ x → x ≤ 1 / 10 ^ 10 → ∀ a b c,
    placeAt s0 ((s0.tri t).vertices 0) x = some a → placeAt s0 ((s0.tri t).vertices 1) x = some b →
    placeAt s0 ((s0.tri t).vertices 2) x = some c → 0 < area2 a b c
  clear : ∀ s1, initEventList s0 = .ok ((), s1) → ∀ m ≤ n, ∀ x u tr', Run depth { s1 with immediate := [] } 0 m x u tr' →
    u.immediate = [] → ∀ t ∈ s0.skTriangles, Live u t → (∀ i, Kinetic u ((u.tri t).vertices i)) →
      ClearTriangle (¬ Tidy depth s0 n) u t ∧ Solvable (viewT u t)
  sharp : ∀ s1, initEventList s0 = .ok ((), s1) → ∀ m < n, ∀ x u tr' e x' u',
    Run depth { s1 with immediate := [] } 0 m x u tr' → loopStep depth (m + 1 : ℕ) x u = .ok (some (e, x'), u') →
      SharpStep u e x x'

theorem prepare_linked {s : St K} (h : Linked s) (internal : Bool) (tr : Option (Transform K)) :
    Linked (prepare internal tr s) := by
  refine linked_congr ?_ ?_ ?_ ?_ h <;> unfold prepare <;> cases internal <;> cases tr <;> rfl

/-- the vertices that `init_skeleton` makes are not infinitely fast -/
theorem initSkeleton_slow {dt : Dt K} {pyid : TId → ℕ} {s : St K} (h : initSkeleton dt pyid = .ok s) {v : VId}
    {k : KVertex K} (hk : s.vert v = .kin k) : k.infFast = false := by
  obtain ⟨ts, vs, nbr, unwanted, sorted, hd⟩ := initSkeleton_ok h
  obtain ⟨x, hx, rfl⟩ := hd.vert hk
  obtain ⟨w, first, last, -, -, hn, -⟩ := hd.origin hx
  obtain ⟨a, b, y, z, -, -, -, -, -, -, e⟩ := hd.linked hx hn.head hn.tail hn.empty
  rw [e]
  have := congrArg KVertex.infFast hn.fields
  exact this

/-- **C84.** On polygons without holes it is enough that wavefronts that meet are not parallel and that no tolerance
blurs anything: what the triangulation looks like around the sides that vanish need not be asked for. -/
theorem C84_polygon {dt : Dt K} {depth : ℕ} {skel s0 : St K} {n : ℕ} {now : K} {s : St K} {trace : List (Event K × K)}
    (h : PolygonRun dt depth skel s0 n now s trace) :
    SharpRun dt depth skel s0 n now s trace ∧ NoHoles (· ∈ s0.skTriangles) s ∧ Upright (· ∈ s0.skTriangles) s now ∧
      Linked s := by
  obtain ⟨hm, hr, hi, hf, hx, ha, hs, ⟨pyid, tr, h1, rfl⟩, he, hc, hu, hcl, hsh⟩ := h
  obtain ⟨ts, vs, nbr, unwanted, sorted, hd⟩ := initSkeleton_ok h1
  obtain ⟨m0, n0⟩ := C71_internal dt pyid hm hr hi hf skel h1 tr
  obtain ⟨-, hmem⟩ := C72_internal dt pyid hm hr skel h1 true tr
  obtain ⟨hI, s1, q1, q2⟩ := id he
  obtain ⟨o, -, nh⟩ := C71_execution (S := (· ∈ (prepare true tr skel).skTriangles))
    ⟨hI, m0, n0, fun _ q => q, s1, q1, q2, hc s1 q1⟩
  have htri : (prepare true tr skel).tri = skel.tri := by unfold prepare; cases tr <;> rfl
  have hnV : (prepare true tr skel).nV = skel.nV := by unfold prepare; cases tr <;> rfl
  have hvert : (prepare true tr skel).vert = skel.vert := by unfold prepare; cases tr <;> rfl
  have R : SharpRun dt depth skel (prepare true tr skel) n now s trace := by
    refine ⟨hm.toDtOk, hx, ha, hs, ⟨pyid, true, tr, h1, rfl⟩, o, prepare_linked (C70_linked dt pyid hm skel h1) true tr,
      n0.closed, fun t ht _ i => ?_, fun v k _ hk => ?_, hu, hcl, hsh⟩
    · obtain ⟨hlive, hin⟩ := (hmem rfl t).1 ht
      obtain ⟨hlt, hu⟩ := hd.live.1 hlive
      obtain ⟨v, hv, -⟩ := hm.corners t hlt i
      obtain ⟨u, x, hx, -, -, -, hk⟩ := hd.finite_corner hm hlt hv (hi t hlt hin i v hv)
      have hv : ((prepare true tr skel).tri t).vertices i = u := by
        rw [htri, hd.tri_wanted hu]; dsimp only; rw [hk]; rfl
      have hrun := hd.kinetic.2 (List.getElem?_eq_some_iff.1 hx).1
      rw [hv]
      unfold Kinetic at hrun ⊢
      rw [hnV, hvert]
      exact hrun
    · rw [hvert] at hk
      exact initSkeleton_slow h1 hk
  exact ⟨R, nh, C77_upright (C84_steady R).1, C69_linked_partial depth n _ s now trace (C84_steady R).2.2⟩

/-! ### the hypotheses are met -/

/-- check of the conditions about the time of an event -/
def sharpEvent (u : St ℚ) (e : Event ℚ) (x x' : ℚ) : Bool :=
  ((u.tri e.tri).stopsAt.isSome || (solvableCheck (viewT u e.tri) && sharpCheck (viewT u e.tri) x' &&
    decide (∀ i, HasSqrt.sqrt (lengthSq (viewT u e.tri) i x') ≤ 1 / 10 ^ 10 →
      cornerAt (viewT u e.tri) (i + 1) x' = cornerAt (viewT u e.tri) (i + 2) x') &&
    decide ((∀ i, (u.tri e.tri).neighbours i = none) → ∀ i,
      cornerAt (viewT u e.tri) (i + 1) x' = cornerAt (viewT u e.tri) (i + 2) x' →
      cornerAt (viewT u e.tri) i x' = cornerAt (viewT u e.tri) (i + 1) x') && plainCheck u e)) &&
  decide (x' = x ∨ x + 1 / 10 ^ 10 < x') && decide (1 / 10 ^ 10 < x')

theorem sharp_of_event {u : St ℚ} {e : Event ℚ} {x x' : ℚ} (h : sharpEvent u e x x' = true) : SharpStep u e x x' := by
  unfold sharpEvent at h
  simp only [Bool.and_eq_true, Bool.or_eq_true, decide_eq_true_eq] at h
  obtain ⟨⟨h1, h2⟩, h3⟩ := h
  have key : (u.tri e.tri).stopsAt = none → _ := fun hl => h1.resolve_left fun q => by rw [hl] at q; cases q
  refine ⟨fun hl => ?_, fun hl => ?_, fun hl => ?_, fun _ hl => ?_, h2, h3⟩
  · obtain ⟨⟨⟨⟨a, b⟩, -⟩, -⟩, -⟩ := key hl.2
    exact sharp_of_check (solvable_of_check a) b
  · obtain ⟨⟨⟨-, a⟩, -⟩, -⟩ := key hl.2
    exact a
  · obtain ⟨⟨-, a⟩, -⟩ := key hl.2
    exact a
  · exact plain_of_check (key hl).2

/-- check of `SharpExecution.sharp` -/
def sharpAt (depth : ℕ) (s1 : St ℚ) (m : ℕ) : Bool :=
  match stateAt depth s1 m with
  | none => true
  | some (x, u) => match loopStep depth (m + 1 : ℕ) x u with
    | .ok (some (e, x'), _) => sharpEvent u e x x'
    | _ => true

/-- check of `SharpExecution.clear` -/
def solvableState (S : List TId) (u : St ℚ) : Bool :=
  !u.immediate.isEmpty || (clearState S u && S.all fun t => (u.tri t).stopsAt.isSome || solvableCheck (viewT u t))

/-- an execution in which no tolerance blurs anything, by evaluation -/
theorem sharp_execution {depth n : ℕ} {s0 : St ℚ} (h1 : Sample.initialOk s0 = true) (h2 : meshCheck s0 = true)
    (h3 : Sample.outcome initEventList (fun _ _ => ()) s0 = some ())
    (h4 : (ordinaryRun depth n 0 0 { Sample.after initEventList s0 with immediate := [] }).isSome = true)
    (h5 : Linked s0)
    (h6 : s0.skTriangles.all (fun t => decide (∀ i, (∀ n ∈ (s0.tri t).neighbours i, n ∈ s0.skTriangles) ∧
      (s0.tri t).vertices i < s0.nV ∧ (s0.vert ((s0.tri t).vertices i)).isKinetic = true)) = true)
    (h7 : (List.range s0.nV).all (fun v => !(Sample.kv s0 v).infFast) = true)
    (h8 : startCheck s0 = true)
    (h9 : (List.range (n + 1)).all (fun m =>
      ((stateAt depth { Sample.after initEventList s0 with immediate := [] } m).map
        fun r => solvableState s0.skTriangles r.2).getD true) = true)
    (h10 : (List.range n).all (sharpAt depth { Sample.after initEventList s0 with immediate := [] }) = true) :
    ∃ now s tr, ordinaryRun depth n 0 0 { Sample.after initEventList s0 with immediate := [] } = some (now, s) ∧
      SharpExecution depth s0 n now s tr := by
  have h3' : initEventList s0 = .ok ((), Sample.after initEventList s0) := by
    refine Sample.after_run ?_
    unfold Sample.outcome at h3 ⊢
    split at h3
    · rfl
    · cases h3
  obtain ⟨now, s, tr, r, ho⟩ := ordinary_execution h1 h2 h3 h4
  refine ⟨now, s, tr, r, ho, h5, fun t i m ht hm => ?_, fun t ht _ i => ?_, fun v k hv hk => ?_,
    start_of_check h8, ?_, ?_⟩
  · exact (of_decide_eq_true (List.all_eq_true.1 h6 t ht) i).1 m (Option.mem_def.2 hm)
  · exact (kinetic_iff s0 _).1 (of_decide_eq_true (List.all_eq_true.1 h6 t ht) i).2
  · have := List.all_eq_true.1 h7 v (List.mem_range.2 hv)
    unfold Sample.kv at this
    rw [hk] at this
    simpa using this
  · intro s1 hs1 m hm x u tr'' hr hi t ht hl _
    rw [h3'] at hs1
    cases hs1
    have := List.all_eq_true.1 h9 m (List.mem_range.2 (Nat.lt_succ_of_le hm))
    rw [stateAt_run hr] at this
    simp only [Option.map_some, Option.getD_some] at this
    unfold solvableState at this
    rw [hi] at this
    simp only [List.isEmpty_nil, Bool.not_true, Bool.false_or, Bool.and_eq_true] at this
    refine ⟨clear_of_state this.1 ht hl, solvable_of_check ?_⟩
    have := List.all_eq_true.1 this.2 t ht
    rw [hl.2] at this
    simpa using this
  · intro s1 hs1 m hm x u tr'' e x' u' hr hs
    rw [h3'] at hs1
    cases hs1
    have := List.all_eq_true.1 h10 m (List.mem_range.2 hm)
    unfold sharpAt at this
    rw [stateAt_run hr] at this
    dsimp only at this
    rw [hs] at this
    exact sharp_of_event this

theorem Sample.wedgeDt_mesh : DtMesh Sample.wedgeDt := by
  have h := Sample.rectangleDt_mesh
  exact ⟨Sample.wedgeDt_ok, h.distinct, h.proper, h.back, h.star_next, h.star_closed, h.constrained_finite⟩

/-- the whole run on the wedge -/
example : ∃ now s tr, SharpRun Sample.wedgeDt 100 Sample.wedgeSkeleton (prepare true none Sample.wedgeSkeleton) 2 now s tr ∧
    now = 1 := by
  obtain ⟨now, s, tr, r, h⟩ := sharp_execution (depth := 100) (n := 2) (s0 := prepare true none Sample.wedgeSkeleton)
    (by decide +kernel) (by decide +kernel) (by decide +kernel) (by decide +kernel)
    (prepare_linked (C70_linked _ _ Sample.wedgeDt_mesh _ Sample.wedgeSkeleton_ok) true none)
    (by decide +kernel) (by decide +kernel) (by decide +kernel) (by decide +kernel) (by decide +kernel)
  refine ⟨now, s, tr, ⟨Sample.wedgeDt_ok, Sample.wedge_lengths, Sample.wedge_angles, Sample.wedge_spikes,
    ⟨id, true, none, Sample.wedgeSkeleton_ok, rfl⟩, h⟩, ?_⟩
  have hv : (ordinaryRun 100 2 0 0 { Sample.after initEventList (prepare true none Sample.wedgeSkeleton) with
      immediate := [] }).map (fun r => r.1) = some 1 := by decide +kernel
  rw [r] at hv
  exact Option.some.inj hv

namespace Sample

/-- A square with corners (0, 0), (2, 0), (2, 2) and (0, 2): triangles 0 and 1 are its interior. -/
def squareDt : Dt ℚ :=
  { rectangleDt with
    pos := fun v =>
      [((0 : ℚ), (0 : ℚ)), (2, 0), (2, 2), (0, 2), (-100, -100), (100, -100), (2, 100)].getD v (0, 0) }

/-- `init_skeleton` on the square -/
def squareSkeleton : St ℚ :=
  match initSkeleton squareDt id with
  | .ok s => s
  | .error _ => rectangle

theorem squareSkeleton_ok : initSkeleton squareDt id = .ok squareSkeleton := by
  have h : (match initSkeleton squareDt id with
    | .ok _ => true
    | .error _ => false) = true := by decide +kernel
  unfold squareSkeleton
  split at h
  · rename_i s hs
    rw [hs]
  · cases h

theorem squareDt_ok : DtOk squareDt := by
  have h := rectangleDt_ok
  exact ⟨h.corners, h.star_corner, h.star_nodup, fun v hv => ⟨(h.star_ok v hv).chain, (h.star_ok v hv).closed⟩⟩

theorem square_sides : ∀ t < squareDt.nT, ∀ i : Fin 3, squareDt.constrained t i = true →
    ∀ a ∈ squareDt.corner t (i + 1), ∀ b ∈ squareDt.corner t (i + 2),
    0 < HasSqrt.sqrt (((squareDt.pos b).1 - (squareDt.pos a).1) ^ 2 + ((squareDt.pos b).2 - (squareDt.pos a).2) ^ 2) ∧
    HasSqrt.sqrt (((squareDt.pos b).1 - (squareDt.pos a).1) ^ 2 + ((squareDt.pos b).2 - (squareDt.pos a).2) ^ 2) ^ 2 =
      ((squareDt.pos b).1 - (squareDt.pos a).1) ^ 2 + ((squareDt.pos b).2 - (squareDt.pos a).2) ^ 2 ∧
    (-((squareDt.pos b).2 - (squareDt.pos a).2) /
        HasSqrt.sqrt (((squareDt.pos b).1 - (squareDt.pos a).1) ^ 2 + ((squareDt.pos b).2 - (squareDt.pos a).2) ^ 2),
      ((squareDt.pos b).1 - (squareDt.pos a).1) /
        HasSqrt.sqrt (((squareDt.pos b).1 - (squareDt.pos a).1) ^ 2 + ((squareDt.pos b).2 - (squareDt.pos a).2) ^ 2)) ∈
      wedgeNormals := by
  decide +kernel

theorem square_lengths : ExactLengths squareDt := by
  intro t i a b ht hc ha hb
  obtain ⟨h1, h2, -⟩ := square_sides t ht i hc a (Option.mem_def.2 ha) b (Option.mem_def.2 hb)
  exact ⟨h1.le, h2⟩

theorem square_normal {l : Line2 ℚ} (h : InputLine squareDt l) : l.w ∈ wedgeNormals := by
  obtain ⟨t, i, a, b, ht, hc, ha, hb, hu, h1, h2, hp⟩ := h
  obtain ⟨q1, q2, q3⟩ := square_sides t ht i hc a (Option.mem_def.2 ha) b (Option.mem_def.2 hb)
  unfold AtDistance at h1 h2
  have := normal_unique q1 q2 (by linear_combination h2 - h1) hu hp
  rw [show l.w = (l.w.1, l.w.2) from rfl, this]
  exact q3

theorem square_angles : ClearAngles squareDt := by
  intro l r hl hr
  exact (by decide +kernel : ∀ x ∈ wedgeNormals, ∀ y ∈ wedgeNormals,
    (1 / 10 ^ 10 < |x.1 * y.2 - y.1 * x.2| ∨ x = y ∨ x = (-y.1, -y.2))) _ (square_normal hl) _ (square_normal hr)

theorem square_spikes : NoSpikes squareSkeleton := by
  have h : (List.range squareSkeleton.nV).all (fun v => match squareSkeleton.vert v with
    | .kin k => match k.ul, k.ur with
      | some a, some b =>
        decide ((squareSkeleton.line a).w ≠ (-(squareSkeleton.line b).w.1, -(squareSkeleton.line b).w.2))
      | _, _ => true
    | .inf _ => true) = true := by decide +kernel
  intro v k a b hv hk ha hb
  have := List.all_eq_true.1 h v (List.mem_range.2 hv)
  rw [hk] at this
  simp only [ha, hb, decide_eq_true_eq] at this
  exact this

end Sample

theorem Sample.squareDt_mesh : DtMesh Sample.squareDt := by
  have h := Sample.rectangleDt_mesh
  exact ⟨Sample.squareDt_ok, h.distinct, h.proper, h.back, h.star_next, h.star_closed, h.constrained_finite⟩

/-- On the square both triangles vanish at time 1: the second has an event to be handled at once, and then its corners
have been stopped already. -/
example : ∃ s tr, SharpRun Sample.squareDt 100 Sample.squareSkeleton (prepare true none Sample.squareSkeleton) 1 1 s tr ∧
    s.immediate ≠ [] ∧ ∃ t ∈ (prepare true none Sample.squareSkeleton).skTriangles, Live s t ∧
      ∃ i, ¬ Running s ((s.tri t).vertices i) := by
  obtain ⟨now, s, tr, r, h⟩ := sharp_execution (depth := 100) (n := 1) (s0 := prepare true none Sample.squareSkeleton)
    (by decide +kernel) (by decide +kernel) (by decide +kernel) (by decide +kernel)
    (prepare_linked (C70_linked _ _ Sample.squareDt_mesh _ Sample.squareSkeleton_ok) true none)
    (by decide +kernel) (by decide +kernel) (by decide +kernel) (by decide +kernel) (by decide +kernel)
  have hv : (ordinaryRun 100 1 0 0 { Sample.after initEventList (prepare true none Sample.squareSkeleton) with
      immediate := [] }).map (fun r => (r.1, decide (r.2.immediate.isEmpty = false ∧
        ∃ t ∈ (prepare true none Sample.squareSkeleton).skTriangles, Live r.2 t ∧
          ∃ i, ¬ Running r.2 ((r.2.tri t).vertices i)))) = some (1, true) := by decide +kernel
  rw [r] at hv
  simp only [Option.map_some, Option.some.injEq, Prod.mk.injEq, decide_eq_true_eq] at hv
  obtain ⟨rfl, h1, h2⟩ := hv
  exact ⟨s, tr, ⟨Sample.squareDt_ok, Sample.square_lengths, Sample.square_angles, Sample.square_spikes,
    ⟨id, true, none, Sample.squareSkeleton_ok, rfl⟩, h⟩, (fun q => by rw [q] at h1; cases h1), h2⟩

/-- the whole run on the square -/
theorem square_sharp : ∃ now s tr, ordinaryRun 100 2 0 0
      { Sample.after initEventList (prepare true none Sample.squareSkeleton) with immediate := [] } = some (now, s) ∧
    SharpExecution 100 (prepare true none Sample.squareSkeleton) 2 now s tr :=
  sharp_execution (depth := 100) (n := 2) (s0 := prepare true none Sample.squareSkeleton)
    (by decide +kernel) (by decide +kernel) (by decide +kernel) (by decide +kernel)
    (prepare_linked (C70_linked _ _ Sample.squareDt_mesh _ Sample.squareSkeleton_ok) true none)
    (by decide +kernel) (by decide +kernel) (by decide +kernel) (by decide +kernel) (by decide +kernel)

example : ∃ now s tr, SharpRun Sample.squareDt 100 Sample.squareSkeleton (prepare true none Sample.squareSkeleton) 2 now s
    tr := by
  obtain ⟨now, s, tr, -, h⟩ := square_sharp
  exact ⟨now, s, tr, Sample.squareDt_ok, Sample.square_lengths, Sample.square_angles, Sample.square_spikes,
    ⟨id, true, none, Sample.squareSkeleton_ok, rfl⟩, h⟩

/-- The square is a polygon without holes. -/
example : ∃ now s tr, PolygonRun Sample.squareDt 100 Sample.squareSkeleton (prepare true none Sample.squareSkeleton) 2 now s
    tr := by
  obtain ⟨now, s, tr, -, h⟩ := square_sharp
  obtain ⟨o1, o2, s1, o3, o4, o5⟩ := id h.ordinary
  refine ⟨now, s, tr, Sample.squareDt_mesh, ?_, ?_, ?_, Sample.square_lengths, Sample.square_angles, Sample.square_spikes,
    ⟨id, none, Sample.squareSkeleton_ok, rfl⟩, ⟨o1, s1, o3, o4⟩, ?_, h.start, h.clear, h.sharp⟩
  · exact Sample.rectangleDt_regions
  · exact Sample.rectangleDt_inside
  · exact Sample.rectangleDt_forest
  · intro z hz m hm x u tr' e x' u' hr hs
    rw [o3] at hz
    cases hz
    have := o5 m hm x u tr' e x' u' hr hs
    exact ⟨this.slow, this.three⟩

end Grassfire
