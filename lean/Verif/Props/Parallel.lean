/-
C73: the handlers for infinitely fast vertices collapse the shorter leg of the fan.
-/
import Verif.Proofs.ParallelLemmas
import Verif.Proofs.CalcLemmas
import Verif.Proofs.FlipLemmas
import Verif.Spec.Samples

set_option linter.unusedSectionVars false

namespace Grassfire

open Spec

variable {K : Type} [Field K] [LinearOrder K] [IsStrictOrderedRing K] [HasSqrt K] [SqrtUnit K] [HasTrig K]

/-- **C73.** A triangle whose legs are equally long ends at a point: the three vertices stop at one node, half-way
between the two ends of the legs; no other vertex and no other triangle is stopped. -/
theorem C73_even_legs (t : TId) (e : Fin 3) (pivot v1 v2 : VId) (p1 p2 : Pt K) (now : K) (step : ℤ) (s s' : St K)
    (h : evenLegs t e pivot now step s = .ok ((), s'))
    (hv1 : (s.tri t).vertices (ccw e) = v1) (hv2 : (s.tri t).vertices (cw e) = v2)
    (hp1 : Place s now v1 p1) (hp2 : Place s now v2 p2) :
    (s.tri t).vertices e = pivot ∧ ∃ n, MeetAt s s' [v1, v2] ((p1.1 + p2.1) / 2, (p1.2 + p2.2) / 2) n ∧
      StopsThese s s' [pivot, v1, v2] now n ∧ EndsOnly s s' t now ∧ s'.nV = s.nV := by
  unfold evenLegs at h
  obtain ⟨T, s1, h1, h⟩ := bind_run_ok.1 h
  obtain ⟨-, rfl, rfl⟩ := getT_run_ok.1 h1
  obtain ⟨_, s1, h1, h⟩ := bind_run_ok.1 h
  obtain ⟨-, rfl⟩ := assertM_run_ok.1 h1
  obtain ⟨_, s1, h1, h⟩ := bind_run_ok.1 h
  obtain ⟨he, rfl⟩ := assertM_run_ok.1 h1
  refine ⟨he, ?_⟩
  rw [hv1, hv2] at h
  obtain ⟨n, s2, hstop, h⟩ := bind_run_ok.1 h
  have hm := stopAndRecord_meet hstop [p1, p2] ((p1.1 + p2.1) / 2, (p1.2 + p2.2) / 2)
    (.cons hp1 (.cons hp2 .nil)) (by
      have : (1 + 1 : K) = 2 := one_add_one_eq_two
      simp [averagePos, pdiv, bind, Except.bind])
  obtain ⟨a1, a2, a3, a4⟩ := stopAndRecord_these hstop
  obtain ⟨_, s3, h3, h⟩ := bind_run_ok.1 h
  obtain ⟨b1, b2, b3⟩ := stopAt_these a1 h3
  obtain ⟨_, s4, h4, h⟩ := bind_run_ok.1 h
  obtain ⟨d1, d2, d3⟩ := stopTriangle_run h4
  obtain ⟨T', s5, h5, h⟩ := bind_run_ok.1 h
  obtain ⟨-, rfl, rfl⟩ := getT_run_ok.1 h5
  have q := Keeps.use h (still_detachAndSchedule _ _ _)
  have n3 : s3.nV = s.nV := by rw [b2]; exact a2
  have n4 : s4.nV = s.nV := by rw [d1]; exact n3
  have e4 : s4.node = s2.node ∧ s4.nN = s2.nN ∧ s4.skNodes = s2.skNodes := by rw [d1, b2]; exact ⟨rfl, rfl, rfl⟩
  refine ⟨n, hm.same (q.node.trans e4.1) (q.nN.trans e4.2.1) (q.skNodes.trans e4.2.2), ?_, ?_, q.nV.trans n4⟩
  · refine (b1.same (s2 := s4) (by rw [d1])).still n4.ge (fun v hv => ?_) q
    rw [n4]
    rcases List.mem_cons.1 hv with rfl | hv
    · rw [← a2]; exact b3
    · exact a4 v hv
  · refine EndsOnly.still (s1 := s4) ⟨d2, fun x hx => ?_⟩ q
    rw [d3 x hx, b2]
    dsimp only
    rw [a3]

/-- **C73.** A triangle with three wavefront sides: all three vertices stop where the slower one of the two vertices
that are not the infinitely fast one is. -/
theorem C73_three_sides (t : TId) (e : Fin 3) (pivot v1 v2 : VId) (k1 k2 : KVertex K) (p1 p2 : Pt K) (now : K)
    (step : ℤ) (s s' : St K) (h : parallel3tri t e pivot now step s = .ok ((), s'))
    (hv1 : (s.tri t).vertices (ccw e) = v1) (hv2 : (s.tri t).vertices (cw e) = v2)
    (hk1 : s.vert v1 = .kin k1) (hk2 : s.vert v2 = .kin k2) (hp1 : Place s now v1 p1) (hp2 : Place s now v2 p2) :
    ∃ n, StopsThese s s' [(s.tri t).vertices 0, (s.tri t).vertices 1, (s.tri t).vertices 2] now n ∧
      EndsOnly s s' t now ∧ s'.nV = s.nV ∧
      (segLength (0, 0) k2.velocity < segLength (0, 0) k1.velocity → MeetAt s s' [v2] p2 n) ∧
      (segLength (0, 0) k1.velocity ≤ segLength (0, 0) k2.velocity → MeetAt s s' [v1] p1 n) := by
  have hl : ∀ v : Pt K, norm2d v = segLength (0, 0) v := by
    intro v; simp [norm2d, normSq2, dot2, segLength]
  unfold parallel3tri at h
  obtain ⟨T, s1, h1, h⟩ := bind_run_ok.1 h
  obtain ⟨-, rfl, rfl⟩ := getT_run_ok.1 h1
  obtain ⟨_, s1, h1, h⟩ := bind_run_ok.1 h
  obtain ⟨-, rfl⟩ := assertM_run_ok.1 h1
  obtain ⟨_, s1, h1, h⟩ := bind_run_ok.1 h
  obtain ⟨he, rfl⟩ := assertM_run_ok.1 h1
  obtain ⟨_, s1, h1, h⟩ := bind_run_ok.1 h
  obtain rfl := legDist_same h1
  obtain ⟨_, s1, h1, h⟩ := bind_run_ok.1 h
  obtain rfl := legDist_same h1
  dsimp only at h
  rw [hv1, hv2] at h
  obtain ⟨_, s1, h1, h⟩ := bind_run_ok.1 h
  obtain ⟨-, rfl⟩ := assertM_run_ok.1 h1
  obtain ⟨_, s1, h1, h⟩ := bind_run_ok.1 h
  obtain ⟨-, rfl⟩ := assertM_run_ok.1 h1
  obtain ⟨u1, s1, h1, h⟩ := bind_run_ok.1 h
  obtain ⟨rfl, rfl⟩ := velocityOf_run hk1 h1
  obtain ⟨u2, s1, h1, h⟩ := bind_run_ok.1 h
  obtain ⟨rfl, rfl⟩ := velocityOf_run hk2 h1
  rw [hl, hl] at h
  obtain ⟨n, s2, hstop, h⟩ := bind_run_ok.1 h
  obtain ⟨a1, a2, a3, a4⟩ := stopAndRecord_these hstop
  obtain ⟨_, s3, h3, h⟩ := bind_run_ok.1 h
  obtain ⟨b1, b2, b3⟩ := stopAt_these a1 h3
  obtain ⟨_, s4, h4, h⟩ := bind_run_ok.1 h
  obtain ⟨c1, c2, c3⟩ := stopAt_these b1 h4
  obtain ⟨_, s5, h5, h⟩ := bind_run_ok.1 h
  obtain ⟨d1, d2, d3⟩ := stopTriangle_run h5
  obtain ⟨T', s6, h6, h⟩ := bind_run_ok.1 h
  obtain ⟨-, rfl, rfl⟩ := getT_run_ok.1 h6
  obtain rfl := forEach_assertVertexStopped_same h
  have n3 : s3.nV = s2.nV := by rw [b2]
  have n4 : s4.nV = s3.nV := by rw [c2]
  have e5 : s5.node = s2.node ∧ s5.nN = s2.nN ∧ s5.skNodes = s2.skNodes := by
    rw [d1, c2, b2]; exact ⟨rfl, rfl, rfl⟩
  refine ⟨n, ?_, ⟨d2, fun x hx => ?_⟩, ?_, fun hs => ?_, fun hs => ?_⟩
  · have hV : ∀ v, v ∈ [(s.tri t).vertices 0, (s.tri t).vertices 1, (s.tri t).vertices 2] ↔ v = pivot ∨ v = v1 ∨ v = v2 := by
      intro v
      rw [← he, ← hv1, ← hv2]
      match e with
      | 0 => simp [ccw, cw]
      | 1 => simp [ccw, cw]; tauto
      | 2 => simp [ccw, cw]; tauto
    have hW : ∀ v, v ∈ [pivot, if segLength (0, 0) k2.velocity < segLength (0, 0) k1.velocity then v1 else v2,
        if segLength (0, 0) k2.velocity < segLength (0, 0) k1.velocity then v2 else v1] ↔ v = pivot ∨ v = v1 ∨ v = v2 := by
      intro v
      split_ifs
      · simp
      · simp; tauto
    have := c1.same (s2 := s5) (by rw [d1])
    exact ⟨fun v hv => this.these v ((hW v).2 ((hV v).1 hv)),
      fun v hv hn => this.others v hv fun x => hn ((hV v).2 ((hW v).1 x))⟩
  · rw [d3 x hx, c2]
    dsimp only
    rw [b2]
    dsimp only
    rw [a3]
  · rw [d1]
    dsimp only
    rw [n4, n3, a2]
  · rw [if_pos hs] at hstop
    exact (stopAndRecord_meet hstop [p2] p2 (.cons hp2 .nil) (by
      simp [averagePos, pdiv, bind, Except.bind])).same e5.1 e5.2.1 e5.2.2
  · rw [if_neg (not_lt.2 hs)] at hstop
    exact (stopAndRecord_meet hstop [p1] p1 (.cons hp1 .nil) (by
      simp [averagePos, pdiv, bind, Except.bind])).same e5.1 e5.2.1 e5.2.2

/-- **C73.** The left outer leg of the fan is the shorter one: it collapses.  The fan is listed from left to right when
it is walked clockwise and from right to left otherwise; the outer leg of the leftmost triangle ends two corners further
than the infinitely fast vertex, that of the rightmost one a corner further. -/
theorem C73_left_leg (fan : List TId) (pivot : VId) (kp kw : KVertex K) (now : K) (dir : Dir) (step : ℤ) (s s' : St K)
    (r : Option (List TId × VId × Dir)) (t₀ tl tr : TId) (i j : Fin 3) (pl p pr : Pt K)
    (h : parallelStep fan pivot now dir step s = .ok (r, s'))
    (hfirst : fan.head? = some t₀) (h3 : ∃ x, (s.tri t₀).neighbours x ≠ none)
    (hl : (if dir = .cw then fan.head? else fan.getLast?) = some tl)
    (hr : (if dir = .cw then fan.getLast? else fan.head?) = some tr)
    (hi : (s.tri tl).vertices i = pivot) (hj : (s.tri tr).vertices j = pivot)
    (hil : Function.Injective (s.tri tl).vertices) (hir : Function.Injective (s.tri tr).vertices)
    (hkp : s.vert pivot = .kin kp) (hkw : s.vert ((s.tri tl).vertices (i + 2)) = .kin kw)
    (hp : Place s now pivot p) (hpl : Place s now ((s.tri tl).vertices (i + 2)) pl)
    (hpr : Place s now ((s.tri tr).vertices (j + 1)) pr)
    (hd : segLength p pl + 1 / 10 ^ 10 < segLength p pr) :
    ∃ n k, LegCollapse s s' tl pivot ((s.tri tl).vertices (i + 2)) kp now pl kw.ul kp.ur n k ∧
      ∀ f x d, r = some (f, x, d) → x = s.nV ∧ k.infFast = true := by
  have h := parallelStep_legs h hfirst h3 hl hr hi hj hil hir hp hpl hpr
  have tol : (0 : K) < 1 / 10 ^ 10 := by positivity
  have e1 : nearZero (segLength p pl - min (segLength p pl) (segLength p pr)) = true := by
    rw [min_eq_left (by linarith), sub_self, nearZero_iff, abs_zero]; exact tol.le
  have e2 : nearZero (segLength p pr - min (segLength p pl) (segLength p pr)) = false := by
    rw [min_eq_left (by linarith), nearZero_eq, decide_eq_false_iff_not, not_le, abs_of_nonneg] <;> linarith
  rw [e1, e2] at h
  simp only [Bool.and_false, Bool.false_eq_true, if_false, if_true] at h
  obtain ⟨x, s1, h1, h⟩ := bind_run_ok.1 h
  have c1 : ccw (i + 1) = i + 2 := (by decide : ∀ x : Fin 3, ccw (x + 1) = x + 2) i
  have c2 : cw (i + 1) = i := (by decide : ∀ x : Fin 3, cw (x + 1) = x) i
  obtain ⟨n, k, hc, hx⟩ := (shorterLeg_collapse h1 hkp hkw hpl).1 (by rw [c1]) (by rw [c2, hi])
  obtain ⟨rfl, hn⟩ := nextFan_run h
  refine ⟨n, k, hc, fun f y d hy => ?_⟩
  obtain ⟨a, k', hk', b⟩ := hn f y d hy
  rw [hx] at a hk'
  rw [hc.vertex] at hk'; injection hk' with hk'; subst hk'
  exact ⟨a, b⟩

/-- **C73.** The right outer leg of the fan is the shorter one: it collapses. -/
theorem C73_right_leg (fan : List TId) (pivot : VId) (kp kw : KVertex K) (now : K) (dir : Dir) (step : ℤ) (s s' : St K)
    (r : Option (List TId × VId × Dir)) (t₀ tl tr : TId) (i j : Fin 3) (pl p pr : Pt K)
    (h : parallelStep fan pivot now dir step s = .ok (r, s'))
    (hfirst : fan.head? = some t₀) (h3 : ∃ x, (s.tri t₀).neighbours x ≠ none)
    (hl : (if dir = .cw then fan.head? else fan.getLast?) = some tl)
    (hr : (if dir = .cw then fan.getLast? else fan.head?) = some tr)
    (hi : (s.tri tl).vertices i = pivot) (hj : (s.tri tr).vertices j = pivot)
    (hil : Function.Injective (s.tri tl).vertices) (hir : Function.Injective (s.tri tr).vertices)
    (hkp : s.vert pivot = .kin kp) (hkw : s.vert ((s.tri tr).vertices (j + 1)) = .kin kw)
    (hp : Place s now pivot p) (hpl : Place s now ((s.tri tl).vertices (i + 2)) pl)
    (hpr : Place s now ((s.tri tr).vertices (j + 1)) pr)
    (hd : segLength p pr + 1 / 10 ^ 10 < segLength p pl) :
    ∃ n k, LegCollapse s s' tr pivot ((s.tri tr).vertices (j + 1)) kp now pr kp.ul kw.ur n k ∧
      ∀ f x d, r = some (f, x, d) → x = s.nV ∧ k.infFast = true := by
  have h := parallelStep_legs h hfirst h3 hl hr hi hj hil hir hp hpl hpr
  have tol : (0 : K) < 1 / 10 ^ 10 := by positivity
  have e1 : nearZero (segLength p pl - min (segLength p pl) (segLength p pr)) = false := by
    rw [min_eq_right (by linarith), nearZero_eq, decide_eq_false_iff_not, not_le, abs_of_nonneg] <;> linarith
  rw [e1] at h
  simp only [Bool.false_and, Bool.false_eq_true, if_false] at h
  obtain ⟨x, s1, h1, h⟩ := bind_run_ok.1 h
  have c1 : ccw (j + 2) = j := (by decide : ∀ x : Fin 3, ccw (x + 2) = x) j
  have c2 : cw (j + 2) = j + 1 := (by decide : ∀ x : Fin 3, cw (x + 2) = x + 1) j
  obtain ⟨n, k, hc, hx⟩ := (shorterLeg_collapse h1 hkp hkw hpr).2 (by rw [c1, hj]) (by rw [c2])
  obtain ⟨rfl, hn⟩ := nextFan_run h
  refine ⟨n, k, hc, fun f y d hy => ?_⟩
  obtain ⟨a, k', hk', b⟩ := hn f y d hy
  rw [hx] at a hk'
  rw [hc.vertex] at hk'; injection hk' with hk'; subst hk'
  exact ⟨a, b⟩

/-- **C73.** A fan of one triangle whose legs are equally long (up to the tolerance of `near_zero`): the triangle ends
and its three vertices stop at one node. -/
theorem C73_single (t : TId) (pivot : VId) (now : K) (dir : Dir) (step : ℤ) (s s' : St K)
    (r : Option (List TId × VId × Dir)) (i : Fin 3) (p1 p p2 : Pt K)
    (h : parallelStep [t] pivot now dir step s = .ok (r, s')) (h3 : ∃ x, (s.tri t).neighbours x ≠ none)
    (hi : (s.tri t).vertices i = pivot) (hinj : Function.Injective (s.tri t).vertices)
    (hp : Place s now pivot p) (hp1 : Place s now ((s.tri t).vertices (i + 1)) p1)
    (hp2 : Place s now ((s.tri t).vertices (i + 2)) p2)
    (hd : |segLength p p1 - segLength p p2| ≤ 1 / 10 ^ 10) :
    r = none ∧ ∃ n, MeetAt s s' [(s.tri t).vertices (i + 1), (s.tri t).vertices (i + 2)]
        ((p1.1 + p2.1) / 2, (p1.2 + p2.2) / 2) n ∧
      StopsThese s s' [pivot, (s.tri t).vertices (i + 1), (s.tri t).vertices (i + 2)] now n ∧
      EndsOnly s s' t now ∧ s'.nV = s.nV := by
  have h := parallelStep_legs h rfl h3 (tl := t) (tr := t) (by split_ifs <;> rfl) (by split_ifs <;> rfl) hi hi hinj hinj
    hp hp2 hp1
  have tol : (0 : K) < 1 / 10 ^ 10 := by positivity
  have e : nearZero (segLength p p2 - min (segLength p p2) (segLength p p1)) = true ∧
      nearZero (segLength p p1 - min (segLength p p2) (segLength p p1)) = true := by
    rcases le_total (segLength p p2) (segLength p p1) with c | c
    · rw [min_eq_left c, sub_self, nearZero_iff, nearZero_iff, abs_zero]; exact ⟨tol.le, hd⟩
    · rw [min_eq_right c, sub_self, nearZero_iff, nearZero_iff, abs_zero, abs_sub_comm]; exact ⟨hd, tol.le⟩
  rw [e.1, e.2] at h
  simp only [Bool.and_self, if_true, parallelEven] at h
  obtain ⟨_, s1, h1, h⟩ := bind_run_ok.1 h
  obtain ⟨rfl, rfl⟩ := pure_run_ok.1 h
  refine ⟨rfl, ?_⟩
  obtain ⟨_, s2, h2, h1⟩ := bind_run_ok.1 h1
  unfold evenLegsAt at h2
  obtain ⟨y, s3, h3, h2⟩ := bind_run_ok.1 h2
  have : y = i ∧ s = s3 := by
    unfold vertexIndex at h3
    obtain ⟨T, s4, h4, h3⟩ := bind_run_ok.1 h3
    obtain ⟨-, rfl, rfl⟩ := getT_run_ok.1 h4
    obtain ⟨h5, rfl⟩ := needIdx_run_ok.1 h3
    rw [← hi, index3_of_inj hinj] at h5
    exact ⟨(Option.some.inj h5).symm, rfl⟩
  obtain ⟨rfl, rfl⟩ := this
  have : s2 = s1 := by
    unfold assertStopped at h1
    obtain ⟨T, s4, h4, h1⟩ := bind_run_ok.1 h1
    obtain ⟨-, rfl, rfl⟩ := getT_run_ok.1 h4
    exact (assertM_run_ok.1 h1).2
  subst this
  exact (C73_even_legs t y pivot _ _ p1 p2 now step s s2 h2 rfl rfl hp1 hp2).2

/-! ### the hypotheses are met -/

namespace Sample

/-- a corridor, 2 wide and 4 long, that leads into a room -/
def corridor : St ℚ :=
  polygon [((0, 0), (1, 1)), ((10, 0), (-1, 1)), ((10, 10), (-1, -1)), ((4, 10), (1, -1)), ((4, 2), (1, -1)),
      ((0, 2), (1, -1))]
    [⟨(0, 1), 0⟩, ⟨(-1, 0), 10⟩, ⟨(0, -1), 10⟩, ⟨(1, 0), -4⟩, ⟨(0, -1), 2⟩, ⟨(1, 0), 0⟩]
    [{ vertices := ![0, 4, 5], neighbours := ![none, none, some 1], internal := true },
     { vertices := ![0, 1, 4], neighbours := ![some 2, some 0, none], internal := true },
     { vertices := ![1, 2, 4], neighbours := ![some 3, some 1, none], internal := true },
     { vertices := ![2, 3, 4], neighbours := ![none, some 2, none], internal := true }]

/-- the same corridor with the room below -/
def corridor' : St ℚ :=
  polygon [((0, 0), (1, 1)), ((4, 0), (1, 1)), ((4, -8), (1, 1)), ((10, -8), (-1, 1)), ((10, 2), (-1, -1)),
      ((0, 2), (1, -1))]
    [⟨(0, 1), 0⟩, ⟨(1, 0), -4⟩, ⟨(0, 1), 8⟩, ⟨(-1, 0), 10⟩, ⟨(0, -1), 2⟩, ⟨(1, 0), 0⟩]
    [{ vertices := ![0, 1, 5], neighbours := ![some 1, none, none], internal := true },
     { vertices := ![5, 1, 4], neighbours := ![some 2, none, some 0], internal := true },
     { vertices := ![1, 3, 4], neighbours := ![none, some 1, some 3], internal := true },
     { vertices := ![1, 2, 3], neighbours := ![none, some 2, none], internal := true }]

/-- the end of the corridor vanishes: `handle_edge_event` for triangle `t` and side `e`, up to the call of
`handle_parallel_fan` -/
def untilFan (t : TId) (e : Fin 3) (now : ℚ) : M ℚ (Option (List TId × VId × Dir)) := do
  let kv ← edgeVertex t e now 0
  let T ← getT t
  let a := T.neighbours (ccw e)
  let b := T.neighbours (cw e)
  let fanA ← edgeSide a t b (T.vertices (cw e)) kv now .cw
  let fanB ← edgeSide b t a (T.vertices (ccw e)) kv now .ccw
  detachAndSchedule (T.neighbours e) t now
  stopTriangle t now
  nextFan kv fanA fanB

def corridorFan : St ℚ := after (do initEventList; untilFan 0 1 1) corridor
def corridorFan' : St ℚ := after (do initEventList; untilFan 0 1 1) corridor'

end Sample

open Sample

theorem place_of {s : St ℚ} {v : VId} {now : ℚ} {p : Pt ℚ} (hk : isKin s v = true)
    (h : if (kv s v).infFast then (kv s v).startNode.map (fun n => (s.node n).pos) = some p else
      p = ((kv s v).origin.1 + now * (kv s v).velocity.1, (kv s v).origin.2 + now * (kv s v).velocity.2)) :
    Place s now v p := by
  refine ⟨kv s v, kv_eq hk, fun hi => ?_, fun hi => ?_⟩
  · rw [hi] at h; exact h
  · rw [hi, if_pos rfl] at h
    obtain ⟨n, a, b⟩ := Option.map_eq_some_iff.1 h
    exact ⟨n, a, b.symm⟩

/-- in both corridors the fan consists of triangle 1 -/
example : outcome (do initEventList; untilFan 0 1 1) (fun a _ => a) corridor = some (some ([1], 6, .cw)) ∧
    outcome (do initEventList; untilFan 0 1 1) (fun a _ => a) corridor' = some (some ([1], 6, .ccw)) := by
  decide +kernel

/-- the corner between corridor and room is at the left: the left leg is the shorter one -/
example :=
  C73_left_leg [1] 6 (kv corridorFan 6) (kv corridorFan 4) 1 .cw 0 corridorFan _ none 1 1 1 0 0 (5, 1) (1, 1) (9, 1)
    (after_run (by decide +kernel)) rfl ⟨0, by decide +kernel⟩ rfl rfl (by decide +kernel) (by decide +kernel)
    (by unfold Function.Injective; decide +kernel) (by unfold Function.Injective; decide +kernel)
    (kv_eq (by decide +kernel)) (by
      rw [show (corridorFan.tri 1).vertices (0 + 2) = 4 by decide +kernel]; exact kv_eq (by decide +kernel))
    (place_of (by decide +kernel) (by decide +kernel))
    (place_of (by decide +kernel) (by decide +kernel)) (place_of (by decide +kernel) (by decide +kernel))
    (by decide +kernel)

/-- the corner is at the right: the right leg is the shorter one -/
example :=
  C73_right_leg [1] 6 (kv corridorFan' 6) (kv corridorFan' 1) 1 .ccw 0 corridorFan' _ none 1 1 1 0 0 (9, 1) (1, 1) (5, 1)
    (after_run (by decide +kernel)) rfl ⟨0, by decide +kernel⟩ rfl rfl (by decide +kernel) (by decide +kernel)
    (by unfold Function.Injective; decide +kernel) (by unfold Function.Injective; decide +kernel)
    (kv_eq (by decide +kernel)) (by
      rw [show (corridorFan'.tri 1).vertices (0 + 1) = 1 by decide +kernel]; exact kv_eq (by decide +kernel))
    (place_of (by decide +kernel) (by decide +kernel))
    (place_of (by decide +kernel) (by decide +kernel)) (place_of (by decide +kernel) (by decide +kernel))
    (by decide +kernel)

/-- the triangle at the end of the corridor, cut off from the room -/
def cutOff : St ℚ :=
  { corridorFan with tri := Function.update corridorFan.tri 1 { corridorFan.tri 1 with neighbours := fun _ => none } }

/-- the two vertices are equally fast, all meet at the first one -/
example := C73_three_sides 1 0 6 1 4 (kv cutOff 1) (kv cutOff 4) (9, 1) (5, 1) 1 0 cutOff _
  (after_run (by decide +kernel)) (by decide +kernel) (by decide +kernel) (kv_eq (by decide +kernel))
  (kv_eq (by decide +kernel)) (place_of (by decide +kernel) (by decide +kernel))
  (place_of (by decide +kernel) (by decide +kernel))

/-- a rectangle: when a short side has vanished, the legs of the other triangle are equally long -/
def rectangleFan : St ℚ := after (do initEventList; untilFan 1 1 1) rectangle

example : outcome (do initEventList; untilFan 1 1 1) (fun a _ => a) rectangle = some (some ([0], 4, .cw)) := by
  decide +kernel

example := C73_even_legs 0 0 4 1 2 (3, 1) (3, 1) 1 0 rectangleFan _ (after_run (by decide +kernel))
  (by decide +kernel) (by decide +kernel) (place_of (by decide +kernel) (by decide +kernel))
  (place_of (by decide +kernel) (by decide +kernel))

/-- the same with a triangle left at the far side -/
def rectangleFan' : St ℚ :=
  { rectangleFan with
    tri := Function.update (Function.update rectangleFan.tri 1 ⟨![1, 3, 2], ![none, some 0, none], none, 0, none, true⟩)
      0 { rectangleFan.tri 0 with neighbours := ![some 1, none, none] } }

example := C73_single 0 4 1 .cw 0 rectangleFan' _ none 0 (3, 1) (1, 1) (3, 1) (after_run (by decide +kernel))
  ⟨0, by decide +kernel⟩ (by decide +kernel) (by unfold Function.Injective; decide +kernel)
  (place_of (by decide +kernel) (by decide +kernel))
  (place_of (by decide +kernel) (by decide +kernel)) (place_of (by decide +kernel) (by decide +kernel))
  (by decide +kernel)

end Grassfire
