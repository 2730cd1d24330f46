/-
`init_skeleton` and `calc_skel` commute with quarter turns (lemmas for C107).
-/
import Verif.Proofs.TurnPure
import Verif.Proofs.InitState
import Verif.CalcSkel

set_option linter.unusedSectionVars false

namespace Grassfire

open Spec

variable {K : Type} [Field K] [LinearOrder K] [IsStrictOrderedRing K]

theorem mapE_turned {α β γ : Type} {f : β → γ} {g : α → Except Err β} {g' : α → Except Err γ}
    (h : ∀ x, g' x = mapOk f (g x)) (l : List α) : mapE g' l = mapOk (List.map f) (mapE g l) := by
  induction l with
  | nil => rfl
  | cons x xs ih =>
    unfold mapE
    rw [h, ih]
    cases g x with
    | error e => rfl
    | ok a =>
      cases mapE g xs <;> rfl

/-! ### triangles -/

theorem coefficients_turned (a b : Pt K) :
    coefficientsFromPoints (turned a) (turned b) =
      ((turned ((coefficientsFromPoints a b).1, (coefficientsFromPoints a b).2.1)).1,
        (turned ((coefficientsFromPoints a b).1, (coefficientsFromPoints a b).2.1)).2, (coefficientsFromPoints a b).2.2) := by
  unfold coefficientsFromPoints turned
  dsimp only
  obtain ⟨a1, a2⟩ := a
  obtain ⟨b1, b2⟩ := b
  dsimp only
  rcases lt_trichotomy a1 b1 with h | h | h
  · rcases lt_trichotomy a2 b2 with k | k | k
    · simp only [neg_inj, gt_iff_lt, h.ne, h.ne', k.ne, k.ne', if_false]
      ext <;> dsimp only <;> ring
    · subst k
      simp [h, h.ne]
    · simp only [neg_inj, gt_iff_lt, h.ne, h.ne', k.ne, k.ne', if_false]
      ext <;> dsimp only <;> ring
  · subst h
    rcases lt_trichotomy a2 b2 with k | k | k
    · simp [k, k.ne, k.ne', k.not_gt]
    · subst k
      simp
    · simp [k, k.ne, k.ne', k.not_gt]
  · rcases lt_trichotomy a2 b2 with k | k | k
    · simp only [neg_inj, gt_iff_lt, h.ne, h.ne', k.ne, k.ne', if_false]
      ext <;> dsimp only <;> ring
    · subst k
      simp [h.ne, h.ne', h.not_gt]
    · simp only [neg_inj, gt_iff_lt, h.ne, h.ne', k.ne, k.ne', if_false]
      ext <;> dsimp only <;> ring

theorem fromPoints_turned [HasSqrt K] (a b : Pt K) :
    Line2.fromPoints (turned a) (turned b) = mapOk turnedLine (Line2.fromPoints a b) := by
  unfold Line2.fromPoints
  rw [coefficients_turned]
  obtain ⟨x, y, z⟩ := coefficientsFromPoints a b
  dsimp only
  have h := make_turned (x, y) z
  rw [show Line2.make ((turned (x, y)).1, (turned (x, y)).2) z = Line2.make (turned (x, y)) z from rfl, h]
  cases Line2.make (x, y) z with
  | error e => rfl
  | ok l =>
    show (if turned b = turned a then _ else _) = mapOk turnedLine (if b = a then _ else _)
    by_cases q : b = a
    · rw [if_pos q, if_pos (turned_inj.2 q)]; rfl
    · rw [if_neg q, if_neg (fun z => q (turned_inj.1 z))]; rfl

theorem supportLine_turned [HasSqrt K] (dt : Dt K) (t : DT) (i : Fin 3) :
    supportLine (turnedDt dt) t i = mapOk (Option.map turnedLine) (supportLine dt t i) := by
  unfold supportLine turnedDt
  dsimp only
  by_cases h : dt.constrained t i = true
  · rw [if_pos h, if_pos h]
    cases dt.corner t (ccw i) with
    | none => rfl
    | some a =>
      cases dt.corner t (cw i) with
      | none => rfl
      | some b =>
        dsimp only
        unfold WaveFront.make
        dsimp only
        rw [fromPoints_turned]
        cases Line2.fromPoints (dt.pos a) (dt.pos b) <;> rfl
  · rw [if_neg h, if_neg h]; rfl

/-- what is set in a triangle before there are vertices, after the quarter turn -/
def turnedStart (x : TriStart K) : TriStart K := ⟨fun i => (x.lines i).map turnedLine, x.neighbours, x.unwanted⟩

theorem initTri_turned [HasSqrt K] (dt : Dt K) (t : DT) :
    initTri (turnedDt dt) t = mapOk turnedStart (initTri dt t) := by
  have hl : ∀ j, linkSide (turnedDt dt) t j = linkSide dt t j := fun _ => rfl
  unfold initTri
  rw [supportLine_turned, supportLine_turned, supportLine_turned, hl, hl, hl]
  cases supportLine dt t 0 with
  | error e => rfl
  | ok l0 =>
    cases supportLine dt t 1 with
    | error e => rfl
    | ok l1 =>
      cases supportLine dt t 2 with
      | error e => rfl
      | ok l2 =>
        cases linkSide dt t 0 with
        | error e => rfl
        | ok n0 =>
          cases linkSide dt t 1 with
          | error e => rfl
          | ok n1 =>
            cases linkSide dt t 2 with
            | error e => rfl
            | ok n2 =>
              refine congrArg Except.ok ?_
              unfold turnedStart
              congr 1
              funext i
              fin_cases i <;> rfl

theorem lineAt_turned (ts : List (TriStart K)) (t : DT) (i : Fin 3) :
    lineAt (ts.map turnedStart) t i = (lineAt ts t i).map turnedLine := by
  unfold lineAt
  rw [List.getElem?_map]
  cases ts[t]? <;> rfl

/-! ### vertices -/

theorem makeVertex_turned [HasSqrt K] (dt : Dt K) (ts : List (TriStart K)) (v : DV) (ct : ℕ) (g : List DEdge) :
    makeVertex (turnedDt dt) (ts.map turnedStart) v ct g = mapOk turnedK (makeVertex dt ts v ct g) := by
  unfold makeVertex
  cases g.head? with
  | none => rfl
  | some first =>
    cases g.getLast? with
    | none => rfl
    | some last =>
      show (passert (decide (dt.corner last.1 last.2 = dt.corner first.1 first.2)) >>= _) =
        mapOk turnedK (passert (decide (dt.corner last.1 last.2 = dt.corner first.1 first.2)) >>= _)
      cases passert (decide (dt.corner last.1 last.2 = dt.corner first.1 first.2)) with
      | error e => rfl
      | ok u =>
        have hcor : ∀ t i, (turnedDt dt).corner t i = dt.corner t i := fun _ _ => rfl
        rw [hcor, hcor, hcor]
        cases dt.corner last.1 (cw last.2) with
        | none => rfl
        | some c1 =>
          cases dt.corner last.1 last.2 with
          | none => rfl
          | some c2 =>
            cases dt.corner first.1 (ccw first.2) with
            | none => rfl
            | some c3 =>
              by_cases h : first.1 < dt.nT ∧ last.1 < dt.nT
              · show (if first.1 < dt.nT ∧ last.1 < dt.nT then _ else _) =
                  mapOk turnedK (if first.1 < dt.nT ∧ last.1 < dt.nT then _ else _)
                rw [if_pos h, if_pos h, lineAt_turned, lineAt_turned]
                cases lineAt ts last.1 (ccw last.2) with
                | none => rfl
                | some l =>
                  cases lineAt ts first.1 (cw first.2) with
                  | none => rfl
                  | some r =>
                    show (getBisector (turnedLine l) (turnedLine r) >>= _) = mapOk turnedK (getBisector l r >>= _)
                    rw [getBisector_turned]
                    cases getBisector l r with
                    | error e => rfl
                    | ok b =>
                      show (if (g.all fun e => decide (e.1 < dt.nT)) = true then _ else _) =
                        mapOk turnedK (if (g.all fun e => decide (e.1 < dt.nT)) = true then _ else _)
                      by_cases q : (g.all fun e => decide (e.1 < dt.nT)) = true
                      · rw [if_pos q, if_pos q]; rfl
                      · rw [if_neg q, if_neg q]; rfl
              · show (if first.1 < dt.nT ∧ last.1 < dt.nT then _ else _) =
                  mapOk turnedK (if first.1 < dt.nT ∧ last.1 < dt.nT then _ else _)
                rw [if_neg h, if_neg h]; rfl

/-- a kinetic vertex with its edges, after the quarter turn -/
def turnedGroup (x : KVertex K × List DEdge) : KVertex K × List DEdge := (turnedK x.1, x.2)

theorem makeGroup_turned [HasSqrt K] (dt : Dt K) (ts : List (TriStart K)) (v : DV) (ct : ℕ) (gs : List (List DEdge)) :
    makeGroup (turnedDt dt) (ts.map turnedStart) v ct gs = mapOk (List.map turnedGroup) (makeGroup dt ts v ct gs) := by
  induction gs generalizing ct with
  | nil => rfl
  | cons g gs ih =>
    unfold makeGroup
    rw [makeVertex_turned, ih]
    cases makeVertex dt ts v ct g with
    | error e => rfl
    | ok k => cases makeGroup dt ts v (ct + 1) gs <;> rfl

theorem splitLoop_turned (dt : Dt K) (es g : List DEdge) : splitLoop (turnedDt dt) es g = splitLoop dt es g := by
  induction es generalizing g with
  | nil => rfl
  | cons e es ih =>
    unfold splitLoop
    rw [ih, ih]
    rfl

theorem vertexGroups_turned (dt : Dt K) (v : DV) : vertexGroups (turnedDt dt) v = vertexGroups dt v := by
  have h : splitStar (turnedDt dt) v = splitStar dt v := by
    unfold splitStar
    rw [splitLoop_turned]
    rfl
  unfold vertexGroups
  rw [h]
  rfl

theorem makeVertices_turned [HasSqrt K] (dt : Dt K) (ts : List (TriStart K)) (ct : ℕ) (vs : List DV) :
    makeVertices (turnedDt dt) (ts.map turnedStart) ct vs = mapOk (List.map turnedGroup) (makeVertices dt ts ct vs) := by
  induction vs generalizing ct with
  | nil => rfl
  | cons v vs ih =>
    unfold makeVertices
    rw [vertexGroups_turned]
    cases vertexGroups dt v with
    | error e => rfl
    | ok g =>
      show (makeGroup _ _ _ _ _ >>= _) = mapOk _ (makeGroup _ _ _ _ _ >>= _)
      rw [makeGroup_turned]
      cases makeGroup dt ts v ct g with
      | error e => rfl
      | ok a =>
        show (makeVertices _ _ _ _ >>= _) = mapOk _ (makeVertices _ _ _ _ >>= _)
        rw [ih]
        cases makeVertices dt ts (ct + g.length) vs with
        | error e => rfl
        | ok b => exact congrArg Except.ok List.map_append.symm

theorem assignments_turned (vs : List (KVertex K × List DEdge)) : assignments (vs.map turnedGroup) = assignments vs := by
  unfold assignments
  rw [List.zipIdx_map, List.flatMap_map]
  rfl

theorem kcorner_turned (vs : List (KVertex K × List DEdge)) (t : DT) (i : Fin 3) :
    kcorner (vs.map turnedGroup) t i = kcorner vs t i := by
  unfold kcorner
  rw [assignments_turned]

theorem linkVertex_turned (vs : List (KVertex K × List DEdge)) (x : KVertex K × List DEdge) :
    linkVertex (vs.map turnedGroup) (turnedGroup x) = turnedK (linkVertex vs x) := by
  unfold linkVertex turnedGroup
  dsimp only
  cases x.2.head? with
  | none => rfl
  | some a =>
    cases x.2.getLast? with
    | none => rfl
    | some b =>
      dsimp only
      rw [show (List.map (fun x => (turnedK x.1, x.2)) vs) = vs.map turnedGroup from rfl, kcorner_turned, kcorner_turned]

theorem checkLink_turned (kvs : List (KVertex K)) (kv : KVertex K) :
    checkLink (kvs.map turnedK) (turnedK kv) = checkLink kvs kv := by
  have h : ∀ o : Option VId, (o.bind fun u => (kvs.map turnedK)[u]?) = (o.bind fun u => kvs[u]?).map turnedK := by
    intro o
    cases o with
    | none => rfl
    | some u => exact List.getElem?_map ..
  unfold checkLink
  rw [show (turnedK kv).leftRef = kv.leftRef from rfl, show (turnedK kv).rightRef = kv.rightRef from rfl, h, h]
  cases kv.leftRef.bind fun u => kvs[u]? with
  | none => rfl
  | some l => cases kv.rightRef.bind fun u => kvs[u]? <;> rfl

theorem allE_checkLink_turned (kvs l : List (KVertex K)) :
    allE (checkLink (kvs.map turnedK)) (l.map turnedK) = allE (checkLink kvs) l := by
  induction l with
  | nil => rfl
  | cons x xs ih =>
    show (checkLink _ _ >>= fun _ => allE _ _) = (checkLink _ _ >>= fun _ => allE _ _)
    rw [checkLink_turned, ih]

/-! ### corners -/

/-- a corner after the quarter turn -/
def turnedRef : KRef K → KRef K
  | .kin v => .kin v
  | .inf p => .inf (turned p)

theorem turnedRef_kin (o : Option (KRef K)) (v : VId) : o.map turnedRef = some (.kin v) ↔ o = some (.kin v) := by
  cases o with
  | none => simp
  | some r => cases r <;> simp [turnedRef]

theorem kref_turned (dt : Dt K) (vs : List (KVertex K × List DEdge)) (t : DT) (i : Fin 3) :
    kref (turnedDt dt) (vs.map turnedGroup) t i = (kref dt vs t i).map turnedRef := by
  unfold kref
  rw [kcorner_turned]
  show (match dt.corner t i with
    | some v => _
    | none => _) = _
  have hk : ∀ o : Option VId, o.map KRef.kin = (o.map (KRef.kin (K := K))).map turnedRef := fun o => by cases o <;> rfl
  cases dt.corner t i with
  | none => exact hk _
  | some v =>
    show (if dt.finite v = true then _ else _) = Option.map turnedRef (if dt.finite v = true then _ else _)
    by_cases h : dt.finite v = true
    · rw [if_pos h, if_pos h]; exact hk _
    · rw [if_neg h, if_neg h]; rfl

theorem isInf_turned (o : Option (KRef K)) : KRef.isInf (o.map turnedRef) = KRef.isInf o := by
  cases o with
  | none => rfl
  | some r => cases r <;> rfl

variable {c c' : DT → Fin 3 → Option (KRef K)}

theorem cornerOf_turned (h : ∀ t i, c' t i = (c t i).map turnedRef) (v : VId) (t : TId) :
    cornerOf c' v t = cornerOf c v t := by
  have e : index3 (c' t) (some (.kin v)) = index3 (c t) (some (.kin v)) := by
    unfold index3
    simp only [h, turnedRef_kin]
  unfold cornerOf
  rw [e]

theorem rotateOut_turned (h : ∀ t i, c' t i = (c t i).map turnedRef) (nbr : TId → Fin 3 → Option TId) (v : VId)
    (dir : Fin 3 → Fin 3) (l : List TId) (fuel : ℕ) (seen : List TId) (t : TId) :
    rotateOut c' nbr v dir l fuel seen t = rotateOut c nbr v dir l fuel seen t := by
  induction fuel generalizing seen t with
  | zero => rfl
  | succ fuel ih =>
    unfold rotateOut
    rw [cornerOf_turned h]
    simp only [ih]

theorem relink_turned (h : ∀ t i, c' t i = (c t i).map turnedRef) (nbr : TId → Fin 3 → Option TId) (l : List TId) :
    relinkUnwanted c' nbr l = relinkUnwanted c nbr l := by
  funext kt
  unfold relinkUnwanted
  cases index3 (nbr kt) none with
  | none => rfl
  | some i =>
    dsimp only
    rw [h]
    simp only [rotateOut_turned h, cornerOf_turned h]
    cases c kt i with
    | none => rfl
    | some r => cases r <;> rfl

theorem infinites_turned (dt : Dt K) : (infinites (turnedDt dt)).length = (infinites dt).length := by
  have e : ∀ (l : List DT),
      (l.flatMap fun t => sides.filterMap fun i =>
        match (turnedDt dt).corner t i with
        | some v => if (turnedDt dt).finite v then none else some ((turnedDt dt).pos v)
        | none => none) =
      (l.flatMap fun t => sides.filterMap fun i =>
        match dt.corner t i with
        | some v => if dt.finite v then none else some (dt.pos v)
        | none => none).map turned := by
    intro l
    rw [List.map_flatMap]
    congr 1
    funext t
    rw [List.map_filterMap]
    congr 1
    funext i
    show (match dt.corner t i with
      | some v => _
      | none => _) = _
    cases dt.corner t i with
    | none => rfl
    | some v =>
      show (if dt.finite v = true then none else some (turned (dt.pos v))) =
        Option.map turned (if dt.finite v = true then none else some (dt.pos v))
      split <;> rfl
  refine (congrArg (fun l : List (Pt K) => l.dedup.length) (e (List.range dt.nT))).trans ?_
  rw [List.dedup_map_of_injective (fun _ _ q => turned_inj.1 q), List.length_map]
  rfl

theorem unwanted_turned (ts : List (TriStart K)) : unwantedOf (ts.map turnedStart) = unwantedOf ts := by
  unfold unwantedOf
  rw [List.zipIdx_map, List.flatMap_map]
  rfl

theorem centroid_turned (dt : Dt K) : centroidOf (turnedDt dt) = turned (centroidOf dt) := by
  unfold centroidOf turnedDt turned
  dsimp only
  ext
  · dsimp only
    induction (List.range dt.nV).filter dt.finite with
    | nil => simp
    | cons x xs ih => simp only [List.map_cons, List.sum_cons, ih]; ring
  · rfl

theorem sortKey_ok_turned (dt : Dt K) (kvs : List (KVertex K)) (o : Option (KRef K)) {x : Pt K}
    (h : sortKey dt kvs o = .ok x) : ∃ y, sortKey (turnedDt dt) (kvs.map turnedK) (o.map turnedRef) = .ok y := by
  cases o with
  | none => cases h
  | some r =>
    cases r with
    | inf p => exact ⟨_, rfl⟩
    | kin v =>
      unfold sortKey at h ⊢
      dsimp only [Option.map, turnedRef] at h ⊢
      rw [List.getElem?_map]
      cases e : kvs[v]? with
      | none => rw [e] at h; cases h
      | some k => exact ⟨_, rfl⟩

theorem mapE_succeeds {α β : Type} {f : α → Except Err β} {l : List α} (h : ∀ a ∈ l, ∃ b, f a = .ok b) :
    ∃ bs, mapE f l = .ok bs := by
  induction l with
  | nil => exact ⟨[], rfl⟩
  | cons x xs ih =>
    obtain ⟨b, hb⟩ := h x List.mem_cons_self
    obtain ⟨bs, hbs⟩ := ih fun a ha => h a (List.mem_cons_of_mem _ ha)
    refine ⟨b :: bs, ?_⟩
    unfold mapE
    rw [hb, hbs]
    rfl

theorem sorted_perm {l : List TId} {keys : List (Pt K)} (h : keys.length = l.length) :
    (((l.zip keys).insertionSort fun a b => tupleLe a.2 b.2 = true).map (·.1)).Perm l := by
  refine ((List.perm_insertionSort _ _).map _).trans ?_
  rw [List.map_fst_zip (by rw [h])]

theorem initState_turned (dt : Dt K) (pyid : TId → ℕ) (ts : List (TriStart K)) (kvs : List (KVertex K))
    (h : ∀ t i, c' t i = (c t i).map turnedRef) (unwanted : List TId) (nbr : TId → Fin 3 → Option TId)
    (sorted sorted' : List TId) :
    initState (turnedDt dt) pyid (ts.map turnedStart) (kvs.map turnedK) c' unwanted nbr sorted' =
      { turnedState (initState dt pyid ts kvs c unwanted nbr sorted) with skTriangles := sorted' } := by
  have hv : ∀ m t i, vidOf m (c' t i) = vidOf m (c t i) := by
    intro m t i
    rw [h]
    cases c t i with
    | none => rfl
    | some r => cases r <;> rfl
  unfold initState turnedState
  simp only [List.length_map, hv, lineAt_turned, centroid_turned]
  congr 1
  · funext v
    rw [List.getElem?_map]
    cases kvs[v]? <;> rfl
  · funext k
    cases lineAt ts (k / 3) (Fin.ofNat 3 k) with
    | some l => rfl
    | none =>
      show (⟨(0, 0), 0⟩ : Line2 K) = turnedLine ⟨(0, 0), 0⟩
      unfold turnedLine turned
      simp

/-- `init_skeleton` delivers the turned skeleton, with the triangles in another order. -/
theorem initSkeleton_turned [HasSqrt K] {dt : Dt K} {pyid : TId → ℕ} {s : St K} (h : initSkeleton dt pyid = .ok s) :
    ∃ L, s.skTriangles.Perm L ∧ initSkeleton (turnedDt dt) pyid = .ok { turnedState s with skTriangles := L } := by
  unfold initSkeleton at h
  obtain ⟨ts, h1, h⟩ := bindE_ok h
  obtain ⟨vs, h2, h⟩ := bindE_ok h
  obtain ⟨_, h3, h⟩ := bindE_ok h
  unfold finishSkeleton at h
  obtain ⟨_, h4, h⟩ := bindE_ok h
  obtain ⟨_, h5, h⟩ := bindE_ok h
  obtain ⟨_, h6, h⟩ := bindE_ok h
  obtain ⟨_, h7, h⟩ := bindE_ok h
  obtain ⟨links, h8, h⟩ := bindE_ok h
  obtain ⟨_, h9, h⟩ := bindE_ok h
  obtain ⟨keys, h10, h⟩ := bindE_ok h
  dsimp only at h
  split_ifs at h with hc
  cases h
  have k := kref_turned dt vs
  have hkv : (vs.map turnedGroup).map (linkVertex (vs.map turnedGroup)) = (vs.map (linkVertex vs)).map turnedK := by
    rw [List.map_map, List.map_map]
    exact List.map_congr_left fun x _ => linkVertex_turned vs x
  have hn : (fun t i => ((ts.map turnedStart)[t]?).bind fun x => x.neighbours i) =
      (fun (t : TId) (i : Fin 3) => (ts[t]?).bind fun x => x.neighbours i) := by
    funext t i
    rw [List.getElem?_map]
    cases ts[t]? <;> rfl
  have hr : removeOf (turnedDt dt) (kref (turnedDt dt) (vs.map turnedGroup)) = removeOf dt (kref dt vs) := by
    unfold removeOf
    simp only [k, isInf_turned]
    rfl
  obtain ⟨keys', hk'⟩ : ∃ keys', mapE (fun t => sortKey (turnedDt dt) ((vs.map (linkVertex vs)).map turnedK)
      (kref (turnedDt dt) (vs.map turnedGroup) t 0)) ((List.range dt.nT).filter fun t => t ∉ unwantedOf ts) = .ok keys' := by
    refine mapE_succeeds fun t ht => ?_
    obtain ⟨i, hi⟩ := List.mem_iff_getElem?.1 ht
    obtain ⟨y, e1, e2⟩ := (mapE_getElem (liftE_ok h10)).2 i t hi
    rw [k]
    exact sortKey_ok_turned dt _ _ e2
  refine ⟨((((List.range dt.nT).filter fun t => t ∉ unwantedOf ts).zip keys').insertionSort
    fun a b => tupleLe a.2 b.2 = true).map (·.1), ?_, ?_⟩
  · exact (sorted_perm (mapE_getElem (liftE_ok h10)).1).trans (sorted_perm (mapE_getElem hk').1).symm
  · unfold initSkeleton
    rw [show List.range (turnedDt dt).nT = List.range dt.nT from rfl, mapE_turned (initTri_turned dt), liftE_ok h1]
    show (liftE (makeVertices (turnedDt dt) (ts.map turnedStart) 0 (List.range dt.nV)) >>= _) = _
    rw [makeVertices_turned, liftE_ok h2]
    show (liftE (allE (checkLink ((vs.map turnedGroup).map (linkVertex (vs.map turnedGroup))))
      ((vs.map turnedGroup).map (linkVertex (vs.map turnedGroup)))) >>= fun _ => finishSkeleton _ _ _ _
      ((vs.map turnedGroup).map (linkVertex (vs.map turnedGroup)))) = _
    rw [hkv, allE_checkLink_turned, liftE_ok h3]
    show finishSkeleton _ _ _ _ _ = _
    unfold finishSkeleton
    dsimp only
    rw [infinites_turned, hn, hr, unwanted_turned, relink_turned k, liftE_ok h4]
    show (liftE (passert _) >>= _) = _
    rw [liftE_ok h5]
    show (liftE (passert _) >>= _) = _
    rw [liftE_ok h6]
    show (liftE (passert _) >>= _) = _
    rw [liftE_ok h7]
    show (mapE _ _ >>= _) = _
    rw [h8]
    show (liftE (passert _) >>= _) = _
    rw [show (turnedDt dt).nT = dt.nT from rfl, liftE_ok h9]
    show (liftE (mapE _ _) >>= _) = _
    rw [hk']
    show (if _ then _ else _) = _
    rw [if_pos]
    · exact congrArg Except.ok (initState_turned dt pyid ts _ k _ _ _ _)
    · simp only [k, Option.isSome_map]
      exact hc

/-! ### `calc_skel` -/

theorem boxLoop_turned (it : List (Pt K)) (ll ur : Pt K) :
    boxLoop (it.map turned) (-ur.2, ll.1) (-ll.2, ur.1) =
      ((-(boxLoop it ll ur).2.2, (boxLoop it ll ur).1.1), (-(boxLoop it ll ur).1.2, (boxLoop it ll ur).2.1)) := by
  induction it generalizing ll ur with
  | nil => rfl
  | cons p it ih =>
    obtain ⟨l1, l2⟩ := ll
    obtain ⟨u1, u2⟩ := ur
    obtain ⟨x, y⟩ := p
    have h := ih (if y < l2 then ((if x < l1 then (x, l2) else (l1, l2) : Pt K).1, y) else (if x < l1 then (x, l2) else (l1, l2)))
      (if y > u2 then ((if x > u1 then (x, u2) else (u1, u2) : Pt K).1, y) else (if x > u1 then (x, u2) else (u1, u2)))
    rw [List.map_cons]
    unfold boxLoop
    unfold turned at h ⊢
    dsimp only at h ⊢
    by_cases a : x < l1 <;> by_cases b : y < l2 <;> by_cases c : u1 < x <;> by_cases d : u2 < y <;>
      simp only [gt_iff_lt, neg_lt_neg_iff, a, b, c, d, if_true, if_false] at h ⊢ <;> exact h

theorem getBox_turned (pts : List (Pt K)) :
    getBox (pts.map turned) = mapOk (fun b : Pt K × Pt K => ((-b.2.2, b.1.1), (-b.1.2, b.2.1))) (getBox pts) := by
  cases pts with
  | nil => rfl
  | cons p it => exact congrArg Except.ok (boxLoop_turned it p p)

theorem getTransform_turned (b : Pt K × Pt K) :
    getTransform ((-b.2.2, b.1.1), (-b.1.2, b.2.1)) = turnedTransform (getTransform b) := by
  obtain ⟨⟨x0, y0⟩, ⟨x1, y1⟩⟩ := b
  unfold getTransform turnedTransform turned
  dsimp only
  rw [show -y0 - -y1 = y1 - y0 by ring, show (-y1 + -y0) * (1 / 2) = -((y0 + y1) * (1 / 2)) by ring, max_comm]

theorem forward_turned (t : Transform K) (h : t.scale.1 = t.scale.2) (p : Pt K) :
    (turnedTransform t).forward (turned p) = mapOk turned (t.forward p) := by
  unfold Transform.forward turnedTransform turned
  dsimp only
  rw [show -p.2 - -t.translate.2 = -(p.2 - t.translate.2) by ring, pdiv_neg, h]
  unfold pdiv
  split <;> rfl

theorem shrinkPoints_turned (shrink : Bool) (points : List (Pt K)) :
    shrinkPoints shrink (points.map turned) =
      mapOk (fun x => (x.1.map turned, x.2.map turnedTransform)) (shrinkPoints shrink points) := by
  cases shrink with
  | false => rfl
  | true =>
    unfold shrinkPoints
    rw [if_pos rfl, if_pos rfl, getBox_turned]
    cases getBox points with
    | error e => rfl
    | ok b =>
      show (mapE (getTransform _).forward (points.map turned) >>= fun pts => Except.ok (pts, some (getTransform _))) =
        mapOk _ (mapE (getTransform b).forward points >>= _)
      rw [getTransform_turned]
      have e : mapE (turnedTransform (getTransform b)).forward (points.map turned) =
          mapOk (List.map turned) (mapE (getTransform b).forward points) := by
        rw [← mapE_turned (g' := fun p => (turnedTransform (getTransform b)).forward (turned p))
          fun p => forward_turned (getTransform b) rfl p]
        induction points with
        | nil => rfl
        | cons p ps ih =>
          rw [List.map_cons]
          unfold mapE
          rw [ih]
      rw [e]
      cases mapE (getTransform b).forward points <;> rfl

theorem prepare_turned (internal : Bool) (tr : Option (Transform K)) (s : St K) (L : List TId) (h : s.skTriangles.Perm L) :
    ∃ L', (prepare internal tr s).skTriangles.Perm L' ∧
      prepare internal (tr.map turnedTransform) { turnedState s with skTriangles := L } =
        { turnedState (prepare internal tr s) with skTriangles := L' } := by
  cases internal with
  | false => cases tr <;> exact ⟨L, h, rfl⟩
  | true =>
    have hv : (s.skVertices.filter fun v =>
        match (turnedState s).vert v with
        | .kin kv => kv.internal
        | .inf _ => false) = s.skVertices.filter fun v =>
        match s.vert v with
        | .kin kv => kv.internal
        | .inf _ => false := by
      congr 1
      funext v
      show (match turnedVertex (s.vert v) with
        | .kin kv => kv.internal
        | .inf _ => false) = _
      cases s.vert v <;> rfl
    refine ⟨L.filter fun t => (s.tri t).internal, ?_, ?_⟩
    · cases tr <;> exact h.filter _
    · have e : internalOnly { turnedState s with skTriangles := L } =
          { turnedState (internalOnly s) with skTriangles := L.filter fun t => (s.tri t).internal } := by
        exact congrArg (fun vs => ({ turnedState (internalOnly s) with
          skVertices := vs, skTriangles := L.filter fun t => (s.tri t).internal } : St K)) hv
      unfold prepare
      rw [if_pos rfl, if_pos rfl, e]
      cases tr <;> rfl

theorem checkStart_turned {s : St K} {v : VId} (h : checkStart s v = .ok ()) (L : List TId) :
    checkStart { turnedState s with skTriangles := L } v = .ok () := by
  unfold checkStart at h ⊢
  show (match turnedVertex (s.vert v) with
    | .inf _ => _
    | .kin kv => _) = _
  cases hv : s.vert v with
  | inf o => rw [hv] at h; cases h
  | kin k =>
    rw [hv] at h
    dsimp only [turnedVertex] at h ⊢
    cases hn : k.startNode with
    | none => rw [hn] at h; cases h
    | some n =>
      rw [hn] at h
      dsimp only at h ⊢
      obtain ⟨_, h1, h2⟩ := bindE_ok h
      have h1 := passert_ok h1
      have h2 := passert_ok h2
      simp only [Bool.and_eq_true, decide_eq_true_eq] at h1 h2
      have e1 : -2 ≤ -(s.node n).pos.2 ∧ -(s.node n).pos.2 ≤ 2 := ⟨by linarith [h2.2], by linarith [h2.1]⟩
      show (passert (decide (-2 ≤ -(s.node n).pos.2) && decide (-(s.node n).pos.2 ≤ 2)) >>= fun _ =>
        passert (decide (-2 ≤ (s.node n).pos.1) && decide ((s.node n).pos.1 ≤ 2))) = .ok ()
      rw [decide_eq_true e1.1, decide_eq_true e1.2, decide_eq_true h1.1, decide_eq_true h1.2]
      rfl

theorem allE_ok_of {α : Type} {f g : α → Except Err Unit} {l : List α} (h : allE f l = .ok ())
    (k : ∀ a, f a = .ok () → g a = .ok ()) : allE g l = .ok () := by
  induction l with
  | nil => rfl
  | cons x xs ih =>
    have h : (f x >>= fun _ => allE f xs) = .ok () := h
    obtain ⟨_, h1, h2⟩ := bindE_ok h
    show (g x >>= fun _ => allE g xs) = .ok ()
    rw [k x h1]
    exact ih h2

end Grassfire
