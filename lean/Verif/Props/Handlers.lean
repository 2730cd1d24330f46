/-
C61-C63: what an edge event and a split event do to the vertices.
-/
import Verif.Proofs.HandlerLemmas
import Verif.Proofs.Growth
import Verif.Spec.Samples
import Verif.Spec.Wavefronts

set_option linter.unusedSectionVars false

namespace Grassfire

open Spec

variable {K : Type} [Field K] [LinearOrder K] [IsStrictOrderedRing K] [HasSqrt K] [SqrtUnit K] [HasTrig K]

/-- **C61.** An edge event whose new vertex is not infinitely fast: both vertices of the side are stopped, at the
time of the event and at one node; one vertex is made there, between the left wavefront of the one and the right
wavefront of the other; it takes their place in the wavefront; nothing else happens to any vertex. -/
theorem C61_edge (depth : ℕ) (evt : Event K) (step : ℤ) (s s' : St K) (e : Fin 3) (v1 v2 : VId) (k1 k2 : KVertex K)
    (h : handleEdge depth evt step s = .ok ((), s')) (he : evt.side = [e])
    (hv1 : (s.tri evt.tri).vertices (ccw e) = v1) (hv2 : (s.tri evt.tri).vertices (cw e) = v2)
    (hk1 : s.vert v1 = .kin k1) (hk2 : s.vert v2 = .kin k2)
    (hl : ∀ x, k1.leftRef = some x → x < s.nV) (hr : ∀ x, k2.rightRef = some x → x < s.nV)
    (hne : k1.leftRef ≠ some v2) (hf : ∀ k, s'.vert s.nV = .kin k → k.infFast = false) :
    ∃ n k l r, s'.nV = s.nV + 1 ∧ s'.skVertices = s.skVertices ++ [s.nV] ∧ NodeOf s s' n ∧
      k1.leftRef = some l ∧ k2.rightRef = some r ∧
      s'.vert s.nV = .kin k ∧ Born evt.time n k ∧ k.ul = k1.ul ∧ k.ur = k2.ur ∧ k.wfl = k1.wfl ∧ k.wfr = k2.wfr ∧
      k.internal = (k1.internal || k2.internal) ∧ k.info = s.skVertices.length + 1 ∧
      k.left = [⟨evt.time, none, some l⟩] ∧ k.right = [⟨evt.time, none, some r⟩] ∧
      (∀ w o, w < s.nV → s.vert w = .inf o → s'.vert w = .inf o) ∧
      ∀ w kw, w < s.nV → s.vert w = .kin kw → ∃ kw', s'.vert w = .kin kw' ∧
        Touched evt.time (if w = v1 ∨ w = v2 then some n else none) (if w = l then some s.nV else none)
          (if w = r then some s.nV else none) kw kw' := by
  obtain ⟨e', kv, s1, s2, kx, he', hV, hm, hkx, hfin, hg⟩ := handleEdge_steps h
  obtain rfl : e' = e := by rw [he] at he'; simpa using he'.symm
  obtain ⟨⟨k1', k2', a, c, pos, node, s3, kn, R, hlt1, hk1', hlt2, hk2', hwl, hwr, hpos, hstop, hnew, hkv, hR, hs1, hw,
    hnv⟩⟩ := edgeVertex_steps hV
  rw [hv1] at hlt1 hk1' hstop
  rw [hv2] at hlt2 hk2' hstop hR
  obtain rfl : k1 = k1' := by rw [hk1] at hk1'; injection hk1'
  obtain rfl : k2 = k2' := by rw [hk2] at hk2'; injection hk2'
  obtain rfl := hR hne
  obtain ⟨hx, hs3, -, -⟩ := stopAndRecord_exact hstop
  have hnV : s3.nV = s.nV := by rw [hs3]
  have hsv : s3.skVertices = s.skVertices := by rw [hs3]
  rw [hnV] at hkv
  subst hkv
  have hnode := computeNewKvertex_node hnew
  obtain ⟨-, kn', e1, b1, b2, b3, b4, b5, b6, b7, b8, b9, b10, -⟩ := C30_attributes _ _ _ _ _ _ _ _ _ hnew
  obtain rfl : kn = kn' := by
    have := congrArg St.vert e1
    dsimp only at this
    have := congrFun this s3.nV
    rw [Function.update_self, Function.update_self] at this
    injection this
  obtain ⟨l, r, hl', hr', hnk⟩ := hnv (fun x => lt_irrefl _ (hl _ x)) (fun x => lt_irrefl _ (hr _ x))
  -- no parallel fan
  have hv2s : s2.vert = s1.vert := by rw [hm]
  have hn1 : s1.nV = s.nV + 1 := by rw [hs1]; dsimp only; rw [hnV]
  have hn2 : s2.nV = s.nV + 1 := by rw [hm]; exact hn1
  have hi : kx.infFast = false := by
    have := hg.vert s.nV (by omega)
    rw [hkx] at this
    cases hz : s'.vert s.nV with
    | inf o => rw [hz] at this; exact this.elim
    | kin kz =>
      rw [hz] at this
      rw [← this.infFast]
      exact hf _ hz
  obtain rfl := hfin hi
  have hvert : ∀ w, s'.vert w = s1.vert w := fun w => by rw [hv2s]
  refine ⟨node, _, l, r, hn2, ?_, ?_, hl', hr', (hvert _).trans hnk, ⟨b1, b2, b3, b4⟩, b5, b6, rfl, rfl, b8, ?_, ?_, ?_,
    ?_, ?_⟩
  · rw [hm]
    dsimp only
    rw [hs1]
    dsimp only
    rw [hsv]
  · refine nodeOf_stop hstop hnode ?_ ?_ ?_ <;> · rw [hm]; dsimp only; rw [hs1]
  · dsimp only; rw [b7, hsv]
  · dsimp only; rw [b9]; rfl
  · dsimp only; rw [b10]; rfl
  · intro w o hwl ho
    rw [hvert, hw w (Nat.ne_of_lt hwl), hx w, ho]
  · intro w kw hwl hkw
    rw [hvert, hw w (Nat.ne_of_lt hwl), hx w, hkw]
    refine ⟨_, rfl, ?_⟩
    have hrt : ∀ k' : KVertex K, k' = (if w ∈ [v1, v2] then
        { kw with stopsAt := some evt.time, stopNode := some node } else kw) →
        k'.right = kw.right ∧ k'.left = kw.left := by
      intro k' hk'
      split at hk' <;> subst hk' <;> exact ⟨rfl, rfl⟩
    obtain ⟨hrt, hlf⟩ := hrt _ rfl
    rw [hrt, hlf]
    refine touched_mk (w = v1 ∨ w = v2) (by simp) ?_ ?_ ?_ ?_
    · intro x hx'
      by_cases q : w = l
      · rw [if_pos q] at hx'
        injection hx' with hx'
        subst hx'
        rw [if_pos (by rw [hl', q])]
        exact continues_set _ _ _
      · rw [if_neg q] at hx'; cases hx'
    · intro x hx'
      by_cases q : w = r
      · rw [if_pos q] at hx'
        injection hx' with hx'
        subst hx'
        rw [if_pos (by rw [hr', q])]
        exact continues_set _ _ _
      · rw [if_neg q] at hx'; cases hx'
    · intro hx'
      by_cases q : w = l
      · rw [if_pos q] at hx'; cases hx'
      · rw [if_neg (fun z => q (by rw [hl'] at z; injection z with z; exact z.symm))]
    · intro hx'
      by_cases q : w = r
      · rw [if_pos q] at hx'; cases hx'
      · rw [if_neg (fun z => q (by rw [hr'] at z; injection z with z; exact z.symm))]

/-- **C62.** A split event whose new vertices are not infinitely fast: the vertex that hits the opposite side `v1 v2`
is stopped; two vertices are made at its node.  One is between its left wavefront and the wavefront of the side and has
its left neighbour and `v2` as neighbours; the other is between the wavefront of the side and its right wavefront and
has `v1` and its right neighbour as neighbours.  Nothing else happens to any vertex. -/
theorem C62_split (depth : ℕ) (evt : Event K) (step : ℤ) (s s' : St K) (e : Fin 3) (v v1 v2 : VId)
    (k k1 k2 : KVertex K)
    (h : handleSplit depth evt step s = .ok ((), s')) (he : evt.side = [e])
    (hv : (s.tri evt.tri).vertices e = v) (hv1 : (s.tri evt.tri).vertices (ccw e) = v1)
    (hv2 : (s.tri evt.tri).vertices (cw e) = v2)
    (hk : s.vert v = .kin k) (hk1 : s.vert v1 = .kin k1) (hk2 : s.vert v2 = .kin k2)
    (hl : ∀ x, k.leftRef = some x → x < s.nV) (hr : ∀ x, k.rightRef = some x → x < s.nV)
    (hne : v ≠ v1) (hnl : k.leftRef ≠ some v)
    (hfb : ∀ k, s'.vert s.nV = .kin k → k.infFast = false)
    (hfa : ∀ k, s'.vert (s.nV + 1) = .kin k → k.infFast = false) :
    k1.ur = k2.ul ∧ ∃ n kb ka l r, s'.nV = s.nV + 2 ∧ s'.skVertices = s.skVertices ++ [s.nV, s.nV + 1] ∧
      NodeOf s s' n ∧ k.leftRef = some l ∧ k.rightRef = some r ∧
      s'.vert s.nV = .kin kb ∧ Born evt.time n kb ∧
      kb.ul = k.ul ∧ kb.ur = k2.ul ∧ kb.wfl = k.wfl ∧ kb.wfr = k2.wfl ∧
      kb.internal = (k.internal || k2.internal) ∧ kb.info = s.skVertices.length + 1 ∧
      kb.left = [⟨evt.time, none, some l⟩] ∧ kb.right = [⟨evt.time, none, some v2⟩] ∧
      s'.vert (s.nV + 1) = .kin ka ∧ Born evt.time n ka ∧
      ka.ul = k1.ur ∧ ka.ur = k.ur ∧ ka.wfl = k1.wfr ∧ ka.wfr = k.wfr ∧
      ka.internal = (k.internal || k1.internal) ∧ ka.info = s.skVertices.length + 2 ∧
      ka.left = [⟨evt.time, none, some v1⟩] ∧ ka.right = [⟨evt.time, none, some r⟩] ∧
      (∀ w o, w < s.nV → s.vert w = .inf o → s'.vert w = .inf o) ∧
      ∀ w kw, w < s.nV → s.vert w = .kin kw → ∃ kw', s'.vert w = .kin kw' ∧
        Touched evt.time (if w = v then some n else none)
          (if w = v1 then some (s.nV + 1) else if w = l then some s.nV else none)
          (if w = r then some (s.nV + 1) else if w = v2 then some s.nV else none) kw kw' := by
  obtain ⟨e', vv, s1, s2, he', hV, hm, hfin, hg⟩ := handleSplit_steps h
  obtain rfl : e' = e := by rw [he] at he'; simpa using he'.symm
  rw [hv, hv1, hv2] at hV
  obtain ⟨⟨k', k1', k2', node, s3, s4, kb, ka, R, hstop, hlt, hk', hlt1, hk1', hlt2, hk2', hu, hnb, hs4, hna, hvv, hR, hs1,
    hw, hnv⟩⟩ := splitVertices_steps hV
  subst hvv
  obtain ⟨hx, hs3, -, -⟩ := stopAndRecord_exact hstop
  have hst : ∀ {w : VId} {x x' : KVertex K}, s.vert w = .kin x → s3.vert w = .kin x' →
      x' = { x with stopsAt := x'.stopsAt, stopNode := x'.stopNode } := by
    intro w x x' h1 h2
    rw [hx, h1] at h2
    injection h2 with h2
    subst h2
    split <;> rfl
  have e0 := hst hk hk'
  have e1 := hst hk1 hk1'
  have e2 := hst hk2 hk2'
  have el : k'.leftRef = k.leftRef := by rw [e0]; rfl
  have er : k'.rightRef = k.rightRef := by rw [e0]; rfl
  rw [el] at hR hw hnv
  rw [er] at hR
  obtain rfl := hR hne hnl
  have hnV : s3.nV = s.nV := by rw [hs3]
  have hsv : s3.skVertices = s.skVertices := by rw [hs3]
  have hnode := computeNewKvertex_node hnb
  obtain ⟨-, kb', f1, b1, b2, b3, b4, b5, b6, b7, b8, b9, b10, -⟩ := C30_attributes _ _ _ _ _ _ _ _ _ hnb
  obtain rfl : kb = kb' := by
    have := congrArg St.vert f1
    dsimp only at this
    have := congrFun this s3.nV
    rw [Function.update_self, Function.update_self] at this
    injection this
  obtain ⟨-, ka', f2, c1, c2, c3, c4, c5, c6, c7, c8, c9, c10, -⟩ := C30_attributes _ _ _ _ _ _ _ _ _ hna
  have hn4 : s4.nV = s3.nV + 1 := by rw [hs4]
  obtain rfl : ka = ka' := by
    have := congrArg St.vert f2
    dsimp only at this
    have := congrFun this s4.nV
    rw [Function.update_self, ← hn4, Function.update_self] at this
    injection this
  rw [hnV] at hw hnv hfin
  obtain ⟨l, r, hl', hr', hkb, hka⟩ := hnv hl hr
  -- no parallel fan
  have hv2s : s2.vert = s1.vert := by rw [hm]
  have hn1 : s1.nV = s.nV + 2 := by rw [hs1]; dsimp only; rw [hnV]
  have hn2 : s2.nV = s.nV + 2 := by rw [hm]; exact hn1
  have hi : ∀ w, w < s2.nV → (∀ k, s'.vert w = .kin k → k.infFast = false) → ∀ k, s2.vert w = .kin k →
      k.infFast = false := by
    intro w hlt hf kx hkx
    have := hg.vert w hlt
    rw [hkx] at this
    cases hz : s'.vert w with
    | inf o => rw [hz] at this; exact this.elim
    | kin kz =>
      rw [hz] at this
      rw [← this.infFast]
      exact hf _ hz
  obtain rfl := hfin (hi _ (by rw [hn2]; exact Nat.lt_add_of_pos_right (by decide)) hfb)
    (hi _ (by rw [hn2]; exact Nat.lt_succ_self _) hfa)
  have hvert : ∀ w, s'.vert w = s1.vert w := fun w => by rw [hv2s]
  refine ⟨by rw [e1, e2] at hu; exact hu, node, _, _, l, r, hn2, ?_, ?_, hl', hr', (hvert _).trans hkb, ⟨b1, b2, b3, b4⟩,
    b5.trans ?_, b6.trans ?_, ?_, ?_, b8.trans ?_, ?_, ?_, ?_, (hvert _).trans hka, ⟨c1, c2, c3, c4⟩, c5.trans ?_,
    c6.trans ?_, ?_, ?_, c8.trans ?_, ?_, ?_, ?_, ?_, ?_⟩
  · rw [hm]
    dsimp only
    rw [hs1]
    dsimp only
    rw [hsv, hnV, List.append_assoc]
    rfl
  · refine nodeOf_stop hstop hnode ?_ ?_ ?_ <;> · rw [hm]; dsimp only; rw [hs1]
  · rw [e0]
  · rw [e2]
  · dsimp only; rw [e0]
  · dsimp only; rw [e2]
  · rw [e0, e2]
  · dsimp only; rw [b7, hsv]
  · dsimp only; rw [b9]; rfl
  · dsimp only; rw [b10]; rfl
  · rw [e1]
  · rw [e0]
  · dsimp only; rw [e1]
  · dsimp only; rw [e0]
  · rw [e0, e1]
  · dsimp only; rw [c7, hsv]
  · dsimp only; rw [c9]; rfl
  · dsimp only; rw [c10]; rfl
  · intro w o hwl ho
    rw [hvert, hw w (Nat.ne_of_lt hwl) (Nat.ne_of_lt (Nat.lt_succ_of_lt hwl)), hx w, ho]
  · intro w kw hwl hkw
    rw [hvert, hw w (Nat.ne_of_lt hwl) (Nat.ne_of_lt (Nat.lt_succ_of_lt hwl)), hx w, hkw]
    refine ⟨_, rfl, ?_⟩
    have hrt : ∀ k' : KVertex K, k' = (if w ∈ [v] then
        { kw with stopsAt := some evt.time, stopNode := some node } else kw) →
        k'.right = kw.right ∧ k'.left = kw.left := by
      intro k' hk'
      split at hk' <;> subst hk' <;> exact ⟨rfl, rfl⟩
    obtain ⟨hrt, hlf⟩ := hrt _ rfl
    rw [hrt, hlf]
    refine touched_mk (w = v) (by simp) ?_ ?_ ?_ ?_
    · intro x hx'
      by_cases q : w = v1
      · rw [if_pos q] at hx'
        injection hx' with hx'
        subst hx'
        rw [if_pos q.symm]
        by_cases q1 : w = l
        · rw [if_pos (by rw [hl', q1])]
          exact continues_set_twice _ _ _ _
        · rw [if_neg (fun z => q1 (by rw [hl'] at z; injection z with z; exact z.symm))]
          exact continues_set _ _ _
      · rw [if_neg q] at hx'
        rw [if_neg (Ne.symm q)]
        by_cases q1 : w = l
        · rw [if_pos q1] at hx'
          injection hx' with hx'
          subst hx'
          rw [if_pos (by rw [hl', q1])]
          exact continues_set _ _ _
        · rw [if_neg q1] at hx'; cases hx'
    · intro x hx'
      by_cases q : w = r
      · rw [if_pos q] at hx'
        injection hx' with hx'
        subst hx'
        rw [if_pos (by rw [hr', q])]
        by_cases q1 : w = v2
        · rw [if_pos q1.symm]
          exact continues_set_twice _ _ _ _
        · rw [if_neg (Ne.symm q1)]
          exact continues_set _ _ _
      · rw [if_neg q] at hx'
        rw [if_neg (fun z => q (by rw [hr'] at z; injection z with z; exact z.symm))]
        by_cases q1 : w = v2
        · rw [if_pos q1] at hx'
          injection hx' with hx'
          subst hx'
          rw [if_pos q1.symm]
          exact continues_set _ _ _
        · rw [if_neg q1] at hx'; cases hx'
    · intro hx'
      by_cases q : w = v1
      · rw [if_pos q] at hx'; cases hx'
      · rw [if_neg q] at hx'
        by_cases q1 : w = l
        · rw [if_pos q1] at hx'; cases hx'
        · rw [if_neg (Ne.symm q), if_neg (fun z => q1 (by rw [hl'] at z; injection z with z; exact z.symm))]
    · intro hx'
      by_cases q : w = r
      · rw [if_pos q] at hx'; cases hx'
      · rw [if_neg q] at hx'
        by_cases q1 : w = v2
        · rw [if_pos q1] at hx'; cases hx'
        · rw [if_neg (fun z => q (by rw [hr'] at z; injection z with z; exact z.symm)), if_neg (Ne.symm q1)]

/-! ### continuity -/

/-- **C63.** The wavefront does not jump in an edge event: if the two vertices are at the same point `p` at the time
of the event, then the new vertex is at that point at that time, and so is the node, if it is a new one. -/
theorem C63_edge_continuous (depth : ℕ) (evt : Event K) (step : ℤ) (s s' : St K) (e : Fin 3) (v1 v2 : VId)
    (k1 k2 k : KVertex K) (l r : LineId) (p : Pt K)
    (h : handleEdge depth evt step s = .ok ((), s')) (he : evt.side = [e])
    (hv1 : (s.tri evt.tri).vertices (ccw e) = v1) (hv2 : (s.tri evt.tri).vertices (cw e) = v2)
    (hk1 : s.vert v1 = .kin k1) (hk2 : s.vert v2 = .kin k2)
    (hown : OwnLines s) (ht1 : Tracks s k1) (ht2 : Tracks s k2)
    (hp1 : (k1.origin.1 + evt.time * k1.velocity.1, k1.origin.2 + evt.time * k1.velocity.2) = p)
    (hp2 : (k2.origin.1 + evt.time * k2.velocity.1, k2.origin.2 + evt.time * k2.velocity.2) = p)
    (hl : k1.ul = some l) (hlr : k1.ur.isSome) (hr : k2.ur = some r) (hrl : k2.ul.isSome)
    (hul : (s.line l).w.1 ^ 2 + (s.line l).w.2 ^ 2 = 1) (hur : (s.line r).w.1 ^ 2 + (s.line r).w.2 ^ 2 = 1)
    (hc : Cross (s.line l) (s.line r))
    (hrl' : ∀ x, k1.leftRef = some x → x < s.nV) (hrr' : ∀ x, k2.rightRef = some x → x < s.nV)
    (hne : k1.leftRef ≠ some v2) (hk : s'.vert s.nV = .kin k) (hf : k.infFast = false) :
    (k.origin.1 + evt.time * k.velocity.1, k.origin.2 + evt.time * k.velocity.2) = p ∧
      ∀ n, k.startNode = some n → s.nN ≤ n → (s'.node n).pos = p := by
  obtain ⟨e', kv, s1, s2, kx, he', hV, hm, hkx, hfin, hg⟩ := handleEdge_steps h
  obtain rfl : e' = e := by rw [he] at he'; simpa using he'.symm
  obtain ⟨⟨k1', k2', a, c, pos, node, s3, kn, R, hlt1, hk1', hlt2, hk2', hwl, hwr, hpos, hstop, hnew, hkv, hR, hs1, hw,
    hnv⟩⟩ := edgeVertex_steps hV
  rw [hv1] at hlt1 hk1' hstop
  rw [hv2] at hlt2 hk2' hstop hR
  obtain rfl : k1 = k1' := by rw [hk1] at hk1'; injection hk1'
  obtain rfl : k2 = k2' := by rw [hk2] at hk2'; injection hk2'
  obtain ⟨hx, hs3, -, hnn⟩ := stopAndRecord_exact hstop
  have hnV : s3.nV = s.nV := by rw [hs3]
  have hline : s3.line = s.line := by rw [hs3]
  rw [hnV] at hkv
  subst hkv
  have hn1 : s1.nV = s.nV + 1 := by rw [hs1]; dsimp only; rw [hnV]
  have hn2 : s2.nV = s.nV + 1 := by rw [hm]; exact hn1
  -- the point is on both wavefronts
  obtain ⟨m1, hm1⟩ := Option.isSome_iff_exists.1 hlr
  obtain ⟨m2, hm2⟩ := Option.isSome_iff_exists.1 hrl
  have d1 := (ht1 l m1 hl hm1 evt.time).1
  have d2 := (ht2 m2 r hm2 hr evt.time).2
  rw [hp1] at d1
  rw [hp2] at d2
  -- the new vertex
  obtain rfl := hR hne
  obtain ⟨x, y, hl', hr', hnk⟩ := hnv (fun x => lt_irrefl _ (hrl' _ x)) (fun x => lt_irrefl _ (hrr' _ x))
  have hv2s : s2.vert = s1.vert := by rw [hm]
  have hb := hg.vert s.nV (by omega)
  rw [hkx, hk] at hb
  obtain rfl := hfin (hb.infFast.symm.trans hf)
  obtain rfl : k = kx := by rw [hk] at hkx; injection hkx
  rw [hv2s, hnk] at hkx
  injection hkx with hkx
  have ei : kn.infFast = false := by rw [← hkx] at hf; exact hf
  have eo : kn.origin = k.origin := by rw [← hkx]
  have ev : kn.velocity = k.velocity := by rw [← hkx]
  obtain ⟨-, kn', f1, -, b2, -⟩ := C30_attributes _ _ _ _ _ _ _ _ _ hnew
  obtain rfl : kn = kn' := by
    have := congrArg St.vert f1
    dsimp only at this
    have := congrFun this s3.nV
    rw [Function.update_self, Function.update_self] at this
    injection this
  have en : k.startNode = some node := by rw [← hkx]; exact b2
  have tr := computeNewKvertex_tracks hnew (kv := kn) (by dsimp only; rw [Function.update_self])
    (by
      rw [hline, hl, hr]
      rintro z (hz | hz)
      · injection hz with hz; subst hz; exact hul
      · injection hz with hz; subst hz; exact hur) ei
    (by
      rw [hline, hl, hr]
      intro z z' hz hz'
      injection hz with hz
      injection hz' with hz'
      subst hz hz'
      exact hc) l r hl hr evt.time
  rw [hline, eo, ev] at tr
  refine ⟨cross_unique hc tr.1 tr.2 d1 d2, fun n hn hge => ?_⟩
  rw [en] at hn
  injection hn with hn
  subst hn
  have hnode := computeNewKvertex_node hnew
  have hmade : s3.nN = s.nN + 1 := by
    rcases hnn with ⟨hnn, -⟩ | ⟨-, hnn, -⟩
    · exact absurd (hnn ▸ hnode) (Nat.not_lt.2 hge)
    · exact hnn
  have hnp : s'.node = s3.node := by rw [hm]; dsimp only; rw [hs1]
  rw [hnp]
  -- the intersection of the wavefronts has been found
  have o1 := (hown v1 k1 hlt1 hk1).1 a hwl
  have o2 := (hown v2 k2 hlt2 hk2).2 c hwr
  rw [hl] at o1
  rw [hr] at o2
  injection o1 with o1
  injection o2 with o2
  rw [← o1, ← o2] at hpos
  obtain ⟨_, _, _, _, hall⟩ := C13_wavefront_vertex (s.line l) (s.line r) hul hur hc
  obtain ⟨q, hq, q1, q2, -⟩ := hall evt.time
  unfold tryIntersection at hpos
  rw [hq] at hpos
  dsimp only at hpos
  simp only [Except.ok.injEq, Prod.mk.injEq, and_true] at hpos
  subst hpos
  rw [stopAndRecord_pos hstop hmade]
  exact cross_unique hc (sub_eq_zero.1 (Eq.trans (by dsimp only [Advanced]; ring) q1))
    (sub_eq_zero.1 (Eq.trans (by dsimp only [Advanced]; ring) q2)) d1 d2

/-- **C63.** The wavefront does not jump in a split event: if the vertex is on the wavefront of the opposite side at
the time of the event, then both new vertices are where it is at that time, and so is the node, if it is a new one. -/
theorem C63_split_continuous (depth : ℕ) (evt : Event K) (step : ℤ) (s s' : St K) (e : Fin 3) (v v1 v2 : VId)
    (k k2 kb ka : KVertex K) (l m r : LineId) (p : Pt K)
    (h : handleSplit depth evt step s = .ok ((), s')) (he : evt.side = [e])
    (hv : (s.tri evt.tri).vertices e = v) (hv1 : (s.tri evt.tri).vertices (ccw e) = v1)
    (hv2 : (s.tri evt.tri).vertices (cw e) = v2) (hk : s.vert v = .kin k) (hk2 : s.vert v2 = .kin k2)
    (hf : k.infFast = false) (ht : Tracks s k)
    (hp : (k.origin.1 + evt.time * k.velocity.1, k.origin.2 + evt.time * k.velocity.2) = p)
    (hl : k.ul = some l) (hm : k2.ul = some m) (hr : k.ur = some r) (hpm : AtDistance (s.line m) evt.time p)
    (hul : (s.line l).w.1 ^ 2 + (s.line l).w.2 ^ 2 = 1) (hum : (s.line m).w.1 ^ 2 + (s.line m).w.2 ^ 2 = 1)
    (hur : (s.line r).w.1 ^ 2 + (s.line r).w.2 ^ 2 = 1)
    (hcb : Cross (s.line l) (s.line m)) (hca : Cross (s.line m) (s.line r))
    (hrl : ∀ x, k.leftRef = some x → x < s.nV) (hrr : ∀ x, k.rightRef = some x → x < s.nV)
    (hne : v ≠ v1) (hnl : k.leftRef ≠ some v)
    (hkb : s'.vert s.nV = .kin kb) (hfb : kb.infFast = false)
    (hka : s'.vert (s.nV + 1) = .kin ka) (hfa : ka.infFast = false) :
    (kb.origin.1 + evt.time * kb.velocity.1, kb.origin.2 + evt.time * kb.velocity.2) = p ∧
    (ka.origin.1 + evt.time * ka.velocity.1, ka.origin.2 + evt.time * ka.velocity.2) = p ∧
      ∀ n, kb.startNode = some n → s.nN ≤ n → (s'.node n).pos = p := by
  obtain ⟨e', vv, s1, s2, he', hV, hmo, hfin, hg⟩ := handleSplit_steps h
  obtain rfl : e' = e := by rw [he] at he'; simpa using he'.symm
  rw [hv, hv1, hv2] at hV
  obtain ⟨⟨k', k1', k2', node, s3, s4, kb', ka', R, hstop, hlt, hk', hlt1, hk1', hlt2, hk2', hu, hnb, hs4, hna, hvv, hR, hs1,
    hw, hnv⟩⟩ := splitVertices_steps hV
  subst hvv
  obtain ⟨hx, hs3, -, hnn⟩ := stopAndRecord_exact hstop
  have hst : ∀ {w : VId} {x x' : KVertex K}, s.vert w = .kin x → s3.vert w = .kin x' →
      x' = { x with stopsAt := x'.stopsAt, stopNode := x'.stopNode } := by
    intro w x x' h1 h2
    rw [hx, h1] at h2
    injection h2 with h2
    subst h2
    split <;> rfl
  have e0 := hst hk hk'
  have e2 := hst hk2 hk2'
  have el : k'.leftRef = k.leftRef := by rw [e0]; rfl
  have er : k'.rightRef = k.rightRef := by rw [e0]; rfl
  rw [el] at hR hw hnv
  rw [er] at hR
  obtain rfl := hR hne hnl
  have hnV : s3.nV = s.nV := by rw [hs3]
  have hline : s3.line = s.line := by rw [hs3]
  have hline4 : s4.line = s.line := by rw [hs4]; exact hline
  rw [hnV] at hw hnv hfin
  obtain ⟨x, y, hl', hr', hkb', hka'⟩ := hnv hrl hrr
  have hv2s : s2.vert = s1.vert := by rw [hmo]
  have hn1 : s1.nV = s.nV + 2 := by rw [hs1]; dsimp only; rw [hnV]
  have hn2 : s2.nV = s.nV + 2 := by rw [hmo]; exact hn1
  have hi : ∀ w kz, w < s2.nV → s'.vert w = .kin kz → kz.infFast = false → ∀ k, s2.vert w = .kin k →
      k.infFast = false := by
    intro w kz hlt hz hf kx hkx
    have := hg.vert w hlt
    rw [hkx, hz] at this
    rw [← this.infFast]
    exact hf
  obtain rfl := hfin (hi _ _ (by rw [hn2]; exact Nat.lt_add_of_pos_right (by decide)) hkb hfb)
    (hi _ _ (by rw [hn2]; exact Nat.lt_succ_self _) hka hfa)
  rw [hv2s, hkb'] at hkb
  rw [hv2s, hka'] at hka
  injection hkb with hkb
  injection hka with hka
  -- where the vertex is
  have d := ht l r hl hr evt.time
  rw [hp] at d
  have ul' : k'.ul = some l := by rw [e0]; exact hl
  have ur' : k'.ur = some r := by rw [e0]; exact hr
  have um' : k2'.ul = some m := by rw [e2]; exact hm
  have um1 : k1'.ur = some m := hu.trans um'
  obtain ⟨-, kz, f1, -, b2, -⟩ := C30_attributes _ _ _ _ _ _ _ _ _ hnb
  obtain rfl : kb' = kz := by
    have := congrArg St.vert f1
    dsimp only at this
    have := congrFun this s3.nV
    rw [Function.update_self, Function.update_self] at this
    injection this
  have trb := computeNewKvertex_tracks hnb (kv := kb') (by dsimp only; rw [Function.update_self])
    (by
      rw [hline, ul', um']
      rintro z (hz | hz)
      · injection hz with hz; subst hz; exact hul
      · injection hz with hz; subst hz; exact hum) (by rw [← hkb] at hfb; exact hfb)
    (by
      rw [hline, ul', um']
      intro z z' hz hz'
      injection hz with hz
      injection hz' with hz'
      subst hz hz'
      exact hcb) l m ul' um' evt.time
  have tra := computeNewKvertex_tracks hna (kv := ka') (by dsimp only; rw [Function.update_self])
    (by
      rw [hline4, um1, ur']
      rintro z (hz | hz)
      · injection hz with hz; subst hz; exact hum
      · injection hz with hz; subst hz; exact hur) (by rw [← hka] at hfa; exact hfa)
    (by
      rw [hline4, um1, ur']
      intro z z' hz hz'
      injection hz with hz
      injection hz' with hz'
      subst hz hz'
      exact hca) m r um1 ur' evt.time
  rw [hline] at trb
  rw [hline4] at tra
  refine ⟨?_, ?_, fun n hn hge => ?_⟩
  · rw [← hkb]
    exact cross_unique hcb trb.1 trb.2 d.1 hpm
  · rw [← hka]
    exact cross_unique hca tra.1 tra.2 hpm d.2
  · have en : kb.startNode = some node := by rw [← hkb]; exact b2
    rw [en] at hn
    injection hn with hn
    subst hn
    have hnode := computeNewKvertex_node hnb
    have hmade : s3.nN = s.nN + 1 := by
      rcases hnn with ⟨hnn, -⟩ | ⟨-, hnn, -⟩
      · exact absurd (hnn ▸ hnode) (Nat.not_lt.2 hge)
      · exact hnn
    have hnp : s'.node = s3.node := by rw [hmo]; dsimp only; rw [hs1]
    rw [hnp, stopAndRecord_single hstop hmade hk hf]
    exact hp

/-! ### the hypotheses are met -/

namespace Sample

/-- the upper side of the trapezoid vanishes -/
def trapezoidEvent : Event ℚ := { time := 1, side := [0], tp := .edge, triTp := 2, eid := 1, tri := 1 }
def trapezoidBefore : St ℚ := after initEventList trapezoid
def trapezoidAfter : St ℚ := after (handleEdge 10 trapezoidEvent 0) trapezoidBefore

/-- the reflex corner arrives at the lower side -/
def notchedEvent : Event ℚ := { time := 3 / 4, side := [2], tp := .split, triTp := 1, eid := 0, tri := 0 }
def notchedBefore : St ℚ := after initEventList notched
def notchedAfter : St ℚ := after (handleSplit 10 notchedEvent 0) notchedBefore

end Sample

open Sample

/-- these are the first events -/
example : (trapezoidBefore.queue.head?, notchedBefore.queue.head?) = (some trapezoidEvent, some notchedEvent) := by
  decide +kernel

/-- C61 applies to the trapezoid -/
example := C61_edge 10 trapezoidEvent 0 trapezoidBefore trapezoidAfter 0 2 3 _ _ (after_run (by decide +kernel)) rfl
  (by decide +kernel) (by decide +kernel) (kv_eq (by decide +kernel)) (kv_eq (by decide +kernel))
  (by
    intro x hx
    have : (kv trapezoidBefore 2).leftRef = some 1 := by decide +kernel
    rw [this] at hx
    injection hx with hx
    subst hx
    decide +kernel)
  (by
    intro x hx
    have : (kv trapezoidBefore 3).rightRef = some 0 := by decide +kernel
    rw [this] at hx
    injection hx with hx
    subst hx
    decide +kernel)
  (by decide +kernel)
  (by
    intro k hk
    have : (kv trapezoidAfter trapezoidBefore.nV).infFast = false := by decide +kernel
    unfold kv at this
    rw [hk] at this
    exact this)

/-- C62 applies to the notched polygon -/
example := C62_split 10 notchedEvent 0 notchedBefore notchedAfter 2 3 0 1 _ _ _ (after_run (by decide +kernel)) rfl
  (by decide +kernel) (by decide +kernel) (by decide +kernel) (kv_eq (by decide +kernel)) (kv_eq (by decide +kernel))
  (kv_eq (by decide +kernel))
  (by
    intro x hx
    have : (kv notchedBefore 3).leftRef = some 2 := by decide +kernel
    rw [this] at hx
    injection hx with hx
    subst hx
    decide +kernel)
  (by
    intro x hx
    have : (kv notchedBefore 3).rightRef = some 4 := by decide +kernel
    rw [this] at hx
    injection hx with hx
    subst hx
    decide +kernel)
  (by decide) (by decide +kernel)
  (by
    intro k hk
    have : (kv notchedAfter notchedBefore.nV).infFast = false := by decide +kernel
    unfold kv at this
    rw [hk] at this
    exact this)
  (by
    intro k hk
    have : (kv notchedAfter (notchedBefore.nV + 1)).infFast = false := by decide +kernel
    unfold kv at this
    rw [hk] at this
    exact this)

/-- C63: what has to be at one place is at one place, and the lines cross -/
example : (List.map (fun v => ((kv trapezoidAfter v).origin.1 + (kv trapezoidAfter v).velocity.1,
      (kv trapezoidAfter v).origin.2 + (kv trapezoidAfter v).velocity.2)) [2, 3, 4],
    (trapezoidAfter.node 4).pos, (kv trapezoidAfter 4).startNode, trapezoidBefore.nN) =
    ([(7 / 2, 3), (7 / 2, 3), (7 / 2, 3)], (7 / 2, 3), some 4, 4) ∧
    Cross (trapezoidBefore.line 1) (trapezoidBefore.line 3) := by
  constructor
  · decide +kernel
  · unfold Cross; decide +kernel

example : (List.map (fun v => ((kv notchedAfter v).origin.1 + 3 / 4 * (kv notchedAfter v).velocity.1,
      (kv notchedAfter v).origin.2 + 3 / 4 * (kv notchedAfter v).velocity.2)) [3, 5, 6],
    (notchedAfter.node 5).pos, (kv notchedAfter 5).startNode, notchedBefore.nN) =
    ([(6, 3 / 4), (6, 3 / 4), (6, 3 / 4)], (6, 3 / 4), some 5, 5) ∧
    Cross (notchedBefore.line 2) (notchedBefore.line 0) ∧ Cross (notchedBefore.line 0) (notchedBefore.line 3) := by
  refine ⟨?_, ?_, ?_⟩
  · decide +kernel
  · unfold Cross; decide +kernel
  · unfold Cross; decide +kernel

end Grassfire
