/-
The wavefronts of the vertices: elementary steps (lemmas for C57-C59).
-/
import Verif.Proofs.Quiet
import Verif.Props.NewVertex
import Verif.Spec.Wavefronts

set_option linter.unusedSectionVars false

namespace Grassfire

open Spec

variable {K : Type} [Field K] [LinearOrder K] {P : Line2 K → Prop}

/-- the four parts of the specification -/
structure Waves (P : Line2 K → Prop) (s : St K) : Prop where
  shared : SharedWavefronts s
  own : OwnLines s
  good : ∀ l, P l → l.w.1 ^ 2 + l.w.2 ^ 2 = 1
  lines : AllLines P s
  motion : OnWavefronts s

theorem RestoppedV.kin {a : KVertex K} {y : Vertex K} (h : RestoppedV (.kin a) y) :
    ∃ b, y = .kin b ∧ Restopped a b := by
  cases y with
  | kin b => exact ⟨b, rfl, h⟩
  | inf o => exact h.elim

theorem RestoppedV.of_kin {b : KVertex K} {x : Vertex K} (h : RestoppedV x (.kin b)) :
    ∃ a, x = .kin a ∧ Restopped a b := by
  cases x with
  | kin a => exact ⟨a, rfl, h⟩
  | inf o => exact h.elim

section fields
variable {a b : KVertex K} (h : Restopped a b)
include h
theorem Restopped.origin : b.origin = a.origin := by rw [h]
theorem Restopped.velocity : b.velocity = a.velocity := by rw [h]
theorem Restopped.left : b.left = a.left := by rw [h]
theorem Restopped.right : b.right = a.right := by rw [h]
theorem Restopped.ul : b.ul = a.ul := by rw [h]
theorem Restopped.ur : b.ur = a.ur := by rw [h]
theorem Restopped.wfl : b.wfl = a.wfl := by rw [h]
theorem Restopped.wfr : b.wfr = a.wfr := by rw [h]
theorem Restopped.infFast : b.infFast = a.infFast := by rw [h]
theorem Restopped.leftRef : b.leftRef = a.leftRef := by rw [h]; rfl
theorem Restopped.rightRef : b.rightRef = a.rightRef := by rw [h]; rfl
theorem Restopped.startsAt : b.startsAt = a.startsAt := by rw [h]
theorem Restopped.startNode : b.startNode = a.startNode := by rw [h]
theorem Restopped.internal : b.internal = a.internal := by rw [h]
theorem Restopped.info : b.info = a.info := by rw [h]
end fields

theorem Quiet.kin {s s' : St K} (q : Quiet s s') {v : VId} {kv : KVertex K} (hk : s.vert v = .kin kv) :
    ∃ kv', s'.vert v = .kin kv' ∧ Restopped kv kv' := by
  have := q.vert v
  rw [hk] at this
  exact this.kin

theorem Quiet.kin' {s s' : St K} (q : Quiet s s') {v : VId} {kv' : KVertex K} (hk : s'.vert v = .kin kv') :
    ∃ kv, s.vert v = .kin kv ∧ Restopped kv kv' := by
  have := q.vert v
  rw [hk] at this
  exact this.of_kin

theorem Waves.linesOf {s : St K} (w : Waves P s) (v : VId) (kv : KVertex K) (hv : v < s.nV) (hk : s.vert v = .kin kv)
    (a : LineId) (ha : kv.ul = some a ∨ kv.ur = some a) : P (s.line a) := by
  obtain ⟨x, y, h1, h2, h3, h4⟩ := w.lines v kv hv hk
  rw [h1, h2] at ha
  rcases ha with h | h <;> cases h <;> assumption

/-- stopping vertices changes nothing -/
theorem Waves.quiet {s s' : St K} (w : Waves P s) (q : Quiet s s') : Waves P s' := by
  refine ⟨⟨?_, ?_⟩, ?_, w.good, ?_, ?_⟩
  · intro v kv' hv hk' x hx
    obtain ⟨kv, hk, r⟩ := q.kin' hk'
    rw [r.left] at hx
    obtain ⟨u, ku, wf, h1, h2, h3, h4, h5⟩ := w.shared.left v kv (q.nV ▸ hv) hk x hx
    obtain ⟨ku', hku', r'⟩ := q.kin h3
    exact ⟨u, ku', wf, h1, q.nV ▸ h2, hku', by rw [r.wfl, h4], by rw [r'.wfr, h5]⟩
  · intro v kv' hv hk' x hx
    obtain ⟨kv, hk, r⟩ := q.kin' hk'
    rw [r.right] at hx
    obtain ⟨u, ku, wf, h1, h2, h3, h4, h5⟩ := w.shared.right v kv (q.nV ▸ hv) hk x hx
    obtain ⟨ku', hku', r'⟩ := q.kin h3
    exact ⟨u, ku', wf, h1, q.nV ▸ h2, hku', by rw [r.wfr, h4], by rw [r'.wfl, h5]⟩
  · intro v kv' hv hk'
    obtain ⟨kv, hk, r⟩ := q.kin' hk'
    rw [r.wfl, r.wfr, r.ul, r.ur, q.wfLine]
    exact w.own v kv (q.nV ▸ hv) hk
  · intro v kv' hv hk'
    obtain ⟨kv, hk, r⟩ := q.kin' hk'
    rw [r.ul, r.ur, q.line]
    exact w.lines v kv (q.nV ▸ hv) hk
  · intro v kv' hv hk'
    obtain ⟨kv, hk, r⟩ := q.kin' hk'
    unfold Tracks
    rw [r.ul, r.ur, q.line, r.infFast, r.origin, r.velocity]
    exact w.motion v kv (q.nV ▸ hv) hk

/-- what must hold of a new vertex -/
structure Newborn (P : Line2 K → Prop) (s : St K) (kv : KVertex K) : Prop where
  left : kv.left = []
  right : kv.right = []
  wfl : ∀ w, kv.wfl = some w → kv.ul = some (s.wfLine w)
  wfr : ∀ w, kv.wfr = some w → kv.ur = some (s.wfLine w)
  lines : ∃ a b, kv.ul = some a ∧ kv.ur = some b ∧ P (s.line a) ∧ P (s.line b)
  motion : kv.infFast = false →
    (∀ a b, kv.ul = some a → kv.ur = some b → Cross (s.line a) (s.line b)) → Tracks s kv

/-- a vertex is created -/
theorem Waves.create {s : St K} (w : Waves P s) {kv : KVertex K} (hb : Newborn P s kv) :
    Waves P { s with vert := Function.update s.vert s.nV (.kin kv), nV := s.nV + 1 } := by
  have old : ∀ v, v < s.nV → Function.update s.vert s.nV (.kin kv) v = s.vert v :=
    fun v hv => Function.update_of_ne (Nat.ne_of_lt hv) _ _
  refine ⟨⟨?_, ?_⟩, ?_, w.good, ?_, ?_⟩
  · intro v k hv hk x hx
    dsimp only at hv hk ⊢
    rcases Nat.lt_succ_iff_lt_or_eq.1 hv with hv | rfl
    · rw [old v hv] at hk
      obtain ⟨u, ku, wf, h1, h2, h3, h4, h5⟩ := w.shared.left v k hv hk x hx
      exact ⟨u, ku, wf, h1, h2.trans (Nat.lt_succ_self _), by rw [old u h2]; exact h3, h4, h5⟩
    · rw [Function.update_self] at hk; cases hk; rw [hb.left] at hx; cases hx
  · intro v k hv hk x hx
    dsimp only at hv hk ⊢
    rcases Nat.lt_succ_iff_lt_or_eq.1 hv with hv | rfl
    · rw [old v hv] at hk
      obtain ⟨u, ku, wf, h1, h2, h3, h4, h5⟩ := w.shared.right v k hv hk x hx
      exact ⟨u, ku, wf, h1, h2.trans (Nat.lt_succ_self _), by rw [old u h2]; exact h3, h4, h5⟩
    · rw [Function.update_self] at hk; cases hk; rw [hb.right] at hx; cases hx
  · intro v k hv hk
    dsimp only at hv hk ⊢
    rcases Nat.lt_succ_iff_lt_or_eq.1 hv with hv | rfl
    · rw [old v hv] at hk; exact w.own v k hv hk
    · rw [Function.update_self] at hk; cases hk; exact ⟨hb.wfl, hb.wfr⟩
  · intro v k hv hk
    dsimp only at hv hk ⊢
    rcases Nat.lt_succ_iff_lt_or_eq.1 hv with hv | rfl
    · rw [old v hv] at hk; exact w.lines v k hv hk
    · rw [Function.update_self] at hk; cases hk; exact hb.lines
  · intro v k hv hk
    dsimp only at hv hk ⊢
    rcases Nat.lt_succ_iff_lt_or_eq.1 hv with hv | rfl
    · rw [old v hv] at hk; exact w.motion v k hv hk
    · rw [Function.update_self] at hk; cases hk; exact hb.motion

/-- the entries after an assignment: the references of the old ones, and the new one -/
theorem hist_set_ref {R : Type} {h : Hist K R} {r : R} {t : K} {x : HistItem K R} (hx : x ∈ h.set r t) :
    x.ref = r ∨ ∃ y ∈ h, x.ref = y.ref := by
  unfold Hist.set at hx
  cases hl : h.getLast? with
  | none => rw [hl] at hx; rw [List.mem_singleton.1 hx]; exact .inl rfl
  | some last =>
    rw [hl] at hx
    rcases List.mem_append.1 hx with hx | hx
    · exact .inr ⟨x, List.dropLast_subset _ hx, rfl⟩
    · rcases List.mem_cons.1 hx with rfl | hx
      · exact .inr ⟨last, List.mem_of_getLast? hl, rfl⟩
      · rw [List.mem_singleton.1 hx]; exact .inl rfl

/-- a vertex gets a right neighbour with which it shares its right wavefront -/
theorem Waves.setRight {s : St K} (w : Waves P s) {l r : VId} {kl kr : KVertex K} {wf : WfId} (hl : l < s.nV)
    (hr : r < s.nV) (hkl : s.vert l = .kin kl) (hkr : s.vert r = .kin kr) (h1 : kl.wfr = some wf)
    (h2 : kr.wfl = some wf) (now : K) :
    Waves P { s with vert := Function.update s.vert l (.kin { kl with right := kl.right.set (some r) now }) } := by
  have key : ∀ v k, Function.update s.vert l (.kin { kl with right := kl.right.set (some r) now }) v = .kin k →
      ∃ k0, s.vert v = .kin k0 ∧ k.left = k0.left ∧ k.wfl = k0.wfl ∧ k.wfr = k0.wfr ∧ k.ul = k0.ul ∧ k.ur = k0.ur ∧
        k.infFast = k0.infFast ∧ k.origin = k0.origin ∧ k.velocity = k0.velocity ∧
        ∀ x ∈ k.right, (v = l ∧ x.ref = some r) ∨ ∃ y ∈ k0.right, x.ref = y.ref := by
    intro v k hk
    by_cases e : v = l
    · subst e
      rw [Function.update_self] at hk
      cases hk
      refine ⟨kl, hkl, rfl, rfl, rfl, rfl, rfl, rfl, rfl, rfl, fun x hx => ?_⟩
      exact (hist_set_ref hx).imp (fun h => ⟨rfl, h⟩) id
    · rw [Function.update_of_ne e] at hk
      exact ⟨k, hk, rfl, rfl, rfl, rfl, rfl, rfl, rfl, rfl, fun x hx => .inr ⟨x, hx, rfl⟩⟩
  have look : ∀ v k0, s.vert v = .kin k0 →
      ∃ k, Function.update s.vert l (.kin { kl with right := kl.right.set (some r) now }) v = .kin k ∧
        k.wfl = k0.wfl ∧ k.wfr = k0.wfr := by
    intro v k0 hk
    by_cases e : v = l
    · subst e
      rw [hkl] at hk; cases hk
      exact ⟨_, Function.update_self _ _ _, rfl, rfl⟩
    · exact ⟨k0, by rw [Function.update_of_ne e]; exact hk, rfl, rfl⟩
  refine ⟨⟨?_, ?_⟩, ?_, w.good, ?_, ?_⟩
  · intro v k hv hk x hx
    obtain ⟨k0, hk0, e1, e2, e3, _⟩ := key v k hk
    rw [e1] at hx
    obtain ⟨u, ku, f, g1, g2, g3, g4, g5⟩ := w.shared.left v k0 hv hk0 x hx
    obtain ⟨ku', hku', m1, m2⟩ := look u ku g3
    exact ⟨u, ku', f, g1, g2, hku', e2.trans g4, m2.trans g5⟩
  · intro v k hv hk x hx
    obtain ⟨k0, hk0, e1, e2, e3, _, _, _, _, _, e9⟩ := key v k hk
    rcases e9 x hx with ⟨rfl, hxr⟩ | ⟨y, hy, hxy⟩
    · obtain ⟨kr', hkr', m1, m2⟩ := look r kr hkr
      rw [hkl] at hk0; cases hk0
      exact ⟨r, kr', wf, hxr, hr, hkr', e3.trans h1, m1.trans h2⟩
    · obtain ⟨u, ku, f, g1, g2, g3, g4, g5⟩ := w.shared.right v k0 hv hk0 y hy
      obtain ⟨ku', hku', m1, m2⟩ := look u ku g3
      exact ⟨u, ku', f, hxy.trans g1, g2, hku', e3.trans g4, m1.trans g5⟩
  · intro v k hv hk
    obtain ⟨k0, hk0, e1, e2, e3, e4, e5, _⟩ := key v k hk
    rw [e2, e3, e4, e5]
    exact w.own v k0 hv hk0
  · intro v k hv hk
    obtain ⟨k0, hk0, e1, e2, e3, e4, e5, _⟩ := key v k hk
    rw [e4, e5]
    exact w.lines v k0 hv hk0
  · intro v k hv hk
    obtain ⟨k0, hk0, e1, e2, e3, e4, e5, e6, e7, e8, _⟩ := key v k hk
    unfold Tracks
    rw [e4, e5, e6, e7, e8]
    exact w.motion v k0 hv hk0

/-- a vertex gets a left neighbour with which it shares its left wavefront -/
theorem Waves.setLeft {s : St K} (w : Waves P s) {l r : VId} {kl kr : KVertex K} {wf : WfId} (hl : l < s.nV)
    (hr : r < s.nV) (hkl : s.vert l = .kin kl) (hkr : s.vert r = .kin kr) (h1 : kl.wfr = some wf)
    (h2 : kr.wfl = some wf) (now : K) :
    Waves P { s with vert := Function.update s.vert r (.kin { kr with left := kr.left.set (some l) now }) } := by
  have key : ∀ v k, Function.update s.vert r (.kin { kr with left := kr.left.set (some l) now }) v = .kin k →
      ∃ k0, s.vert v = .kin k0 ∧ k.right = k0.right ∧ k.wfl = k0.wfl ∧ k.wfr = k0.wfr ∧ k.ul = k0.ul ∧ k.ur = k0.ur ∧
        k.infFast = k0.infFast ∧ k.origin = k0.origin ∧ k.velocity = k0.velocity ∧
        ∀ x ∈ k.left, (v = r ∧ x.ref = some l) ∨ ∃ y ∈ k0.left, x.ref = y.ref := by
    intro v k hk
    by_cases e : v = r
    · subst e
      rw [Function.update_self] at hk
      cases hk
      refine ⟨kr, hkr, rfl, rfl, rfl, rfl, rfl, rfl, rfl, rfl, fun x hx => ?_⟩
      exact (hist_set_ref hx).imp (fun h => ⟨rfl, h⟩) id
    · rw [Function.update_of_ne e] at hk
      exact ⟨k, hk, rfl, rfl, rfl, rfl, rfl, rfl, rfl, rfl, fun x hx => .inr ⟨x, hx, rfl⟩⟩
  have look : ∀ v k0, s.vert v = .kin k0 →
      ∃ k, Function.update s.vert r (.kin { kr with left := kr.left.set (some l) now }) v = .kin k ∧
        k.wfl = k0.wfl ∧ k.wfr = k0.wfr := by
    intro v k0 hk
    by_cases e : v = r
    · subst e
      rw [hkr] at hk; cases hk
      exact ⟨_, Function.update_self _ _ _, rfl, rfl⟩
    · exact ⟨k0, by rw [Function.update_of_ne e]; exact hk, rfl, rfl⟩
  refine ⟨⟨?_, ?_⟩, ?_, w.good, ?_, ?_⟩
  · intro v k hv hk x hx
    obtain ⟨k0, hk0, e1, e2, e3, _, _, _, _, _, e9⟩ := key v k hk
    rcases e9 x hx with ⟨rfl, hxr⟩ | ⟨y, hy, hxy⟩
    · obtain ⟨kl', hkl', m1, m2⟩ := look l kl hkl
      rw [hkr] at hk0; cases hk0
      exact ⟨l, kl', wf, hxr, hl, hkl', e2.trans h2, m2.trans h1⟩
    · obtain ⟨u, ku, f, g1, g2, g3, g4, g5⟩ := w.shared.left v k0 hv hk0 y hy
      obtain ⟨ku', hku', m1, m2⟩ := look u ku g3
      exact ⟨u, ku', f, hxy.trans g1, g2, hku', e2.trans g4, m2.trans g5⟩
  · intro v k hv hk x hx
    obtain ⟨k0, hk0, e1, e2, e3, _⟩ := key v k hk
    rw [e1] at hx
    obtain ⟨u, ku, f, g1, g2, g3, g4, g5⟩ := w.shared.right v k0 hv hk0 x hx
    obtain ⟨ku', hku', m1, m2⟩ := look u ku g3
    exact ⟨u, ku', f, g1, g2, hku', e3.trans g4, m1.trans g5⟩
  · intro v k hv hk
    obtain ⟨k0, hk0, e1, e2, e3, e4, e5, _⟩ := key v k hk
    rw [e2, e3, e4, e5]
    exact w.own v k0 hv hk0
  · intro v k hv hk
    obtain ⟨k0, hk0, e1, e2, e3, e4, e5, _⟩ := key v k hk
    rw [e4, e5]
    exact w.lines v k0 hv hk0
  · intro v k hv hk
    obtain ⟨k0, hk0, e1, e2, e3, e4, e5, e6, e7, e8, _⟩ := key v k hk
    unfold Tracks
    rw [e4, e5, e6, e7, e8]
    exact w.motion v k0 hv hk0

end Grassfire
