/-
In general position all vertices stay on both their wavefronts (lemmas for C90).
-/
import Verif.Proofs.ProgressRun

set_option linter.unusedSectionVars false

namespace Grassfire

open Spec

variable {K : Type} [Field K] [LinearOrder K] [IsStrictOrderedRing K] [HasSqrt K]

variable {s s' : St K} {P : Line2 K → Prop}

/-- all vertices stay on both their wavefronts -/
def AllTrack (s : St K) : Prop := ∀ v k, v < s.nV → s.vert v = .kin k → Tracks s k

theorem tracks_birth {k k' : KVertex K} (h : Tracks s k) (hb : SameBirth k k') (hl : s'.line = s.line) : Tracks s' k' := by
  intro a b ha hb' t
  rw [hb.ul] at ha
  rw [hb.ur] at hb'
  rw [hl, hb.origin, hb.velocity]
  exact h a b ha hb' t

theorem track_grows (h : AllTrack s) (g : Grows s s') (n : ℕ) (hn : s'.nV ≤ s.nV + n)
    (hnew : ∀ i < n, ∀ k, s'.vert (s.nV + i) = .kin k → Tracks s' k) : AllTrack s' := by
  intro v k hv hk
  by_cases hlt : v < s.nV
  · have q := g.vert v hlt
    rw [hk] at q
    cases hk0 : s.vert v with
    | kin k0 =>
      rw [hk0] at q
      exact tracks_birth (h v k0 hlt hk0) q g.line
    | inf o => rw [hk0] at q; exact q.elim
  · have hd : v = s.nV + (v - s.nV) := by have : s.nV ≤ v := Nat.le_of_not_lt hlt; exact (Nat.add_sub_cancel' this).symm
    rw [hd] at hk
    refine hnew (v - s.nV) ?_ k hk
    have h1 : v < s.nV + n := lt_of_lt_of_le hv hn
    have : s.nV ≤ v := Nat.le_of_not_lt hlt
    exact Nat.sub_lt_left_of_lt_add this h1

theorem Heir.tracks {w : VId} {l r : Line2 K} (h : Heir s w l r) {k : KVertex K} (hk : s.vert w = .kin k) : Tracks s k := by
  obtain ⟨k', h1, -, h3, h4, h5⟩ := h
  obtain rfl : k' = k := by rw [h1] at hk; injection hk
  unfold viewOf at h3 h4
  rw [h1] at h3 h4
  dsimp only at h3 h4
  intro a b ha hb t
  rw [ha] at h3
  rw [hb] at h4
  simp only [Option.map_some, Option.some.injEq] at h3 h4
  rw [h3, h4]
  exact h5 t

variable [SqrtUnit K] [HasTrig K]

theorem track_handleEdge (R : Ready P s) (ha : AllTrack s) {depth : ℕ} {evt : Event K} {step : ℤ} {e : Fin 3}
    (hl : Live s evt.tri) (he : evt.side = [e]) (hn : (s.tri evt.tri).neighbours e = none) (hc : Collapsible s evt.tri e)
    (hap : ∀ l r, LeftLine s ((s.tri evt.tri).vertices (e + 1)) l → RightLine s ((s.tri evt.tri).vertices (e + 2)) r →
      Apart l r) (h : handleEdge depth evt step s = .ok ((), s')) : AllTrack s' := by
  obtain ⟨l, r, pl, pr, hne⟩ := edge_around R hl hn hc
  have g := g_handleEdge _ _ _ _ _ _ h
  obtain ⟨e', kv, s1, s2, k, he', hV, hm, hk, hs, -⟩ := handleEdge_steps h
  obtain rfl : e' = e := by rw [he] at he'; simpa using he'.symm
  obtain ⟨rfl, nV1, -, -, -, -, a, b, -, -, -, -, H⟩ := edgeVertex_mid R.waves rfl rfl pl pr hne hap hV
  have hv2 : s2.vert = s1.vert := by rw [hm]
  have hl2 : s2.line = s1.line := by rw [hm]
  have hn2 : s2.nV = s1.nV := by rw [hm]
  have H2 : Heir s2 s.nV a b := H.congr (by rw [hv2]) hl2
  obtain ⟨kw, hkw, hslow, -⟩ := H
  rw [hv2, hkw] at hk
  cases hk
  obtain rfl := hs hslow
  refine track_grows ha g 1 (Nat.le_of_eq (hn2.trans nV1)) fun i hi k hk => ?_
  obtain rfl : i = 0 := by omega
  exact H2.tracks hk

theorem track_handleSplit (R : Ready P s) (hall : AllTrack s) {depth : ℕ} {evt : Event K} {step : ℤ} {e : Fin 3}
    (hl : Live s evt.tri)
    (he : evt.side = [e]) (hn : (s.tri evt.tri).neighbours e = none) (hk : Kinetic s ((s.tri evt.tri).vertices e))
    (hapb : ∀ a b, LeftLine s ((s.tri evt.tri).vertices e) a → LeftLine s ((s.tri evt.tri).vertices (e + 2)) b → Apart a b)
    (hapa : ∀ a b, RightLine s ((s.tri evt.tri).vertices (e + 1)) a → RightLine s ((s.tri evt.tri).vertices e) b →
      Apart a b) (h : handleSplit depth evt step s = .ok ((), s')) : AllTrack s' := by
  obtain ⟨l, r, pl, pr, hne⟩ := split_around R hl hk
  have inj := (R.mesh.consistent _ hl).2.1
  have g := g_handleSplit _ _ _ _ _ _ h
  obtain ⟨e', x, s1, s2, he', hV, hm, hs, -⟩ := handleSplit_steps h
  obtain rfl : e' = e := by rw [he] at he'; simpa using he'.symm
  obtain ⟨rfl, nV1, -, -, -, ⟨a, b, -, -, -, -, Hb⟩, c, d, -, -, -, -, Ha⟩ :=
    splitVertices_mid R.waves (fun z => fin3_ne_1 e' (inj z).symm) (fun z => fin3_ne_2 e' (inj z).symm) hne
      (R.undead.points R.mesh hl hn) pl pr hapb hapa hV
  have hv2 : s2.vert = s1.vert := by rw [hm]
  have hl2 : s2.line = s1.line := by rw [hm]
  have hn2 : s2.nV = s1.nV := by rw [hm]
  have Hb2 : Heir s2 s.nV a b := Hb.congr (by rw [hv2]) hl2
  have Ha2 : Heir s2 (s.nV + 1) c d := Ha.congr (by rw [hv2]) hl2
  obtain ⟨kb, hkb, sb, -⟩ := Hb
  obtain ⟨ka, hka, sa, -⟩ := Ha
  have fb : ∀ k, s2.vert s.nV = .kin k → k.infFast = false := fun k q => by rw [hv2, hkb] at q; cases q; exact sb
  have fa : ∀ k, s2.vert (s.nV + 1) = .kin k → k.infFast = false := fun k q => by rw [hv2, hka] at q; cases q; exact sa
  obtain rfl := hs fb fa
  refine track_grows hall g 2 (Nat.le_of_eq (hn2.trans nV1)) fun i hi k hk => ?_
  match i, hi with
  | 0, _ => exact Hb2.tracks hk
  | 1, _ => exact Ha2.tracks hk

theorem track_handleEdge1 (R : Ready P s) (ha : AllTrack s) (R' : Ready P s') {evt : Event K} {step : ℤ} {e : Fin 3}
    (hl : Live s evt.tri) (he : evt.side = [e]) (hn : ∀ j, (s.tri evt.tri).neighbours j = none)
    (hap : ∀ l r, LeftLine s ((s.tri evt.tri).vertices (e + 1)) l → RightLine s ((s.tri evt.tri).vertices (e + 2)) r →
      Apart l r) (h : handleEdge1 evt step s = .ok ((), s')) : AllTrack s' := by
  have g := g_handleEdge1 _ _ _ _ _ h
  unfold handleEdge1 at h
  obtain ⟨e', s1, h1, h⟩ := bind_run_ok.1 h
  obtain ⟨he', rfl⟩ := singleSide_run_ok h1
  obtain rfl : e' = e := by rw [he] at he'; simpa using he'.symm
  obtain ⟨T, s1, h1, h⟩ := bind_run_ok.1 h
  obtain ⟨-, rfl, rfl⟩ := getT_run_ok.1 h1
  obtain ⟨_, s1, h1, h⟩ := bind_run_ok.1 h
  obtain ⟨e1, e2, -⟩ := stopAndRecord_exact h1
  have n2 : s1.nV = s.nV := by rw [e2]
  -- lines of the two vertices
  have p1 := R.undead.points R.mesh hl (hn (e' + 2))
  rw [fin3_add_2_1, fin3_add_2_2] at p1
  have p2 := R.undead.points R.mesh hl (hn (e' + 1))
  rw [fin3_add_1_1, fin3_add_1_2] at p2
  obtain ⟨-, k1, -, b1, -, hk1, -, ql⟩ := p1
  obtain ⟨k2, -, b2, -, hk2, -, qr, -⟩ := p2
  obtain ⟨-, _, f, -, g2, -⟩ := R.waves.leftRef b1 hk1 ql
  obtain ⟨-, _, g', -, g5, -⟩ := R.waves.rightRef b2 hk2 qr
  have ul := (R.waves.own _ k1 b1 hk1).1 f g2
  have ur := (R.waves.own _ k2 b2 hk2).2 g' g5
  have ap := hap _ _ ⟨k1, _, hk1, ul, rfl⟩ ⟨k2, _, hk2, ur, rfl⟩
  have q1 := e1 ((s.tri evt.tri).vertices (e' + 1))
  rw [hk1] at q1
  have q2 := e1 ((s.tri evt.tri).vertices (e' + 2))
  rw [hk2] at q2
  obtain ⟨k1', s2, h2, h⟩ := bind_run_ok.1 h
  obtain ⟨-, hk1', rfl⟩ := getK_run_ok.1 h2
  have ul' : k1'.ul = some (s.wfLine f) := by
    change s1.vert ((s.tri evt.tri).vertices (e' + 1)) = _ at hk1'
    rw [q1] at hk1'
    cases hk1'
    split <;> exact ul
  obtain ⟨k2', s2, h2, h⟩ := bind_run_ok.1 h
  obtain ⟨-, hk2', rfl⟩ := getK_run_ok.1 h2
  have ur' : k2'.ur = some (s.wfLine g') := by
    change s1.vert ((s.tri evt.tri).vertices (e' + 2)) = _ at hk2'
    rw [q2] at hk2'
    cases hk2'
    split <;> exact ur
  obtain ⟨ct, s2, h2, h⟩ := bind_run_ok.1 h
  obtain ⟨rfl, rfl⟩ := countVertices_run_ok.1 h2
  obtain ⟨kv, s3, h3, h⟩ := bind_run_ok.1 h
  rw [ul', ur'] at h3
  obtain ⟨rfl, kn, rfl, -, -, -, -, hul, hur, -⟩ := C30_attributes _ _ _ _ _ _ _ _ _ h3
  obtain ⟨_, s4, h4, h⟩ := bind_run_ok.1 h
  obtain rfl := appendVertex_run_ok.1 h4
  obtain ⟨_, s5, h5, h⟩ := bind_run_ok.1 h
  obtain ⟨x1, x2, x3, x4⟩ := stopTriangle_fields h
  obtain ⟨y1, y2, -⟩ := stopAndRecord_exact h5
  have n5 : s5.nV = s1.nV + 1 := by rw [y2]
  have n' : s'.nV = s.nV + 1 := by rw [x2, n5, n2]
  refine track_grows ha g 1 n'.le fun i hi k hk => ?_
  obtain rfl : i = 0 := by omega
  change s'.vert s.nV = _ at hk
  have hlt : s.nV < s'.nV := by rw [n']; exact Nat.lt_succ_self _
  refine R'.waves.motion s.nV k hlt hk (R'.slow s.nV k hlt hk) fun a b hka hkb => ?_
  have hk0 := hk
  rw [x3] at hk
  have q := y1 s.nV
  have hself : Function.update s1.vert s1.nV (.kin kn) s.nV = .kin kn := by rw [← n2, Function.update_self]
  dsimp only at q
  rw [hself] at q
  dsimp only at q
  rw [hk] at q
  have hu : k.ul = kn.ul ∧ k.ur = kn.ur := by
    obtain rfl := Vertex.kin.inj q
    split <;> exact ⟨rfl, rfl⟩
  rw [hu.1, hul] at hka
  rw [hu.2, hur] at hkb
  cases hka
  cases hkb
  rw [g.line]
  exact ap.cross

theorem track_handleEvent (R : Ready P s) (ha : AllTrack s) {depth : ℕ} {evt : Event K} {step : ℤ}
    (hg : Live s evt.tri → Generic s evt) (h : handleEvent depth evt step s = .ok ((), s')) : AllTrack s' := by
  have R' := ready_handleEvent R hg h
  have g := g_handleEvent _ _ _ _ _ _ h
  unfold handleEvent at h
  obtain ⟨T, s1, h1, h⟩ := bind_run_ok.1 h
  obtain ⟨ht, rfl, rfl⟩ := getT_run_ok.1 h1
  by_cases hst : (s.tri evt.tri).stopsAt.isSome = true
  · rw [if_pos hst] at h
    obtain rfl := (pure_run_ok.1 h).2
    exact ha
  rw [if_neg hst] at h
  have hl : Live s evt.tri := ⟨ht, by rw [Option.isSome_iff_ne_none, ne_eq, not_not] at hst; exact hst⟩
  have G := hg hl
  cases htp : evt.tp with
  | edge =>
    rw [htp] at h
    dsimp only at h
    rcases G.edge htp with ⟨h3, hn⟩ | ⟨i, hs, hap, hc⟩
    · rw [if_pos h3] at h
      have hnV : s'.nV = s.nV := by
        unfold handleEdge3 at h
        obtain ⟨_, s1, h1, h⟩ := bind_run_ok.1 h
        obtain ⟨-, rfl⟩ := assertM_run_ok.1 h1
        obtain ⟨T, s1, h1, h⟩ := bind_run_ok.1 h
        obtain ⟨-, rfl, rfl⟩ := getT_run_ok.1 h1
        obtain ⟨n, s1, h1, h⟩ := bind_run_ok.1 h
        obtain ⟨-, -, m3⟩ := stopAndRecord_mesh h1
        obtain ⟨_, s2, h2, h⟩ := bind_run_ok.1 h
        have mo : MeshOnly s1 s2 :=
          Keeps.forEach meshPre (fun i => mo_threeSidesNeighbour evt.tri evt.time i) _ _ _ _ h2
        obtain ⟨x1, x2, x3, x4⟩ := stopTriangle_fields h
        rw [x2, mo]; exact m3
      exact track_grows ha g 0 (Nat.le_of_eq hnV) fun i hi => absurd hi (Nat.not_lt_zero _)
    · have hlen : evt.side.length = 1 := by rw [hs]; rfl
      rw [if_neg (by rw [hlen]; decide)] at h
      by_cases hall : ∀ j, (s.tri evt.tri).neighbours j = none
      · rw [if_pos ⟨hlen, type3.2 hall⟩] at h
        exact track_handleEdge1 R ha R' hl hs hall hap h
      · rw [if_neg fun q => hall (type3.1 q.2), if_neg (by rw [hlen]; decide)] at h
        obtain ⟨h1, h2, -⟩ := hc.resolve_left hall
        exact track_handleEdge R ha hl hs h1 h2 hap h
  | flip =>
    rw [htp] at h
    have mo := mo_handleFlip _ _ _ _ h
    exact track_grows ha g 0 (by rw [mo]; exact le_rfl) fun i hi => absurd hi (Nat.not_lt_zero _)
  | split =>
    rw [htp] at h
    obtain ⟨i, h1, h2, h3, h4, h5, h6, h7⟩ := G.split htp
    exact track_handleSplit R ha hl h1 h2 h5 h6 h7 h

theorem allTrack_queues (h : AllTrack s) (q i : List (Event K)) : AllTrack { s with queue := q, immediate := i } :=
  fun v k hv hk => h v k hv hk

theorem track_loopStep (R : Ready P s) (ha : AllTrack s) {depth : ℕ} {step : ℤ} {now : K}
    (hg : ∀ e, NextEvent s e → Live s e.tri → Generic s e) {x : Option (Event K × K)}
    (h : loopStep depth step now s = .ok (x, s')) : AllTrack s' := by
  unfold loopStep at h
  obtain ⟨a, s1, h1, h⟩ := bind_run_ok.1 h
  rcases takeEvent_next now s with ⟨q, -, -⟩ | ⟨e, now', q, i, hn, ht⟩
  · rw [q] at h1
    cases h1
    obtain ⟨-, rfl⟩ := pure_run_ok.1 h
    exact ha
  · rw [ht] at h1
    cases h1
    obtain ⟨u, s2, h2, h⟩ := bind_run_ok.1 h
    obtain ⟨-, rfl⟩ := pure_run_ok.1 h
    exact track_handleEvent (R.queues q i) (allTrack_queues ha q i) (fun hl => (hg e hn hl).queues q i) h2

theorem track_run {depth : ℕ} {s0 : St K} {now0 : K} {n : ℕ} {now : K} {s : St K} {tr : List (Event K × K)}
    (hr : Run depth s0 now0 n now s tr) (R : Ready P s0) (ha : AllTrack s0)
    (hg : ∀ m < n, ∀ x u tr' e, Run depth s0 now0 m x u tr' → NextEvent u e → Live u e.tri → Generic u e) :
    AllTrack s := by
  induction hr with
  | start => exact ha
  | @step n now now' s s' tr e hr hs ih =>
    exact track_loopStep (ready_run hr R fun m hm => hg m (Nat.lt_succ_of_lt hm)) (ih fun m hm => hg m (Nat.lt_succ_of_lt hm))
      (fun f => hg n (Nat.lt_succ_self n) _ _ _ f hr) hs

/-- the ends of a wavefront edge ride on its line -/
theorem ready_rides (R : Ready (fun l : Line2 K => l.w.1 ^ 2 + l.w.2 ^ 2 = 1) s) (ha : AllTrack s) {t : TId}
    (hl : Live s t) {i : Fin 3} (hn : (s.tri t).neighbours i = none) : ∃ l, Rides (viewT s t) i l := by
  obtain ⟨k1, k2, b1, b2, hk1, hk2, q1, q2⟩ := R.undead.points R.mesh hl hn
  obtain ⟨-, k2', w, hk2', g1, g2⟩ := R.waves.rightRef b1 hk1 q1
  obtain rfl : k2 = k2' := by rw [hk2] at hk2'; injection hk2'
  have ur1 := (R.waves.own _ k1 b1 hk1).2 w g1
  have ul2 := (R.waves.own _ k2 b2 hk2).1 w g2
  have uw := R.waves.good _ (R.waves.linesOf _ k1 b1 hk1 _ (.inr ur1))
  obtain ⟨a1, -, ha1, -⟩ := R.waves.lines _ k1 b1 hk1
  obtain ⟨-, c2, -, hc2, -⟩ := R.waves.lines _ k2 b2 hk2
  refine ⟨s.line (s.wfLine w), uw, ?_, fun u => ⟨?_, ?_⟩⟩
  · unfold viewT viewOf
    dsimp only
    rw [hk1]
    dsimp only
    rw [ur1]
    rfl
  · unfold cornerAt viewT viewOf move
    dsimp only
    rw [hk1]
    exact (ha _ k1 b1 hk1 a1 _ ha1 ur1 u).2
  · unfold cornerAt viewT viewOf move
    dsimp only
    rw [hk2]
    exact (ha _ k2 b2 hk2 _ c2 ul2 hc2 u).1

end Grassfire
