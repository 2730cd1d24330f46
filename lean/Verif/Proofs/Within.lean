/-
What happens to a part of the triangulation stays within this part (lemmas for C72): the functions of the event handlers.
-/
import Verif.Spec.Within
import Verif.Spec.Invariants
import Verif.Proofs.Aloof

set_option linter.unusedSectionVars false

namespace Grassfire

open Spec

variable {K : Type} {α β : Type} {S : TId → Prop}

/-- `m` works within `S`: this part stays closed, other triangles are not touched, and only triangles of this part get
events; the result satisfies `Q` -/
def Stays (S : TId → Prop) (Q : α → Prop) (m : M K α) : Prop :=
  ∀ s a s', Closed S s → m s = .ok (a, s') → Closed S s' ∧ (∀ t, ¬ S t → s'.tri t = s.tri t) ∧
    (∀ e ∈ pending s', e ∈ pending s ∨ S e.tri) ∧ Q a

/-- the neighbours are in `S` -/
def Near (S : TId → Prop) (T : KTri K) : Prop := ∀ i n, T.neighbours i = some n → S n

theorem Stays.bind {Q : α → Prop} {Q' : β → Prop} {m : M K α} {f : α → M K β} (h : Stays S Q m)
    (g : ∀ a, Q a → Stays S Q' (f a)) : Stays S Q' (m >>= f) := by
  intro s b s'' hs hm
  obtain ⟨a, s', h1, h2⟩ := bind_run_ok.1 hm
  obtain ⟨w, fr, p, q⟩ := h s a s' hs h1
  obtain ⟨w', fr', p', q'⟩ := g a q s' b s'' w h2
  exact ⟨w', fun t ht => (fr' t ht).trans (fr t ht), fun e he => (p' e he).elim (p e) .inr, q'⟩

theorem Stays.pure {Q : α → Prop} {a : α} (h : Q a) : Stays (K := K) S Q (pure a) := by
  intro s b s' hs hm
  obtain ⟨rfl, rfl⟩ := pure_run_ok.1 hm
  exact ⟨hs, fun _ _ => rfl, fun _ => .inl, h⟩

theorem Stays.ite {Q : α → Prop} {c : Prop} [Decidable c] {m m' : M K α} (h : Stays S Q m) (h' : Stays S Q m') :
    Stays S Q (if c then m else m') := by
  split_ifs
  · exact h
  · exact h'

theorem Stays.weaken {Q Q' : α → Prop} {m : M K α} (h : Stays S Q m) (g : ∀ a, Q a → Q' a) : Stays S Q' m := by
  intro s a s' hs hm
  obtain ⟨w, fr, p, q⟩ := h s a s' hs hm
  exact ⟨w, fr, p, g a q⟩

theorem Stays.fail {Q : α → Prop} {m : M K α} (h : ∀ s a s', m s ≠ .ok (a, s')) : Stays S Q m :=
  fun s a s' _ hm => absurd hm (h s a s')

section
variable [Field K] [LinearOrder K]

theorem Stays.aloof {m : M K α} (h : Keeps (Aloof (K := K)) m) : Stays S (fun _ => True) m := by
  intro s a s' hs hm
  obtain ⟨h1, h2, h3⟩ := h s a s' hm
  refine ⟨?_, fun t _ => by rw [h1], ?_, trivial⟩
  · unfold Closed; rw [h1]; exact hs
  · unfold pending; rw [h2, h3]; exact fun _ => .inl

theorem Stays.same {Q : α → Prop} {m : M K α} (h : ∀ s a s', Closed S s → m s = .ok (a, s') → s = s' ∧ Q a) : Stays S Q m := by
  intro s a s' hs hm
  obtain ⟨rfl, q⟩ := h s a s' hs hm
  exact ⟨hs, fun _ _ => rfl, fun _ => .inl, q⟩

theorem Stays.forEach {γ : Type} {f : γ → M K Unit} {l : List γ} (h : ∀ x ∈ l, Stays S (fun _ => True) (f x)) :
    Stays S (fun _ => True) (forEach f l) := by
  induction l with
  | nil => exact .pure trivial
  | cons x xs ih =>
    exact .bind (h x List.mem_cons_self) fun _ _ => ih fun y hy => h y (List.mem_cons_of_mem _ hy)

/-! ### reading and writing -/

theorem w_getT {t : TId} (ht : S t) : Stays (K := K) S (Near S) (getT t) :=
  .same fun s a s' hs hm => by
    obtain ⟨-, rfl, rfl⟩ := getT_run_ok.1 hm
    exact ⟨rfl, fun i n h => hs t i n ht h⟩

theorem w_modifyT {t : TId} {f : KTri K → KTri K} (ht : S t) (hf : ∀ T, Near S T → Near S (f T)) :
    Stays S (fun _ => True) (modifyT t f) := by
  intro s a s' hs hm
  obtain ⟨-, rfl⟩ := modifyT_run_ok.1 hm
  refine ⟨fun x i n hx hn => ?_, fun x hx => Function.update_of_ne (fun q => hx (by rw [q]; exact ht)) _ _, fun _ => .inl, trivial⟩
  dsimp only at hn
  by_cases q : x = t
  · subst q
    rw [Function.update_self] at hn
    exact hf _ (fun i n h => hs x i n hx h) i n hn
  · rw [Function.update_of_ne q] at hn
    exact hs x i n hx hn

theorem w_setEvent {t : TId} (e : Event K) (ht : S t) : Stays S (fun _ => True) (setEvent t e) :=
  w_modifyT ht fun _ h => h

theorem w_setVertex {t : TId} (i : Fin 3) (v : VId) (ht : S t) : Stays (K := K) S (fun _ => True) (setVertex t i v) :=
  w_modifyT ht fun _ h => h

theorem w_stopTriangle {t : TId} (now : K) (ht : S t) : Stays S (fun _ => True) (stopTriangle t now) :=
  w_modifyT ht fun _ h => h

theorem w_setNeighbour {t : TId} (i : Fin 3) {n : Option TId} (ht : S t) (hn : ∀ x, n = some x → S x) :
    Stays (K := K) S (fun _ => True) (setNeighbour t i n) := by
  refine w_modifyT ht fun T h j m hm => ?_
  dsimp only at hm
  by_cases q : j = i
  · subst q
    rw [Function.update_self] at hm
    exact hn m hm
  · rw [Function.update_of_ne q] at hm
    exact h j m hm

theorem w_newEvent (c : EvCore K) {t : TId} (ht : S t) : Stays S (fun e => S e.tri) (newEvent c t) := by
  intro s a s' hs hm
  obtain ⟨rfl, rfl⟩ := newEvent_run_ok.1 hm
  exact ⟨hs, fun _ _ => rfl, fun _ => .inl, ht⟩

theorem mem_queueInsert_sub {pyid : TId → ℕ} {e x : Event K} {l : List (Event K)} (h : x ∈ queueInsert pyid e l) :
    x = e ∨ x ∈ l := by
  induction l with
  | nil => exact .inl (List.mem_singleton.1 h)
  | cons y ys ih =>
    unfold queueInsert at h
    split_ifs at h
    · exact List.mem_cons.1 h
    · rcases List.mem_cons.1 h with q | q
      · exact .inr (q ▸ List.mem_cons_self)
      · exact (ih q).imp id (List.mem_cons_of_mem _)

theorem w_queueAdd {e : Event K} (he : S e.tri) : Stays S (fun _ => True) (queueAdd e) := by
  intro s a s' hs hm
  unfold queueAdd at hm
  split_ifs at hm
  cases hm
  refine ⟨hs, fun _ _ => rfl, fun x hx => ?_, trivial⟩
  rcases List.mem_append.1 hx with q | q
  · exact .inl (List.mem_append.2 (.inl q))
  · rcases mem_queueInsert_sub q with rfl | q
    · exact .inr he
    · exact .inl (List.mem_append.2 (.inr q))

theorem w_queueDiscard (e : Event K) : Stays S (fun _ => True) (queueDiscard e) := by
  intro s a s' hs hm
  unfold queueDiscard at hm
  cases hm
  exact ⟨hs, fun _ _ => rfl, fun x hx => .inl (List.mem_append.2 ((List.mem_append.1 hx).imp id fun q =>
    (List.mem_filter.1 q).1)), trivial⟩

theorem w_queueDiscardOpt (e : Option (Event K)) : Stays S (fun _ => True) (queueDiscardOpt e) := by
  intro s a s' hs hm
  unfold queueDiscardOpt at hm
  split at hm
  · exact w_queueDiscard _ _ _ _ hs hm
  · split_ifs at hm
    cases hm
    exact ⟨hs, fun _ _ => rfl, fun _ => .inl, trivial⟩

theorem w_immediateRemove (e : Event K) : Stays S (fun _ => True) (immediateRemove e) := by
  intro s a s' hs hm
  unfold immediateRemove at hm
  cases hm
  exact ⟨hs, fun _ _ => rfl, fun x hx => .inl (List.mem_append.2 ((List.mem_append.1 hx).imp List.mem_of_mem_eraseP id)),
    trivial⟩

theorem w_immediateAppend {e : Event K} (he : S e.tri) : Stays S (fun _ => True) (immediateAppend e) := by
  intro s a s' hs hm
  unfold immediateAppend at hm
  cases hm
  refine ⟨hs, fun _ _ => rfl, fun x hx => ?_, trivial⟩
  rcases List.mem_append.1 hx with q | q
  · rcases List.mem_append.1 q with q | q
    · exact .inl (List.mem_append.2 (.inl q))
    · rw [List.mem_singleton.1 q]; exact .inr he
  · exact .inl (List.mem_append.2 (.inr q))

theorem takeEvent_closed {now : K} {s s' : St K} {o : Option (Event K × K)} (h : takeEvent now s = .ok (o, s')) :
    s'.tri = s.tri ∧ (∀ e ∈ pending s', e ∈ pending s) ∧ ∀ x, o = some x → x.1 ∈ pending s := by
  unfold takeEvent at h
  split at h
  · next e rest h0 =>
    cases h
    refine ⟨rfl, fun x hx => ?_, ?_⟩
    · unfold pending; rw [h0]
      exact List.mem_cons_of_mem _ hx
    · rintro x ⟨⟩
      unfold pending; rw [h0]; exact List.mem_cons_self
  · next h0 =>
    split at h
    · next e rest h1 =>
      cases h
      refine ⟨rfl, fun x hx => ?_, ?_⟩
      · unfold pending at hx ⊢
        rw [h1]
        exact List.mem_append.2 ((List.mem_append.1 hx).imp id (List.mem_cons_of_mem _))
      · rintro x ⟨⟩
        unfold pending; rw [h1]; exact List.mem_append.2 (.inr List.mem_cons_self)
    · cases h
      exact ⟨rfl, fun _ => id, fun x q => by cases q⟩

/-- the rest of a computation after a part that neither reads nor writes neighbours -/
theorem Stays.skip {Q : β → Prop} {m : M K α} {f : α → M K β} (h : Keeps (Aloof (K := K)) m) (g : ∀ a, Stays S Q (f a)) :
    Stays S Q (m >>= f) := .bind (.aloof h) fun a _ => g a

/-- the rest of a computation that uses a triangle -/
theorem Stays.tri {Q : β → Prop} {t : TId} {f : KTri K → M K β} (ht : S t) (g : ∀ T, Near S T → Stays S Q (f T)) :
    Stays S Q (getT t >>= f) := .bind (w_getT ht) g

theorem al_triView (t : TId) : Keeps (Aloof (K := K)) (triView t) :=
  al_same fun _ _ _ h => by
    unfold triView at h
    split_ifs at h
    dsimp only at h
    split_ifs at h
    cases h
    rfl
macro_rules | `(tactic| al_leaf) => `(tactic| with_reducible exact al_triView _)

theorem al_singleSide (l : List (Fin 3)) : Keeps (Aloof (K := K)) (singleSide l) := by
  unfold singleSide
  aloof
macro_rules | `(tactic| al_leaf) => `(tactic| with_reducible exact al_singleSide _)

theorem al_positions (t : TId) (i : Fin 3) [HasSqrt K] (now : K) : Keeps (Aloof (K := K)) (legDist t i now) := by
  unfold legDist
  aloof
macro_rules | `(tactic| al_leaf) => `(tactic| with_reducible exact al_positions _ _ _)

theorem al_vertexIndex (t : TId) (v : VId) : Keeps (Aloof (K := K)) (vertexIndex t v) := by
  unfold vertexIndex
  aloof
macro_rules | `(tactic| al_leaf) => `(tactic| with_reducible exact al_vertexIndex _ _)

macro_rules | `(tactic| al_leaf) => `(tactic| with_reducible exact al_edgeVertex _ _ _ _)
macro_rules | `(tactic| al_leaf) => `(tactic| with_reducible exact al_splitChecks _ _ _ _)
macro_rules | `(tactic| al_leaf) => `(tactic| with_reducible exact al_splitVertices _ _ _ _ _)

/-! ### events/lib.py -/

theorem w_storeEvent (c : Option (EvCore K)) {t : TId} (ht : S t) :
    Stays S (fun o => ∀ e, o = some e → S e.tri) (storeEvent c t) := by
  cases c with
  | none => exact .pure fun _ h => by cases h
  | some c => exact .bind (w_newEvent c ht) fun e he => .bind (w_setEvent e ht) fun _ _ => .pure fun x h => by cases h; exact he

theorem w_computeCollapseTime [HasSqrt K] {t : TId} (now : K) (sieve : Sieve) (ht : S t) :
    Stays S (fun o => ∀ e, o = some e → S e.tri) (computeCollapseTime t now sieve) :=
  .skip (by aloof) fun _ => .skip (by aloof) fun _ => w_storeEvent _ ht

theorem w_discardEvent (e : Option (Event K)) : Stays S (fun _ => True) (discardEvent e) := by
  cases e with
  | none => exact .pure trivial
  | some e => exact .bind (w_queueDiscard e) fun _ _ => w_immediateRemove e

theorem w_addEvent {e : Option (Event K)} (he : ∀ x, e = some x → S x.tri) : Stays S (fun _ => True) (addEvent e) := by
  cases e with
  | none => exact .pure trivial
  | some e => exact w_queueAdd (he e rfl)

theorem w_replaceInQueue [HasSqrt K] {t : TId} (now : K) (ht : S t) : Stays S (fun _ => True) (replaceInQueue t now) :=
  .tri ht fun _ _ => .bind (w_discardEvent _) fun _ _ => .bind (w_computeCollapseTime now .gte ht) fun _ he => w_addEvent he

theorem w_renewEvent [HasSqrt K] (inf : Bool) {t : TId} (now : K) (ht : S t) :
    Stays S (fun _ => True) (renewEvent inf t now) :=
  .tri ht fun _ _ => .ite (w_discardEvent _) (w_replaceInQueue now ht)

theorem w_replaceLoop [HasSqrt K] (v newv : VId) (now : K) (dir : Dir) (fuel : ℕ) (o : Option TId) (fan : List TId)
    (ho : ∀ t, o = some t → S t) (hf : ∀ t ∈ fan, S t) :
    Stays S (fun l => ∀ t ∈ l, S t) (replaceLoop v newv now dir fuel o fan) := by
  induction fuel generalizing o fan with
  | zero =>
    cases o with
    | none => exact .pure hf
    | some t => exact .fail fun _ _ _ h => by cases h
  | succ n ih =>
    cases o with
    | none => exact .pure hf
    | some t =>
      have ht := ho t rfl
      unfold replaceLoop
      refine .tri ht fun _ _ => .skip (by aloof) fun i => .bind (w_setVertex i newv ht) fun _ _ => .skip (by aloof) fun k =>
        .bind (w_renewEvent _ now ht) fun _ _ => .tri ht fun T hT => ih _ _ (fun x hx => hT _ _ hx) fun x hx => ?_
      rcases List.mem_append.1 hx with q | q
      · exact hf x q
      · rw [List.mem_singleton.1 q]; exact ht

theorem w_replaceKvertex [HasSqrt K] {t : TId} (v newv : VId) (now : K) (dir : Dir) (ht : S t) :
    Stays S (fun l => ∀ t ∈ l, S t) (replaceKvertex t v newv now dir) :=
  fun s => w_replaceLoop v newv now dir _ (some t) [] (fun _ h => by cases h; exact ht) (fun _ h => by cases h) s

theorem w_immediateRemoveOpt (e : Option (Event K)) : Stays S (fun _ => True) (immediateRemoveOpt e) := by
  cases e with
  | none => exact .pure trivial
  | some e => exact w_immediateRemove e

theorem w_immediateEvent [HasSqrt K] {t : TId} (now : K) (ht : S t) : Stays S (fun e => S e.tri) (immediateEvent t now) :=
  .skip (by aloof) fun _ => .skip (by aloof) fun _ => .tri ht fun _ _ => w_newEvent _ ht

theorem w_scheduleImmediately [HasSqrt K] {t : TId} (now : K) (ht : S t) :
    Stays S (fun _ => True) (scheduleImmediately t now) :=
  .tri ht fun _ _ => .bind (w_queueDiscardOpt _) fun _ _ => .bind (w_immediateRemoveOpt _) fun _ _ =>
    .bind (w_immediateEvent now ht) fun _ he => .bind (w_setEvent _ ht) fun _ _ => .skip (by aloof) fun _ => w_immediateAppend he

/-! ### events/flip.py -/

theorem al_flipSide (n : Option TId) (v : VId) : Keeps (Aloof (K := K)) (flipSide n v) := by
  unfold flipSide
  aloof
macro_rules | `(tactic| al_leaf) => `(tactic| with_reducible exact al_flipSide _ _)

theorem w_flipLink {n : Option TId} (side : Option (Fin 3)) {t : TId} (hn : ∀ x, n = some x → S x) (ht : S t) :
    Stays (K := K) S (fun _ => True) (flipLink n side t) := by
  unfold flipLink
  split
  · exact w_setNeighbour _ (hn _ rfl) fun x h => by cases h; exact ht
  · exact .pure trivial

theorem w_setTriangle {t : TId} (vs : Fin 3 → VId) {a b c : Option TId} (ht : S t) (ha : ∀ x, a = some x → S x)
    (hb : ∀ x, b = some x → S x) (hc : ∀ x, c = some x → S x) :
    Stays (K := K) S (fun _ => True) (setTriangle t vs ![a, b, c]) := by
  refine w_modifyT ht fun T _ i n h => ?_
  match i with
  | 0 => exact ha n h
  | 1 => exact hb n h
  | 2 => exact hc n h

theorem w_flip {t0 t1 : TId} (i0 i1 : Fin 3) (h0 : S t0) (h1 : S t1) :
    Stays (K := K) S (fun _ => True) (flip t0 i0 t1 i1) := by
  unfold flip
  refine .tri h0 fun T0 n0 => .tri h1 fun T1 n1 => .skip (by aloof) fun _ => .skip (by aloof) fun _ => .skip (by aloof) fun _ =>
    .skip (by aloof) fun _ => .skip (by aloof) fun _ => .skip (by aloof) fun _ => .skip (by aloof) fun _ =>
    .skip (by aloof) fun _ => .bind (w_flipLink _ (n0 _) h0) fun _ _ => .bind (w_flipLink _ (n1 _) h0) fun _ _ =>
    .bind (w_flipLink _ (n1 _) h1) fun _ _ => .bind (w_flipLink _ (n0 _) h1) fun _ _ =>
    .bind (w_setTriangle _ h0 (n1 _) (fun _ h => by cases h; exact h1) (n0 _)) fun _ _ =>
    w_setTriangle _ h1 (n0 _) (fun _ h => by cases h; exact h0) (n1 _)

theorem w_assertSome {γ : Type} {o : Option γ} {Q : γ → Prop} (h : ∀ x, o = some x → Q x) :
    Stays (K := K) S Q (assertSome o) :=
  .same fun _ _ _ _ hm => by
    obtain ⟨rfl, rfl⟩ := assertSome_run_ok.1 hm
    exact ⟨rfl, h _ rfl⟩

theorem w_handleFlip [HasSqrt K] (e : Event K) (he : S e.tri) : Stays S (fun _ => True) (handleFlip e) :=
  .skip (by aloof) fun i => .tri he fun _ hT => .bind (w_assertSome (hT i)) fun _ hn => .tri hn fun _ _ =>
    .skip (by aloof) fun _ => .bind (w_flip _ _ he hn) fun _ _ => .bind (w_replaceInQueue _ he) fun _ _ => w_replaceInQueue _ hn

/-! ### events/parallel.py -/

theorem w_relink {n : TId} (t : TId) {x : Option TId} (hn : S n) (hx : ∀ y, x = some y → S y) :
    Stays (K := K) S (fun _ => True) (relink n t x) :=
  .tri hn fun _ _ => .skip (by aloof) fun _ => w_setNeighbour _ hn hx

theorem w_detachAndSchedule [HasSqrt K] {n : Option TId} (t : TId) (now : K) (hn : ∀ x, n = some x → S x) :
    Stays S (fun _ => True) (detachAndSchedule n t now) := by
  cases n with
  | none => exact .pure trivial
  | some n =>
    have h := hn n rfl
    exact .bind (w_relink t h fun _ q => by cases q) fun _ _ => .tri h fun _ _ => .ite (w_scheduleImmediately now h) (.pure trivial)

theorem w_evenLegs [HasSqrt K] {t : TId} (e : Fin 3) (pivot : VId) (now : K) (step : ℤ) (ht : S t) :
    Stays S (fun _ => True) (evenLegs t e pivot now step) :=
  .tri ht fun _ _ => .skip (by aloof) fun _ => .skip (by aloof) fun _ => .skip (by aloof) fun _ => .skip (by aloof) fun _ =>
    .bind (w_stopTriangle now ht) fun _ _ => .tri ht fun _ hT => w_detachAndSchedule t now (hT e)

theorem w_evenLegsAt [HasSqrt K] {t : TId} (pivot : VId) (now : K) (step : ℤ) (ht : S t) :
    Stays S (fun _ => True) (evenLegsAt t pivot now step) :=
  .skip (by aloof) fun e => w_evenLegs e pivot now step ht

theorem w_evenLegsIf [HasSqrt K] (c : Bool) {t : TId} (pivot : VId) (now : K) (step : ℤ) (ht : S t) :
    Stays S (fun _ => True) (evenLegsIf c t pivot now step) := .ite (w_evenLegsAt pivot now step ht) (.pure trivial)

theorem w_parallel3tri [HasSqrt K] {t : TId} (e : Fin 3) (pivot : VId) (now : K) (step : ℤ) (ht : S t) :
    Stays S (fun _ => True) (parallel3tri t e pivot now step) := by
  unfold parallel3tri velocityOf assertVertexStopped
  exact .tri ht fun _ _ => .skip (by aloof) fun _ => .skip (by aloof) fun _ => .skip (by aloof) fun _ => .skip (by aloof) fun _ =>
    .skip (by aloof) fun _ => .skip (by aloof) fun _ => .skip (by aloof) fun _ => .skip (by aloof) fun _ =>
    .skip (by aloof) fun _ => .skip (by aloof) fun _ => .skip (by aloof) fun _ => .bind (w_stopTriangle now ht) fun _ _ =>
    .tri ht fun _ _ => .aloof (by aloof)

theorem w_parallel3 [HasSqrt K] {first last : TId} (pivot : VId) (now : K) (step : ℤ) (ht : S first) :
    Stays S (fun _ => True) (parallel3 first last pivot now step) := by
  unfold parallel3
  refine .skip (by aloof) fun _ => .skip (by aloof) fun _ => .skip (by aloof) fun _ => .skip (by aloof) fun _ => ?_
  dsimp only
  unfold parallel3.parallel3Collapse
  split
  · exact .tri ht fun _ _ => w_evenLegsAt _ now step ht
  · exact .skip (by aloof) fun e => w_parallel3tri e pivot now step ht

theorem w_replaceSide [HasSqrt K] [HasTrig K] (t : TId) (now : K) {n other : Option TId} (v kv : VId) (dir : Dir)
    (hn : ∀ x, n = some x → S x) (ho : ∀ x, other = some x → S x) :
    Stays S (fun l => ∀ x ∈ l, S x) (shorterLeg.replaceSide t now n other v kv dir) := by
  cases n with
  | none => exact .pure fun _ h => by cases h
  | some n => exact .bind (w_relink t (hn n rfl) ho) fun _ _ => w_replaceKvertex v kv now dir (hn n rfl)

theorem al_stopPivot (pivot : VId) (now : K) (n : NodeId) :
    Keeps (Aloof (K := K)) (shorterLeg.stopPivot pivot now n) := by
  unfold shorterLeg.stopPivot
  aloof
macro_rules | `(tactic| al_leaf) => `(tactic| with_reducible exact al_stopPivot _ _ _)

theorem w_shorterLeg [HasSqrt K] [HasTrig K] {t : TId} (e : Fin 3) (pivot : VId) (now : K) (step : ℤ) (ht : S t) :
    Stays S (fun r => (∀ x ∈ r.2.1, S x) ∧ ∀ x ∈ r.2.2, S x) (shorterLeg t e pivot now step) := by
  unfold shorterLeg
  refine .skip (by aloof) fun _ => .skip (by aloof) fun _ => .tri ht fun _ _ => .skip (by aloof) fun _ => .skip (by aloof) fun _ =>
    .skip (by aloof) fun _ => .skip (by aloof) fun _ => .skip (by aloof) fun _ => .bind (w_stopTriangle now ht) fun _ _ =>
    .skip (by aloof) fun _ => .skip (by aloof) fun _ => .skip (by aloof) fun _ => .skip (by aloof) fun _ =>
    .skip (by aloof) fun _ => .skip (by aloof) fun _ => .skip (by aloof) fun _ => .skip (by aloof) fun _ =>
    .skip (by aloof) fun _ => .skip (by aloof) fun _ => .tri ht fun T hT => .skip (by aloof) fun _ => .skip (by aloof) fun _ =>
    .skip (by aloof) fun _ => .skip (by aloof) fun _ => .bind (w_replaceSide t now _ _ .cw (hT _) (hT _)) fun _ h1 =>
    .bind (w_replaceSide t now _ _ .ccw (hT _) (hT _)) fun _ h2 => .bind (w_detachAndSchedule t now (hT _)) fun _ _ =>
    .pure ⟨h1, h2⟩

theorem combineFans_within {a b l : List TId} {d : Dir} (h : combineFans a b = some (l, d)) (ha : ∀ x ∈ a, S x)
    (hb : ∀ x ∈ b, S x) : ∀ x ∈ l, S x := by
  unfold combineFans at h
  split_ifs at h <;> cases h
  · intro x hx
    rcases List.mem_append.1 hx with q | q
    · exact ha x (List.mem_reverse.1 q)
    · exact hb x q
  · exact ha
  · exact hb

theorem w_nextFan {kv : VId} {a b : List TId} (ha : ∀ x ∈ a, S x) (hb : ∀ x ∈ b, S x) :
    Stays (K := K) S (fun o => ∀ r, o = some r → ∀ x ∈ r.1, S x) (nextFan kv a b) := by
  refine .skip (by aloof) fun _ => .ite (.pure fun r h => ?_) (.pure fun _ h => by cases h)
  cases hc : combineFans a b with
  | none => rw [hc] at h; cases h
  | some x => rw [hc] at h; cases h; exact combineFans_within hc ha hb

theorem w_flipPair [HasSqrt K] {t0 t1 : TId} (pivot : VId) (now : K) (step : ℤ) (h0 : S t0) (h1 : S t1) :
    Stays S (fun _ => True) (flipPair t0 t1 pivot now step) := by
  unfold flipPair hasInfFast
  exact .tri h0 fun _ _ => .skip (by aloof) fun _ => .tri h1 fun _ _ => .skip (by aloof) fun _ => .bind (w_flip _ _ h0 h1) fun _ _ =>
    .skip (by aloof) fun _ => .skip (by aloof) fun _ => .bind (w_evenLegsIf _ pivot now step h0) fun _ _ =>
    w_evenLegsIf _ pivot now step h1

theorem w_parallelEven [HasSqrt K] {fan : List TId} (pivot : VId) (now : K) (step : ℤ) (h : ∀ x ∈ fan, S x) :
    Stays S (fun _ => True) (parallelEven fan pivot now step) := by
  unfold parallelEven
  split
  · next t =>
    unfold assertStopped
    exact .bind (w_evenLegsAt pivot now step (h t (by simp))) fun _ _ => .aloof (by aloof)
  · next t0 t1 =>
    have h0 := h t0 (by simp)
    have h1 := h t1 (by simp)
    unfold evenTriangle assertStopped
    exact .skip (by aloof) fun _ => .skip (by aloof) fun _ => .ite (.bind (w_evenLegsAt pivot now step h0) fun _ _ =>
      .bind (w_evenLegsAt pivot now step h1) fun _ _ => .aloof (by aloof)) (w_flipPair pivot now step h0 h1)
  · exact .fail fun _ _ _ q => raise_run_ok.1 q

theorem w_parallelStep [HasSqrt K] [HasTrig K] {fan : List TId} (pivot : VId) (now : K) (dir : Dir) (step : ℤ)
    (h : ∀ x ∈ fan, S x) : Stays S (fun o => ∀ r, o = some r → ∀ x ∈ r.1, S x) (parallelStep fan pivot now dir step) := by
  cases fan with
  | nil => exact .fail fun _ _ _ q => by cases q
  | cons first rest =>
    have hf := h first List.mem_cons_self
    have hl := h _ (List.getLast_mem (List.cons_ne_nil first rest))
    unfold parallelStep
    refine .skip (by aloof) fun _ => .skip (by aloof) fun _ => .tri hf fun _ _ => .ite
      (.bind (w_parallel3 pivot now step hf) fun _ _ => .pure fun _ q => by cases q) ?_
    unfold parallelLegs
    have hL : S (if dir = .cw then first else (first :: rest).getLast (List.cons_ne_nil _ _)) := by split_ifs <;> assumption
    have hR : S (if dir = .cw then (first :: rest).getLast (List.cons_ne_nil _ _) else first) := by split_ifs <;> assumption
    exact .skip (by aloof) fun _ => .skip (by aloof) fun _ => .skip (by aloof) fun _ => .skip (by aloof) fun _ =>
      .skip (by aloof) fun _ => .ite (.bind (w_parallelEven pivot now step h) fun _ _ => .pure fun _ q => by cases q)
      (.ite (.bind (w_shorterLeg _ pivot now step hL) fun _ q => w_nextFan q.1 q.2)
        (.bind (w_shorterLeg _ pivot now step hR) fun _ q => w_nextFan q.1 q.2))

theorem w_parallelFan [HasSqrt K] [HasTrig K] (depth : ℕ) {fan : List TId} (pivot : VId) (now : K) (dir : Dir) (step : ℤ)
    (h : ∀ x ∈ fan, S x) : Stays S (fun _ => True) (parallelFan depth fan pivot now dir step) := by
  induction depth generalizing fan pivot dir with
  | zero => exact .fail fun _ _ _ q => raise_run_ok.1 q
  | succ n ih =>
    unfold parallelFan
    refine .bind (w_parallelStep pivot now dir step h) fun o ho => ?_
    cases o with
    | none => exact .pure trivial
    | some x => exact ih _ _ (ho x rfl)

/-! ### events/edge.py -/

theorem w_scheduleTiny [HasSqrt K] {fan : List TId} (kv : VId) (dir : Dir) (now : K) (h : ∀ x ∈ fan, S x) :
    Stays S (fun _ => True) (scheduleTiny fan kv dir now) := by
  unfold scheduleTiny
  split
  · exact .pure trivial
  · next t ht =>
    have hS := h t (List.mem_of_getLast? ht)
    exact .skip (by aloof) fun _ => .tri hS fun _ _ => .skip (by aloof) fun _ => .skip (by aloof) fun _ => .skip (by aloof) fun _ =>
      .ite (w_scheduleImmediately now hS) (.pure trivial)

theorem w_edgeSide [HasSqrt K] {n : Option TId} (t : TId) {other : Option TId} (v kv : VId) (now : K) (dir : Dir)
    (hn : ∀ x, n = some x → S x) (ho : ∀ x, other = some x → S x) :
    Stays S (fun l => ∀ x ∈ l, S x) (edgeSide n t other v kv now dir) := by
  cases n with
  | none => exact .pure fun _ h => by cases h
  | some n =>
    exact .bind (w_relink t (hn n rfl) ho) fun _ _ => .bind (w_replaceKvertex v kv now dir (hn n rfl)) fun _ hf =>
      .bind (w_scheduleTiny kv dir now hf) fun _ _ => .pure hf

theorem w_edgeFan [HasSqrt K] [HasTrig K] (depth : ℕ) (kv : VId) {a b : List TId} (now : K) (step : ℤ) (ha : ∀ x ∈ a, S x)
    (hb : ∀ x ∈ b, S x) : Stays S (fun _ => True) (edgeFan depth kv a b now step) := by
  refine .bind (w_nextFan ha hb) fun o ho => ?_
  cases o with
  | none => exact .pure trivial
  | some x => exact w_parallelFan depth _ now _ step (ho x rfl)

theorem w_handleEdge [HasSqrt K] [HasTrig K] (depth : ℕ) (e : Event K) (step : ℤ) (he : S e.tri) :
    Stays S (fun _ => True) (handleEdge depth e step) :=
  .skip (by aloof) fun _ => .skip (by aloof) fun _ => .tri he fun _ hT => .bind (w_edgeSide _ _ _ _ _ (hT _) (hT _)) fun _ h1 =>
    .bind (w_edgeSide _ _ _ _ _ (hT _) (hT _)) fun _ h2 => .bind (w_detachAndSchedule _ _ (hT _)) fun _ _ =>
    .bind (w_stopTriangle _ he) fun _ _ => w_edgeFan depth _ _ step h1 h2

theorem w_threeSidesNeighbour [HasSqrt K] {t : TId} (now : K) (i : Fin 3) (ht : S t) :
    Stays S (fun _ => True) (threeSidesNeighbour t now i) := by
  refine .tri ht fun T hT => ?_
  split
  · exact .pure trivial
  · next n hn =>
    have h := hT i n hn
    exact .tri h fun _ _ => .ite (.bind (w_relink t h fun _ q => by cases q) fun _ _ => w_scheduleImmediately now h) (.pure trivial)

theorem w_handleEdge3 [HasSqrt K] (e : Event K) (step : ℤ) (he : S e.tri) : Stays S (fun _ => True) (handleEdge3 e step) :=
  .skip (by aloof) fun _ => .tri he fun _ _ => .skip (by aloof) fun _ =>
    .bind (.forEach fun i _ => w_threeSidesNeighbour e.time i he) fun _ _ => w_stopTriangle _ he

theorem w_handleEdge1 [HasSqrt K] [HasTrig K] (e : Event K) (step : ℤ) (he : S e.tri) :
    Stays S (fun _ => True) (handleEdge1 e step) :=
  .skip (by aloof) fun _ => .tri he fun _ _ => .skip (by aloof) fun _ => .skip (by aloof) fun _ => .skip (by aloof) fun _ =>
    .skip (by aloof) fun _ => .skip (by aloof) fun _ => .skip (by aloof) fun _ => .skip (by aloof) fun _ => w_stopTriangle _ he

/-! ### events/split.py -/

theorem w_splitSide [HasSqrt K] {t : TId} (side : Fin 3) (v newv : VId) (now : K) (dir : Dir) (ht : S t) :
    Stays S (fun l => ∀ x ∈ l, S x) (splitSide t side v newv now dir) :=
  .tri ht fun _ hT => .bind (w_assertSome (hT side)) fun _ hn => .bind (w_relink t hn fun _ q => by cases q) fun _ _ =>
    w_replaceKvertex v newv now dir hn

theorem w_splitFan [HasSqrt K] [HasTrig K] (depth : ℕ) (v : VId) {fan : List TId} (now : K) (dir : Dir) (step : ℤ)
    (h : ∀ x ∈ fan, S x) : Stays S (fun _ => True) (splitFan depth v fan now dir step) :=
  .skip (by aloof) fun _ => .ite (w_parallelFan depth v now dir step h) (.pure trivial)

theorem w_handleSplit [HasSqrt K] [HasTrig K] (depth : ℕ) (e : Event K) (step : ℤ) (he : S e.tri) :
    Stays S (fun _ => True) (handleSplit depth e step) :=
  .skip (by aloof) fun _ => .tri he fun _ _ => .skip (by aloof) fun _ => .skip (by aloof) fun _ => .skip (by aloof) fun _ =>
    .bind (w_splitSide _ _ _ _ _ he) fun _ h1 => .bind (w_splitSide _ _ _ _ _ he) fun _ h2 => .bind (w_stopTriangle _ he) fun _ _ =>
    .bind (w_splitFan depth _ _ _ step h2) fun _ _ => w_splitFan depth _ _ _ step h1

/-! ### events/loop.py -/

theorem w_handleEvent [HasSqrt K] [HasTrig K] (depth : ℕ) (e : Event K) (step : ℤ) (he : S e.tri) :
    Stays S (fun _ => True) (handleEvent depth e step) := by
  refine .tri he fun _ _ => .ite (.pure trivial) ?_
  split
  · exact .ite (w_handleEdge3 e step he) (.ite (w_handleEdge1 e step he)
      (.ite (.fail fun _ _ _ q => raise_run_ok.1 q) (w_handleEdge depth e step he)))
  · exact w_handleFlip e he
  · exact w_handleSplit depth e step he

theorem closed_congr {s s' : St K} (h : s'.tri = s.tri) (hs : Closed S s) : Closed S s' := by
  unfold Closed; rw [h]; exact hs

/-- an iteration of the loop, as long as everything that is pending concerns `S` -/
theorem w_loopStep [HasSqrt K] [HasTrig K] {depth : ℕ} {step : ℤ} {now now' : K} {e : Event K} {s s' : St K}
    (hs : Closed S s) (hp : ∀ e ∈ pending s, S e.tri) (h : loopStep depth step now s = .ok (some (e, now'), s')) :
    Closed S s' ∧ (∀ t, ¬ S t → s'.tri t = s.tri t) ∧ (∀ e ∈ pending s', S e.tri) ∧ S e.tri := by
  unfold loopStep at h
  obtain ⟨o, s1, h1, h⟩ := bind_run_ok.1 h
  obtain ⟨a, b, c⟩ := takeEvent_closed h1
  cases o with
  | none => cases (pure_run_ok.1 h).1
  | some x =>
    obtain ⟨_, s2, h2, h⟩ := bind_run_ok.1 h
    obtain ⟨q, rfl⟩ := pure_run_ok.1 h
    cases q
    have he := hp _ (c _ rfl)
    obtain ⟨d1, d2, d3, -⟩ := w_handleEvent depth e step he s1 _ _ (closed_congr a hs) h2
    exact ⟨d1, fun t ht => by rw [d2 t ht, a], fun y hy => (d3 y hy).elim (fun q => hp _ (b _ q)) id, he⟩

theorem w_initEvent [HasSqrt K] {t : TId} (ht : S t) : Stays (K := K) S (fun _ => True) (initEvent t) :=
  .bind (w_computeCollapseTime _ _ ht) fun _ he => w_addEvent he

end

/-! ### the start -/

theorem within_start [Field K] [LinearOrder K] [HasSqrt K] {s0 s1 : St K} (h1 : initEventList s0 = .ok ((), s1)) (hc : Closed S s0) (hS : ∀ t ∈ s0.skTriangles, S t) :
    Closed S { s1 with immediate := [] } ∧ (∀ t, ¬ S t → s1.tri t = s0.tri t) ∧ ∀ e ∈ s1.queue, S e.tri := by
  unfold initEventList at h1
  obtain ⟨_, s2, h2, hm⟩ := bind_run_ok.1 h1
  cases h2
  obtain ⟨_, s2, h2, hm⟩ := bind_run_ok.1 hm
  cases h2
  -- what is in `immediate` does not matter
  have key : ∀ (l : List TId) (s s' : St K), (∀ t ∈ l, S t) → Closed S s → (∀ e ∈ s.queue, S e.tri) →
      forEach initEvent l s = .ok ((), s') → Closed S s' ∧ (∀ t, ¬ S t → s'.tri t = s.tri t) ∧ ∀ e ∈ s'.queue, S e.tri := by
    intro l
    induction l with
    | nil =>
      intro s s' _ hs hq h
      obtain rfl := (pure_run_ok.1 h).2
      exact ⟨hs, fun _ _ => rfl, hq⟩
    | cons t l ih =>
      intro s s' hl hs hq h
      obtain ⟨_, s2, h2, h⟩ := bind_run_ok.1 h
      have ht := hl t List.mem_cons_self
      obtain ⟨c1, f1, -⟩ := w_initEvent ht s _ s2 hs h2
      have q1 : ∀ e ∈ s2.queue, S e.tri := by
        unfold initEvent at h2
        obtain ⟨o, s3, h3, h2⟩ := bind_run_ok.1 h2
        unfold computeCollapseTime at h3
        obtain ⟨_, s4, h4, h3⟩ := bind_run_ok.1 h3
        obtain ⟨-, -, rfl⟩ := triView_run_ok.1 h4
        obtain ⟨c, s4, h4, h3⟩ := bind_run_ok.1 h3
        obtain ⟨-, rfl⟩ := lift_run_ok.1 h4
        cases c with
        | none =>
          obtain ⟨rfl, rfl⟩ := pure_run_ok.1 h3
          obtain rfl := (pure_run_ok.1 h2).2
          exact hq
        | some c =>
          obtain ⟨e, s4, h4, h3⟩ := bind_run_ok.1 h3
          obtain ⟨rfl, rfl⟩ := newEvent_run_ok.1 h4
          obtain ⟨_, s4, h4, h3⟩ := bind_run_ok.1 h3
          obtain ⟨-, rfl⟩ := modifyT_run_ok.1 h4
          obtain ⟨rfl, rfl⟩ := pure_run_ok.1 h3
          change queueAdd _ _ = _ at h2
          unfold queueAdd at h2
          split_ifs at h2
          cases h2
          intro x hx
          rcases mem_queueInsert_sub hx with rfl | q
          · exact ht
          · exact hq x q
      obtain ⟨c2, f2, q2⟩ := ih s2 s' (fun x hx => hl x (List.mem_cons_of_mem _ hx)) c1 q1 h
      exact ⟨c2, fun x hx => (f2 x hx).trans (f1 x hx), q2⟩
  obtain ⟨a, b, c⟩ := key _ { s0 with queue := [] } s1 hS (closed_congr rfl hc) (fun _ h => by cases h) hm
  exact ⟨closed_congr rfl a, b, c⟩

end Grassfire
