/-
C105: the recursion limit of python decides only whether RecursionError is raised.
-/
import Verif.Proofs.Wp
import Verif.Props.CalcSkel
import Verif.Props.Ids

set_option linter.unusedSectionVars false

namespace Grassfire

variable {K : Type}

/-- `n` does what `m` does, unless `m` fails with RecursionError. -/
def Deepens {α : Type} (m n : M K α) : Prop := ∀ s, m s = .error (.py .recursionError) ∨ n s = m s

theorem Deepens.refl {α : Type} (m : M K α) : Deepens m m := fun _ => .inr rfl

theorem Deepens.bind {α β : Type} {m n : M K α} {f g : α → M K β} (h : Deepens m n) (hf : ∀ a, Deepens (f a) (g a)) :
    Deepens (m >>= f) (n >>= g) := by
  intro s
  rw [bind_run, bind_run]
  rcases h s with e | e
  · exact .inl (by rw [e])
  · rw [e]
    cases m s with
    | error x => exact .inr rfl
    | ok r => exact hf r.1 r.2

theorem Deepens.ite {α : Type} {c : Prop} [Decidable c] {m n m' n' : M K α} (h : Deepens m m') (h' : Deepens n n') :
    Deepens (if c then m else n) (if c then m' else n') := by
  split
  · exact h
  · exact h'

variable [Field K] [LinearOrder K] [HasSqrt K] [HasTrig K]

theorem deepens_parallelFan {d d' : ℕ} (hd : d ≤ d') (fan : List TId) (pivot : VId) (now : K) (dir : Dir) (step : ℤ) :
    Deepens (parallelFan d fan pivot now dir step) (parallelFan d' fan pivot now dir step) := by
  induction d generalizing d' fan pivot dir with
  | zero => exact fun s => .inl rfl
  | succ d ih =>
    obtain ⟨e, rfl⟩ : ∃ e, d' = e + 1 := ⟨d' - 1, by omega⟩
    unfold parallelFan
    refine (Deepens.refl _).bind fun next => ?_
    cases next with
    | none => exact .refl _
    | some x => exact ih (by omega) _ _ _

variable {d d' : ℕ}

theorem deepens_handleEdge (hd : d ≤ d') (evt : Event K) (step : ℤ) :
    Deepens (handleEdge d evt step) (handleEdge d' evt step) := by
  have hf : ∀ kv a b now, Deepens (K := K) (edgeFan d kv a b now step) (edgeFan d' kv a b now step) := by
    intro kv a b now
    unfold edgeFan
    refine (Deepens.refl _).bind fun next => ?_
    cases next with
    | none => exact .refl _
    | some x => exact deepens_parallelFan hd _ _ _ _ _
  unfold handleEdge
  repeat' first
    | exact hf _ _ _ _
    | refine (Deepens.refl _).bind fun _ => ?_

theorem deepens_handleSplit (hd : d ≤ d') (evt : Event K) (step : ℤ) :
    Deepens (handleSplit d evt step) (handleSplit d' evt step) := by
  have hf : ∀ v fan now dir, Deepens (K := K) (splitFan d v fan now dir step) (splitFan d' v fan now dir step) := by
    intro v fan now dir
    unfold splitFan
    exact (Deepens.refl _).bind fun k => .ite (deepens_parallelFan hd _ _ _ _ _) (.refl _)
  unfold handleSplit
  repeat' first
    | exact hf _ _ _ _
    | refine (hf _ _ _ _).bind fun _ => ?_
    | refine (Deepens.refl _).bind fun _ => ?_

theorem deepens_handleEvent (hd : d ≤ d') (evt : Event K) (step : ℤ) :
    Deepens (handleEvent d evt step) (handleEvent d' evt step) := by
  unfold handleEvent
  refine (Deepens.refl _).bind fun T => .ite (.refl _) ?_
  cases evt.tp with
  | edge => exact .ite (.refl _) (.ite (.refl _) (.ite (.refl _) (deepens_handleEdge hd _ _)))
  | flip => exact .refl _
  | split => exact deepens_handleSplit hd _ _

theorem deepens_loop (hd : d ≤ d') (fuel : ℕ) (step : ℤ) (now : K) :
    Deepens (loop d fuel step now) (loop d' fuel step now) := by
  induction fuel generalizing step now with
  | zero => exact .refl _
  | succ fuel ih =>
    unfold loop
    refine Deepens.bind ?_ fun next => ?_
    · unfold loopStep
      refine (Deepens.refl _).bind fun next => ?_
      cases next with
      | none => exact .refl _
      | some x => exact (deepens_handleEvent hd _ _).bind fun _ => .refl _
    · cases next with
      | none => exact .refl _
      | some x => exact ih _ _

theorem deepens_eventLoop (hd : d ≤ d') : Deepens (K := K) (eventLoop d) (eventLoop d') := by
  unfold eventLoop
  refine (Deepens.refl _).bind fun _ => (Deepens.refl _).bind fun ts => (Deepens.refl _).bind fun _ =>
    (Deepens.refl _).bind fun _ => (deepens_loop hd _ _ _).bind fun now => Deepens.refl _

theorem deepens_runEvents (hd : d ≤ d') (s : St K) :
    runEvents d s = .error (.py .recursionError) ∨ runEvents d' s = runEvents d s := by
  unfold runEvents
  split
  · exact .inr rfl
  · exact deepens_eventLoop hd _

/-- C105: with more room on the stack `calc_skel` does the same, unless it failed with RecursionError: it raises the same
exception or returns the same skeleton. -/
theorem C105_deeper (hd : d ≤ d') (pyid : TId → ℕ) (triangulate : List (Pt K) → Except Err (Dt K)) (points : List (Pt K))
    (shrink internal : Bool) :
    calcSkel d pyid triangulate points shrink internal = .error (.py .recursionError) ∨
      calcSkel d' pyid triangulate points shrink internal = calcSkel d pyid triangulate points shrink internal := by
  have hb : ∀ {α : Type} (m : Except Fault α) (f g : α → Except Fault (K × St K)),
      (∀ a, f a = .error (.py .recursionError) ∨ g a = f a) →
        (m >>= f) = .error (.py .recursionError) ∨ (m >>= g) = (m >>= f) := by
    intro α m f g h
    cases m with
    | error e => exact .inr rfl
    | ok a => exact h a
  unfold calcSkel
  exact hb _ _ _ fun x => hb _ _ _ fun dt => hb _ _ _ fun skel => hb _ _ _ fun _ => deepens_runEvents hd _

/-- C105: so two recursion limits that both are large enough give the same. -/
theorem C105_enough (a b : ℕ) (pyid : TId → ℕ) (triangulate : List (Pt K) → Except Err (Dt K)) (points : List (Pt K))
    (shrink internal : Bool)
    (ha : calcSkel a pyid triangulate points shrink internal ≠ .error (.py .recursionError))
    (hb : calcSkel b pyid triangulate points shrink internal ≠ .error (.py .recursionError)) :
    calcSkel a pyid triangulate points shrink internal = calcSkel b pyid triangulate points shrink internal := by
  rcases le_total a b with h | h
  · exact ((C105_deeper h pyid triangulate points shrink internal).resolve_left ha).symm
  · exact (C105_deeper h pyid triangulate points shrink internal).resolve_left hb

/-- whether the rectangle 4 by 2 fails with RecursionError when there is room for `d` calls -/
def Sample.tooDeep (d : ℕ) : Bool :=
  match calcSkel d id Sample.triangulate [((0 : ℚ), 0), (4, 0), (4, 2), (0, 2)] true true with
  | .error (.py .recursionError) => true
  | _ => false

/-- C105: the limit matters: the rectangle needs one call of `handle_parallel_fan`. -/
theorem C105_limit : Sample.tooDeep 0 = true ∧ Sample.tooDeep 1 = false := by
  constructor <;> decide +kernel

/-- With any room for one call or more, the rectangle has the same skeleton. -/
example (d : ℕ) (hd : 1 ≤ d) :
    calcSkel d id Sample.triangulate [((0 : ℚ), 0), (4, 0), (4, 2), (0, 2)] true true =
      calcSkel 1 id Sample.triangulate [((0 : ℚ), 0), (4, 0), (4, 2), (0, 2)] true true := by
  refine (C105_deeper hd _ _ _ _ _).resolve_left fun h => ?_
  have := C105_limit.2
  unfold Sample.tooDeep at this
  rw [h] at this
  cases this

end Grassfire
