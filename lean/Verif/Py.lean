/-
Python runtime conventions shared by the whole model.

* exceptions are values of type `Err`; a function that may raise returns
  `Except Err _`
* python numbers are elements of an arbitrary linearly ordered field `K`
  (exact arithmetic -- rounding is not modelled, see DESIGN.md)
* `math.sqrt` is the class parameter `HasSqrt`; the only laws used are those
  of `SqrtLaws` (the reals satisfy them)
-/
import Mathlib.Algebra.Order.Field.Basic
import Mathlib.Algebra.Order.Ring.Abs
import Mathlib.Analysis.Real.Sqrt

namespace Grassfire

/-- The python exceptions that the modelled code can raise.  The message of
an exception is not modelled, only its class. -/
inductive Err where
  /-- `raise ValueError(..)`, `list.index` without a hit, `math.sqrt(-1)` -/
  | valueError
  /-- failed `assert` -/
  | assertionError
  /-- division by zero -/
  | zeroDivisionError
  /-- attribute access on `None` or on an object without that attribute -/
  | attributeError
  /-- call with wrong arguments, comparison of incomparable types -/
  | typeError
  /-- `next()` on an exhausted iterator -/
  | stopIteration
  /-- `raise NotImplementedError(..)` -/
  | notImplementedError
  /-- list index out of range -/
  | indexError
  /-- dictionary look up without a hit -/
  | keyError
  /-- python's bounded call stack is exhausted -/
  | recursionError
  /-- a name that is not defined, such as `raw_input` under python 3 -/
  | nameError
  deriving DecidableEq, Repr

/-- How a computation on the state can end without a result: with a python
exception, or with one of three faults of the model, none of which is a behaviour
of the program. -/
inductive Fault where
  /-- a python exception -/
  | py (e : Err)
  /-- a reference to an object that was never allocated (python has no such
  references) -/
  | dangling
  /-- a python `while` loop that does not terminate -/
  | nonTermination
  /-- an external package is used outside of the contract that the model assumes -/
  | outside
  deriving DecidableEq, Repr

/-- `math.sqrt` as a parameter of the model. -/
class HasSqrt (K : Type) where
  sqrt : K → K

/-- The laws of the square root that the proofs use. -/
class SqrtLaws (K : Type) [Field K] [LinearOrder K] [HasSqrt K] : Prop where
  sqrt_nonneg : ∀ x : K, 0 ≤ x → 0 ≤ HasSqrt.sqrt x
  sqrt_mul_self : ∀ x : K, 0 ≤ x → HasSqrt.sqrt x * HasSqrt.sqrt x = x

/-- All that the proofs about moving wavefronts use of the square root (rational square roots that
are exact for squares only, as in Spec/RatSqrt.lean, have it too). -/
class SqrtUnit (K : Type) [Field K] [HasSqrt K] : Prop where
  sqrt_one : HasSqrt.sqrt (1 : K) = 1

noncomputable instance : HasSqrt ℝ := ⟨Real.sqrt⟩

instance : SqrtLaws ℝ where
  sqrt_nonneg := fun x _ => Real.sqrt_nonneg x
  sqrt_mul_self := fun _ h => Real.mul_self_sqrt h

variable {K : Type} [Field K] [LinearOrder K]

/-- Python's `a / b` on numbers: raises ZeroDivisionError for `b == 0`. -/
def pdiv (a b : K) : Except Err K :=
  if b = 0 then .error .zeroDivisionError else .ok (a / b)

/-- Python's `math.sqrt`: raises ValueError for negative arguments. -/
def psqrt [HasSqrt K] (x : K) : Except Err K :=
  if x < 0 then .error .valueError else .ok (HasSqrt.sqrt x)

/-- Python's `assert c`. -/
def passert (c : Bool) : Except Err Unit :=
  if c then .ok () else .error .assertionError

/-- A 2-tuple of numbers, python `(x, y)`. -/
abbrev Pt (K : Type) := K × K

end Grassfire
