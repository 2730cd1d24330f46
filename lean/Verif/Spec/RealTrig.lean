/-
`math.acos`, `math.pi` and `math.cos(math.radians(179.999999))` over the reals.
-/
import Verif.Events.Lib
import Mathlib.Analysis.SpecialFunctions.Trigonometric.Inverse

namespace Grassfire

noncomputable instance : HasTrig ℝ :=
  ⟨Real.arccos, Real.pi, Real.cos (179.999999 * (Real.pi / 180))⟩

end Grassfire
