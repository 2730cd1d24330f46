/-
A square root on ℚ for the concrete examples (exact on squares of rationals, which
is all that the examples use).  No theorem depends on it.
-/
import Verif.Py

namespace Grassfire

/-- integer square root, bit by bit -/
def isqrt : ℕ → ℕ → ℕ
  | 0, _ => 0
  | fuel + 1, n =>
    if n = 0 then 0
    else
      let r := 2 * isqrt fuel (n / 4)
      if (r + 1) * (r + 1) ≤ n then r + 1 else r

instance : HasSqrt ℚ := ⟨fun q => (isqrt 200 q.num.toNat : ℚ) / (isqrt 200 q.den : ℚ)⟩

instance : SqrtUnit ℚ := ⟨by decide +kernel⟩

example : (HasSqrt.sqrt (25 / 16 : ℚ)) = 5 / 4 := by decide +kernel

end Grassfire
