/-
Specification of decimal rounding.
-/
import Mathlib.Data.Rat.Defs
import Mathlib.Algebra.Order.Ring.Rat
import Mathlib.Algebra.Ring.Parity

namespace Verif.Spec

/-- `r` is `q` rounded to `k` decimals: the nearest number with `k` decimals, and of two nearest ones the one
with an even last digit. -/
def Rounded (k : ℕ) (q r : ℚ) : Prop :=
  ∃ n : ℤ, r = n / 10 ^ k ∧ |r - q| ≤ 1 / (2 * 10 ^ k) ∧ (|r - q| = 1 / (2 * 10 ^ k) → Even n)

end Verif.Spec
