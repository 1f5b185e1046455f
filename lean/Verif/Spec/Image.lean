/-
Independent specification for C66: the Brown lens model with scale and shear.
-/
import Mathlib.Analysis.SpecialFunctions.Trigonometric.Basic

namespace Verif.Geo.Spec

/-- Brown's lens model: radial terms `k1 k2 k3` and decentering terms `p1 p2` added to `(x, y)`. -/
noncomputable def brown (k1 k2 k3 p1 p2 : ℝ) (x y : ℝ) : ℝ × ℝ :=
  let r2 := x ^ 2 + y ^ 2
  (x + x * (k1 * r2 + k2 * r2 ^ 2 + k3 * r2 ^ 3) + p1 * (r2 + 2 * x ^ 2) + 2 * p2 * x * y,
   y + y * (k1 * r2 + k2 * r2 ^ 2 + k3 * r2 ^ 3) + p2 * (r2 + 2 * y ^ 2) + 2 * p1 * x * y)

/-- Scale `scx` of the x axis and shear by the angle `she`. -/
noncomputable def affine (scx she : ℝ) (p : ℝ × ℝ) : ℝ × ℝ :=
  (scx * p.1 - Real.sin she * p.2, Real.cos she * p.2)

end Verif.Geo.Spec
