/-
Model of the collinearity equations of `flat_image_coord` (imgcoord.py) in floating point arithmetic.
-/
import Verif.Model.RoundedTrace
import Verif.Model.Multimed

namespace Verif.Round
open Verif.Geo

/-- imgcoord.py:50-60: the collinearity equations (plain Python, so that the operations are not rearranged), with the rounding `r` after
every operation and `np.dot` as a parameter. `dm` and `origin` are the matrix and the position of the camera. -/
noncomputable def collinear (r : ℝ → ℝ) (fdot : V3 → V3 → ℝ) (cc : ℝ) (dm : M3) (origin pos : V3) : ℝ × ℝ :=
  let v := sub r pos origin
  let deno := if fdot dm.c2 v = 0 then 1 else fdot dm.c2 v
  (r (r (-cc * fdot dm.c0 v) / deno), r (r (-cc * fdot dm.c1 v) / deno))

end Verif.Round
