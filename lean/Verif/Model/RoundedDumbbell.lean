/-
Model of `weighted_dumbbell_precision` (orientation.py) in floating point arithmetic: every operation is followed by a rounding.
-/
import Verif.Model.RoundedTrace
import Verif.Model.Orientation

namespace Verif.Round
open Verif.Geo

/-- orientation.py:132-135: relative length error of one dumbbell; `fnorm` is `np.linalg.norm`. -/
noncomputable def lenErr (r : ℝ → ℝ) (fnorm : V3 → ℝ) (dbLength : ℝ) (p q : V3) : ℝ :=
  let dist := fnorm (sub r p q)
  r (1 - (if dist > dbLength then r (dbLength / dist) else r (dist / dbLength)))

/-- orientation.py:127-135: the loop over the points, as `Geo.dumbbellLoop`. -/
noncomputable def dumbbellLoop (r : ℝ → ℝ) (fnorm : V3 → ℝ) (dbLength : ℝ) : List (ℝ × V3) → ℝ × ℝ → ℝ × ℝ
  | [], s => s
  | [p], s => (r (s.1 + p.1), s.2)
  | p :: q :: ps, s =>
    dumbbellLoop r fnorm dbLength ps (r (r (s.1 + p.1) + q.1), r (s.2 + lenErr r fnorm dbLength p.2 q.2))

/-- orientation.py:121-139: the score for the results of `point_position`. (The number of points and half of it are exact.) -/
noncomputable def dumbbellScore (r : ℝ → ℝ) (fnorm : V3 → ℝ) (dbLength dbWeight : ℝ) (ps : List (ℝ × V3)) : ℝ :=
  let s := dumbbellLoop r fnorm dbLength ps (0, 0)
  r (r (s.1 / ps.length) + r (r (dbWeight * s.2) / (0.5 * ps.length)))

end Verif.Round
