/-
Model of `angle_acc` (track.py) and of the test of its result in floating point arithmetic: every operation is followed by a rounding,
and the arc cosine of a number outside [-1, 1] is not a number.
-/
import Verif.Model.RoundedTrace
import Verif.Model.Motion

namespace Verif.Round
open Verif.Geo

/-- `np.arccos` in compiled code: NaN (`none`) outside [-1, 1], otherwise the value `ac` of the library. -/
noncomputable def arccosF (ac : ℝ → ℝ) (x : ℝ) : Option ℝ := if |x| ≤ 1 then some (ac x) else none

open Classical in
/-- track.py:232-268 `angle_acc`, returning `(angle, acc)`; the angle `none` is NaN. Simplified: the operations in the order written
(compiled with fastmath they may be rearranged). `np.sum(v0 * v1)` is `l.dot`, `np.linalg.norm` is `l.norm`, `np.pi` is `r π`. -/
noncomputable def angleAcc (r : ℝ → ℝ) (l : Lib) (ac : ℝ → ℝ) (start pred cand : V3) : Py (Option ℝ × ℝ) :=
  let v0 := sub r pred start
  let v1 := sub r cand start
  let acc := l.norm (sub r v0 v1)
  if v0 = neg v1 then .ok (some 200, acc)
  else if v0 = v1 then .ok (some 0, acc)
  else
    let nn := r (l.norm (sub r start pred) * l.norm (sub r start cand))
    if nn = 0 then .error .zeroDivision
    else .ok ((arccosF ac (r (l.dot v0 v1 / nn))).map fun a => r (r (200 / r Real.pi) * a), acc)

/-- track.py:904-908, 955, 982-984: the test whether a candidate is kept. A comparison with NaN is false. -/
def kept (r : ℝ → ℝ) (angle : Option ℝ) (acc dangle dacc : ℝ) : Prop :=
  (acc < dacc ∧ ∃ a, angle = some a ∧ a < dangle) ∨ acc < r (dacc / 10)

end Verif.Round
