/-
Model of openptv_python/trafo.py and of calibration.py:rotation_matrix.
-/
import Verif.Model.Vec
import Verif.Model.Py
import Mathlib.Analysis.SpecialFunctions.Trigonometric.Basic

namespace Verif.Geo

/-- The fields of `ControlPar` used by trafo.py: image size in pixels and pixel size. -/
structure ImgPar where
  imx : ℕ
  imy : ℕ
  pixX : ℝ
  pixY : ℝ

/-- trafo.py:12-42 `pixel_to_metric` / `fast_pixel_to_metric`. -/
noncomputable def pixelToMetric (xp yp : ℝ) (c : ImgPar) : ℝ × ℝ :=
  ((xp - (c.imx : ℝ) / 2) * c.pixX, ((c.imy : ℝ) / 2 - yp) * c.pixY)

/-- trafo.py:69-101 `metric_to_pixel` / `fast_metric_to_pixel`. -/
noncomputable def metricToPixel (xm ym : ℝ) (c : ImgPar) : ℝ × ℝ :=
  (xm / c.pixX + (c.imx : ℝ) / 2, (c.imy : ℝ) / 2 - ym / c.pixY)

/-- Column-wise assignment into a fresh n×2 array: both columns are computed from the input
array, then stored (`a[:,0] = ...; a[:,1] = ...`). -/
def zipCols (a b : List ℝ) : List (ℝ × ℝ) := List.zip a b

/-- An array of pixel positions: `dtype=np.int32`, or `float64`. (Other types are treated as `float64`; whole numbers are not bounded
by 2^31.) -/
inductive PixArr
  | int32 (rows : List (ℤ × ℤ))
  | float64 (rows : List (ℝ × ℝ))

/-- trafo.py:61-64, column by column. -/
noncomputable def metricColumns (px : List (ℝ × ℝ)) (c : ImgPar) : List (ℝ × ℝ) :=
  zipCols ((px.map Prod.fst).map fun v => (v - (c.imx : ℝ) / 2) * c.pixX)
    ((px.map Prod.snd).map fun v => ((c.imy : ℝ) / 2 - v) * c.pixY)

/-- trafo.py:44-66 `arr_pixel_to_metric`. Its numba signature (line 44) takes `int32[:, :]`; for an array of another type the call
raises TypeError (no matching definition). -/
noncomputable def arrPixelToMetric (px : PixArr) (c : ImgPar) : Py (List (ℝ × ℝ)) :=
  match px with
  | .int32 rows => .ok (metricColumns (rows.map fun r : ℤ × ℤ => ((r.1 : ℝ), (r.2 : ℝ))) c)
  | .float64 _ => .error .typeError

/-- trafo.py:104-133 `arr_metric_to_pixel` / `fast_arr_metric_to_pixel`, of an array of type `float64` (others raise TypeError, line
123). The result is of type `float64`. -/
noncomputable def arrMetricToPixel (m : List (ℝ × ℝ)) (c : ImgPar) : List (ℝ × ℝ) :=
  zipCols ((m.map Prod.fst).map fun v => v / c.pixX + (c.imx : ℝ) / 2)
    ((m.map Prod.snd).map fun v => (c.imy : ℝ) / 2 - v / c.pixY)

/-- The added parameters, the 7-element array `ap` (calibration.py `ap_52`). -/
structure AddPar where
  k1 : ℝ
  k2 : ℝ
  k3 : ℝ
  p1 : ℝ
  p2 : ℝ
  scx : ℝ
  she : ℝ

/-- trafo.py:136-167 `distort_brown_affine`. As in the code, the `y` line uses the `x` that has
already been overwritten. -/
noncomputable def distortBrownAffine (x y : ℝ) (ap : AddPar) : ℝ × ℝ :=
  if x = 0 ∧ y = 0 then (0, 0) else
  let r := Real.sqrt (x ^ 2 + y ^ 2)
  let x' := x + (x * (ap.k1 * r ^ 2 + ap.k2 * r ^ 4 + ap.k3 * r ^ 6)
    + ap.p1 * (r ^ 2 + 2 * x ^ 2) + 2 * ap.p2 * x * y)
  let y' := y + (y * (ap.k1 * r ^ 2 + ap.k2 * r ^ 4 + ap.k3 * r ^ 6)
    + ap.p2 * (r ^ 2 + 2 * y ^ 2) + 2 * ap.p1 * x' * y)
  (ap.scx * x' - Real.sin ap.she * y', Real.cos ap.she * y')

/-- Loop state of `correct_brown_affine`: the iterate, its (damped) radius, the radius before the
last iteration and the value of `common_term`. -/
structure CorrState where
  xq : ℝ
  yq : ℝ
  rq : ℝ
  r : ℝ
  common : ℝ

/-- trafo.py:187-206, one pass of the loop body (without the counter). -/
noncomputable def corrStep (x y : ℝ) (ap : AddPar) (s : CorrState) : CorrState :=
  let r := s.rq
  let common := ap.k1 * r ^ 2 + ap.k2 * r ^ 4 + ap.k3 * r ^ 6
  let xqc := s.xq * common
  let yqc := s.yq * common
  let xq := (x + s.yq * Real.sin ap.she) / ap.scx - xqc - ap.p1 * (r ^ 2 + 2 * s.xq ^ 2)
    - 2 * ap.p2 * s.xq * s.yq
  let yq := y / Real.cos ap.she - yqc - ap.p2 * (r ^ 2 + 2 * s.yq ^ 2) - 2 * ap.p1 * xq * s.yq
  let rq := Real.sqrt (xq ^ 2 + yq ^ 2)
  let rq := if rq > 1.2 * r then 0.5 * r else rq
  ⟨xq, yq, rq, r, common⟩

/-- trafo.py:186-209, `while True: ...; if itnum >= 201 or |rq - r| <= tol*r: break`.
`fuel` is the number of passes still allowed after the next one; the code starts with 200. -/
noncomputable def corrLoop (x y : ℝ) (ap : AddPar) (tol : ℝ) : ℕ → CorrState → CorrState
  | 0, s => corrStep x y ap s
  | fuel + 1, s =>
    let s' := corrStep x y ap s
    if |s'.rq - s'.r| ≤ tol * s'.r then s' else corrLoop x y ap tol fuel s'

/-- trafo.py:211-221, the final evaluation after the loop. -/
noncomputable def corrFinal (x y : ℝ) (ap : AddPar) (s : CorrState) : ℝ × ℝ :=
  let r := s.rq
  ((x + s.yq * Real.sin ap.she) / ap.scx - s.xq * s.common - ap.p1 * (r ^ 2 + 2 * s.xq ^ 2)
    - 2 * ap.p2 * s.xq * s.yq,
   y / Real.cos ap.she - s.yq * s.common - ap.p2 * (r ^ 2 + 2 * s.yq ^ 2)
    - 2 * ap.p1 * s.xq * s.yq)

/-- trafo.py:170-184: the values of the variables when the loop is entered
(`r` and `common_term` have no meaning yet). -/
noncomputable def corrInit (x y : ℝ) : CorrState := ⟨x, y, Real.sqrt (x ^ 2 + y ^ 2), 0, 0⟩

/-- trafo.py:170-221 `correct_brown_affine`. -/
noncomputable def correctBrownAffine (x y : ℝ) (ap : AddPar) (tol : ℝ) : ℝ × ℝ :=
  if x = 0 ∧ y = 0 then (x, y) else
  corrFinal x y ap (corrLoop x y ap tol 200 (corrInit x y))

/-- trafo.py:224-240 `flat_to_dist`; `xh yh` is the principal point of `cal.int_par`. -/
noncomputable def flatToDist (fx fy xh yh : ℝ) (ap : AddPar) : ℝ × ℝ :=
  distortBrownAffine (fx + xh) (fy + yh) ap

/-- trafo.py:243-248 `dist_to_flat`. -/
noncomputable def distToFlat (dx dy xh yh : ℝ) (ap : AddPar) (tol : ℝ) : ℝ × ℝ :=
  let f := correctBrownAffine dx dy ap tol
  (f.1 - xh, f.2 - yh)

/-- calibration.py:12-50 `rotation_matrix`, also used by `Exterior.set_rotation_matrix`. -/
noncomputable def rotationMatrix (omega phi kappa : ℝ) : M3 :=
  let co := Real.cos omega
  let so := Real.sin omega
  let cp := Real.cos phi
  let sp := Real.sin phi
  let ck := Real.cos kappa
  let sk := Real.sin kappa
  ⟨⟨cp * ck, -cp * sk, sp⟩,
   ⟨co * sk + so * sp * ck, co * ck - so * sp * sk, -so * cp⟩,
   ⟨so * sk - co * sp * ck, so * ck + co * sp * sk, co * cp⟩⟩

end Verif.Geo
