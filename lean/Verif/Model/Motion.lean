/-
Model of openptv_python/track.py: prediction, velocity gates, angle and acceleration, projection to
pixels and the search window in the images.
-/
import Verif.Model.Multimed
import Verif.Model.Trafo
import Verif.Model.Py
import Mathlib.Analysis.SpecialFunctions.Trigonometric.Inverse

namespace Verif.Geo
open V3

/-- track.py:157-179 `search_volume_center_moving`. -/
def searchVolumeCenterMoving (prev curr : V3) : V3 := curr.smul 2 - prev

/-- track.py:182-199 `predict`: the contents of `output` after the call. -/
def predict (prev curr : ℝ × ℝ) : ℝ × ℝ := (2 * curr.1 - prev.1, 2 * curr.2 - prev.2)

/-- The velocity limits of `TrackPar` (`dvxmin` ... `dvzmax`). -/
structure Vel where
  lo : V3
  hi : V3

/-- track.py:203-222 `pos3d_in_bounds`. -/
def Pos3dInBounds (p : V3) (v : Vel) : Prop :=
  (v.lo.x < p.x ∧ p.x < v.hi.x) ∧ (v.lo.y < p.y ∧ p.y < v.hi.y) ∧ (v.lo.z < p.z ∧ p.z < v.hi.z)

/-- `-v` on a length-3 array. -/
def neg (v : V3) : V3 := ⟨-v.x, -v.y, -v.z⟩

open Classical in
/-- track.py:232-268 `angle_acc`, returning `(angle, acc)`. A zero product of norms raises
ZeroDivisionError in compiled code. -/
noncomputable def angleAcc (start pred cand : V3) : Py (ℝ × ℝ) :=
  let v0 := pred - start
  let v1 := cand - start
  let acc := norm (v0 - v1)
  if v0 = neg v1 then .ok (200, acc)
  else if v0 = v1 then .ok (0, acc)
  else
    let nn := norm (start - pred) * norm (start - cand)
    if nn = 0 then .error .zeroDivision
    else .ok ((200 / Real.pi) * Real.arccos (dot v0 v1 / nn), acc)

/-- track.py:556-577 `point_to_pixel`. `none`: the projection raises. -/
noncomputable def pointToPixel (P : V3) (cal : Cam) (lut : LUT) (mm : MM) (ip : ImgPar) :
    Option (ℝ × ℝ) :=
  (imgCoord P cal lut mm).map fun m => metricToPixel m.1 m.2 ip

/-- track.py:434-442: the corner number `pt` of the search box around `point`. -/
def quader (point : V3) (v : Vel) (pt : ℕ) : V3 :=
  ⟨point.x + (if pt.testBit 0 then v.hi.x else v.lo.x),
   point.y + (if pt.testBit 1 then v.hi.y else v.lo.y),
   point.z + (if pt.testBit 2 then v.hi.z else v.lo.z)⟩

/-- Limits of the search area in one image, in pixels: left, right, up, down. -/
structure Area where
  xl : ℝ
  xr : ℝ
  yu : ℝ
  yd : ℝ

/-- track.py:460-468: extend the area by one corner. -/
noncomputable def Area.extend (a : Area) (c : ℝ × ℝ) : Area :=
  ⟨if c.1 < a.xl then c.1 else a.xl, if c.1 > a.xr then c.1 else a.xr,
   if c.2 < a.yu then c.2 else a.yu, if c.2 > a.yd then c.2 else a.yd⟩

/-- track.py:456-468: the loop over the corners. -/
noncomputable def areaLoop (proj : V3 → Option (ℝ × ℝ)) (point : V3) (v : Vel) :
    List ℕ → Area → Option Area
  | [], a => some a
  | pt :: pts, a => do
    let c ← proj (quader point v pt)
    areaLoop proj point v pts (a.extend c)

/-- track.py:470-477: clip to the image. -/
noncomputable def Area.clip (a : Area) (imx imy : ℝ) : Area :=
  ⟨if a.xl < 0 then 0 else a.xl, if a.xr > imx then imx else a.xr,
   if a.yu < 0 then 0 else a.yu, if a.yd > imy then imy else a.yd⟩

/-- track.py:419-487 `searchquader` for one camera, with `proj` its `point_to_pixel`. Returns the entries
of `xl, xr, yu, yd`: distances from the projected centre. -/
noncomputable def searchQuader (proj : V3 → Option (ℝ × ℝ)) (imx imy : ℕ) (point : V3) (v : Vel) :
    Option Area := do
  let center ← proj point
  let a ← areaLoop proj point v (List.range 8) ⟨imx, 0, imy, 0⟩
  let a := a.clip imx imy
  some ⟨center.1 - a.xl, a.xr - center.1, center.2 - a.yu, a.yd - center.2⟩

end Verif.Geo
