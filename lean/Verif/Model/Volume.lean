/-
Model of multimed.py `volumedimension` and `init_mmlut`, and of epi.py `epipolar_curve`.
-/
import Verif.Model.Multimed

namespace Verif.Geo
open V3

/-! ### epipolar_curve -/

/-- `np.linspace(a, b, n)`. -/
noncomputable def linspace (a b : ℝ) (n : ℕ) : List ℝ :=
  (List.range n).map fun i : ℕ => if n = 1 then a else a + (i : ℝ) * ((b - a) / (n - 1 : ℝ))

/-- epi.py:375-384: one point of the curve. The direction is passed on as `move_along_ray` leaves it. -/
noncomputable def curvePoint (vertex : V3) (cal2 : Cam) (lut2 : LUT) (mm : MM) (ip : ImgPar) (Z : ℝ)
    (direct : V3) : Option ((ℝ × ℝ) × V3) := do
  let m := moveAlongRay Z vertex direct
  let p ← imgCoord m.1 cal2 lut2 mm
  some (metricToPixel p.1 p.2 ip, m.2)

/-- epi.py:375-384: the loop over the depths. -/
noncomputable def curveLoop (vertex : V3) (cal2 : Cam) (lut2 : LUT) (mm : MM) (ip : ImgPar) :
    List ℝ → V3 → Option (List (ℝ × ℝ))
  | [], _ => some []
  | Z :: zs, direct => do
    let r ← curvePoint vertex cal2 lut2 mm ip Z direct
    let rs ← curveLoop vertex cal2 lut2 mm ip zs r.2
    some (r.1 :: rs)

/-- epi.py:326-386 `epipolar_curve`. `none`: an exception. -/
noncomputable def epipolarCurve (pt : ℝ × ℝ) (cal1 cal2 : Cam) (lut2 : LUT) (n : ℕ) (mm : MM)
    (ip : ImgPar) (v : VPar) : Option (List (ℝ × ℝ)) := do
  let m := pixelToMetric pt.1 pt.2 ip
  let f := distToFlat m.1 m.2 cal1.xh cal1.yh cal1.ap 0.00001
  let r ← rayTracing f.1 f.2 cal1 mm
  curveLoop r.1 cal2 lut2 mm ip (linspace v.zMin0 v.zMax0 n) r.2

/-! ### volumedimension -/

/-- The four running extremes of `volumedimension`. -/
structure Bounds where
  xmax : ℝ
  xmin : ℝ
  ymax : ℝ
  ymin : ℝ

/-- multimed.py:434-441 and 446-453: widen the bounds by a point. -/
noncomputable def widen (b : Bounds) (X Y : ℝ) : Bounds :=
  ⟨if X > b.xmax then X else b.xmax, if X < b.xmin then X else b.xmin,
   if Y > b.ymax then Y else b.ymax, if Y < b.ymin then Y else b.ymin⟩

/-- multimed.py:421-428 (and 268-272 in `init_mmlut`): the ray of an image corner. -/
noncomputable def cornerRay (ip : ImgPar) (cal : Cam) (mm : MM) (xc yc : ℝ) : Option (V3 × V3) :=
  let m := pixelToMetric xc yc ip
  let f := correctBrownAffine (m.1 - cal.xh) (m.2 - cal.yh) cal.ap 1e-5
  rayTracing f.1 f.2 cal mm

/-- multimed.py:430-453: one corner. (The sign in the z_min plane is the code's.) -/
noncomputable def volCorner (ip : ImgPar) (mm : MM) (zMin zMax : ℝ) (cal : Cam) (xc yc : ℝ) (b : Bounds) :
    Option Bounds :=
  (cornerRay ip cal mm xc yc).map fun pa =>
    let b := widen b (pa.1.x + (zMin + pa.1.z) * pa.2.x / pa.2.z) (pa.1.y + (zMin + pa.1.z) * pa.2.y / pa.2.z)
    widen b (pa.1.x + (zMax - pa.1.z) * pa.2.x / pa.2.z) (pa.1.y + (zMax - pa.1.z) * pa.2.y / pa.2.z)

/-- multimed.py:417-453: the corners of one camera, in the order of the code. -/
noncomputable def volCam (ip : ImgPar) (mm : MM) (zMin zMax : ℝ) (cal : Cam) (b : Bounds) : Option Bounds := do
  let b ← volCorner ip mm zMin zMax cal 0 0 b
  let b ← volCorner ip mm zMin zMax cal 0 ip.imy b
  let b ← volCorner ip mm zMin zMax cal ip.imx 0 b
  volCorner ip mm zMin zMax cal ip.imx ip.imy b

/-- multimed.py:416 `for i_cam in range(num_cams)`. -/
noncomputable def volCams (ip : ImgPar) (mm : MM) (zMin zMax : ℝ) : List Cam → Bounds → Option Bounds
  | [], b => some b
  | cal :: cals, b => do
    let b ← volCam ip mm zMin zMax cal b
    volCams ip mm zMin zMax cals b

/-- multimed.py:395-455 `volumedimension`, for `num_cams` cameras; the `z_max`, `z_min` arguments of the
code are overwritten. Returns the bounds, `z_max` and `z_min`. `none`: an exception. -/
noncomputable def volumeDimension (b : Bounds) (v : VPar) (ip : ImgPar) (mm : MM) (cals : List Cam) :
    Option (Bounds × ℝ × ℝ) := do
  let zMin := if v.zMin1 < v.zMin0 then v.zMin1 else v.zMin0
  let zMax := if v.zMax1 > v.zMax0 then v.zMax1 else v.zMax0
  let b ← volCams ip mm zMin zMax cals b
  some (b, zMax, zMin)

/-! ### init_mmlut -/

/-- `np.fmod(x, rw)`: the remainder has the sign of `x`. -/
noncomputable def fmod (x rw : ℝ) : ℝ := x - rw * truncZ (x / rw)

/-- The running extremes of `init_mmlut`, and the camera's height `cal_t.ext_par.z0`. -/
structure LutRange where
  zMin : ℝ
  zMax : ℝ
  rMax : ℝ
  z0 : ℝ

/-- multimed.py:273-288 (and 290-305): widen by the point of a corner ray, `z` its depth. The frame
calibration `cal_t` has `x0 = y0 = 0`. -/
noncomputable def lutWiden (cal : Cam) (d z : ℝ) (pos a : V3) (s : LutRange) : LutRange × V3 :=
  let m := moveAlongRay z pos a
  let t := transCamPoint cal.pos d cal.glass m.1
  let R := V3.norm ⟨t.1.x - 0, t.1.y - 0, 0⟩
  (⟨if t.1.z < s.zMin then t.1.z else s.zMin, if t.1.z > s.zMax then t.1.z else s.zMax,
    if R > s.rMax then R else s.rMax, t.2.2.2⟩, m.2)

/-- multimed.py:268-305: one corner. -/
noncomputable def lutCorner (ip : ImgPar) (mm : MM) (d zMin zMax : ℝ) (cal : Cam) (xc yc : ℝ) (s : LutRange) :
    Option LutRange :=
  (cornerRay ip cal mm xc yc).map fun pa =>
    let r := lutWiden cal d zMin pa.1 pa.2 s
    (lutWiden cal d zMax pa.1 r.2 r.1).1

/-- multimed.py:266-305: the four corners. -/
noncomputable def lutCorners (ip : ImgPar) (mm : MM) (d zMin zMax : ℝ) (cal : Cam) (s : LutRange) :
    Option LutRange := do
  let s ← lutCorner ip mm d zMin zMax cal 0 0 s
  let s ← lutCorner ip mm d zMin zMax cal 0 ip.imy s
  let s ← lutCorner ip mm d zMin zMax cal ip.imx 0 s
  lutCorner ip mm d zMin zMax cal ip.imx ip.imy s

/-- multimed.py:254-258: the rounded depth range; `rw = 2`. -/
noncomputable def lutZMin (v : VPar) : ℝ := min v.zMin0 v.zMin1 - fmod (min v.zMin0 v.zMin1) 2
noncomputable def lutZMax (v : VPar) : ℝ := max v.zMax0 v.zMax1 + (2 - fmod (max v.zMax0 v.zMax1) 2)

/-- multimed.py:307-312: the number of raster lines. -/
noncomputable def lutNr (s : LutRange) : ℕ := (truncZ ((s.rMax + (2 - fmod s.rMax 2)) / 2 + 1)).toNat
noncomputable def lutNz (s : LutRange) : ℕ := (truncZ ((s.zMax - s.zMin) / 2 + 1)).toNat

/-- multimed.py:321-328: the values of the table, row by row; `old` is the (copied) header `cal_t` has,
with a data array of zeros. `none`: an exception. -/
noncomputable def lutValues (old : LUT) (mm : MM) (s : LutRange) (nr nz : ℕ) : Option (List ℝ) :=
  ((List.range nr).flatMap fun i : ℕ => (List.range nz).map fun j : ℕ => ((i : ℝ), (j : ℝ))).mapM fun ij =>
    multimedRNlay (projLUT old) 0 0 s.z0 mm ⟨ij.1 * 2 + 0, 0, ij.2 * 2 + s.zMin⟩

/-- multimed.py:244-333 `init_mmlut`: the new table of the camera (header, and data if there were none). -/
noncomputable def initMmlut (v : VPar) (ip : ImgPar) (mm : MM) (cal : Cam) (old : LUT) : Option LUT :=
  match mm.d with
  | [] => none
  | d :: _ => do
    let s ← lutCorners ip mm d (lutZMin v) (lutZMax v) cal ⟨lutZMin v, lutZMax v, 0, 0⟩
    let nr := lutNr s
    let nz := lutNz s
    if old.rows = 0 ∧ old.cols = 0 then do
      let data ← lutValues old mm s nr nz
      some ⟨⟨0, 0, s.zMin⟩, nr, nz, 2, nr, nz, data⟩
    else some { old with origin := ⟨0, 0, s.zMin⟩, nr := nr, nz := nz, rw := 2 }

end Verif.Geo
