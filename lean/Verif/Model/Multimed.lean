/-
Model of openptv_python/multimed.py (multimedia geometry) and imgcoord.py.
-/
import Verif.Model.RayTracing
import Mathlib.Analysis.SpecialFunctions.Trigonometric.Arctan
import Mathlib.Algebra.Order.Floor.Ring

namespace Verif.Geo
open V3

/-! ### Camera/glass frame -/

/-- multimed.py:120-151 `fast_trans_cam_point`: returns `(pos_t, cross_p, cross_c, z0)`. -/
noncomputable def transCamPoint (primary : V3) (d : ℝ) (glass pos : V3) : V3 × V3 × V3 × ℝ :=
  let distOGlass := if norm glass = 0 then 1 else norm glass
  let distCamGlas := dot primary glass / distOGlass - distOGlass - d
  let distPointGlass := dot pos glass / distOGlass - distOGlass
  let crossC := primary - smul glass (distCamGlas / distOGlass)
  let crossP := pos - smul glass (distPointGlass / distOGlass)
  let z0 := distCamGlas + d
  let temp := crossP - (crossC - smul glass (d / distOGlass))
  (⟨norm temp, 0, distPointGlass⟩, crossP, crossC, z0)

/-- multimed.py:179-214 `fast_back_trans_point`. -/
noncomputable def backTransPoint (glass : V3) (d : ℝ) (crossC crossP posT : V3) : V3 :=
  let ng := norm glass
  let afterGlass := crossC - smul glass (d / ng)
  let temp := crossP - afterGlass
  let nt := norm temp
  let pos := afterGlass - smul glass (-posT.z / ng)
  if nt > 0 then pos - smul temp (-posT.x / nt) else pos

/-! ### Radial shift -/

/-- multimed.py:85-93: the radial distance at which the ray aimed at apparent radius `rq` arrives. -/
noncomputable def rBeta (n1 n2 n3 : ℝ) (d : List ℝ) (z0 zout zdiff rq : ℝ) : ℝ :=
  let beta1 := Real.arctan (rq / zdiff)
  let beta2 := Real.arcsin (Real.sin beta1 * n1 / n2)
  let beta3 := Real.arcsin (Real.sin beta1 * n1 / n3)
  (z0 - d.headD 0) * Real.tan beta1 - zout * Real.tan beta3 + (d.map (· * Real.tan beta2)).sum

/-- multimed.py:82-97, the loop. First argument: passes still allowed. Returns the final `rq`. -/
noncomputable def radialLoop (n1 n2 n3 : ℝ) (d : List ℝ) (z0 zout zdiff r : ℝ) :
    ℕ → ℝ → ℝ → ℝ
  | 0, rq, _ => rq
  | fuel + 1, rq, rdiff =>
    if |rdiff| > 0.001 then
      let rdiff' := r - rBeta n1 n2 n3 d z0 zout zdiff rq
      radialLoop n1 n2 n3 d z0 zout zdiff r fuel (rq + rdiff') rdiff'
    else rq

/-- `np.linalg.norm` of a length-2 array. -/
noncomputable def norm2 (a b : ℝ) : ℝ := Real.sqrt (a * a + b * b)

/-- multimed.py:60-99 `fast_multimed_r_nlay`. `n2`, `d` are non-empty in the code. -/
noncomputable def fastMultimedRNlay (nlay : ℕ) (n1 n2 n3 : ℝ) (d : List ℝ) (x0 y0 z0 : ℝ)
    (pos : V3) : ℝ :=
  let r := norm2 (pos.x - x0) (pos.y - y0)
  let zout := pos.z + (d.tail.take (nlay - 1)).sum
  let zdiff := if z0 - pos.z = 0 then 1 else z0 - pos.z
  let rq := radialLoop n1 n2 n3 d z0 zout zdiff r 40 r 0.1
  if r = 0 then 1 else rq / r

/-! ### Look-up table -/

/-- The multimedia look-up table of a `Calibration`: header fields and the flattened data.
`rows`, `cols` is the shape of `mmlut_data`. -/
structure LUT where
  origin : V3
  nr : ℕ
  nz : ℕ
  rw : ℤ
  rows : ℕ
  cols : ℕ
  data : List ℝ

/-- calibration.py:95-96: the table of a fresh `Calibration`. -/
def emptyLUT : LUT := ⟨0, 0, 0, 0, 0, 0, []⟩

/-- Python's `int()` of a float: truncation towards zero. -/
noncomputable def truncZ (x : ℝ) : ℤ := if 0 ≤ x then ⌊x⌋ else ⌈x⌉

/-- `data[i]` for `i ≥ 0`; `none` is IndexError. -/
def getZ (l : List ℝ) (i : ℤ) : Option ℝ := if i < 0 then none else l[i.toNat]?

/-- multimed.py:350-392 `fast_get_mmf_from_mmlut`. `none` is IndexError. -/
noncomputable def getMmf (t : LUT) (pos : V3) : Option ℝ :=
  let temp := pos - t.origin
  let sz := temp.z / t.rw
  let iz := truncZ sz
  let sz := sz - iz
  let R := V3.norm ⟨temp.x, temp.y, 0⟩
  let sr := R / t.rw
  let ir := truncZ sr
  let sr := sr - ir
  if ir > t.nr then some 0
  else if iz < 0 ∨ iz > t.nz then some 0
  else
    let v0 := ir * t.nz + iz
    let v1 := ir * t.nz + (iz + 1)
    let v2 := (ir + 1) * t.nz + iz
    let v3 := (ir + 1) * t.nz + (iz + 1)
    if [v0, v1, v2, v3].any (fun v => decide (v < 0 ∨ v > (t.nr * t.nz : ℤ))) then some 0
    else do
      let a ← getZ t.data v0
      let b ← getZ t.data v1
      let c ← getZ t.data v2
      let e ← getZ t.data v3
      some (a * (1 - sr) * (1 - sz) + b * (1 - sr) * sz + c * sr * (1 - sz) + e * sr * sz)

/-- multimed.py:30-57 `multimed_r_nlay`. `none` is IndexError. -/
noncomputable def multimedRNlay (lut : LUT) (x0 y0 z0 : ℝ) (mm : MM) (pos : V3) : Option ℝ :=
  match mm.n2 with
  | [] => none
  | n2 :: _ =>
    if mm.n1 = 1 ∧ mm.nlay = 1 ∧ n2 = 1 ∧ mm.n3 = 1 then some 1
    else
      let compute := some (fastMultimedRNlay mm.nlay mm.n1 n2 mm.n3 mm.d x0 y0 z0 pos)
      if ¬(lut.rows = 0 ∧ lut.cols = 0) then do
        let mmf ← getMmf lut pos
        if mmf > 0 then some mmf else compute
      else compute

/-- multimed.py:17-27 `multimed_nlay`. -/
noncomputable def multimedNlay (lut : LUT) (x0 y0 z0 : ℝ) (mm : MM) (pos : V3) : Option (ℝ × ℝ) := do
  let s ← multimedRNlay lut x0 y0 z0 mm pos
  some (x0 + (pos.x - x0) * s, y0 + (pos.y - y0) * s)

/-! ### Projection -/

/-- imgcoord.py:31 `Calibration(mmlut=cal.mmlut)`: keeps the table header, with a data array of the
header's size filled with zeros (calibration.py:121-122). -/
def projLUT (t : LUT) : LUT :=
  { t with rows := t.nr, cols := t.nz, data := List.replicate (t.nr * t.nz) 0 }

/-- imgcoord.py:50-60: collinearity equations for a position in air, with the guard on `deno`. -/
noncomputable def collinear (cal : Cam) (pos : V3) : ℝ × ℝ :=
  let v := pos - cal.pos
  let deno := if dot cal.dm.c2 v = 0 then 1 else dot cal.dm.c2 v
  (-cal.cc * dot cal.dm.c0 v / deno, -cal.cc * dot cal.dm.c1 v / deno)

/-- imgcoord.py:13-60 `flat_image_coord`. The frame calibration `cal_t` has `x0 = y0 = 0`.
`none` is IndexError. -/
noncomputable def flatImageCoord (orig : V3) (cal : Cam) (lut : LUT) (mm : MM) : Option (ℝ × ℝ) :=
  match mm.d with
  | [] => none
  | d :: _ => do
    let t := transCamPoint cal.pos d cal.glass orig
    let xy ← multimedNlay (projLUT lut) 0 0 t.2.2.2 mm t.1
    let posT : V3 := ⟨xy.1, xy.2, t.1.z⟩
    some (collinear cal (backTransPoint cal.glass d t.2.2.1 t.2.1 posT))

/-- imgcoord.py:75-91 `img_coord`. -/
noncomputable def imgCoord (pos : V3) (cal : Cam) (lut : LUT) (mm : MM) : Option (ℝ × ℝ) := do
  let f ← flatImageCoord pos cal lut mm
  some (flatToDist f.1 f.2 cal.xh cal.yh cal.ap)

/-- epi.py:51-105 `epi_mm`: end points of the epipolar line of an image point of `cal1` in `cal2`. -/
noncomputable def epiMM (xl yl : ℝ) (cal1 cal2 : Cam) (lut2 : LUT) (mm : MM) (v : VPar) :
    Option ((ℝ × ℝ) × (ℝ × ℝ)) := do
  let pv ← rayTracing xl yl cal1 mm
  let m1 := moveAlongRay (zMinAt v pv.1.x) pv.1 pv.2
  let p1 ← flatImageCoord m1.1 cal2 lut2 mm
  let m2 := moveAlongRay (zMaxAt v pv.1.x) pv.1 m1.2
  let p2 ← flatImageCoord m2.1 cal2 lut2 mm
  some (p1, p2)

end Verif.Geo
