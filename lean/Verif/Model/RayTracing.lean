/-
Model of openptv_python/ray_tracing.py, and of the ray helpers multimed.py:move_along_ray and
epi.py:epi_mm, epi_mm_2D.
-/
import Verif.Model.Trafo

namespace Verif.Geo
open V3

/-- The camera data of a `Calibration` used by the projection code: projection centre, the three
angles' rotation matrix, principal distance, principal point, added parameters, glass vector. -/
structure Cam where
  pos : V3
  dm : M3
  cc : ℝ
  xh : ℝ
  yh : ℝ
  ap : AddPar
  glass : V3

/-- `MultimediaPar`: `n1`, the layer indices `n2`, `n3` and the layer thicknesses `d`.
`nlay` is a separate field in the code. -/
structure MM where
  nlay : ℕ
  n1 : ℝ
  n2 : List ℝ
  n3 : ℝ
  d : List ℝ

/-- The part of ray_tracing.py:96-106 (and again 120-130) that turns a direction `u` with normal
component `n` and tangential part `perp` into the direction behind an interface from index `na` to
index `nb`. Returns the direction and its normal component. -/
noncomputable def refractDir (g perp : V3) (n na nb : ℝ) : V3 × ℝ :=
  let bp := unit perp
  let p := Real.sqrt (1 - n ^ 2) * na / nb
  let n' := -Real.sqrt (1 - p ^ 2)
  (smul bp p + smul g n', n')

/-- ray_tracing.py:63-132 `fast_ray_tracing`. -/
noncomputable def fastRayTracing (initDir : V3) (dm : M3) (primary glass : V3)
    (d n1 n2 n3 : ℝ) : V3 × V3 :=
  let dir := dm.mulVec (unit initDir)
  let g := unit glass
  let c := norm glass + d
  let distCamGlass := dot g primary - c
  let dp := if dot g dir = 0 then 1e-6 else dot g dir
  let d1 := -distCamGlass / dp
  let Xb := primary + smul dir d1
  let n := dot dir g
  let perp := dir - smul g n
  let a2n := refractDir g perp n n1 n2
  let a2 := a2n.1
  let ad := if |dot g a2| = 0 then 1e-6 else |dot g a2|
  let d2 := d / ad
  let X := Xb + smul a2 d2
  let n := dot a2 g
  let perp := a2 - smul g a2n.2
  (X, (refractDir g perp n n2 n3).1)

/-- ray_tracing.py:14-58 `ray_tracing`. `n2`, `d` are `mm.n2[0]`, `mm.d[0]`; the lists are non-empty
in the code (parameters.py), an empty list would raise IndexError (`none`). -/
noncomputable def rayTracing (x y : ℝ) (cal : Cam) (mm : MM) : Option (V3 × V3) :=
  match mm.d, mm.n2 with
  | d :: _, n2 :: _ =>
    some (fastRayTracing ⟨x, y, -cal.cc⟩ cal.dm cal.pos cal.glass d mm.n1 n2 mm.n3)
  | _, _ => none

/-- multimed.py:216-241 `move_along_ray`. (The code writes 1 into the caller's `direct[2]` when it is
0; the effect on the caller's array is the second component.) -/
noncomputable def moveAlongRay (globZ : ℝ) (vertex direct : V3) : V3 × V3 :=
  let direct := if direct.z = 0 then ⟨direct.x, direct.y, 1⟩ else direct
  (⟨vertex.x + (globZ - vertex.z) * direct.x / direct.z,
    vertex.y + (globZ - vertex.z) * direct.y / direct.z, globZ⟩, direct)

/-- `VolumePar`: the two-layer description of the measurement volume. -/
structure VPar where
  xLay0 : ℝ
  xLay1 : ℝ
  zMin0 : ℝ
  zMin1 : ℝ
  zMax0 : ℝ
  zMax1 : ℝ

/-- epi.py:88-90 and 145-147: lower depth limit at the ray's glass crossing. -/
noncomputable def zMinAt (v : VPar) (x : ℝ) : ℝ :=
  v.zMin0 + (x - v.xLay0) * (v.zMin1 - v.zMin0) / (v.xLay1 - v.xLay0)

/-- epi.py:92-97 and 148-150: upper depth limit at the ray's glass crossing. -/
noncomputable def zMaxAt (v : VPar) (x : ℝ) : ℝ :=
  v.zMax0 + (x - v.xLay0) * (v.zMax1 - v.zMax0) / (v.xLay1 - v.xLay0)

/-- epi.py:108-153 `epi_mm_2D`. -/
noncomputable def epiMM2D (xl yl : ℝ) (cal : Cam) (mm : MM) (v : VPar) : Option V3 :=
  (rayTracing xl yl cal mm).map fun pv =>
    (moveAlongRay (0.5 * (zMinAt v pv.1.x + zMaxAt v pv.1.x)) pv.1 pv.2).1

end Verif.Geo
