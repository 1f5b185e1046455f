/-
Model of some functions of trafo.py and calibration.py in floating point arithmetic: every operation is followed by a rounding.
-/
import Verif.Model.Trafo
import Verif.Model.Orientation

namespace Verif.Round
open Verif.Geo

/-- trafo.py:34-42 `fast_pixel_to_metric` (plain `@njit`, so that the operations are not rearranged), with the rounding `r` after every
operation. -/
noncomputable def pixelToMetric (r : ℝ → ℝ) (xp yp : ℝ) (c : ImgPar) : ℝ × ℝ :=
  (r (r (xp - r ((c.imx : ℝ) / 2)) * c.pixX), r (r (r ((c.imy : ℝ) / 2) - yp) * c.pixY))

/-- trafo.py:93-101 `fast_metric_to_pixel`, likewise. -/
noncomputable def metricToPixel (r : ℝ → ℝ) (xm ym : ℝ) (c : ImgPar) : ℝ × ℝ :=
  (r (r (xm / c.pixX) + r ((c.imx : ℝ) / 2)), r (r ((c.imy : ℝ) / 2) - r (ym / c.pixY)))

/-- calibration.py:12-50 `rotation_matrix`, with the sines and cosines `fs`, `fc` of the library (the sign is changed without error). -/
noncomputable def rotationMatrix (r fs fc : ℝ → ℝ) (omega phi kappa : ℝ) : M3 :=
  let co := fc omega
  let so := fs omega
  let cp := fc phi
  let sp := fs phi
  let ck := fc kappa
  let sk := fs kappa
  ⟨⟨r (cp * ck), r (-cp * sk), sp⟩,
   ⟨r (r (co * sk) + r (r (so * sp) * ck)), r (r (co * ck) - r (r (so * sp) * sk)), r (-so * cp)⟩,
   ⟨r (r (so * sk) - r (r (co * sp) * ck)), r (r (so * ck) + r (r (co * sp) * sk)), r (co * cp)⟩⟩

/-- `np.cross` of two vectors. -/
noncomputable def cross (r : ℝ → ℝ) (a b : V3) : V3 :=
  ⟨r (r (a.y * b.z) - r (a.z * b.y)), r (r (a.z * b.x) - r (a.x * b.z)), r (r (a.x * b.y) - r (a.y * b.x))⟩

/-- orientation.py:40, 43: `vert + direct * dot / scale`, from left to right as Python groups it. -/
noncomputable def onRay (r : ℝ → ℝ) (v d : V3) (q s : ℝ) : V3 :=
  ⟨r (v.x + r (r (d.x * q) / s)), r (v.y + r (r (d.y * q) / s)), r (v.z + r (r (d.z * q) / s))⟩

/-- orientation.py:30-49 `skew_midpoint` (plain `@njit`), with the rounding `r` after every operation and the library functions
`np.dot`, `np.linalg.norm` as parameters. -/
noncomputable def skewMidpoint (r : ℝ → ℝ) (fdot : V3 → V3 → ℝ) (fnorm : V3 → ℝ) (r1 r2 : Ray) : Option (ℝ × V3) :=
  let perp := cross r r1.2 r2.2
  let scale := fdot perp perp
  if scale = 0 then none else
  let sp : V3 := ⟨r (r2.1.x - r1.1.x), r (r2.1.y - r1.1.y), r (r2.1.z - r1.1.z)⟩
  let on1 := onRay r r1.1 r1.2 (fdot perp (cross r sp r2.2)) scale
  let on2 := onRay r r2.1 r2.2 (fdot perp (cross r sp r1.2)) scale
  some (fnorm ⟨r (on1.x - on2.x), r (on1.y - on2.y), r (on1.z - on2.z)⟩,
    ⟨r (r (on1.x + on2.x) * 0.5), r (r (on1.y + on2.y) * 0.5), r (r (on1.z + on2.z) * 0.5)⟩)

end Verif.Round
