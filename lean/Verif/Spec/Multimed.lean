/-
Independent specification for C27, C28: pinhole projection and the glass frame.
-/
import Verif.Model.Vec

namespace Verif.Geo.Spec

/-- The collinearity (pinhole) equations of a camera at `C` with rotation matrix `dm` and principal
distance `cc`: image point of the object point `P`. -/
noncomputable def pinhole (C : V3) (dm : M3) (cc : ℝ) (P : V3) : ℝ × ℝ :=
  let v := P - C
  (-cc * ((dm.r0.x * v.x + dm.r1.x * v.y + dm.r2.x * v.z)
      / (dm.r0.z * v.x + dm.r1.z * v.y + dm.r2.z * v.z)),
   -cc * ((dm.r0.y * v.x + dm.r1.y * v.y + dm.r2.y * v.z)
      / (dm.r0.z * v.x + dm.r1.z * v.y + dm.r2.z * v.z)))

/-- `R` is the distance of `P` from the line through `C` with direction `g`. -/
def DistToLine (C g P : V3) (R : ℝ) : Prop :=
  (∃ t : ℝ, (P - (C + g.smul t)).norm = R) ∧ ∀ t : ℝ, R ≤ (P - (C + g.smul t)).norm

end Verif.Geo.Spec

namespace Verif.Geo.Spec

/-- Refraction through a plane parallel plate, in the plane of incidence. The camera is `z0` above the
inner face of the plate, which has thickness `d`; the object point is at height `Z ≤ 0` (below the inner
face) and at distance `r` from the camera's normal. A ray leaving the camera with incidence tangent `t1`
continues with tangents `t2` in the plate and `t3` behind it, related by Snell's law, and arrives at the
point. `rs` is the distance from the normal at which the unrefracted ray would reach height `Z`. -/
def ApparentRadius (n1 n2 n3 d z0 Z r rs : ℝ) : Prop :=
  ∃ t1 t2 t3 : ℝ, 0 ≤ t1 ∧ 0 ≤ t2 ∧ 0 ≤ t3 ∧
    n1 * (t1 / Real.sqrt (1 + t1 ^ 2)) = n2 * (t2 / Real.sqrt (1 + t2 ^ 2)) ∧
    n1 * (t1 / Real.sqrt (1 + t1 ^ 2)) = n3 * (t3 / Real.sqrt (1 + t3 ^ 2)) ∧
    r = (z0 - d) * t1 + d * t2 + (-Z) * t3 ∧ rs = (z0 - Z) * t1

end Verif.Geo.Spec
