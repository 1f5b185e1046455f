/-
Specification: a point seen through a window.
-/
import Verif.Model.RayTracing
import Verif.Model.Trafo

namespace Verif.Geo.Spec
open V3

/-- The height of a point over the origin, in the direction of the window `glass` (the vector from the origin to its inner face). -/
noncomputable def height (glass P : V3) : ℝ := (P.x * glass.x + P.y * glass.y + P.z * glass.z) / glass.norm

/-- The point straight above `P` on the outer face of the window of thickness `d`. -/
noncomputable def windowAbove (glass : V3) (d : ℝ) (P : V3) : V3 :=
  P + glass.smul ((glass.norm + d - height glass P) / glass.norm)

/-- The camera is a rotated pinhole on the outer side of the window, `P` is on the inner side, and both `P` and the place of the
window straight above `P` are on the side of the camera on which its image plane sees. -/
structure SeesThrough (c : Cam) (d : ℝ) (P : V3) : Prop where
  rot : ∃ omega phi kappa, c.dm = rotationMatrix omega phi kappa
  glass : c.glass ≠ 0
  camera : c.glass.norm + d < height c.glass c.pos
  behind : height c.glass P ≤ c.glass.norm
  front : c.cc * dot c.dm.c2 (P - c.pos) < 0
  window : c.cc * dot c.dm.c2 (windowAbove c.glass d P - c.pos) < 0

/-- The light goes from `n1` through one plate of thickness `d` and index `n2` to `n3`, both not less than `n1`. -/
structure OnePlate (mm : MM) (d n2 : ℝ) : Prop where
  one : mm.nlay = 1
  thickness : mm.d = [d]
  index : mm.n2 = [n2]
  thick : 0 ≤ d
  pos : 0 < mm.n1
  plate : mm.n1 ≤ n2
  behind : mm.n1 ≤ mm.n3

/-- The distance of `P` from the normal of the window through the camera. -/
noncomputable def offNormal (c : Cam) (P : V3) : ℝ :=
  (P - c.pos - c.glass.smul ((height c.glass P - height c.glass c.pos) / c.glass.norm)).norm

/-- How far the line of sight of the computed image may pass the point: 0.001 times the ratio of the way behind the outer face to the
way in front of it (as long as the 40 passes of the iteration are enough). -/
noncomputable def sightError (c : Cam) (d : ℝ) (P : V3) : ℝ :=
  (c.glass.norm + d - height c.glass P) / (height c.glass c.pos - c.glass.norm - d)
    * max 0.001 (((c.glass.norm + d - height c.glass P) / (height c.glass c.pos - height c.glass P)) ^ 40 * offNormal c P)

end Verif.Geo.Spec
