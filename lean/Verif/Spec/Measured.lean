/-
Specification: measured images of a point behind the window.
-/
import Verif.Spec.Glass
import Verif.Spec.Precision

namespace Verif.Geo.Spec
open V3

/-- The distance from the camera to the farthest place on the height of `P` where it may seem to be: on the ray through the place of
the window straight above `P`. -/
noncomputable def reach (c : Cam) (d : ℝ) (P : V3) : ℝ :=
  (height c.glass c.pos - height c.glass P) / (height c.glass c.pos - c.glass.norm - d) * (windowAbove c.glass d P - c.pos).norm

/-- An error `ε` in the image plane, at the distance `reach`. -/
noncomputable def objectError (c : Cam) (d : ℝ) (P : V3) (ε : ℝ) : ℝ := reach c d P / |c.cc| * ε

/-- How far the line of sight of an image point that is measured with an error of `ε` may pass the point. -/
noncomputable def measuredError (c : Cam) (d : ℝ) (P : V3) (ε : ℝ) : ℝ :=
  sightError c d P + objectError c d P ε * (2 * reach c d P)
    / (height c.glass c.pos - height c.glass P - objectError c d P ε)

/-- A lens with radial distortion only, which is mild up to the radius `R`: it displaces by at most a 24th of the radius. -/
structure MildLens (ap : AddPar) (R : ℝ) : Prop where
  p1 : ap.p1 = 0
  p2 : ap.p2 = 0
  scale : ap.scx = 1
  shear : ap.she = 0
  mild : |ap.k1| * R ^ 2 + |ap.k2| * R ^ 4 + |ap.k3| * R ^ 6 ≤ 1 / 24

end Verif.Geo.Spec
