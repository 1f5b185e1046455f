/-
Specification for C147: lenses with all kinds of distortion.
-/
import Verif.Model.Trafo

namespace Verif.Geo.Spec

/-- Up to the radius `R`, the lens displaces by little more than the part `κ` of the radius: the radial terms, the decentering terms, the
difference of the scale from 1 and the shear together are at most `κ`, and `κ` is at most 1 %. -/
structure WeakLens (ap : AddPar) (R κ : ℝ) : Prop where
  radius : 0 < R
  weak : |ap.k1| * R ^ 2 + |ap.k2| * R ^ 4 + |ap.k3| * R ^ 6 + (|ap.p1| + |ap.p2|) * R + |ap.scx - 1| + |ap.she| ≤ κ
  percent : κ ≤ 1 / 100

/-- What the correction may leave of the distortion: the products of shear or decentering with the distortion, which the iteration of the
code does not correct; what remains after two passes of the iteration, which is all that its stopping rule guarantees; and what the
tolerance of the stopping rule leaves. -/
noncomputable def lensRest (ap : AddPar) (R κ tol : ℝ) : ℝ :=
  12 * (|ap.she| + |ap.p1| * R) * κ * R + 3100 * κ ^ 3 * R + 12 * κ * tol * R

end Verif.Geo.Spec
