/-
Specification of refraction through a stack of plane parallel layers.
-/
import Verif.Spec.Multimed

namespace Verif.Geo.Spec

/-- Refraction through a stack of plates, in the plane of incidence. `layers` are the plates from the side of the camera on, each
with its refractive index and its thickness. The camera is `z0` above the inner face of the first plate, the object point at
height `Z`, below all plates, and at distance `r` from the camera's normal. `tn n` is the tangent of the angle between ray and
normal in a medium of index `n`, the same for every plate of that index, by Snell's law. `rs` is the distance from the normal at which
the unrefracted ray would reach height `Z`. -/
def ApparentStack (n1 : ℝ) (layers : List (ℝ × ℝ)) (n3 z0 Z r rs : ℝ) : Prop :=
  ∃ tn : ℝ → ℝ, (∀ n, 0 ≤ tn n) ∧
    (∀ n ∈ n3 :: layers.map Prod.fst, n1 * (tn n1 / Real.sqrt (1 + tn n1 ^ 2)) = n * (tn n / Real.sqrt (1 + tn n ^ 2))) ∧
    r = (z0 - (layers.map Prod.snd).headD 0) * tn n1 + (layers.map fun l => l.2 * tn l.1).sum
        + -(Z + (layers.map Prod.snd).tail.sum) * tn n3 ∧
    rs = (z0 - Z) * tn n1

end Verif.Geo.Spec
