/-
Independent specification for C128: measuring errors of a triangulated position.
-/
import Verif.Spec.Orientation
import Verif.Spec.Multimed

namespace Verif.Geo.Spec
open V3

/-- The line passes the point at a distance of at most `δ`. -/
def NearLine (v a P : V3) (δ : ℝ) : Prop := ∃ q, OnLine v a q ∧ (P - q).norm ≤ δ

/-- Both directions are directions, and the sine of the angle between them is at least `σ`: the square of the cosine is at most
`1 - σ²`. -/
structure Crossing (a b : V3) (σ : ℝ) : Prop where
  left : a ≠ 0
  right : b ≠ 0
  angle : dot a b ^ 2 ≤ (1 - σ ^ 2) * (a.norm ^ 2 * b.norm ^ 2)

/-- The distance of two points of the image plane. -/
noncomputable def imageDist (s t : ℝ × ℝ) : ℝ := Real.sqrt ((s.1 - t.1) ^ 2 + (s.2 - t.2) ^ 2)

end Verif.Geo.Spec
