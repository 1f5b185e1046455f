/-
Independent specification for C47, C48, C64: straight motion, velocity boxes, windows.
-/
import Verif.Model.Vec

namespace Verif.Geo.Spec
open V3

/-- Position at time `n` of a particle moving with constant velocity `u` from `p`. -/
def uniform (p u : V3) (n : ℤ) : V3 := p + u.smul n

/-- `b` has the direction of `a`: a positive multiple. -/
def SameDirection (a b : V3) : Prop := ∃ r : ℝ, 0 < r ∧ b = a.smul r

/-- `b` has the opposite direction. -/
def Opposite (a b : V3) : Prop := ∃ r : ℝ, 0 < r ∧ b = a.smul (-r)

/-- `q` is in the closed box of displacements between `lo` and `hi` around `p`. -/
def InBox (p lo hi q : V3) : Prop :=
  (p.x + lo.x ≤ q.x ∧ q.x ≤ p.x + hi.x) ∧ (p.y + lo.y ≤ q.y ∧ q.y ≤ p.y + hi.y) ∧
  (p.z + lo.z ≤ q.z ∧ q.z ≤ p.z + hi.z)

/-- `q` is in the open box of displacements between `lo` and `hi` around `p`. -/
def InOpenBox (p lo hi q : V3) : Prop :=
  (p.x + lo.x < q.x ∧ q.x < p.x + hi.x) ∧ (p.y + lo.y < q.y ∧ q.y < p.y + hi.y) ∧
  (p.z + lo.z < q.z ∧ q.z < p.z + hi.z)

/-- `c` is in the image. -/
def InImage (imx imy : ℕ) (c : ℝ × ℝ) : Prop := 0 ≤ c.1 ∧ c.1 ≤ imx ∧ 0 ≤ c.2 ∧ c.2 ≤ imy

/-- `c` is in the window that extends from `center` by these distances. -/
def InWindow (center : ℝ × ℝ) (left right up down : ℝ) (c : ℝ × ℝ) : Prop :=
  center.1 - left ≤ c.1 ∧ c.1 ≤ center.1 + right ∧ center.2 - up ≤ c.2 ∧ c.2 ≤ center.2 + down

end Verif.Geo.Spec
