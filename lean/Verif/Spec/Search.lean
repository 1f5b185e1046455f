/-
Vocabulary for the search properties C08-C13, independent of how the model computes.
-/
import Verif.Model.Search

namespace Verif.Search.Spec
open Verif.Search

/-- Ratio of the smaller to the larger size; 0 if both are 0. -/
noncomputable def ratio (a b : ℝ) : ℝ := if a = 0 ∧ b = 0 then 0 else min a b / max a b

/-- Squared distance between the point (x,y) and the point with parameter `t` on the line through
(xa,ya) and (xb,yb). -/
def distToLinePt (xa ya xb yb x y t : ℝ) : ℝ :=
  (x - (xa + t * (xb - xa))) ^ 2 + (y - (ya + t * (yb - ya))) ^ 2

/-- End of the epipolar segment actually used: a vertical one is tilted by 1e-10. -/
noncomputable def tilt (xa xb : ℝ) : ℝ := if xa = xb then xb + 1e-10 else xb

/-- Target `j` passes every acceptance test for the epipolar segment (xa,ya)-(xb,yb). -/
def Acceptable (v : VPar) (s : Shape) (crd : List Coord) (pix : List Shape)
    (xa ya xb yb : ℝ) (j : Nat) : Prop :=
  ∃ c t, crd[j]? = some c ∧ pix[c.pnr]? = some t ∧
    (min xa (tilt xa xb) - v.eps0 < c.x ∧ c.x < max xa (tilt xa xb) + v.eps0) ∧
    (min ya yb - v.eps0 < c.y ∧ c.y < max ya yb + v.eps0) ∧
    (∃ τ : ℝ, distToLinePt xa ya (tilt xa xb) yb c.x c.y τ < v.eps0 ^ 2) ∧
    v.cn ≤ ratio s.n t.n ∧ v.cnx ≤ ratio s.nx t.nx ∧ v.cny ≤ ratio s.ny t.ny ∧
    v.csumg < ratio s.sumg t.sumg

/-- Well-formed data: every coordinate names an existing target and sizes are not negative. -/
def DataOK (s : Shape) (crd : List Coord) (pix : List Shape) : Prop :=
  (0 ≤ s.n ∧ 0 ≤ s.nx ∧ 0 ≤ s.ny ∧ 0 ≤ s.sumg) ∧
  (∀ c ∈ crd, c.pnr < pix.length) ∧
  (∀ t ∈ pix, 0 ≤ t.n ∧ 0 ≤ t.nx ∧ 0 ≤ t.ny ∧ 0 ≤ t.sumg)

/-- The epipolar segment misses the sensor altogether. -/
def SegmentOff (sen : Sensor) (xa ya xb yb : ℝ) : Prop :=
  max xa (tilt xa xb) ≤ sen.xmin ∨ min xa (tilt xa xb) ≥ sen.xmax ∨
  max ya yb ≤ sen.ymin ∨ min ya yb ≥ sen.ymax

section
variable {K : Type} [Field K] [LinearOrder K]

/-- Target `j` is a tracked-candidate inside the clipped pixel window: it has a correspondence
number and lies strictly inside the window intersected with the image. -/
def InWindow (ts : List (Tgt K)) (cx cy dl dr du dd imx imy : K) (j : Nat) : Prop :=
  ∃ t, ts[j]? = some t ∧ t.tnr ≠ -1 ∧
    (max (cx - dl) 0 < t.x ∧ t.x < min (cx + dr) imx) ∧
    (max (cy - du) 0 < t.y ∧ t.y < min (cy + dd) imy)

/-- Same for targets without a correspondence number. -/
def InWindowFree (ts : List (Tgt K)) (cx cy dl dr du dd imx imy : K) (j : Nat) : Prop :=
  ∃ t, ts[j]? = some t ∧ t.tnr = -1 ∧
    (max (cx - dl) 0 < t.x ∧ t.x < min (cx + dr) imx) ∧
    (max (cy - du) 0 < t.y ∧ t.y < min (cy + dd) imy)

/-- Squared distance of target `j` from the search centre. -/
def distOf (ts : List (Tgt K)) (cx cy : K) (j : Nat) : K :=
  match ts[j]? with
  | some t => (cx - t.x) ^ 2 + (cy - t.y) ^ 2
  | none => 0

end

end Verif.Search.Spec
