/-
Vocabulary for C143 and C144: how well two targets fit, independent of how the model computes.
-/
import Verif.Spec.FullCorr

namespace Verif.FullCorr

open Verif.Geo Verif.Search Verif.Search.Spec

/-- Coordinate `j` of camera `b` fits coordinate `i` of camera `a`; `d` is its distance from the epipolar line (the straight line
through the end points), and `w` is the correlation of the two targets: their summed intensities times the
weighted similarity of their intensities (4), pixel counts (2), widths and heights (1 each). -/
def FitsWith (p : Pars) (a b : CamData) (i j : ℕ) (d w : ℝ) : Prop :=
  ∃ e q s u t, Epi p a b i e ∧ a.crd[i]? = some q ∧ a.pix[q.pnr]? = some s ∧ b.crd[j]? = some u ∧ b.pix[u.pnr]? = some t ∧
    Acceptable p.crit s b.crd b.pix e.1.1 e.1.2 e.2.1 e.2.2 j ∧
    0 ≤ d ∧ (∀ τ, d ^ 2 ≤ distToLinePt e.1.1 e.1.2 (tilt e.1.1 e.2.1) e.2.2 u.x u.y τ) ∧
    (∃ τ, distToLinePt e.1.1 e.1.2 (tilt e.1.1 e.2.1) e.2.2 u.x u.y τ = d ^ 2) ∧
    w = (4 * ratio s.sumg t.sumg + 2 * ratio s.n t.n + ratio s.nx t.nx + ratio s.ny t.ny) * (s.sumg + t.sumg)

/-- The epipolar segment of coordinate `i` of camera `a` meets the sensor of camera `b`. -/
def MeetsSensor (p : Pars) (a b : CamData) (i : ℕ) : Prop :=
  ∀ e, Epi p a b i e → ¬ SegmentOff (sensorOf p.ip b.cal) e.1.1 e.1.2 e.2.1 e.2.2

/-- The sum over the six pairs of cameras. -/
def six (f : Fin 4 → Fin 4 → ℝ) : ℝ := f 0 1 + f 0 2 + f 0 3 + f 1 2 + f 1 3 + f 2 3

/-- The targets `k c` of the cameras of `S` fit one another, with the distances `d` and correlations `w`; their epipolar lines meet the sensors and
are not crowded. No exactness is asked for, and nothing about the media. -/
structure Group4 (S : Set (Fin 4)) (p : Pars) (cams : Fin 4 → CamData) (k : Fin 4 → ℕ) (d w : Fin 4 → Fin 4 → ℝ) : Prop where
  fit : ∀ c1 ∈ S, ∀ c2 ∈ S, c1 < c2 → FitsWith p (cams c1) (cams c2) (k c1) (k c2) (d c1 c2) (w c1 c2)
  meets : ∀ c1 ∈ S, ∀ c2 ∈ S, c1 < c2 → MeetsSensor p (cams c1) (cams c2) (k c1)
  sparse : ∀ c1 ∈ S, ∀ c2 ∈ S, c1 < c2 → NotCrowded p (cams c1) (cams c2) (k c1)

end Verif.FullCorr
