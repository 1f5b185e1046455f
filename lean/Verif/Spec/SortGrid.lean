/-
Specification vocabulary for the matching of detections to reference points.
-/
import Mathlib.Data.Real.Basic
import Mathlib.Analysis.Real.Sqrt

namespace Verif.Spec

/-- Strictly inside the square window of half width `eps` around `c`. -/
def InWindow (eps : ℝ) (c p : ℝ × ℝ) : Prop := |p.1 - c.1| < eps ∧ |p.2 - c.2| < eps

/-- Euclidean distance in the plane. -/
noncomputable def planeDist (c p : ℝ × ℝ) : ℝ := Real.sqrt ((c.1 - p.1) ^ 2 + (c.2 - p.2) ^ 2)

/-- `k` is the place of the closest of the points `ps` inside the window around `c`, the first one if
several are equally close. -/
def IsNearest (eps : ℝ) (c : ℝ × ℝ) (ps : List (ℝ × ℝ)) (k : ℕ) : Prop :=
  ∃ p, ps[k]? = some p ∧ InWindow eps c p ∧
    ∀ k' p', ps[k']? = some p' → InWindow eps c p' →
      planeDist c p ≤ planeDist c p' ∧ (k' < k → planeDist c p < planeDist c p')

/-- The projection is in the image or at most (not quite) `eps` outside. -/
def NearImage (imx imy : ℕ) (eps : ℝ) (c : ℝ × ℝ) : Prop :=
  (-eps < c.1 ∧ c.1 < imx + eps) ∧ (-eps < c.2 ∧ c.2 < imy + eps)

end Verif.Spec
