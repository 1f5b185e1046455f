/-
Specification of peaks in a flat (row after row) image.
-/
import Mathlib.Data.List.Basic
import Mathlib.Data.Int.Order.Basic

namespace Verif.Spec.Seg

/-- The grey value in row `y`, column `x` of an image stored row after row, `w` pixels per row. -/
def flatPx (img : List ℤ) (w : ℕ) (y x : ℕ) : ℤ := img.getD (y * w + x) 0

/-- Pixel `(x, y)` is a peak: above the threshold, and none of its eight neighbours is brighter. -/
def FlatPeak (img : List ℤ) (w : ℕ) (thres : ℤ) (y x : ℕ) : Prop :=
  thres < flatPx img w y x ∧
  ∀ y' x' : ℕ, (y ≤ y' + 1 ∧ y' ≤ y + 1) → (x ≤ x' + 1 ∧ x' ≤ x + 1) → flatPx img w y' x' ≤ flatPx img w y x

end Verif.Spec.Seg
