/-
Specification of target recognition: blobs as sets of connected pixels.
-/
import Mathlib.Data.Rat.Defs
import Mathlib.Algebra.Order.Ring.Rat
import Mathlib.Algebra.BigOperators.Group.Finset.Basic
import Mathlib.Logic.Relation
import Mathlib.Data.Finset.Prod
import Mathlib.Data.Finset.Card

namespace Verif.Spec.Seg

/-- A pixel `(x, y)`. -/
abbrev Pixel := ℤ × ℤ

/-- The four direct neighbours. -/
def Adj4 (p q : Pixel) : Prop :=
  (q.2 = p.2 ∧ (q.1 = p.1 - 1 ∨ q.1 = p.1 + 1)) ∨ (q.1 = p.1 ∧ (q.2 = p.2 - 1 ∨ q.2 = p.2 + 1))

/-- The eight neighbours. -/
def Adj8 (p q : Pixel) : Prop := p ≠ q ∧ |q.1 - p.1| ≤ 1 ∧ |q.2 - p.2| ≤ 1

/-- The pixel is in the search region `xmin ≤ x < xmax`, `ymin ≤ y < ymax`. -/
def InROI (xmin xmax ymin ymax : ℤ) (p : Pixel) : Prop :=
  (xmin ≤ p.1 ∧ p.1 < xmax) ∧ (ymin ≤ p.2 ∧ p.2 < ymax)

section
variable (g : Pixel → ℤ) (thres disco : ℤ) (roi : Pixel → Prop)

/-- The image from which the used pixels were removed. -/
def masked (used : Pixel → Prop) [DecidablePred used] (p : Pixel) : ℤ := if used p then 0 else g p

/-- A pixel that starts a target: above the threshold and not darker than its eight neighbours, in the
image without the used pixels. -/
def IsPeak (used : Pixel → Prop) [DecidablePred used] (p : Pixel) : Prop :=
  thres < masked g used p ∧ ∀ q, Adj8 p q → masked g used q ≤ masked g used p

/-- A target grows from `p` to its direct neighbour `q`: unused, in the search region, above the threshold,
and neither `q` nor a direct neighbour of `q` is brighter than `p` by more than `disco`. -/
def Grows (used : Pixel → Prop) (p q : Pixel) : Prop :=
  Adj4 p q ∧ roi q ∧ ¬ used q ∧ thres < g q ∧ g q ≤ g p + disco ∧ ∀ r, Adj4 q r → g r ≤ g p + disco

/-- `B` is the blob of the peak `s`: all pixels to which it grows. -/
def IsBlob (used : Pixel → Prop) (s : Pixel) (B : Finset Pixel) : Prop :=
  ∀ q, q ∈ B ↔ Relation.ReflTransGen (Grows g thres disco roi used) s q

/-- The blobs found when the pixels `ps` are scanned in order: each peak (with respect to what is not used
yet) gives its blob, whose pixels are used from then on. -/
inductive Blobs : List Pixel → Finset Pixel → List (Pixel × Finset Pixel) → Finset Pixel → Prop
  | nil (used) : Blobs [] used [] used
  | peak {p ps used B bs used'} : IsPeak g thres (· ∈ used) p → IsBlob g thres disco roi (· ∈ used) p B →
      Blobs ps (used ∪ B) bs used' → Blobs (p :: ps) used ((p, B) :: bs) used'
  | skip {p ps used bs used'} : ¬ IsPeak g thres (· ∈ used) p → Blobs ps used bs used' →
      Blobs (p :: ps) used bs used'

end

/-- `n` is the number of columns (`f = x`) or rows (`f = y`) that `B` spans. -/
def Extent (f : Pixel → ℤ) (B : Finset Pixel) (n : ℤ) : Prop :=
  ∃ lo ∈ B, ∃ hi ∈ B, (∀ p ∈ B, f lo ≤ f p ∧ f p ≤ f hi) ∧ n = f hi - f lo + 1

/-- Summed grey value above the threshold. -/
def mass (g : Pixel → ℤ) (thres : ℤ) (B : Finset Pixel) : ℤ := ∑ p ∈ B, (g p - thres)

/-- Coordinate of the grey value weighted centre; the centre of pixel `x` is at `x + 1/2`. -/
def centre (g : Pixel → ℤ) (thres : ℤ) (f : Pixel → ℤ) (B : Finset Pixel) : ℚ :=
  (∑ p ∈ B, ((f p : ℚ) + 1 / 2) * ((g p - thres : ℤ) : ℚ)) / (mass g thres B : ℚ)

end Verif.Spec.Seg
