/-
Model of openptv_python/image_processing.py: `prepare_image` (with scipy's `uniform_filter` and `convolve`
on 8-bit images), `preprocess_image`.
-/
import Verif.Model.Text
import Mathlib.Algebra.BigOperators.Group.Finset.Basic
import Mathlib.Algebra.BigOperators.Intervals

namespace Verif.Img
open Text

/-- A grey value image: `h` rows of `w` pixels. -/
structure Image where
  h : ℕ
  w : ℕ
  px : ℤ → ℤ → ℕ

/-- `mode="constant", cval=0`: zero outside the image. -/
def Image.at (im : Image) (i j : ℤ) : ℕ := if 0 ≤ i ∧ i < im.h ∧ 0 ≤ j ∧ j < im.w then im.px i j else 0

/-- scipy `uniform_filter1d` along the columns (axis 0) on an 8-bit image: the mean of `2 r + 1` pixels, stored as
an integer (the fraction is cut off). -/
def blurCols (r : ℕ) (im : Image) : Image :=
  { im with px := fun i j => (∑ k ∈ Finset.range (2 * r + 1), im.at (i + k - r) j) / (2 * r + 1) }

/-- The same along the rows (axis 1). -/
def blurRows (r : ℕ) (im : Image) : Image :=
  { im with px := fun i j => (∑ k ∈ Finset.range (2 * r + 1), im.at i (j + k - r)) / (2 * r + 1) }

/-- scipy `uniform_filter(img, size=2*r+1, mode="constant", cval=0)` on an 8-bit image: one axis after the other, each
result stored as 8-bit integers. -/
def uniformFilter (r : ℕ) (im : Image) : Image := blurRows r (blurCols r im)

/-- image_processing.py:114-124: the image combined with its low-pass image. -/
def orLowpass (im : Image) (dimLp : ℕ) : Image :=
  { im with px := fun i j => im.px i j ||| (uniformFilter dimLp im).px i j }

/-- Conversion of a float to an 8-bit integer in scipy: the fraction is cut off. For a number that does not fit C leaves
the result open: `wild`. -/
def castByte (wild : ℚ → ℕ) (x : ℚ) : ℕ := if -1 < x ∧ x < 256 then ⌊x⌋.toNat else wild x

/-- scipy `ndimage.convolve(img, weights=filt, mode="constant", cval=0.0)` for a 3x3 filter and an 8-bit image: the filter
(nine numbers, row by row) is turned by 180 degrees. -/
def convolve3 (wild : ℚ → ℕ) (filt : List ℚ) (im : Image) : Image :=
  { im with px := fun i j => castByte wild (∑ k ∈ Finset.range 3, ∑ l ∈ Finset.range 3,
      filt.getD (3 * k + l) 0 * (im.at (i + 1 - k) (j + 1 - l) : ℚ)) }

/-- image_processing.py:129-131: the numbers of the filter file; `reshape((3, 3))` needs nine. -/
def readFilter (s : List Char) : Py (List ℚ) := do
  let ws ← (words s).mapM parseFloat
  if ws.length = 9 then .ok ws else .error .valueError

/-- image_processing.py:128-133: whatever goes wrong is an IOError. -/
def openFilter (fs : FS) (name : List Char) : Py (List ℚ) :=
  match fs name with
  | none => .error .ioError
  | some s =>
    match readFilter s with
    | .ok f => .ok f
    | .error _ => .error .ioError

/-- image_processing.py:91-143 `prepare_image` for an 8-bit image (lines 110-111, the TypeError for another type of image,
are not modelled). -/
def prepareImage (wild : ℚ → ℕ) (fs : FS) (im : Image) (dimLp : ℕ) (hp : ℤ) (file : List Char) : Py Image :=
  if hp = 1 then .ok (uniformFilter 1 (orLowpass im dimLp))
  else if hp = 2 ∧ file ≠ [] then do
    let filt ← openFilter fs file
    .ok (convolve3 wild filt (orLowpass im dimLp))
  else .ok (orLowpass im dimLp)

/-- image_processing.py:146-148 `preprocess_image`: no filter file. -/
def preprocessImage (wild : ℚ → ℕ) (fs : FS) (im : Image) (hp : ℤ) (dimLp : ℕ) : Py Image :=
  prepareImage wild fs im dimLp hp []

end Verif.Img
