/-
Model of openptv_python/image_processing.py `fast_box_blur_numba` and `subtract_mask`.
-/
import Verif.Model.Py

namespace Verif.Blur

/-- numpy's rule for two one-dimensional arrays: equal lengths, or one of them has length 1. -/
def bcastAdd (a b : List ℤ) : Py (List ℤ) :=
  if a.length = b.length then .ok (List.zipWith (· + ·) a b)
  else if a.length = 1 then .ok (b.map fun y => a.getD 0 0 + y)
  else if b.length = 1 then .ok (a.map fun x => x + b.getD 0 0)
  else .error .valueError

/-- `acc += x` for one-dimensional arrays: the result must have the length of `acc`. -/
def addInto (acc x : List ℤ) : Py (List ℤ) :=
  if x.length = acc.length then .ok (List.zipWith (· + ·) acc x)
  else if x.length = 1 then .ok (acc.map fun y => y + x.getD 0 0)
  else .error .valueError

/-- `a[lo:hi]` for non-negative bounds. -/
def slice (a : List ℤ) (lo hi : ℕ) : List ℤ := (a.take hi).drop lo

/-- image_processing.py:254-256: the pixels next to the left edge (`j` from 1 to `filt_span`); `src` is the memory from the start of the
row on. The state: the running sum and the row so far. -/
def leftStep (src : ℤ → ℤ) (span : ℕ) (s : ℤ × List ℤ) (j : ℕ) : ℤ × List ℤ :=
  let accum := s.1 + (src (j - 1) + src (j + span))
  (accum, s.2 ++ [accum * (2 * span + 1) / (2 * j + 1)])

/-- image_processing.py:258-260: the pixels in the middle. -/
def midStep (src : ℤ → ℤ) (span : ℕ) (s : ℤ × List ℤ) (j : ℕ) : ℤ × List ℤ :=
  let accum := s.1 + (src (j + span) - src (j - span - 1))
  (accum, s.2 ++ [accum])

/-- image_processing.py:262-264: the pixels next to the right edge. -/
def rightStep (src : ℤ → ℤ) (span imx : ℕ) (s : ℤ × List ℤ) (j : ℕ) : ℤ × List ℤ :=
  let accum := s.1 - (src (j - span - 1) + src (j + span))
  (accum, s.2 ++ [accum * (2 * span + 1) / (2 * (imx - j - 1 : ℤ) + 1)])

/-- image_processing.py:250-264: one row (for `2 filt_span < imx`, where the three loops fill it once from left to right). -/
def rowAccum (src : ℤ → ℤ) (span imx : ℕ) : List ℤ :=
  let s0 := (src 0, [src 0 * (2 * span + 1)])
  let s1 := (List.range' 1 span).foldl (leftStep src span) s0
  let s2 := (List.range' (span + 1) (imx - span - (span + 1))).foldl (midStep src span) s1
  ((List.range' (imx - span) span).foldl (rightStep src span imx) s2).2

/-- image_processing.py:244-264: all rows (`prange` leaves the order open: see `Verif.Model.BoxBlurPar`). `src` is the flat image; a position outside
of it holds whatever is in memory. -/
def rowsAccum (src : ℤ → ℤ) (span imx imy : ℕ) : List ℤ :=
  (List.range imy).flatMap fun i : ℕ => rowAccum (fun j => src ((i : ℤ) * imx + j)) span imx

/-- image_processing.py:270-274: the rows next to the upper edge. -/
def topLoop (acc : List ℤ) (imx : ℕ) (n : ℤ) : List ℕ → List ℤ → Py (List ℤ × List ℤ)
  | [], col => .ok (col, [])
  | i :: is, col => do
    let ptr1 := slice acc ((2 * i - 1) * imx) ((2 * i + 1) * imx)
    let ptr2 := ptr1.drop imx
    let s ← bcastAdd ptr1 ptr2
    let col ← addInto col s
    let r ← topLoop acc imx n is col
    .ok (r.1, col.map (fun c => n * c / (n * n) / (2 * i + 1)) ++ r.2)

/-- image_processing.py:276-280: the rows in the middle. (`ptr1` has `filt_span + 1` rows.) -/
def midLoop (acc : List ℤ) (span imx : ℕ) (n : ℤ) : List ℕ → List ℤ → Py (List ℤ × List ℤ)
  | [], col => .ok (col, [])
  | i :: is, col => do
    let ptr1 := slice acc ((i - span - 1) * imx) (i * imx)
    let ptr2 := slice acc ((i + span) * imx) ((i + span + 1) * imx)
    let s ← bcastAdd ptr2 (ptr1.map fun x => -x)
    let col ← addInto col s
    let r ← midLoop acc span imx n is col
    .ok (r.1, col.map (fun c => c / (n * n)) ++ r.2)

/-- image_processing.py:238-288 `fast_box_blur_numba`, for a non-empty image. The last loop (282-286) runs only if
`filt_span` is positive, and then the first column loop has raised: it is not modelled. -/
def fastBoxBlur (src : ℤ → ℤ) (span imx imy : ℕ) : Py (List ℤ) := do
  let n : ℤ := 2 * span + 1
  let acc := rowsAccum src span imx imy
  let col := acc.take imx
  let top ← topLoop acc imx n (List.range' 1 span) col
  let mid ← midLoop acc span imx n (List.range' (span + 1) (imy - span - (span + 1))) top.1
  .ok (col.map (fun c => c / n) ++ top.2 ++ mid.2)

/-- image_processing.py:79-83 `subtract_mask`: pixel by pixel, for images of equal size. -/
def subtractMask (img mask : List ℤ) : List ℤ := List.zipWith (fun p m => if m = 0 then 0 else p) img mask

end Verif.Blur
