/-
Model of openptv_python/segmentation.py `target_recognition`, `check_touch` and `peak_fit`.
-/
import Verif.Model.Segmentation

namespace Verif.Seg

/-- segmentation.py:585-632 `target_recognition`: `q` holds the parameters of the camera, its search region is
replaced by the sub-ranges (or the image size `imx`, `imy` of the control parameters). -/
def targetRecognition (im : Image) (imx imy : ℤ) (q : Par) (subx suby : Option (ℤ × ℤ)) (fuel : ℕ) :
    Py (List Tgt) :=
  let rx := subx.getD (0, imx)
  let ry := suby.getD (0, imy)
  if im.h < ry.2 ∨ im.w < rx.2 then .error .valueError
  else targRec im imx imy { q with xmin := rx.1, xmax := rx.2, ymin := ry.1, ymax := ry.2 } fuel

/-- `xs[i] = v` on a list, for a non-negative index. -/
def pySet {α : Type} (xs : List α) (i : ℕ) (v : α) : Py (List α) :=
  if i < xs.length then .ok (xs.set i v) else .error .indexError

/-- segmentation.py:14-30 `Peak`, the fields that `check_touch` uses. -/
structure Touch where
  touch : List ℤ
  nTouch : ℕ

/-- `Peak()` (and the peaks made in segmentation.py:314): an empty list (line 29). -/
def freshPeak : Touch := ⟨[], 0⟩

/-- segmentation.py:537-540: the loop `for m in range(n_touch)`: is `p2` among the first entries? -/
def touches (t : Touch) (p2 : ℤ) : Py Bool :=
  (List.range t.nTouch).foldlM (fun done m => do
    let v ← pyGet t.touch m
    .ok (if v = p2 then true else done)) false

/-- segmentation.py:529-548 `check_touch`. -/
def checkTouch (t : Touch) (p1 p2 : ℤ) : Py Touch :=
  if p2 = 0 then .ok t
  else if p2 = p1 then .ok t
  else do
    let done ← touches t p2
    if done then .ok t
    else do
      let l ← pySet t.touch t.nTouch p2
      .ok ⟨l, if t.nTouch + 1 > 3 then 3 else t.nTouch + 1⟩

/-- A history of calls of `check_touch` for one peak. -/
def checkTouches (t : Touch) (p1 : ℤ) : List ℤ → Py Touch
  | [] => .ok t
  | p2 :: ps => do
    let t ← checkTouch t p1 p2
    checkTouches t p1 ps

/-- segmentation.py:289-310: is the pixel `n` of the flat image above the threshold, not labelled yet and not
darker than its eight neighbours? -/
def isFlatPeak (img labels : List ℤ) (imx thres n : ℤ) : Py Bool := do
  let gv ← pyGetI img n
  if gv ≤ thres then .ok false
  else do
    let l ← pyGetI labels n
    if l ≠ 0 then .ok false
    else geAll gv [pyGetI img (n - 1), pyGetI img (n + 1), pyGetI img (n - imx), pyGetI img (n + imx),
      pyGetI img (n - imx - 1), pyGetI img (n + imx - 1), pyGetI img (n - imx + 1), pyGetI img (n + imx + 1)]

/-- segmentation.py:312-317: label the peak and write it into the wait list, which is `[[]]`. -/
def startPeak (labels : List ℤ) (n : ℤ) (npeaks : ℤ) (i j : ℤ) : Py (List ℤ × List ℤ) := do
  let labels ← pySet labels n.toNat npeaks
  let w ← pySet [] 0 j
  let w ← pySet w 1 i
  .ok (labels, w)

/-- segmentation.py:287-371: the scan. `rest` stands for the flood fill of a peak, lines 318-371 (any
function: it is never reached, C72). -/
def peakScan (img : List ℤ) (imx thres : ℤ) (rest : List ℤ × List ℤ → Py (List ℤ)) :
    List (ℤ × ℤ) → List ℤ × ℤ → Py (List ℤ × ℤ)
  | [], s => .ok s
  | p :: ps, s => do
    let b ← isFlatPeak img s.1 imx thres (p.1 * imx + p.2)
    if b then do
      let lw ← startPeak s.1 (p.1 * imx + p.2) (s.2 + 1) p.1 p.2
      let labels ← rest lw
      peakScan img imx thres rest ps (labels, s.2 + 1)
    else peakScan img imx thres rest ps s

/-- segmentation.py:377-416: the loop over the label image. `process` stands for lines 382-416. -/
def labelScan (labels : List ℤ) (imx : ℤ) (process : ℤ → Py Unit) : List (ℤ × ℤ) → Py Unit
  | [] => .ok ()
  | p :: ps => do
    let l ← pyGetI labels (p.1 * imx + p.2)
    if l > 0 then process l else .ok ()
    labelScan labels imx process ps

/-- segmentation.py:256-526 `peak_fit` on a flat image. `rest`, `process` and `report` (the loops over the
peaks, lines 420-521, which do nothing when there is no peak) stand for the parts that are not modelled. -/
def peakFit (img : List ℤ) (imx imy thres xmin xmax ymin ymax : ℤ) (rest : List ℤ × List ℤ → Py (List ℤ))
    (process : ℤ → Py Unit) (report : List ℤ → ℤ → Py (List Tgt)) : Py (List Tgt) := do
  let s ← peakScan img imx thres rest
    ((rangeI ymin (ymax - 1)).flatMap fun i => (rangeI xmin xmax).map fun j => (i, j))
    (List.replicate (imx * imy).toNat 0, 0)
  labelScan s.1 imx process ((rangeI ymin ymax).flatMap fun i => (rangeI xmin xmax).map fun j => (i, j))
  if s.2 = 0 then .ok [] else report s.1 s.2

end Verif.Seg
