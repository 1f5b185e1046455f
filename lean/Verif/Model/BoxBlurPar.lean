/-
Model of the parallel loop of `fast_box_blur_numba` (image_processing.py): one thread for every row of the image.
-/
import Verif.Model.BoxBlur

namespace Verif.Blur

/-- The memory of `row_accum`, and for every thread how many elements it has stored. -/
structure RowState where
  cell : ℕ → ℤ
  stored : ℕ → ℕ

/-- image_processing.py:244: `np.zeros`, and no thread has begun. -/
def rowStart : RowState := ⟨fun _ => 0, fun _ => 0⟩

/-- image_processing.py:249-265: the thread of row `i` computes its next element and stores it (the elements of a row are stored from left to
right, each once, if `2 filt_span < imx`). `src` is only read, the running sum is the thread's own, so that a step can be taken as a whole. -/
def rowStep (src : ℤ → ℤ) (span imx : ℕ) (s : RowState) (i : ℕ) : RowState :=
  match (rowAccum (fun j => src ((i : ℤ) * imx + j)) span imx)[s.stored i]? with
  | none => s
  | some v =>
    ⟨fun p => if p = i * imx + s.stored i then v else s.cell p, fun q => if q = i then s.stored i + 1 else s.stored q⟩

/-- image_processing.py:249-265, the steps of the threads in the order of the schedule. -/
def runRows (src : ℤ → ℤ) (span imx : ℕ) (schedule : List ℕ) : RowState := schedule.foldl (rowStep src span imx) rowStart

/-- image_processing.py:239-285 `fast_box_blur_numba` as in `fastBoxBlur`, on what the threads have left in `row_accum`. -/
def fastBoxBlurPar (src : ℤ → ℤ) (span imx imy : ℕ) (schedule : List ℕ) : Py (List ℤ) := do
  let n : ℤ := 2 * span + 1
  let acc := (List.range (imy * imx)).map (runRows src span imx schedule).cell
  let col := acc.take imx
  let top ← topLoop acc imx n (List.range' 1 span) col
  let mid ← midLoop acc span imx n (List.range' (span + 1) (imy - span - (span + 1))) top.1
  .ok (col.map (fun c => c / n) ++ top.2 ++ mid.2)

end Verif.Blur
