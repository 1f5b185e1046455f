/-
Model of `reset_foundpix_array` and `copy_foundpix_array` (track.py) on arrays that may share their memory.
-/
import Verif.Model.Py

namespace Verif.FoundPix

/-- track.py:50-52 `Foundpix_dtype`; `whichcam` has four places. -/
@[ext] structure Rec where
  ftnr : ℤ
  freq : ℤ
  whichcam : ℕ → ℤ

/-- Memory: records one after the other. An array (or a slice `points[k:]`) is given by its first record. -/
abbrev Mem := ℕ → Rec

/-- track.py:90-95: one record is copied field by field. -/
def copyRec (m : Mem) (dest src numCams : ℕ) : Mem := fun p =>
  if p = dest then ⟨(m src).ftnr, (m src).freq, fun cam => if cam < numCams then (m src).whichcam cam else (m dest).whichcam cam⟩ else m p

/-- track.py:84-97 `copy_foundpix_array(dest, src, arr_len, num_cams)`, for arrays that have `arr_len` records and `num_cams` of at most
four (otherwise an IndexError is raised on the way). -/
def copyFoundpixArray (m : Mem) (dest src arrLen numCams : ℕ) : Mem :=
  (List.range arrLen).foldl (fun m i => copyRec m (dest + i) (src + i) numCams) m

/-- track.py:65-81 `reset_foundpix_array(arr, arr_len, num_cams)`, likewise; `TR_UNUSED` is -1 (constants.py:23). -/
def resetFoundpixArray (m : Mem) (arr arrLen numCams : ℕ) : Mem :=
  (List.range arrLen).foldl (fun m i p =>
    if p = arr + i then ⟨-1, 0, fun cam => if cam < numCams then 0 else (m (arr + i)).whichcam cam⟩ else m p) m

end Verif.FoundPix
