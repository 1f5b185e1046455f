/-
Model of the targets files, openptv_python/tracking_frame_buf.py `read_targets` and `write_targets`.
-/
import Verif.Model.Text

namespace Verif.IO
open Text

/-- tracking_frame_buf.py:72-84 `Target`. -/
structure Target where
  pnr : ℤ
  x : ℚ
  y : ℚ
  n : ℤ
  nx : ℤ
  ny : ℤ
  sumg : ℤ
  tnr : ℤ
  deriving DecidableEq

/-- tracking_frame_buf.py:231-241: one row of `np.savetxt` with the format
`"%4d %9.4f %9.4f %5d %5d %5d %5d %5d"`. (The integers pass through a float array.) -/
def targetRow (t : Target) : List Char :=
  joinSp [fmtInt 4 t.pnr, fmtFixed 9 4 t.x, fmtFixed 9 4 t.y, fmtInt 5 t.n, fmtInt 5 t.nx, fmtInt 5 t.ny,
    fmtInt 5 t.sumg, fmtInt 5 t.tnr]

/-- tracking_frame_buf.py:231-241: the text that `np.savetxt` writes, header first. -/
def targetsText (targets : List Target) (num : ℤ) : List Char :=
  intStr num ++ '\n' :: targets.flatMap fun t => targetRow t ++ ['\n']

/-- `str.replace("#", "%05d")`. -/
def replaceHash (s : List Char) : List Char := s.flatMap fun c => if c = '#' then ['%', '0', '5', 'd'] else [c]

/-- tracking_frame_buf.py:219-222: old-type names. -/
def fixName (base : List Char) : List Char :=
  let base := if '#' ∈ base then replaceHash base else base
  if '%' ∈ base then base else base ++ ['%', '0', '5', 'd']

/-- `"_targets"` -/
def suffix : List Char := ['_', 't', 'a', 'r', 'g', 'e', 't', 's']

/-- tracking_frame_buf.py:219-227: the name of the file written. -/
def writeName (base : List Char) (frame : ℤ) : Py (List Char) := do
  let s ← pyMod (fixName base) (if frame = 0 then 123456789 else frame)
  .ok (s ++ suffix)

/-- tracking_frame_buf.py:172-176: the name of the file read. -/
def readName (base : List Char) (frame : ℤ) : Py (List Char) :=
  if frame > 0 then do
    let s ← pyMod base frame
    .ok (s ++ suffix)
  else .ok (base ++ suffix)

/-- tracking_frame_buf.py:212-246 `write_targets`. The result is the new state of the files, and the exception
if there is one: `np.savetxt` opens (and empties) the file, then refuses an array without rows because the
format has eight columns. -/
def writeTargets (fs : FS) (targets : List Target) (num : ℤ) (base : List Char) (frame : ℤ) : FS × Py Bool :=
  match writeName base frame with
  | .error e => (fs, .error e)
  | .ok name =>
    if targets = [] then (fs.write name [], .error .valueError)
    else (fs.write name (targetsText targets num), .ok true)

/-- tracking_frame_buf.py:188-200: a line as a target. -/
def parseTarget : List (List Char) → Py Target
  | [w0, w1, w2, w3, w4, w5, w6, w7] => do
    let pnr ← parseInt w0
    let x ← parseFloat w1
    let y ← parseFloat w2
    let n ← parseInt w3
    let nx ← parseInt w4
    let ny ← parseInt w5
    let sumg ← parseInt w6
    let tnr ← parseInt w7
    .ok ⟨pnr, x, y, n, nx, ny, sumg, tnr⟩
  | _ => .error .valueError

/-- tracking_frame_buf.py:185-202: the loop over the lines. -/
def readTargetRows : ℕ → List Char → Py (List Target)
  | 0, _ => .ok []
  | n + 1, s => do
    let t ← parseTarget (words (readline s).1)
    let ts ← readTargetRows n (readline s).2
    .ok (t :: ts)

/-- tracking_frame_buf.py:181-202: the contents of a targets file. -/
def readTargetsText (s : List Char) : Py (List Target) := do
  let num ← pyInt (readline s).1
  readTargetRows num.toNat (readline s).2

/-- tracking_frame_buf.py:165-209 `read_targets`. -/
def readTargets (fs : FS) (base : List Char) (frame : ℤ) : Py (List Target) := do
  let name ← readName base frame
  let s ← fs.read name
  readTargetsText s

end Verif.IO
