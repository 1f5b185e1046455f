/-
Model of the readers of calibration block files: openptv_python/sortgrid.py `read_calblock`, `read_sortgrid_par`;
openptv_python/orientation.py `read_calblock`, `read_man_ori_fix`.
-/
import Verif.Model.Text

namespace Verif.IO
open Text

/-- A position in space, as read from a file. -/
structure Pos3 where
  x : ℚ
  y : ℚ
  z : ℚ
  deriving DecidableEq, Repr

/-- epi.py:31-38 `Coord3d_dtype`: a numbered point. -/
structure RefPt where
  pnr : ℤ
  pos : Pos3
  deriving DecidableEq, Repr

/-- sortgrid.py:142-146: one line of the file. -/
def calLine (line : List Char) : Py RefPt := do
  let values := words line
  let w0 ← pyGet values 0
  let pnr ← parseInt w0
  let w1 ← pyGet values 1
  let x ← parseFloat w1
  let w2 ← pyGet values 2
  let y ← parseFloat w2
  let w3 ← pyGet values 3
  let z ← parseFloat w3
  .ok ⟨pnr, ⟨x, y, z⟩⟩

/-- sortgrid.py:123-156 `sortgrid.read_calblock`: a missing file and a ValueError give an empty array, any other exception
(the IndexError of a line with too few words) is not caught. -/
def sgReadCalblock (fs : FS) (name : List Char) : Py (List RefPt) :=
  match fs name with
  | none => .ok []
  | some s =>
    match (lines s).mapM calLine with
    | .ok ps => .ok ps
    | .error .valueError => .ok []
    | .error e => .error e

/-- sortgrid.py:110-120 `read_sortgrid_par`; constants.py SORTGRID_EPS = 25. -/
def readSortgridPar (fs : FS) (name : List Char) : Py ℤ :=
  match fs name with
  | none => .ok 25
  | some s => pyInt (readline s).1

/-- orientation.py:737-738: the numbers of one line (the first word is not used). -/
def fixLine (line : List Char) : Py Pos3 := do
  let parts := words line
  let w1 ← pyGet parts 1
  let x ← parseFloat w1
  let w2 ← pyGet parts 2
  let y ← parseFloat w2
  let w3 ← pyGet parts 3
  let z ← parseFloat w3
  .ok ⟨x, y, z⟩

/-- orientation.py:736-738: the loop over the lines after the first; `fix[i]` beyond the array is an IndexError. -/
def fixLoop : List (List Char) → ℕ → List Pos3 → Py (List Pos3)
  | [], _, fix => .ok fix
  | line :: rest, i, fix => do
    let p ← fixLine line
    if i < fix.length then fixLoop rest (i + 1) (fix.set i p) else .error .indexError

/-- orientation.py:730-739 `orientation.read_calblock`: the array and the number of points. -/
def oReadCalblock (fs : FS) (name : List Char) : Py (List Pos3 × ℕ) := do
  let s ← fs.read name
  let first ← pyGet (lines s) 0
  let n ← pyInt first
  if n < 0 then .error .valueError
  else do
    let fix ← fixLoop (lines s).tail 0 (List.replicate n.toNat ⟨0, 0, 0⟩)
    .ok (fix, n.toNat)

/-- `n` calls of `readline`: the unread part. -/
def skipLines : ℕ → List Char → List Char
  | 0, s => s
  | n + 1, s => skipLines n (readline s).2

/-- orientation.py:707-710: the numbers of the four points, from line `cam` of the file. -/
def readNrs (fs : FS) (name : List Char) (cam : ℕ) : Py (List ℤ) := do
  let s ← fs.read name
  (words (readline (skipLines cam s)).1).mapM parseInt

/-- orientation.py:719-723: the inner loop `for i in range(4)`, from `i`; the row that is found. -/
def findNr (nr : List ℤ) (pnr : ℕ) : List ℕ → Py (Option ℕ)
  | [] => .ok none
  | i :: is => do
    let n ← pyGet nr i
    if (pnr : ℤ) = n - 1 then .ok (some i) else findNr nr pnr is

/-- orientation.py:718-725: the outer loop; state `fix4`, `num_match`. -/
def matchNrs (nr : List ℤ) (fix : List Pos3) (numFix : ℕ) : List ℕ → List Pos3 → ℕ → Py (List Pos3 × ℕ)
  | [], fix4, m => .ok (fix4, m)
  | pnr :: rest, fix4, m => do
    match ← findNr nr pnr [0, 1, 2, 3] with
    | none => if m ≥ numFix then .ok (fix4, m) else matchNrs nr fix numFix rest fix4 m
    | some i => do
      let p ← pyGet fix pnr
      if m + 1 ≥ numFix then .ok (fix4.set i p, m + 1) else matchNrs nr fix numFix rest (fix4.set i p) (m + 1)

/-- orientation.py:700-727 `read_man_ori_fix`. -/
def readManOriFix (fs : FS) (calblock manOri : List Char) (cam : ℕ) : Py (Option (List Pos3)) := do
  let nr ← readNrs fs manOri cam
  let (fix, numFix) ← oReadCalblock fs calblock
  if numFix < 4 then .ok none
  else do
    let (fix4, m) ← matchNrs nr fix numFix (List.range numFix) (List.replicate 4 ⟨0, 0, 0⟩) 0
    .ok (if m = 4 then some fix4 else none)

end Verif.IO
