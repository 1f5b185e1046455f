/-
Model of the calibration files: openptv_python/calibration.py `write_ori`, `Calibration.from_file`,
`Calibration.write`, `read_ori` and the comparison functions. The floating point function `rotation_matrix` is a
parameter `rot` (its exact counterpart over the reals is `Geo.rotationMatrix`).
-/
import Verif.Model.Text

namespace Verif.IO
open Text

/-- Three numbers. -/
structure Row3 where
  a : ℚ
  b : ℚ
  c : ℚ
  deriving DecidableEq

/-- A matrix: three rows. -/
structure Mat3 where
  r0 : Row3
  r1 : Row3
  r2 : Row3
  deriving DecidableEq

/-- calibration.py:98-129 `Calibration`, without the lookup table: `pos` is (x0, y0, z0), `angles` (omega, phi,
kappa), `prim` (xh, yh, cc). -/
structure Cal where
  pos : Row3
  angles : Row3
  dm : Mat3
  prim : Row3
  glass : List ℚ
  added : List ℚ
  deriving DecidableEq

/-- calibration.py:101-129 `Calibration()`. -/
def Cal.default : Cal :=
  ⟨⟨0, 0, 0⟩, ⟨0, 0, 0⟩, ⟨⟨1, 0, 0⟩, ⟨0, 1, 0⟩, ⟨0, 0, 1⟩⟩, ⟨0, 0, 0⟩, [0, 0, 1], [0, 0, 0, 0, 0, 1, 0]⟩

/-- A line of three numbers. -/
def row3Text (k : ℕ) (r : Row3) : List Char :=
  joinSp [fixedStr k r.a, fixedStr k r.b, fixedStr k r.c] ++ ['\n']

/-- calibration.py:408-416: everything but the glass vector. -/
def oriText (c : Cal) : List Char :=
  row3Text 8 c.pos ++ row3Text 8 c.angles ++ ['\n'] ++ row3Text 7 c.dm.r0 ++ row3Text 7 c.dm.r1 ++
    row3Text 7 c.dm.r2 ++ ['\n'] ++ joinSp [fixedStr 4 c.prim.a, fixedStr 4 c.prim.b] ++ ['\n'] ++
    fixedStr 4 c.prim.c ++ ['\n']

/-- calibration.py:417. -/
def glassText (c : Cal) : Py (List Char) := do
  let g0 ← pyGet c.glass 0
  let g1 ← pyGet c.glass 1
  let g2 ← pyGet c.glass 2
  .ok ('\n' :: row3Text 15 ⟨g0, g1, g2⟩)

/-- calibration.py:423-426. -/
def addedText (c : Cal) : Py (List Char) := do
  let a0 ← pyGet c.added 0
  let a1 ← pyGet c.added 1
  let a2 ← pyGet c.added 2
  let a3 ← pyGet c.added 3
  let a4 ← pyGet c.added 4
  let a5 ← pyGet c.added 5
  let a6 ← pyGet c.added 6
  .ok (joinSp ([a0, a1, a2, a3, a4, a5, a6].map (fixedStr 8)) ++ ['\n'])

/-- calibration.py:420-428: the second file. -/
def writeAdded (fs : FS) (c : Cal) : Option (List Char) → FS × Py Bool
  | none => (fs, .ok false)
  | some name =>
    match addedText c with
    | .error e => (fs.write name [], .error e)
    | .ok s => (fs.write name s, .ok true)

/-- calibration.py:397-428 `write_ori`: the disk afterwards and the result. -/
def writeOri (fs : FS) (c : Cal) (ori : List Char) (add : Option (List Char)) : FS × Py Bool :=
  match glassText c with
  | .error e => (fs.write ori (oriText c), .error e)
  | .ok g => writeAdded (fs.write ori (oriText c ++ g)) c add

/-- calibration.py:187-198 `Calibration.write`: an IOError if `write_ori` did not return `True`. -/
def calWrite (fs : FS) (c : Cal) (ori : List Char) (add : Option (List Char)) : FS × Py Unit :=
  match (writeOri fs c ori add).2 with
  | .error e => ((writeOri fs c ori add).1, .error e)
  | .ok true => ((writeOri fs c ori add).1, .ok ())
  | .ok false => ((writeOri fs c ori add).1, .error .ioError)

/-- The checks `shape != (3,)` of the setters: a ValueError. -/
def vec3 : List ℚ → Py Row3
  | [a, b, c] => .ok ⟨a, b, c⟩
  | _ => .error .valueError

/-- calibration.py:171-177 with the setters 299-346: exactly three, two and two numbers. -/
def readAdded (s : List Char) : Py (List ℚ) := do
  let tmp ← (words (readline s).1).mapM parseFloat
  if (tmp.take 3).length ≠ 3 then .error .valueError
  else if ((tmp.drop 3).take 2).length ≠ 2 then .error .valueError
  else if (tmp.drop 5).length ≠ 2 then .error .valueError
  else .ok tmp

/-- calibration.py:168-182: the added parameters. -/
def readAddedFile (fs : FS) : Option (List Char) → Py (List ℚ)
  | none => .ok [0, 0, 0, 0, 0, 1, 0]
  | some name => do
    let s ← fs.read name
    readAdded s

/-- calibration.py:131-184 `Calibration.from_file`. The matrix in the file is not used. -/
def fromFile (rot : Row3 → Mat3) (fs : FS) (ori : List Char) (add : Option (List Char)) : Py Cal := do
  let s ← fs.read ori
  let data ← fromString s
  let pos ← vec3 (data.take 3)
  let angles ← vec3 ((data.drop 3).take 3)
  let prim ← vec3 ((data.drop 15).take 3)
  let added ← readAddedFile fs add
  .ok ⟨pos, angles, rot angles, prim, data.drop 18, added⟩

/-- calibration.py:431-448 `read_ori`: it calls the class method `from_file` and returns the object it was called
on. -/
def readOri (rot : Row3 → Mat3) (fs : FS) (ori : List Char) (add : Option (List Char)) : Py Cal :=
  match fromFile rot fs ori add with
  | .error e => .error e
  | .ok _ => .ok .default

/-- `np.allclose(a, b, atol=1e-6)` for one pair: |a - b| ≤ atol + rtol * |b|, rtol = 1e-5. -/
def close (a b : ℚ) : Bool := decide (|a - b| ≤ 1 / 1000000 + 1 / 100000 * |b|)

/-- All three entries of a row. -/
def closeRow (r s : Row3) : Bool := close r.a s.a && close r.b s.b && close r.c s.c

/-- calibration.py:451-461 `compare_exterior`. -/
def compareExterior (c d : Cal) : Bool :=
  (closeRow c.dm.r0 d.dm.r0 && closeRow c.dm.r1 d.dm.r1 && closeRow c.dm.r2 d.dm.r2) && decide (c.pos.a = d.pos.a) &&
    decide (c.pos.b = d.pos.b) && decide (c.pos.c = d.pos.c) && decide (c.angles.a = d.angles.a) &&
    decide (c.angles.b = d.angles.b) && decide (c.angles.c = d.angles.c)

/-- calibration.py:464-466 `compare_interior`. -/
def compareInterior (c d : Cal) : Bool :=
  decide (c.prim.a = d.prim.a) && decide (c.prim.b = d.prim.b) && decide (c.prim.c = d.prim.c)

/-- calibration.py:488-494 `compare_calibration` (`compare_glass`, 469-485, is equality). -/
def compareCalibration (c d : Cal) : Bool :=
  compareExterior c d && compareInterior c d && decide (c.glass = d.glass)

end Verif.IO
