/-
Model of the path files (rt_is, ptv_is, added): openptv_python/tracking_frame_buf.py `read_path_frame` and
`write_path_frame`.
-/
import Verif.Model.Text

namespace Verif.IO
open Text

/-- One particle: a row of `Corres` (tracking_frame_buf.py:48-53) and its `Pathinfo`
(tracking_frame_buf.py:263-274). The fields `decis`, `linkdecis`, `finaldecis` and `inlist` are not in the
files and not modelled. -/
structure Particle where
  nr : ℤ
  p0 : ℤ
  p1 : ℤ
  p2 : ℤ
  p3 : ℤ
  x : ℚ
  y : ℚ
  z : ℚ
  prev : ℤ
  next : ℤ
  prio : ℤ
  deriving DecidableEq

/-- `f"{base}.{frame_num}"` -/
def frameName (base : List Char) (frame : ℤ) : List Char := base ++ '.' :: intStr frame

/-- tracking_frame_buf.py:854-858: a line of the linkage file. -/
def linkageRow (t : Particle) : List Char :=
  joinSp [intStr t.prev, intStr t.next, fixedStr 3 t.x, fixedStr 3 t.y, fixedStr 3 t.z]

/-- tracking_frame_buf.py:860-865: a line of the correspondence file; `pix` is the index of the particle. -/
def corresRow (pix : ℕ) (t : Particle) : List Char :=
  joinSp [intStr (pix + 1), fixedStr 3 t.x, fixedStr 3 t.y, fixedStr 3 t.z, intStr t.p0, intStr t.p1,
    intStr t.p2, intStr t.p3]

/-- tracking_frame_buf.py:868-872: a line of the priority file. -/
def prioRow (t : Particle) : List Char :=
  joinSp [intStr t.prev, intStr t.next, fixedStr 3 t.x, fixedStr 3 t.y, fixedStr 3 t.z, intStr t.prio]

/-- Header and rows. -/
def table (num : ℤ) (rows : List (List Char)) : List Char :=
  intStr num ++ '\n' :: rows.flatMap fun r => r ++ ['\n']

/-- tracking_frame_buf.py:807-884 `write_path_frame`. The buffers `cor_buf` and `path_buf` are one list here.
An empty `prio_file_base` makes the file name `None`, and `open(None)` is a TypeError; more particles than
there are is an IndexError. (The three files are written row by row; here at once, which is the same if
their names differ.) -/
def writePathFrame (fs : FS) (ps : List Particle) (num : ℕ) (cb lb pb : List Char) (frame : ℤ) : Py FS :=
  if pb = [] then .error .typeError
  else if ps.length < num then .error .indexError
  else .ok (((fs.write (frameName cb frame) (table num ((ps.take num).zipIdx.map fun t => corresRow t.2 t.1))).write
    (frameName lb frame) (table num ((ps.take num).map linkageRow))).write
    (frameName pb frame) (table num ((ps.take num).map prioRow)))

/-- tracking_frame_buf.py:770-774: the links of a particle. `none` is an absent linkage file. -/
def readLinks (l : Option (List Char)) : Py (ℤ × ℤ) :=
  match l with
  | none => .ok (-1, -2)
  | some l => do
    let v ← fromString l
    let a ← pyGet v 0
    let b ← pyGet v 1
    .ok (truncQ a, truncQ b)

/-- tracking_frame_buf.py:777-782: the priority: the last number of the line, or 4. -/
def readPrio (l : Option (List Char)) : Py ℤ :=
  match l with
  | none => .ok 4
  | some l => do
    let v ← fromString l
    let a ← pyGetI v (-1)
    .ok (truncQ a)

/-- tracking_frame_buf.py:789-792: the line of the correspondence file. Eight numbers are required here (the
code takes the last four and the ones between, and would fail later). -/
def readCorres (nr : ℕ) (l : List Char) (links : ℤ × ℤ) (prio : ℤ) : Py Particle := do
  let v ← fromString l
  match v with
  | [_, x, y, z, p0, p1, p2, p3] =>
    .ok ⟨nr, truncQ p0, truncQ p1, truncQ p2, truncQ p3, x, y, z, links.1, links.2, prio⟩
  | _ => .error .valueError

/-- `readline` on the remaining lines: the empty string at the end. -/
def nextLine (ls : Option (List (List Char))) : Option (List Char) := ls.map fun ls => ls.headD []

/-- tracking_frame_buf.py:764-796: the loop until the end of the correspondence file. `room` is the number of
particles that still fit in the buffers. -/
def readRows : List (List Char) → Option (List (List Char)) → Option (List (List Char)) → ℕ → ℕ →
    Py (List Particle)
  | [], _, _, _, _ => .ok []
  | _ :: _, _, _, _, 0 => .error .indexError
  | l :: ls, lk, pr, targets, room + 1 => do
    let links ← readLinks (nextLine lk)
    let prio ← readPrio (nextLine pr)
    let t ← readCorres (targets + 1) l links prio
    let ts ← readRows ls (lk.map List.tail) (pr.map List.tail) (targets + 1) room
    .ok (t :: ts)

/-- tracking_frame_buf.py:740-762: open an optional file and skip its header; `base` empty means no file. The
result `none` is a missing file. -/
def openOptional (fs : FS) (base : List Char) (frame : ℤ) : Option (Option (List (List Char))) :=
  if base = [] then some none
  else match fs (frameName base frame) with
    | none => none
    | some s => some (some (lines s).tail)

/-- tracking_frame_buf.py:692-804 `read_path_frame`: missing files give an empty result. (If the header
announces more particles than there are lines, the code returns uninitialised rows at the end; they are left
out here.) -/
def readPathFrame (fs : FS) (cb lb pb : List Char) (frame : ℤ) : Py (List Particle) :=
  match fs (frameName cb frame) with
  | none => .ok []
  | some s => do
    let n ← pyInt ((lines s).headD [])
    match openOptional fs lb frame with
    | none => .ok []
    | some lk =>
      match openOptional fs pb frame with
      | none => .ok []
      | some pr => readRows (lines s).tail lk pr 0 n.toNat

end Verif.IO
