/-
Model of how a frame is written, operation by operation (openptv_python/tracking_frame_buf.py: `write_path_frame`, `write_targets`,
`Frame.write`), of what is on the disk when the process is killed in between, and of how such files are read. (`Model/PathIO.lean`,
`Model/TargetsIO.lean` and `Model/FrameIO.lean` have the same writes at once, and leave out rows that the reader does not fill.)
-/
import Verif.Model.StoreRun

namespace Verif.IO
open Text

/-- What the program does to files. -/
inductive FOp
  /-- `open(name, "w")`: the file is there and empty -/
  | start (name : List Char)
  /-- `file.write(text)` -/
  | put (name text : List Char)
  /-- `file.close()` -/
  | close (name : List Char)
  deriving DecidableEq

def FOp.name : FOp → List Char
  | .start n => n
  | .put n _ => n
  | .close n => n

def FOp.act (fs : FS) : FOp → FS
  | .start n => fs.write n []
  | .put n t => fs.write n ((fs n).getD [] ++ t)
  | .close _ => fs

/-- The files after the operations, if nothing is left in a buffer. -/
def runOps (fs : FS) (ops : List FOp) : FS := ops.foldl FOp.act fs

/-- Is the file `name` open after the operation, if it was (`o`) before? -/
def FOp.opens (name : List Char) (o : Bool) : FOp → Bool
  | .start n => if n = name then true else o
  | .put _ _ => o
  | .close n => if n = name then false else o

/-- Is the file `name` open after the operations? -/
def openAfter (ops : List FOp) (name : List Char) : Bool := ops.foldl (fun o p => p.opens name o) false

/-- The process is killed after some of the operations. What was written to a closed file is there; of what was written to a file
that is still open any part at the end may be missing (Python and the C library write a buffer at a time). -/
def Killed (fs : FS) (ops : List FOp) (fs' : FS) : Prop :=
  ∃ k, ∀ name,
    (openAfter (ops.take k) name = false → fs' name = runOps fs (ops.take k) name) ∧
    (openAfter (ops.take k) name = true → ∃ cut, fs' name = (runOps fs (ops.take k) name).map (List.take cut))

/-- tracking_frame_buf.py:853-872: the lines of a particle. -/
def particleOps (c l p : List Char) (t : Particle × ℕ) : List FOp :=
  [.put l (linkageRow t.1 ++ ['\n']), .put c (corresRow t.2 t.1 ++ ['\n']), .put p (prioRow t.1 ++ ['\n'])]

/-- tracking_frame_buf.py:840-884 `write_path_frame`: what is done, and the exception if there is one. An empty `prio_file_base`
makes the file name `None` (836), and `open(None)` is a TypeError. -/
def pathOps (ps : List Particle) (num : ℕ) (cb lb pb : List Char) (frame : ℤ) : List FOp × Py Unit :=
  let c := frameName cb frame
  let l := frameName lb frame
  let p := frameName pb frame
  let head := [FOp.start c, .put c (intStr num ++ ['\n']), .start l, .put l (intStr num ++ ['\n'])]
  if pb = [] then (head, .error .typeError)
  else
    let body := head ++ [.start p, .put p (intStr num ++ ['\n'])] ++ (ps.take num).zipIdx.flatMap (particleOps c l p)
    if ps.length < num then (body, .error .indexError)
    else (body ++ [.close c, .close l, .close p], .ok ())

/-- tracking_frame_buf.py:212-246 `write_targets`: `np.savetxt` opens the file, writes the header and the rows, and closes it; without
rows it raises after opening. -/
def targetOps (ts : List Target) (num : ℤ) (base : List Char) (frame : ℤ) : List FOp × Py Bool :=
  match writeName base frame with
  | .error e => ([], .error e)
  | .ok name =>
    if ts = [] then ([.start name, .close name], .error .valueError)
    else (.start name :: .put name (intStr num ++ ['\n']) :: (ts.map fun t => .put name (targetRow t ++ ['\n'])) ++ [.close name], .ok true)

/-- tracking_frame_buf.py:391-396. -/
def camOps (f : DFrame) (tb : List (List Char)) (frame : ℤ) (cam : ℕ) : List FOp × Py Bool :=
  match (do
    let ts ← pyGet f.targets cam
    let n ← pyGet f.numTargets cam
    let b ← pyGet tb cam
    .ok (ts, n, b) : Py (List Target × ℕ × List Char)) with
  | .error e => ([], .error e)
  | .ok (ts, n, b) => targetOps ts n b frame

/-- tracking_frame_buf.py:390-399: the loop over the cameras. -/
def camsOps (f : DFrame) (tb : List (List Char)) (frame : ℤ) : List ℕ → List FOp × Py Bool
  | [] => ([], .ok true)
  | cam :: cams =>
    match camOps f tb frame cam with
    | (o, .ok true) => (o ++ (camsOps f tb frame cams).1, (camsOps f tb frame cams).2)
    | r => r

/-- tracking_frame_buf.py:369-401 `Frame.write`. -/
def DFrame.ops (f : DFrame) (cb lb pb : List Char) (tb : List (List Char)) (frame : ℤ) : List FOp × Py Bool :=
  match pathOps f.parts f.numParts cb lb pb frame with
  | (o, .error e) => (o, .error e)
  | (o, .ok ()) => (o ++ (camsOps f tb frame (List.range f.targets.length)).1, (camsOps f tb frame (List.range f.targets.length)).2)

/-- A particle that the reader made room for and did not fill: a new `Pathinfo` (tracking_frame_buf.py:263-274) and a row of
`np.recarray`, which holds whatever was in memory. -/
def unfilled (junk : ℕ → ℤ × ℤ × ℤ × ℤ × ℤ) (k : ℕ) : Particle :=
  ⟨(junk k).1, (junk k).2.1, (junk k).2.2.1, (junk k).2.2.2.1, (junk k).2.2.2.2, 0, 0, 0, -1, -2, 2⟩

/-- tracking_frame_buf.py:692-804 `read_path_frame`, with the rows it does not fill (`junk`: what is in their memory). -/
def readPathAll (junk : ℕ → ℤ × ℤ × ℤ × ℤ × ℤ) (fs : FS) (cb lb pb : List Char) (frame : ℤ) : Py (List Particle) :=
  match fs (frameName cb frame) with
  | none => .ok []
  | some s => do
    let n ← pyInt ((lines s).headD [])
    if n < 0 then .error .valueError
    else match openOptional fs lb frame with
    | none => .ok []
    | some lk =>
      match openOptional fs pb frame with
      | none => .ok []
      | some pr => do
        let ts ← readRows (lines s).tail lk pr 0 n.toNat
        .ok (ts ++ (List.range' ts.length (n.toNat - ts.length)).map (unfilled junk))

end Verif.IO

namespace Verif.Track
open _root_.Verif.IO

/-- The files as a store, in a run that is killed while it writes frame `m`: `kill fs f` is what is on the disk then. The run ends there. -/
def killStore (b : Bases) (links : Bool) (m : Int) (kill : Text.FS → DFrame → Text.FS) : Store Text.FS DFrame where
  read := (fileStore b links).read
  write fs n f := if n = m then (kill fs f, .error .other) else (fileStore b links).write fs n f

end Verif.Track
