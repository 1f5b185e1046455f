/-
Model of openptv_python/tracking_frame_buf.py: `Frame.read`, `Frame.write`, `Frame.positions`,
`Frame.target_positions_for_camera`, and the reading and writing functions of `FrameBuf`.
-/
import Verif.Model.TargetsIO
import Verif.Model.PathIO

namespace Verif.IO
open Text

/-- tracking_frame_buf.py:308-333 `Frame`: correspondences and path information (one list, see `Particle`), `num_parts`,
targets and `num_targets` of each camera; `num_cams` is the length of `targets`. -/
structure DFrame where
  parts : List Particle
  numParts : ℕ
  targets : List (List Target)
  numTargets : List ℕ
  deriving DecidableEq

/-- tracking_frame_buf.py:359: the targets of one camera. -/
def readCam (fs : FS) (tb : List (List Char)) (frame : ℤ) (cam : ℕ) : Py (List Target) := do
  let b ← pyGet tb cam
  readTargets fs b frame

/-- tracking_frame_buf.py:358-365: the loop over the cameras. The result is the frame, as far as it was read, and the
return value or the exception. The length is never -1. -/
def readCams (fs : FS) (tb : List (List Char)) (frame : ℤ) : List ℕ → DFrame → DFrame × Py Bool
  | [], f => (f, .ok true)
  | cam :: cams, f =>
    match readCam fs tb frame cam with
    | .error e => (f, .error e)
    | .ok ts => readCams fs tb frame cams
        { f with targets := f.targets.set cam ts, numTargets := f.numTargets.set cam ts.length }

/-- tracking_frame_buf.py:334-367 `Frame.read`. -/
def DFrame.read (f : DFrame) (fs : FS) (cb lb pb : List Char) (tb : List (List Char)) (frame : ℤ) : DFrame × Py Bool :=
  match readPathFrame fs cb lb pb frame with
  | .error e => (f, .error e)
  | .ok ps => readCams fs tb frame (List.range f.targets.length) { f with parts := ps, numParts := ps.length }

/-- tracking_frame_buf.py:391-396: the targets of one camera. -/
def writeCam (fs : FS) (f : DFrame) (tb : List (List Char)) (frame : ℤ) (cam : ℕ) : FS × Py Bool :=
  match (do
    let ts ← pyGet f.targets cam
    let n ← pyGet f.numTargets cam
    let b ← pyGet tb cam
    .ok (ts, n, b) : Py (List Target × ℕ × List Char)) with
  | .error e => (fs, .error e)
  | .ok (ts, n, b) => writeTargets fs ts n b frame

/-- tracking_frame_buf.py:390-399: the loop over the cameras. -/
def writeCams (f : DFrame) (tb : List (List Char)) (frame : ℤ) : List ℕ → FS → FS × Py Bool
  | [], fs => (fs, .ok true)
  | cam :: cams, fs =>
    match writeCam fs f tb frame cam with
    | (fs', .ok true) => writeCams f tb frame cams fs'
    | r => r

/-- tracking_frame_buf.py:369-401 `Frame.write`. The result is the new state of the files, and the return value or the
exception. (When the path files cannot be written, the model leaves all files as they were; the program may have
emptied some of them.) -/
def DFrame.write (f : DFrame) (fs : FS) (cb lb pb : List Char) (tb : List (List Char)) (frame : ℤ) : FS × Py Bool :=
  match writePathFrame fs f.parts f.numParts cb lb pb frame with
  | .error e => (fs, .error e)
  | .ok fs' => writeCams f tb frame (List.range f.targets.length) fs'

/-- tracking_frame_buf.py:403-409 `Frame.positions`. -/
def DFrame.positions (f : DFrame) : Py (List (ℚ × ℚ × ℚ)) :=
  (List.range f.numParts).mapM fun pt => do
    let p ← pyGet f.parts pt
    .ok (p.x, p.y, p.z)

/-- `correspond[pt].p[cam]`: four cameras. -/
def Particle.corr (p : Particle) (cam : ℕ) : Py ℤ := pyGet [p.p0, p.p1, p.p2, p.p3] cam

/-- tracking_frame_buf.py:428-436: one row. NaN is `none`. -/
def targetPosition (f : DFrame) (cam pt : ℕ) : Py (Option (ℚ × ℚ)) := do
  let p ← pyGet f.parts pt
  let tix ← p.corr cam
  if tix = -1 then .ok none
  else do
    let ts ← pyGet f.targets cam
    let t ← pyGetI ts tix
    .ok (some (t.x, t.y))

/-- tracking_frame_buf.py:411-438 `Frame.target_positions_for_camera`. -/
def DFrame.targetPositions (f : DFrame) (cam : ℕ) : Py (List (Option (ℚ × ℚ))) :=
  (List.range f.numParts).mapM (targetPosition f cam)

/-- tracking_frame_buf.py:565-600: the file names of a `FrameBuf`. -/
structure Bases where
  corres : List Char
  linkage : List Char
  prio : List Char
  target : List (List Char)

/-- tracking_frame_buf.py:618-636 `FrameBuf.read_frame_at_end` (and 638-667 `disk_read_frame_at_end`): the last frame of
the buffer is read; without links the names of the linkage and priority files are empty. `Frame.read` never returns
False. An empty buffer is an IndexError. -/
def readFrameAtEnd (fs : FS) (b : Bases) (frame : ℤ) (links : Bool) (buf : List DFrame) : List DFrame × Py Bool :=
  match buf.getLast? with
  | none => (buf, .error .indexError)
  | some f =>
    let r := if links then f.read fs b.corres b.linkage b.prio b.target frame
      else f.read fs b.corres [] [] b.target frame
    (buf.dropLast ++ [r.1], r.2)

/-- tracking_frame_buf.py:669-689 `FrameBuf.write_frame_from_start`. -/
def writeFrameFromStart (fs : FS) (b : Bases) (frame : ℤ) (buf : List DFrame) : FS × Py Bool :=
  match buf with
  | [] => (fs, .error .indexError)
  | f :: _ => f.write fs b.corres b.linkage b.prio b.target frame

end Verif.IO
