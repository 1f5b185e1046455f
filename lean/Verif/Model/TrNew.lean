/-
Model of openptv_python/tracking_run.py `tr_new`: a tracking run made from the parameter files.
-/
import Verif.Model.RunInit
import Verif.Model.ParamIO

namespace Verif.Track
open Verif.Geo Verif.IO Text

/-- The names of the four parameter files (tracking_run.py:104-107). -/
structure ParNames where
  seq : List Char
  track : List Char
  vol : List Char
  ctrl : List Char

/-- A tracking run as far as it is modelled: what the step reads, and the range and base names of the frames. -/
structure FileRun where
  setup : Setup
  first : ℤ
  last : ℤ
  imgBase : List (List Char)

/-- parameters.py:514-520: a missing file is a FileNotFoundError (an IOError). -/
def readControlParFile (fs : FS) (name : List Char) : Py ControlPar := do
  let s ← fs.read name
  readControlPar s

/-- parameters.py:165-169: a missing file is an IOError. -/
def readSequenceParFile (fs : FS) (name : List Char) (numCams : ℕ) : Py SequencePar := do
  let s ← fs.read name
  readSequencePar s numCams

/-- parameters.py:407: a missing file is an IOError. -/
def readVolumeParFile (fs : FS) (name : List Char) : Py VolumePar := do
  let s ← fs.read name
  readVolumePar s

/-- parameters.py:317-333 `convert_track_par_to_tuple`, and what the run reads of it. -/
def velOf (t : TrackPar) : Vel := ⟨⟨t.dvxmin, t.dvymin, t.dvzmin⟩, ⟨t.dvxmax, t.dvymax, t.dvzmax⟩⟩

/-- `cpar.mm` -/
def mmOf (m : MMPar) : MM := ⟨m.nlay.toNat, m.n1, m.n2.map fun q : ℚ => (q : ℝ), m.n3, m.d.map fun q : ℚ => (q : ℝ)⟩

/-- The image of `cpar`. (The model has no images of negative size: they count as empty.) -/
def imgOf (c : ControlPar) : ImgPar := ⟨c.imx.toNat, c.imy.toNat, c.pixX, c.pixY⟩

/-- The volume of `vpar`: `x_lay`, `z_min_lay` and `z_max_lay` have two entries each. -/
def volOf (v : VolumePar) : Verif.Geo.VPar :=
  ⟨(v.xLay.getD 0 0 : ℚ), (v.xLay.getD 1 0 : ℚ), (v.zMinLay.getD 0 0 : ℚ), (v.zMinLay.getD 1 0 : ℚ), (v.zMaxLay.getD 0 0 : ℚ),
    (v.zMaxLay.getD 1 0 : ℚ)⟩

/-- tracking_run.py:57-100 `TrackingRun.__init__` for the parameters read: only the first `num_cams` calibrations are used; if there are
fewer, `volumedimension` raises an IndexError. -/
noncomputable def runOf (c : ControlPar) (q : SequencePar) (t : TrackPar) (v : VolumePar) (cals : List (Cam × LUT)) (tol : ℝ) :
    Py FileRun :=
  if cals.length < c.numCams.toNat then .error .indexError
  else do
    let r ← orRaise (newRun ⟨cals.take c.numCams.toNat, mmOf c.mm, imgOf c, tol, velOf t, t.dacc, t.dangle, decide (t.add ≠ 0)⟩ (volOf v))
    .ok ⟨r.1, q.first, q.last, q.imgBaseName⟩

/-- tracking_run.py:103-135 `tr_new`. -/
noncomputable def trNew (fs : FS) (n : ParNames) (cals : List (Cam × LUT)) (tol : ℝ) : Py FileRun := do
  let cpar ← readControlParFile fs n.ctrl
  let seq ← readSequenceParFile fs n.seq cpar.numCams.toNat
  let tpar ← readTrackParFile fs n.track
  let vpar ← readVolumeParFile fs n.vol
  runOf cpar seq tpar vpar cals tol

end Verif.Track
