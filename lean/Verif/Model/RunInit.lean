/-
Model of openptv_python/tracking_run.py: what `TrackingRun.__init__` computes from the parameters.
-/
import Verif.Model.Tracker
import Verif.Model.Volume

namespace Verif.Track
open Verif.Geo

/-- The parameters and calibrations a `TrackingRun` is made of (tracking_run.py:43-56), without the file names. -/
structure RunArgs where
  cals : List (Cam × LUT)
  mm : MM
  ip : ImgPar
  tol : ℝ
  vel : Vel
  dacc : ℝ
  dangle : ℝ
  add : Bool

/-- tracking_run.py:81-85: `vpar.x_lay[1]`, `vpar.x_lay[0]`, `vpar.z_max_lay[1]` and `vpar.z_min_lay[0]` are overwritten. -/
def overwriteVolume (v : VPar) (b : Bounds) (zMax zMin : ℝ) : VPar :=
  { v with xLay1 := b.xmax, xLay0 := b.xmin, zMax1 := zMax, zMin0 := zMin }

/-- tracking_run.py:57-100 `TrackingRun.__init__`: the run, and the caller's volume parameters afterwards (the object is shared).
`self.ymax` and `self.ymin` are the class defaults 0 when `volumedimension` is called. `none`: an exception. (`num_cams` is the
number of calibrations.) -/
noncomputable def newRun (a : RunArgs) (v : VPar) : Option (Setup × VPar) := do
  let r ← volumeDimension ⟨v.xLay1, v.xLay0, 0, 0⟩ v a.ip a.mm (a.cals.map Prod.fst)
  let v' := overwriteVolume v r.1 r.2.1 r.2.2
  some ({ cals := a.cals, mm := a.mm, ip := a.ip, tol := a.tol, vel := a.vel, dacc := a.dacc, dangle := a.dangle, add := a.add,
          lmax := V3.diffNorm a.vel.lo a.vel.hi,
          lo := ⟨v'.xLay0, r.1.ymin, v'.zMin0⟩, hi := ⟨v'.xLay1, r.1.ymax, v'.zMax1⟩ }, v')

end Verif.Track
