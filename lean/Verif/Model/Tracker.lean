/-
The tracker as a whole: the geometry of the tracking step (`Geo`) made from calibrations and parameters, as `trackcorr_c_loop`
(openptv_python/track.py:781-1095) uses it.
-/
import Verif.Model.Motion
import Verif.Model.Orientation
import Verif.Props.CamSearch

namespace Verif.Track
open Verif.Geo

/-- What a `TrackingRun` (tracking_run.py:18-100) holds, as far as the tracking step reads it. -/
structure Setup where
  /-- `cal`: one calibration per camera, with its look-up table -/
  cals : List (Cam × LUT)
  /-- `cpar.mm` -/
  mm : MM
  /-- image and pixel size of `cpar` -/
  ip : ImgPar
  /-- `flatten_tol` -/
  tol : ℝ
  /-- the velocity limits of `tpar` -/
  vel : Vel
  dacc : ℝ
  dangle : ℝ
  add : Bool
  /-- `lmax` -/
  lmax : ℝ
  /-- the volume of track.py:937-944: `x_lay[0]`, `ymin`, `z_min_lay[0]` -/
  lo : V3
  /-- `x_lay[1]`, `ymax`, `z_max_lay[1]` -/
  hi : V3

/-- A result of the projection code, which either returns or raises. -/
def orRaise {α : Type} : Option α → Py α
  | some a => .ok a
  | none => .error .other

namespace Setup

/-- track.py:556-577 `point_to_pixel(P, cal[cam], cpar)`. -/
noncomputable def pix (s : Setup) (cam : Nat) (P : V3) : Py (ℝ × ℝ) :=
  match s.cals[cam]? with
  | some c => orRaise (pointToPixel P c.1 c.2 s.mm s.ip)
  | none => .error .indexError

/-- The distances of `searchquader` as a rectangle. -/
def rectOf (a : Area) : Rect ℝ := ⟨a.xl, a.xr, a.yu, a.yd⟩

/-- track.py:419-487 `searchquader`, for camera `cam`. -/
noncomputable def area (s : Setup) (cam : Nat) (P : V3) : Py (Rect ℝ) :=
  match s.cals[cam]? with
  | some c => orRaise ((searchQuader (fun Q => pointToPixel Q c.1 c.2 s.mm s.ip) s.ip.imx s.ip.imy P s.vel).map rectOf)
  | none => .error .indexError

/-- track.py:687-693: `pixel_to_metric`, then `dist_to_flat`. -/
noncomputable def flat (s : Setup) (cam : Nat) (p : ℝ × ℝ) : ℝ × ℝ :=
  match s.cals[cam]? with
  | some c =>
    let m := pixelToMetric p.1 p.2 s.ip
    distToFlat m.1 m.2 c.1.xh c.1.yh c.1.ap s.tol
  | none => p

/-- The cameras for the searches (`sorted_candidates_in_volume`, `assess_new_position`). -/
noncomputable def cams (s : Setup) : Cams V3 ℝ :=
  ⟨s.cals.length, s.ip.imx, s.ip.imy, s.pix, s.area, s.flat⟩

/-- All of a list of results, or none. -/
def allOk {α : Type} : List (Py α) → List α
  | [] => []
  | l => if l.all (fun r => match r with | .ok _ => true | .error _ => false)
    then l.filterMap (fun r => match r with | .ok a => some a | .error _ => none) else []

/-- track.py:824-825 (and 859-860): the projections of `X` on all cameras. If one raises, the step raises; the model then has
an empty list here, on which the search raises. -/
noncomputable def proj (s : Setup) (X : V3) : List (ℝ × ℝ) :=
  allOk ((List.range s.cals.length).map fun cam => s.pix cam X)

/-- track.py:829-834: one camera of the first search for a particle without predecessor: its own target, if it has one. -/
noncomputable def ownPix (s : Setup) (i : Img ℝ) (h : Nat) (X : V3) (cam : Nat) : Py (ℝ × ℝ) := do
  let r ← pyGet i.corr h
  let p ← pyGet r.p cam
  if p = -1 then s.pix cam X
  else do
    let ts ← pyGet i.targets cam
    let t ← pyGetI ts p
    .ok (t.x, t.y)

/-- track.py:827-834. -/
noncomputable def projOwn (s : Setup) (i : Img ℝ) (h : Nat) (X : V3) : List (ℝ × ℝ) :=
  allOk ((List.range s.cals.length).map fun cam => s.ownPix i h X cam)

/-- orientation.py:52-111 `point_position(v2, num_cams, mm, cal)`: the position. A position that is not a number fails the
volume check (all comparisons are false); the model has a corner of the volume instead, which fails it too. -/
noncomputable def position (s : Setup) (v : List (ℝ × ℝ)) : Py V3 :=
  match pointPosition v s.cals.length s.mm (s.cals.map Prod.fst) with
  | .ok (some r) => .ok r.2
  | .ok none => .ok s.lo
  | .error e => .error e

open Classical in
/-- track.py:937-944 (and 991-998): the volume check. -/
noncomputable def inVolume (s : Setup) (X : V3) : Bool :=
  decide ((s.lo.x < X.x ∧ X.x < s.hi.x) ∧ (s.lo.y < X.y ∧ X.y < s.hi.y) ∧ (s.lo.z < X.z ∧ X.z < s.hi.z))

open Classical in
/-- The geometry of the tracking step for these calibrations and parameters; the three searches are replaced by those over the
cameras (`withCams`). -/
noncomputable def tracker (s : Setup) : Geo V3 (List (ℝ × ℝ)) (List Int) (Img ℝ) ℝ :=
  withCams s.cams
  { predict := searchVolumeCenterMoving
    predict2 := fun x3 x1 x0 => (x3.smul 5 - x1.smul 4 + x0).smul 0.5
    sub := fun a b => a - b
    dist := V3.diffNorm
    proj := s.proj
    projOwn := s.projOwn
    search := fun _ _ _ => .error .other
    assess := fun _ _ => .error .other
    pointPos := s.position
    inVolume := s.inVolume
    inBounds := fun p => decide (Pos3dInBounds p s.vel)
    angleAcc := angleAcc
    addImg := fun _ _ _ => .error .other
    dacc := s.dacc
    dangle := s.dangle
    lmax := s.lmax
    add := s.add }

end Setup

end Verif.Track
