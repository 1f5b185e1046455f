/-
Model of openptv_python/track.py: the searches over all cameras, `sorted_candidates_in_volume` and
`assess_new_position`, and the geometry of the tracking step (`Geo`) with these searches in it.
-/
import Verif.Model.TrackStep
import Verif.Model.FrameData

namespace Verif.Track

/-- constants.py:28 ADD_PART. -/
def ADD_PART {K : Type} [Field K] : K := 3
/-- constants.py:7 COORD_UNUSED. -/
def COORD_UNUSED {K : Type} [Field K] : K := -10000000000

/-- The result of `searchquader` for one camera (track.py:419-487). -/
structure Rect (K : Type) where
  left : K
  right : K
  up : K
  down : K
  deriving DecidableEq, Repr

/-- The cameras, as far as the searches use them. Coordinates are exact numbers. -/
structure Cams (P K : Type) where
  num : Nat
  imx : K
  imy : K
  /-- point_to_pixel for camera `cam` (track.py:556-577) -/
  pix : Nat → P → Py (K × K)
  /-- searchquader for camera `cam` (track.py:419-487); computed for all cameras before the search -/
  area : Nat → P → Py (Rect K)
  /-- pixel_to_metric followed by dist_to_flat (track.py:687-692) -/
  flat : Nat → K × K → K × K

section
variable {P K : Type} [Field K] [LinearOrder K]

/-- track.py:592: the search limits of all cameras. -/
def areas (c : Cams P K) (center : P) : List Nat → Py (List (Rect K))
  | [] => .ok []
  | cam :: cams => do
    let a ← c.area cam center
    let rest ← areas c center cams
    .ok (a :: rest)

/-- track.py:596-608: one camera, on its own four records. -/
def registerCam (c : Cams P K) (targets : List (List (Search.Tgt K))) (proj : List (K × K)) (as : List (Rect K)) (cam : Nat) :
    Py (List FP) := do
  let ts ← pyGet targets cam
  let v ← pyGet proj cam
  let a ← pyGet as cam
  registerClosest ts cam v.1 v.2 a.left a.right a.up a.down c.imx c.imy (List.replicate 4 FP.unused)

/-- track.py:595-608: `register_closest_neighbs` for one camera after the other. -/
def registerCams (c : Cams P K) (targets : List (List (Search.Tgt K))) (proj : List (K × K)) (as : List (Rect K)) :
    List Nat → Py (List FP)
  | [] => .ok []
  | cam :: cams => do
    let reg ← registerCam c targets proj as cam
    let rest ← registerCams c targets proj as cams
    .ok (reg ++ rest)

/-- track.py:580-621 `sorted_candidates_in_volume` (`frm.num_cams` is the number of cameras). -/
def sortedCandidates (c : Cams P K) (center : P) (centerProj : List (K × K)) (targets : List (List (Search.Tgt K))) :
    Py (List FP) := do
  let as ← areas c center (List.range c.num)
  let rows ← registerCams c targets centerProj as (List.range c.num)
  .ok (candidateList rows c.num)

/-- track.py:659-681: one camera of `assess_new_position`: `targ_pos[cam]` and `cand_inds[cam][0]` (which is -1
before the search). -/
def assessCam (c : Cams P K) (pos : P) (targets : List (List (Search.Tgt K))) (cam : Nat) : Py ((K × K) × Int) := do
  let pixel ← c.pix cam pos
  let ts ← pyGet targets cam
  let r ← Search.candsearchInPixRest ts pixel.1 pixel.2 ADD_PART ADD_PART ADD_PART ADD_PART c.imx c.imy (-1)
  if r.1 > 0 then do
    let t ← pyGetI ts r.2
    .ok ((t.x, t.y), r.2)
  else .ok ((COORD_UNUSED, COORD_UNUSED), r.2)

/-- track.py:659-681: the first loop over the cameras. -/
def assessCams (c : Cams P K) (pos : P) (targets : List (List (Search.Tgt K))) : List Nat → Py (List ((K × K) × Int))
  | [] => .ok []
  | cam :: cams => do
    let r ← assessCam c pos targets cam
    let rest ← assessCams c pos targets cams
    .ok (r :: rest)

/-- track.py:686: a camera with a target. -/
def used (p : K × K) : Bool := decide (p.1 ≠ COORD_UNUSED ∧ p.2 ≠ COORD_UNUSED)

/-- track.py:685-693: the second loop over the cameras: valid positions are converted in place. -/
def flattenCams (c : Cams P K) (l : List ((K × K) × Int)) : List (K × K) :=
  l.mapIdx fun cam r => if used r.1 then c.flat cam r.1 else r.1

/-- track.py:624-697 `assess_new_position`: number of valid cameras, `targ_pos`, and the first column of `cand_inds`. -/
def assessNew (c : Cams P K) (pos : P) (targets : List (List (Search.Tgt K))) : Py (Nat × List (K × K) × List Int) := do
  let l ← assessCams c pos targets (List.range c.num)
  .ok (l.countP (fun r => used r.1), flattenCams c l, l.map Prod.snd)

end

/-! ### The tracking step with these searches -/

/-- The image data of a frame: targets of each camera and correspondences. Target numbers are -1 (no particle) or
particle numbers. -/
structure Img (K : Type) where
  targets : List (List (Search.Tgt K))
  corr : List Corres
  ok : ∀ ts ∈ targets, ∀ t ∈ ts, -1 ≤ t.tnr

/-- Targets with new numbers. -/
def renumber {K : Type} (targets : List (List (Search.Tgt K))) (tnr : List (List Int)) : List (List (Search.Tgt K)) :=
  List.zipWith (fun ts ns => List.zipWith (fun (t : Search.Tgt K) (n : Int) => { t with tnr := n }) ts ns) targets tnr

/-- track.py:746-758: the image part of `add_particle` (see `addParticleFull`). -/
def addImage {K : Type} (targets : List (List (Search.Tgt K))) (corr : List Corres) (cands : List Int) (numParts : Nat) :
    Py (List (List (Search.Tgt K)) × List Corres) := do
  let r ← addCams numParts 0 cands (resizeCorr corr) (targets.map fun ts => ts.map Search.Tgt.tnr)
  .ok (renumber targets r.2, r.1)

end Verif.Track
