/-
Model of measuring with a single camera: `single_cam_correspondences` (correspondences.py) and the dispatcher `point_positions`
(orientation.py).
-/
import Verif.Model.Pictures

namespace Verif.FullCorr

open Verif.Geo Verif.Corr

/-- What `single_cam_correspondences` returns and leaves in its targets: the identifiers with the positions
(`sorted_corresp[0][0]`, `sorted_pos[0][0]`), the number of points, the correspondence numbers of the targets. -/
structure SingleOut where
  entries : List (Int × (ℝ × ℝ))
  num : ℕ
  tnr : List Int

/-- correspondences.py:741-755, the loop: `left` passes to go, of which the next is number `pt`. A `pnr` below 0 leaves the marker
PT_UNUSED as the position. -/
def singleLoop (xy : List (ℝ × ℝ)) (crd : List Geo.Coord) : ℕ → ℕ → List Int → Py (List (Int × (ℝ × ℝ)) × List Int)
  | 0, _, tnr => .ok ([], tnr)
  | left + 1, pt, tnr => do
    let c ← pyGet crd pt
    if c.pnr > -1 then
      let p ← pyGet xy c.pnr.toNat
      let r ← singleLoop xy crd left (pt + 1) (tnr.set c.pnr.toNat pt)
      .ok ((c.pnr, p) :: r.1, r.2)
    else
      let r ← singleLoop xy crd left (pt + 1) tnr
      .ok ((c.pnr, (-999, -999)) :: r.1, r.2)

/-- correspondences.py:703-760 `single_cam_correspondences`. -/
def singleCamCorrespondences (dets : List Det) (crd : List Geo.Coord) : Py SingleOut := do
  let r ← singleLoop (dets.map fun t => (t.x, t.y)) crd dets.length 0 (dets.map Det.tnr)
  .ok ⟨r.1, dets.length, r.2⟩

/-- orientation.py:949-986 `point_positions`: by the number of calibrations. `numCams` is `targets.shape[1]`. -/
noncomputable def pointPositions (targets : List (List (ℝ × ℝ))) (numCams : ℕ) (mm : MM) (cals : List Cam) (v : Geo.VPar) :
    Py (Batch × List (Option ℝ)) :=
  if cals.length = 1 then do
    let r ← singleCamPointPositions targets mm cals v
    .ok (.rows (r.1.map some), r.2.map some)
  else if cals.length > 1 then multiCamPointPositions targets numCams mm cals
  else .error .valueError

end Verif.FullCorr
