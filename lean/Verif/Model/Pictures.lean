/-
Model of the way from detections to particles, as a user of the library goes it: `match_coords` for every camera, `py_correspondences`,
`get_by_pnrs` for the identifiers it lists, `point_position` for one row.
-/
import Verif.Model.FullCorr
import Verif.Model.FrameData
import Verif.Model.Orientation

namespace Verif.FullCorr

open Verif.Geo Verif.Search Verif.Corr

/-- A target as it is detected: pixel position, sizes, correspondence number (tracking_frame_buf.py:72-84). -/
structure Det where
  x : ℝ
  y : ℝ
  shape : Shape
  tnr : Int

/-- A camera and its detections. -/
structure Pic where
  cal : Cam
  lut : LUT
  dets : List Det

/-- The positions of the targets; `match_coords` with `reset_numbers` gives them their index as number. -/
def Pic.pixels (d : Pic) : List TgtXY := d.dets.map fun t => ⟨0, t.x, t.y⟩

/-- tracking_frame_buf.py:887-921: the result of `match_coords` (reset_numbers=True) for the camera. -/
noncomputable def Pic.matched (d : Pic) (ip : ImgPar) (tol : ℝ) : List Geo.Coord := matchCoords d.pixels ip d.cal tol true

/-- What `py_correspondences` gets of a camera (correspondences.py:472-478): the matched coordinates and the targets. -/
noncomputable def Pic.data (d : Pic) (ip : ImgPar) (tol : ℝ) : CamData where
  cal := d.cal
  lut := d.lut
  crd := (d.matched ip tol).map fun c => ⟨c.pnr.toNat, c.x, c.y⟩
  pix := d.dets.map Det.shape
  tnr := d.dets.map Det.tnr
  xy := d.dets.map fun t => (t.x, t.y)

/-- tracking_frame_buf.py:949-966: the flat positions `get_by_pnrs` looks up for the identifiers of a camera (COORD_UNUSED is -1e10). -/
noncomputable def Pic.lookup (d : Pic) (ip : ImgPar) (tol : ℝ) (ids : List Int) : List (ℝ × ℝ) :=
  getByPnrs (d.matched ip tol) ids coordUnused

end Verif.FullCorr
