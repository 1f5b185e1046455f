/-
Model of openptv_python/correspondences.py as a whole for four cameras: `correspondences` with the geometry of its searches
(`match_pairs` calls `epi_mm` and `find_candidate`), and the distribution of its result by `py_correspondences`.
-/
import Verif.Model.Correspondences
import Verif.Model.Search
import Verif.Model.Multimed
import Verif.Model.Trafo

namespace Verif.FullCorr

open Verif.Geo Verif.Search Verif.Corr

/-- One camera: its calibration, its x-sorted flat coordinates `corrected[cam]`, and of its targets `frm.targets[cam]` the sizes,
the correspondence numbers and the pixel positions. -/
structure CamData where
  cal : Cam
  lut : LUT
  crd : List Search.Coord
  pix : List Shape
  tnr : List Int
  xy : List (ℝ × ℝ)

/-- The parameters: `vpar` in two parts (limits and criteria), `vpar.corrmin`, `cpar` (media, image, all_cam_flag). -/
structure Pars where
  vol : Geo.VPar
  crit : Search.VPar
  corrmin : Fl ℝ
  mm : MM
  ip : ImgPar
  allCam : Bool

/-- find_candidate.py:63-76: the corners of the sensor, corrected (`tol` of `correct_brown_affine` has the default 1e-5). -/
noncomputable def sensorOf (ip : ImgPar) (cal : Cam) : Sensor :=
  let lo := correctBrownAffine (-1 * ip.pixX * ip.imx / 2 - cal.xh) (-1 * ip.pixY * ip.imy / 2 - cal.yh) cal.ap 1e-5
  let hi := correctBrownAffine (ip.pixX * ip.imx / 2 - cal.xh) (ip.pixY * ip.imy / 2 - cal.yh) cal.ap 1e-5
  ⟨lo.1, lo.2, hi.1, hi.2⟩

/-- correspondences.py:384-387: a candidate as it is stored in the adjacency list. -/
def slotOf (c : Cand) : Slot ℝ := ⟨c.pnr, c.corr, c.tol⟩

/-- correspondences.py:345-378: the candidates in the second camera for target `i` of the first. `none` of `epi_mm` is an exception
(a division by zero, or an index outside the look-up table). -/
noncomputable def findPair (p : Pars) (a b : CamData) (i : ℕ) : Py (List (Slot ℝ)) := do
  let c ← pyGet a.crd i
  match epiMM c.x c.y a.cal b.cal b.lut p.mm p.vol with
  | none => .error .other
  | some e => do
    let s ← pyGet a.pix c.pnr
    let r ← findCandidate (sensorOf p.ip b.cal) p.crit s b.crd b.pix e.1.1 e.1.2 e.2.1 e.2.2
    .ok (r.map slotOf)

/-- What a search found, if it did not raise. -/
def found (r : Py (List (Slot ℝ))) : List (Slot ℝ) :=
  match r with
  | .ok l => l
  | .error _ => []

/-- `frm.num_targets`. In `py_correspondences` it is the number of targets, as is the number of coordinates. -/
def numTargets (cams : Fin 4 → CamData) (c : Fin 4) : ℕ := (cams c).crd.length

/-- correspondences.py:340-389 `match_pairs`: the searches in the order of the loops; the first exception ends the call. The rows are
independent of each other. -/
noncomputable def searches (p : Pars) (cams : Fin 4 → CamData) : Py (List Unit) :=
  forE (camsBetween 0 3) fun i1 =>
  forE (camsBetween (i1.val + 1) 4) fun i2 =>
  forE (List.range (numTargets cams i1)) fun i => do
    let _ ← findPair p (cams i1) (cams i2) i
    .ok []

/-- The adjacency lists that `match_pairs` builds. -/
noncomputable def adjacency (p : Pars) (cams : Fin 4 → CamData) : Adj ℝ :=
  matchPairs (numTargets cams) fun i1 i2 i => found (findPair p (cams i1) (cams i2) i)

/-- correspondences.py:588-700 `correspondences` for four cameras. -/
noncomputable def run (srt : NpSort ℝ) (p : Pars) (cams : Fin 4 → CamData) : Py (Result ℝ) := do
  let _ ← searches p cams
  correspondences srt NMAX (numTargets cams) (fun i1 i2 i => found (findPair p (cams i1) (cams i2) i)) p.corrmin p.allCam
    (fun c => (cams c).crd.map fun q => (q.pnr : Int)) (fun c => (cams c).tnr)

/-- correspondences.py:562-575: the point identifier and the pixel position of one camera in one n-tuple: CORRES_NONE and PT_UNUSED
if the camera is not part of it. -/
def entry (d : CamData) (c : Fin 4) (t : NTuple ℝ) : Py (Int × (ℝ × ℝ)) :=
  if t.p c < 0 then .ok (-1, (-999, -999))
  else do
    let q ← pyGet d.crd (t.p c).toNat
    let xy ← pyGet d.xy q.pnr
    .ok (q.pnr, xy)

/-- correspondences.py:562-575, the loop over the n-tuples of a group for one camera. -/
def entries (d : CamData) (c : Fin 4) : List (NTuple ℝ) → Py (List (Int × (ℝ × ℝ)))
  | [] => .ok []
  | t :: ts => do
    let e ← entry d c t
    let es ← entries d c ts
    .ok (e :: es)

/-- One group of the result: per camera the identifiers and positions (`sorted_corresp[g][cam]`, `sorted_pos[g][cam]`). -/
abbrev Group := Fin 4 → List (Int × (ℝ × ℝ))

/-- correspondences.py:555-578: one clique size. -/
def group (cams : Fin 4 → CamData) (ts : List (NTuple ℝ)) : Py Group := do
  let a ← entries (cams 0) 0 ts
  let b ← entries (cams 1) 1 ts
  let c ← entries (cams 2) 2 ts
  let d ← entries (cams 3) 3 ts
  .ok fun k => match k with
    | 0 => a
    | 1 => b
    | 2 => c
    | 3 => d

/-- What `py_correspondences` returns and leaves in its targets. -/
structure Out where
  quads : Group
  triplets : Group
  pairs : Group
  total : ℕ
  tnr : Tnr

/-- correspondences.py:472-585 `py_correspondences` for four cameras: the result of `correspondences`, cut into the groups by the
counts. -/
noncomputable def pyCorrespondences (srt : NpSort ℝ) (p : Pars) (cams : Fin 4 → CamData) : Py Out := do
  let r ← run srt p cams
  let con := r.con
  let n4 := r.quads.length
  let n3 := r.triplets.length
  let n2 := r.pairs.length
  let q ← group cams (con.take n4)
  let t ← group cams ((con.drop n4).take n3)
  let d ← group cams ((con.drop (n4 + n3)).take n2)
  .ok ⟨q, t, d, n4 + n3 + n2, r.tnr⟩

end Verif.FullCorr
