/-
Model of openptv_python/track.py `add_particle` and of the corrected-coordinate functions of
openptv_python/tracking_frame_buf.py.
-/
import Verif.Model.Tracking
import Verif.Model.Motion

namespace Verif.Track

/-- constants.py:19. -/
def CORRES_NONE : Int := -1

/-- A row of `Corres_dtype` (tracking_frame_buf.py:47-52): `p` has four entries. -/
structure Corres where
  nr : Int
  p : List Int
  deriving DecidableEq, Repr

/-- A frame as `add_particle` sees it: the positions of its particles (`path_info`), the correspondence
table, and for each camera the `tnr` of its targets. `num_parts` is the number of positions. -/
structure AFrame (P : Type) where
  pos : List P
  corr : List Corres
  tnr : List (List Int)

/-- `np.resize(correspond, n + 1)`: the array is repeated to fill, so the new row is a copy of row 0 (a row
of zeros if there is none). -/
def resizeCorr (c : List Corres) : List Corres :=
  c ++ [match c with | [] => ⟨0, [0, 0, 0, 0]⟩ | r :: _ => r]

/-- `ref_corres.p[cam] = v` where `ref_corres` is the *whole* table: row `cam` is filled with `v`. -/
def setRow (c : List Corres) (cam : Nat) (v : Int) : Py (List Corres) :=
  match c[cam]? with
  | none => .error .indexError
  | some r => .ok (c.set cam { r with p := [v, v, v, v] })

/-- `ref_corres.nr = v` on the whole table. -/
def setNr (c : List Corres) (v : Int) : List Corres := c.map fun r => { r with nr := v }

/-- track.py:747-757: one pass of the loop over the cameras; `cand` is `cand_inds[cam][0]`. -/
def addCam (numParts : Int) (cam : Nat) (cand : Int) (c : List Corres) (t : List (List Int)) :
    Py (List Corres × List (List Int)) := do
  let c ← setRow c cam CORRES_NONE
  if cand ≠ PT_UNUSED then do
    let ts ← pyGet t cam
    let ts ← pySetI ts cand numParts
    let c ← setRow c cam cand
    .ok (setNr c numParts, t.set cam ts)
  else .ok (c, t)

/-- track.py:747-757 `for cam in range(frm.num_cams)`. -/
def addCams (numParts : Int) : Nat → List Int → List Corres → List (List Int) →
    Py (List Corres × List (List Int))
  | _, [], c, t => .ok (c, t)
  | cam, cand :: cands, c, t => do
    let r ← addCam numParts cam cand c t
    addCams numParts (cam + 1) cands r.1 r.2

/-- track.py:725-760 `add_particle` for a frame whose `path_info` has `num_parts` entries (as after
reading it): the `else` branch. `cands` are the first candidates, one per camera. -/
def addParticleFull {P : Type} (f : AFrame P) (x : P) (cands : List Int) : Py (AFrame P) := do
  let r ← addCams f.pos.length 0 cands (resizeCorr f.corr) f.tnr
  .ok ⟨f.pos ++ [x], r.1, r.2⟩

end Verif.Track

namespace Verif.Geo

/-- A target, as far as `match_coords` uses it. -/
structure TgtXY where
  pnr : Int
  x : ℝ
  y : ℝ

/-- A row of `Coord2d_dtype` (epi.py:23-29). -/
structure Coord where
  pnr : Int
  x : ℝ
  y : ℝ

/-- tracking_frame_buf.py:908-917: the row made from target number `tnum`. -/
noncomputable def matchRow (ip : ImgPar) (cal : Cam) (tol : ℝ) (reset : Bool) (tnum : Nat) (t : TgtXY) :
    Coord :=
  let m := pixelToMetric t.x t.y ip
  let f := distToFlat m.1 m.2 cal.xh cal.yh cal.ap tol
  ⟨if reset then tnum else t.pnr, f.1, f.2⟩

/-- The order of `sort(order="x")`: by x, and on ties by the remaining fields in the order of the dtype. -/
def coordLe (a b : Coord) : Prop :=
  a.x < b.x ∨ (a.x = b.x ∧ (a.pnr < b.pnr ∨ (a.pnr = b.pnr ∧ a.y ≤ b.y)))

noncomputable instance : DecidableRel coordLe := fun _ _ => Classical.propDecidable _

/-- tracking_frame_buf.py:908-919: the rows in target order, before sorting. -/
noncomputable def matchRows (ip : ImgPar) (cal : Cam) (tol : ℝ) (reset : Bool) :
    Nat → List TgtXY → List Coord
  | _, [] => []
  | n, t :: ts => matchRow ip cal tol reset n t :: matchRows ip cal tol reset (n + 1) ts

/-- tracking_frame_buf.py:887-921 `match_coords`. (With `reset_numbers` it also renumbers the caller's
targets: `matchTargets`.) -/
noncomputable def matchCoords (ts : List TgtXY) (ip : ImgPar) (cal : Cam) (tol : ℝ) (reset : Bool) :
    List Coord :=
  (matchRows ip cal tol reset 0 ts).mergeSort (fun a b => decide (coordLe a b))

/-- tracking_frame_buf.py:911-912: what happens to the caller's targets. -/
def matchTargets (reset : Bool) (ts : List TgtXY) : List TgtXY :=
  ts.zipIdx.map fun p => if reset then { p.1 with pnr := p.2 } else p.1

/-- tracking_frame_buf.py:958-964: one matched coordinate; the first requested place with its number is
filled. -/
noncomputable def putCoord (pnrs : List Int) (pos : List (ℝ × ℝ)) (c : Coord) : List (ℝ × ℝ) :=
  match pnrs.findIdx? (fun k => k == c.pnr) with
  | none => pos
  | some i => pos.set i (c.x, c.y)

/-- tracking_frame_buf.py:949-966 `get_by_pnrs`. -/
noncomputable def getByPnrs (cs : List Coord) (pnrs : List Int) (unused : ℝ) : List (ℝ × ℝ) :=
  cs.foldl (putCoord pnrs) (pnrs.map fun _ => (unused, unused))

/-- tracking_frame_buf.py:941-944: the loop over the matched coordinates. -/
def fillArrays : ℕ → List Coord → List (ℝ × ℝ) × List Int → List (ℝ × ℝ) × List Int
  | _, [], a => a
  | pt, mc :: cs, a => fillArrays (pt + 1) cs (a.1.set pt (mc.x, mc.y), a.2.set pt mc.pnr)

/-- tracking_frame_buf.py:924-946 `matched_coords_as_arrays`: `gpos` and `gpnr` are what `np.empty` happens to hold, as many entries as
there are coordinates. -/
def coordsAsArrays (gpos : List (ℝ × ℝ)) (gpnr : List Int) (cs : List Coord) : List (ℝ × ℝ) × List Int :=
  fillArrays 0 cs (gpos, gpnr)

end Verif.Geo
