/-
Model of openptv_python/sortgrid.py `nearest_neighbour_pix` and `sortgrid`. Coordinates are reals; `numpy.sqrt`
is the real square root.
-/
import Verif.Model.Motion

namespace Verif.Geo

/-- A detection (`Target`, tracking_frame_buf.py:72-84) as far as `sortgrid` uses it. -/
structure Det where
  pnr : ℤ
  x : ℝ
  y : ℝ

/-- `Target()`: the default values (tracking_frame_buf.py:76-78). -/
noncomputable def freshDet : Det := ⟨-999, 0, 0⟩

open Classical in
/-- sortgrid.py:90-96: one pass of the loop; `best = (pnr, dmin)`. -/
noncomputable def nearestStep (x y eps : ℝ) (count : ℕ) (t : Det) (best : ℤ × ℝ) : ℤ × ℝ :=
  if (y - eps < t.y ∧ t.y < y + eps) ∧ (x - eps < t.x ∧ t.x < x + eps) then
    if Real.sqrt ((x - t.x) ^ 2 + (y - t.y) ^ 2) < best.2 then
      (count, Real.sqrt ((x - t.x) ^ 2 + (y - t.y) ^ 2))
    else best
  else best

/-- sortgrid.py:90-96: the loop `for count, t in enumerate(pix)`. -/
noncomputable def nearestLoop (x y eps : ℝ) : ℕ → List Det → ℤ × ℝ → ℤ × ℝ
  | _, [], best => best
  | count, t :: ts, best => nearestLoop x y eps (count + 1) ts (nearestStep x y eps count t best)

/-- sortgrid.py:71-98 `nearest_neighbour_pix`; `POS_INF` is 1e20, `PT_UNUSED` is -999. -/
noncomputable def nearestPix (pix : List Det) (x y eps : ℝ) : ℤ :=
  (nearestLoop x y eps 0 pix (-999, 10 ^ 20)).1

/-- The detections (objects the caller owns) and the result list of `sortgrid`. An entry is `none` for a
fresh `Target()` and `some j` for a reference to the caller's object `pix[j]`. -/
structure Sorting where
  pix : List Det
  out : List (Option ℕ)

open Classical in
/-- sortgrid.py:56-61: is the projected point close enough to the image? -/
noncomputable def nearImage (imx imy : ℕ) (eps : ℝ) (c : ℝ × ℝ) : Bool :=
  decide (-eps < c.1 ∧ -eps < c.2 ∧ c.1 < imx + eps ∧ c.2 < imy + eps)

/-- sortgrid.py:51-66: one reference point. `j` is used as a Python index, but is never negative here. -/
noncomputable def sortPoint {F : Type} (proj : F → Option (ℝ × ℝ)) (imx imy : ℕ) (eps : ℝ) (i : ℕ) (f : F)
    (s : Sorting) : Option Sorting :=
  (proj f).map fun c =>
    if nearImage imx imy eps c then
      let j := nearestPix s.pix c.1 c.2 eps
      if j ≠ -999 then ⟨s.pix.modify j.toNat fun t => { t with pnr := i }, s.out.set i (some j.toNat)⟩
      else s
    else s

/-- sortgrid.py:51-66 `for i in range(nfix)`. Running out of reference points is an IndexError. -/
noncomputable def sortLoop {F : Type} (proj : F → Option (ℝ × ℝ)) (imx imy : ℕ) (eps : ℝ) :
    ℕ → ℕ → List F → Sorting → Option Sorting
  | 0, _, _, s => some s
  | _ + 1, _, [], _ => none
  | n + 1, i, f :: fs, s => do
    let s ← sortPoint proj imx imy eps i f s
    sortLoop proj imx imy eps n (i + 1) fs s

/-- What the caller sees in place `e` of the returned list. -/
noncomputable def Sorting.entry (s : Sorting) (e : Option ℕ) : Option Det :=
  match e with
  | none => some freshDet
  | some j => s.pix[j]?

/-- sortgrid.py:15-68 `sortgrid`. The projection (`img_coord` then `metric_to_pixel`) is a parameter;
`none` means an exception. -/
noncomputable def sortgrid {F : Type} (proj : F → Option (ℝ × ℝ)) (imx imy nfix : ℕ) (fix : List F) (eps : ℝ)
    (pix : List Det) : Option Sorting :=
  sortLoop proj imx imy eps nfix 0 fix ⟨pix, List.replicate nfix none⟩

/-- orientation.py:899-948 `match_detection_to_ref`: `sortgrid` over all reference points with the camera's
own projection. -/
noncomputable def matchDetectionToRef (cal : Cam) (lut : LUT) (mm : MM) (ip : ImgPar) (imx imy : ℕ)
    (refs : List V3) (pix : List Det) (eps : ℝ) : Option Sorting :=
  sortgrid (fun P => pointToPixel P cal lut mm ip) imx imy refs.length refs eps pix

end Verif.Geo
