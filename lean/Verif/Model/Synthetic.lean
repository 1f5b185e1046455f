/-
Model of the projection of whole arrays of positions (imgcoord.py), which makes synthetic images.
-/
import Verif.Model.Multimed
import Verif.Model.Tracker

namespace Verif.Geo
open Verif.Track (orRaise)

/-- imgcoord.py:28-29, 80-81: a row of the array of positions as a vector; ValueError unless it has three columns. -/
def asVector : List ℝ → Py V3
  | [x, y, z] => .ok ⟨x, y, z⟩
  | _ => .error .valueError

/-- imgcoord.py:63-72 `flat_image_coordinates`: row by row, in order. -/
noncomputable def flatImageCoordinates (cal : Cam) (lut : LUT) (mm : MM) : List (List ℝ) → Py (List (ℝ × ℝ))
  | [] => .ok []
  | row :: rows => do
    let p ← asVector row
    let q ← orRaise (flatImageCoord p cal lut mm)
    let rest ← flatImageCoordinates cal lut mm rows
    .ok (q :: rest)

/-- imgcoord.py:94-107 `image_coordinates`: row by row, in order; a row that has not three columns raises before it is projected. -/
noncomputable def imageCoordinates (cal : Cam) (lut : LUT) (mm : MM) : List (List ℝ) → Py (List (ℝ × ℝ))
  | [] => .ok []
  | row :: rows => do
    let p ← asVector row
    let q ← orRaise (imgCoord p cal lut mm)
    let rest ← imageCoordinates cal lut mm rows
    .ok (q :: rest)

end Verif.Geo
