/-
Model of the second part of `point_position` (orientation.py) in floating point arithmetic: every operation is followed by a rounding.
-/
import Verif.Model.Rounded
import Verif.Model.Py

namespace Verif.Round
open Verif.Geo

/-- orientation.py:102-107, one used pair; `fdot`, `fnorm` are `np.dot`, `np.linalg.norm`. -/
noncomputable def addPair (r : ℝ → ℝ) (fdot : V3 → V3 → ℝ) (fnorm : V3 → ℝ) (a : PPAcc) (r1 r2 : Ray) : PPAcc :=
  ⟨a.n + 1, do
    let t ← a.tot
    let m ← skewMidpoint r fdot fnorm r1 r2
    some (r (t.1 + m.1), ⟨r (t.2.x + m.2.x), r (t.2.y + m.2.y), r (t.2.z + m.2.z)⟩)⟩

/-- orientation.py:99-107, one pass of the inner loop; an unused second camera is skipped. -/
noncomputable def addPairOpt (r : ℝ → ℝ) (fdot : V3 → V3 → ℝ) (fnorm : V3 → ℝ) (q : Ray) (a : PPAcc) : Option Ray → PPAcc
  | none => a
  | some p => addPair r fdot fnorm a q p

/-- orientation.py:94-107, the double loop over the pairs of cameras; `none` is an unused camera. -/
noncomputable def pairLoop (r : ℝ → ℝ) (fdot : V3 → V3 → ℝ) (fnorm : V3 → ℝ) : List (Option Ray) → PPAcc → PPAcc
  | [], a => a
  | none :: rs, a => pairLoop r fdot fnorm rs a
  | some q :: rs, a => pairLoop r fdot fnorm rs (rs.foldl (addPairOpt r fdot fnorm q) a)

/-- orientation.py:94-111: the result of `point_position` for the rays of the cameras (`none`: NaN). -/
noncomputable def pointOfRays (r : ℝ → ℝ) (fdot : V3 → V3 → ℝ) (fnorm : V3 → ℝ) (rays : List (Option Ray)) : Py (Option (ℝ × V3)) :=
  let a := pairLoop r fdot fnorm rays ⟨0, some (0, 0)⟩
  if a.n = 0 then .error .zeroDivision
  else .ok (a.tot.map fun t => (r (t.1 / a.n), ⟨r (t.2.x / a.n), r (t.2.y / a.n), r (t.2.z / a.n)⟩))

end Verif.Round
