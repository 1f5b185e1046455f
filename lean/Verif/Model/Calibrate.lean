/-
Model of openptv_python/orientation.py, part 3: the residuals returned by `orient`, and the wrappers `full_calibration`,
`external_calibration` and `point_positions`.
-/
import Verif.Model.Orient

namespace Verif.Geo
open V3

/-- What the arrays `X`, `y` and `beta` hold after a pass of `orient`: the rows of the used points, the calibration for which
the identity observations were written, and the changes after those of the flags that are off have been set to 0. -/
structure Pass where
  rows : List Rows
  cal : Calib
  beta : Beta

/-- orientation.py:326-567: one pass, as `orientIter`, with the arrays it leaves. -/
noncomputable def orientIterR (I : OInput) (env : OEnv) (c : Calib) : Option (Calib × Beta × Pass) := do
  let r ← pointsLoop I.ip I.tol I.dm I.drad I.fl env I.projs I.pix 0 c
  let b := I.solve (system I.fl env r.1 r.2)
  some (applyBeta I.fl env (maskBeta I.fl b) r.1, b, ⟨r.2, r.1, maskBeta I.fl b⟩)

/-- orientation.py:326: the loop, as `orientLoop`; the arrays of the last pass if it ended by convergence. -/
noncomputable def orientLoopR (I : OInput) (env : OEnv) : ℕ → Calib → Option (Calib × Option Pass)
  | 0, c => some (c, none)
  | fuel + 1, c => do
    let r ← orientIterR I env c
    if Small env.numbers convergence r.2.1 then some (r.1, some r.2.2) else orientLoopR I env fuel r.1

/-- A row of the design matrix times the changes (orientation.py:578, `np.dot(X[:, :numbers], beta)`). -/
noncomputable def rowDot (numbers : ℕ) (row : List ℝ) (b : Beta) : ℝ := ∑ j ∈ Finset.range numbers, row.getD j 0 * b j

/-- orientation.py:578-580: `resi = X beta - y`, for the two rows of each used point, the ten identities, and the rows of the
arrays that are not used (`maxsize = nfix * 2 + IDT`, orientation.py:261). -/
noncomputable def residuals (env : OEnv) (nfix : ℕ) (p : Pass) : List ℝ :=
  (p.rows.flatMap fun r => [rowDot env.numbers r.rx p.beta - r.yx, rowDot env.numbers r.ry p.beta - r.yy]) ++
  ((identObs env p.cal).zipIdx.map fun t =>
    rowDot env.numbers ((List.range env.numbers).map fun j => if j = 6 + t.2 then 1 else 0) p.beta - t.1) ++
  List.replicate (2 * nfix - 2 * p.rows.length) 0

/-- orientation.py:196-612 `orient` with its return value: the residuals, or `None` without convergence. The error estimates
`sigmabeta` are not modelled. -/
noncomputable def orientResi (I : OInput) (c : Calib) : Option (Calib × Option (List ℝ)) := do
  let env := mkEnv I.fl c
  let r ← orientLoopR I env numIter c
  match r.2 with
  | some p => some (r.1.upd, some (residuals env I.projs.length p))
  | none => some (r.1, none)

/-- orientation.py:892: `(residuals[2 * ix], residuals[2 * ix + 1])`. -/
def resiAt (resi : List ℝ) (ix : ℕ) : Option (ℝ × ℝ) := do
  let a ← resi[2 * ix]?
  let b ← resi[2 * ix + 1]?
  some (a, b)

/-- orientation.py:891-893: one row per target. -/
def resiRows (resi : List ℝ) : List Obs → ℕ → Option (List (ℝ × ℝ))
  | [], _ => some []
  | _ :: os, ix => do
    let r ← resiAt resi ix
    let rs ← resiRows resi os (ix + 1)
    some (r :: rs)

/-- orientation.py:818-897 `full_calibration` for a list of targets: the calibration afterwards and `ret`, `used`, or `none`
for the ValueError of a failed iteration. The outer `none` is any other exception. -/
noncomputable def fullCalibration (I : OInput) (c : Calib) : Option (Calib × Option (List (ℝ × ℝ) × List ℤ)) := do
  let r ← orientResi I c
  match r.2 with
  | none => some (r.1, none)
  | some resi => do
    let ret ← resiRows resi I.pix 0
    some (r.1, some (ret, I.pix.map Obs.pnr))

/-- orientation.py:868-875: pixel positions given as an array become targets with their index as `pnr`. -/
def targetsOfArray (pts : List (ℝ × ℝ)) : List Obs := pts.mapIdx fun i p => ⟨(i : ℤ), p.1, p.2⟩

/-- orientation.py:773-815 `external_calibration`: the targets made from pixel positions have the default `pnr` (-999), which
`raw_orient` does not read. -/
noncomputable def externalCalibration (I : OInput) (pts : List (ℝ × ℝ)) (c : Calib) : Option (Calib × Bool) :=
  (rawOrient { I with pix := pts.map fun p => ⟨-999, p.1, p.2⟩ } c).map fun r => (r.1, r.2.1)

end Verif.Geo
