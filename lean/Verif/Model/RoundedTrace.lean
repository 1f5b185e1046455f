/-
Model of ray_tracing.py in floating point arithmetic: every operation is followed by a rounding, and the square root of a negative
number is not a number.
-/
import Verif.Model.Rounded
import Verif.Model.RayTracing

namespace Verif.Round
open Verif.Geo

/-- `np.sqrt` in compiled code: NaN (`none`) for a negative number. -/
noncomputable def sqrtF (r : ℝ → ℝ) (x : ℝ) : Option ℝ := if x < 0 then none else some (r (Real.sqrt x))

/-- The functions of numpy and vec_utils that are used: `np.dot` (also for each row of `@`), `np.linalg.norm`, `vec_norm`. -/
structure Lib where
  dot : V3 → V3 → ℝ
  norm : V3 → ℝ
  vecNorm : V3 → ℝ

/-- vec_utils.py:87-94 `unit_vector`. -/
noncomputable def unit (r : ℝ → ℝ) (l : Lib) (v : V3) : V3 :=
  if l.vecNorm v = 0 then v else ⟨r (v.x / l.vecNorm v), r (v.y / l.vecNorm v), r (v.z / l.vecNorm v)⟩

/-- `matrix @ vector`. -/
def mulVec (l : Lib) (m : M3) (v : V3) : V3 := ⟨l.dot m.r0 v, l.dot m.r1 v, l.dot m.r2 v⟩

/-- `vector * scalar`. -/
def scale (r : ℝ → ℝ) (v : V3) (s : ℝ) : V3 := ⟨r (v.x * s), r (v.y * s), r (v.z * s)⟩

/-- `vector + vector`. -/
def add (r : ℝ → ℝ) (a b : V3) : V3 := ⟨r (a.x + b.x), r (a.y + b.y), r (a.z + b.z)⟩

/-- `vector - vector`. -/
def sub (r : ℝ → ℝ) (a b : V3) : V3 := ⟨r (a.x - b.x), r (a.y - b.y), r (a.z - b.z)⟩

/-- ray_tracing.py:94-106 (and again 118-130): the direction behind an interface, and its part along the normal; `none` if a square
root is not a number, which makes the whole result NaN. -/
noncomputable def refractDir (r : ℝ → ℝ) (l : Lib) (g perp : V3) (n na nb : ℝ) : Option (V3 × V3) := do
  let bp := unit r l perp
  let s ← sqrtF r (r (1 - r (n * n)))
  let p := r (r (s * na) / nb)
  let q ← sqrtF r (r (1 - r (p * p)))
  let down := scale r g (-q)
  some (add r (scale r bp p) down, down)

/-- ray_tracing.py:61-132 `fast_ray_tracing` (plain `@njit`). -/
noncomputable def fastRayTracing (r : ℝ → ℝ) (l : Lib) (initDir : V3) (dm : M3) (primary glass : V3) (d n1 n2 n3 : ℝ) :
    Option (V3 × V3) := do
  let dir := mulVec l dm (unit r l initDir)
  let g := unit r l glass
  let c := r (l.norm glass + d)
  let distCamGlass := r (l.dot g primary - c)
  let dp := if l.dot g dir = 0 then 1e-6 else l.dot g dir
  let Xb := add r primary (scale r dir (r (-distCamGlass / dp)))
  let n := l.dot dir g
  let a2 ← refractDir r l g (sub r dir (scale r g n)) n n1 n2
  let ad := if |l.dot g a2.1| = 0 then 1e-6 else |l.dot g a2.1|
  let X := add r Xb (scale r a2.1 (r (d / ad)))
  let out ← refractDir r l g (sub r a2.1 a2.2) (l.dot a2.1 g) n2 n3
  some (X, out.1)

end Verif.Round
