/-
Specification for C151: exact and double precision arithmetic for tracing rays.
-/
import Verif.Model.RoundedTrace
import Verif.Spec.Rounded

namespace Verif.Round
open Verif.Geo

/-- Exact library functions. -/
noncomputable def exactLib : Lib := ⟨V3.dot, V3.norm, V3.norm⟩

/-- The products summed from left to right, in double precision. -/
noncomputable def doubleDot (a b : V3) : ℝ :=
  nearestDouble (nearestDouble (nearestDouble (a.x * b.x) + nearestDouble (a.y * b.y)) + nearestDouble (a.z * b.z))

/-- Library functions in double precision; the norm is the root of the sum of squares. -/
noncomputable def doubleLib : Lib :=
  ⟨doubleDot, fun v => nearestDouble (Real.sqrt (doubleDot v v)), fun v => nearestDouble (Real.sqrt (doubleDot v v))⟩

/-- Two matrices that differ by at most `e` in every entry. -/
def NearMatrix (m n : M3) (e : ℝ) : Prop :=
  (|m.r0.x - n.r0.x| ≤ e ∧ |m.r0.y - n.r0.y| ≤ e ∧ |m.r0.z - n.r0.z| ≤ e) ∧
  (|m.r1.x - n.r1.x| ≤ e ∧ |m.r1.y - n.r1.y| ≤ e ∧ |m.r1.z - n.r1.z| ≤ e) ∧
  (|m.r2.x - n.r2.x| ≤ e ∧ |m.r2.y - n.r2.y| ≤ e ∧ |m.r2.z - n.r2.z| ≤ e)

end Verif.Round
