/-
Independent specification for C30-C32, C36, C60: closest approach of two lines.
-/
import Verif.Spec.Ray
import Mathlib.Algebra.BigOperators.Group.Finset.Basic
import Mathlib.Data.Finset.Prod
import Mathlib.Data.Finset.Sort

namespace Verif.Geo.Spec
open V3

/-- The two lines are not parallel (and both directions are non-zero). -/
def NotParallel (a b : V3) : Prop := ∀ s t : ℝ, a.smul s = b.smul t → s = 0 ∧ t = 0

/-- `D` is the distance of the lines `v1 + ℝ a1`, `v2 + ℝ a2` and `M` the midpoint of a shortest
connection. -/
def ShortestConnection (v1 a1 v2 a2 : V3) (D : ℝ) (M : V3) : Prop :=
  ∃ p q, OnLine v1 a1 p ∧ OnLine v2 a2 q ∧ D = (p - q).norm ∧ M + M = p + q ∧
    ∀ p' q', OnLine v1 a1 p' → OnLine v2 a2 q' → D ≤ (p' - q').norm

/-- All pairs `i < j` of members of `U`. -/
def pairsOf (U : Finset ℕ) : Finset (ℕ × ℕ) := (U ×ˢ U).filter fun p => p.1 < p.2

end Verif.Geo.Spec
