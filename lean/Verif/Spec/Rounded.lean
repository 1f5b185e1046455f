/-
Specification for C150: what is known of floating point arithmetic.
-/
import Mathlib.Analysis.SpecialFunctions.Trigonometric.Basic
import Mathlib.Data.Int.Log
import Verif.Model.Vec

namespace Verif.Round
open Verif.Geo

/-- What double precision promises of a result: up to the largest number, it has the relative error `2^-53`, or is denormal with the
absolute error `2^-1075`. -/
def Doubles (r : ℝ → ℝ) : Prop := ∀ x : ℝ, |x| ≤ 2 ^ 1023 → |r x - x| ≤ 2⁻¹ ^ 53 * |x| + 2⁻¹ ^ 1075

/-- What a mathematical library promises of a function with values between -1 and 1: an error of one unit in the last place. -/
def Faithful (f g : ℝ → ℝ) : Prop := ∀ x : ℝ, |f x - g x| ≤ 2⁻¹ ^ 52

/-- What is known of `np.dot`, whatever the order of its operations: its error is at most four roundings of the sum of the absolute
products. -/
def DotDouble (f : V3 → V3 → ℝ) : Prop := ∀ a b : V3, (|a.x| ≤ 10 ^ 6 ∧ |a.y| ≤ 10 ^ 6 ∧ |a.z| ≤ 10 ^ 6) →
  (|b.x| ≤ 10 ^ 6 ∧ |b.y| ≤ 10 ^ 6 ∧ |b.z| ≤ 10 ^ 6) →
  |f a b - V3.dot a b| ≤ 2⁻¹ ^ 51 * (|a.x * b.x| + |a.y * b.y| + |a.z * b.z|) + 2⁻¹ ^ 1070

/-- What is known of `np.linalg.norm`. -/
def NormDouble (f : V3 → ℝ) : Prop := ∀ v : V3, (|v.x| ≤ 10 ^ 6 ∧ |v.y| ≤ 10 ^ 6 ∧ |v.z| ≤ 10 ^ 6) →
  |f v - v.norm| ≤ 2⁻¹ ^ 50 * v.norm + 2⁻¹ ^ 500

/-- Two rays that cross under at least six degrees or so, begin within ten metres of the origin (in millimetres) and come nearest to each
other within ten metres of their beginnings. -/
structure WellPosed (v1 d1 v2 d2 : V3) : Prop where
  place1 : |v1.x| ≤ 10 ^ 4 ∧ |v1.y| ≤ 10 ^ 4 ∧ |v1.z| ≤ 10 ^ 4
  place2 : |v2.x| ≤ 10 ^ 4 ∧ |v2.y| ≤ 10 ^ 4 ∧ |v2.z| ≤ 10 ^ 4
  direct1 : |d1.x| ≤ 1 ∧ |d1.y| ≤ 1 ∧ |d1.z| ≤ 1
  direct2 : |d2.x| ≤ 1 ∧ |d2.y| ≤ 1 ∧ |d2.z| ≤ 1
  crossing : 1 / 10 ≤ (V3.cross d1 d2).norm
  reach : ∀ t1 t2 : ℝ, V3.dot (v1 + d1.smul t1 - (v2 + d2.smul t2)) d1 = 0 → V3.dot (v1 + d1.smul t1 - (v2 + d2.smul t2)) d2 = 0 →
    |t1| ≤ 10 ^ 4 ∧ |t2| ≤ 10 ^ 4

/-- The distance of neighbouring double precision numbers of the size of `x` (if there were no largest one). -/
noncomputable def spacing (x : ℝ) : ℝ := 2 ^ max (Int.log 2 |x| - 52) (-1074)

/-- The double precision number nearest to `x`. -/
noncomputable def nearestDouble (x : ℝ) : ℝ := round (x / spacing x) * spacing x

end Verif.Round
