/-
One trajectory among others: vocabulary for C125 and C126. Positions, distances and particle numbers are those of the files; nothing
here refers to the tracking code.
-/
import Verif.Spec.SpaceLinks

namespace Verif.Track.Spec
open Verif.Track Verif.Geo V3

/-- No displacement within the velocity limits is longer than `B`. -/
def LongestStep (s : Setup) (B : ℝ) : Prop := ∀ v : V3, Pos3dInBounds v s.vel → v.norm ≤ B

/-- The particle at `y n` (number `num n` of frame `n`) keeps at least the distance `D` from the other particles between frame `n` and
the next: from where it is to where they go, and from where they are to where it goes. -/
def KeepsAway {I : Type} (disk : Int → Frame V3 ℝ I) (y : Int → V3) (num : Int → ℕ) (D : ℝ) (n : Int) : Prop :=
  (∀ (k : ℕ) (x : V3), ((disk (n + 1)).parts.map Part.x)[k]? = some x → k ≠ num (n + 1) → D ≤ (x - y n).norm) ∧
  (∀ (k : ℕ) (x : V3), ((disk n).parts.map Part.x)[k]? = some x → k ≠ num n → D ≤ (y (n + 1) - x).norm)

/-- The motion through `y (n - 1)`, `y n`, `y (n + 1)` is smooth: the second step is within the velocity limits, angle and change of
velocity are accepted. -/
def SmoothAt (s : Setup) (y : Int → V3) (n : Int) : Prop :=
  Pos3dInBounds (y (n + 1) - y n) s.vel ∧
  ∃ φ, AngleOf (y n - y (n - 1)) (y (n + 1) - y n) φ ∧ Accepted s φ (norm ((y (n + 1) - y n) - (y n - y (n - 1))))

/-- The written frames `first .. first + L` have the trajectory: particle `num n` of frame `n` is at `y n` and is linked to the
particle of the frame before and to that of the frame after; at the ends there is no link. -/
def Followed {I : Type} (y : Int → V3) (num : Int → ℕ) (first : Int) (L : ℕ) (written : List (Int × Frame V3 ℝ I)) : Prop :=
  written.map Prod.fst = (List.range (L + 1)).map (fun j : ℕ => first + (j : Int)) ∧
  ∀ n f, (n, f) ∈ written → ∃ p, f.parts[num n]? = some p ∧ p.x = y n ∧
    p.prev = (if n = first then -1 else (num (n - 1) : Int)) ∧ p.next = (if n = first + L then -2 else (num (n + 1) : Int))

end Verif.Track.Spec
