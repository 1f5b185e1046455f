/-
A trajectory with gaps: vocabulary for C137. Positions, distances, links and particle numbers are those of the files; nothing here
refers to the tracking code.
-/
import Verif.Spec.Crowd

namespace Verif.Track.Spec
open Verif.Track Verif.Geo V3

/-- Backward in time, the motion through `y (n + 1)`, `y n`, `y (n - 1)` is smooth: the step between `n - 1` and `n` is within the
velocity limits, angle and change of velocity are accepted. -/
def BackSmoothAt (s : Setup) (y : Int → V3) (n : Int) : Prop :=
  Pos3dInBounds (y n - y (n - 1)) s.vel ∧
  ∃ φ, AngleOf (y n - y (n + 1)) (y (n - 1) - y n) φ ∧ Accepted s φ (norm ((y (n - 1) - y n) - (y n - y (n + 1))))

/-- Backward in time, the parabola through `y (n + 1)`, `y n`, `y (n - 1)` leads to `y (n - 2)`, as far as angle and distance are
accepted. -/
def BackJoinsAt (s : Setup) (y : Int → V3) (n : Int) : Prop :=
  ∃ φ, AngleOf (y (n - 2) - y (n - 1)) (((y (n - 1)).smul 5 - (y n).smul 4 + y (n + 1)).smul (1 / 2) - y (n - 1)) φ ∧
    Accepted s φ (norm (((y (n - 1)).smul 5 - (y n).smul 4 + y (n + 1)).smul (1 / 2) - y (n - 2)))

/-- The trajectory on disk: particle `num n` of frame `n` is at `y n`; from the frame before it is either linked to the particle there
or there is a gap, with no link at either end. The last two frames are linked. -/
structure Trail {I : Type} (disk : Int → Frame V3 ℝ I) (y : Int → V3) (num : Int → ℕ) (first last : Int) : Prop where
  at_ : ∀ n, first ≤ n → n ≤ last → ∃ p, (disk n).parts[num n]? = some p ∧ p.x = y n ∧
    (p.prev = -1 ∨ first < n ∧ p.prev = num (n - 1))
  gap : ∀ n p q, first < n → n ≤ last → (disk n).parts[num n]? = some p → p.prev = -1 →
    (disk (n - 1)).parts[num (n - 1)]? = some q → q.next = -2
  end_ : ∃ p, (disk last).parts[num last]? = some p ∧ p.prev = num (last - 1)

end Verif.Track.Spec
