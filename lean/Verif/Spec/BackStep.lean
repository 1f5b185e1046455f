/-
Why a backward link may be made: vocabulary for C82-C84.
-/
import Verif.Spec.Gates
import Verif.Spec.Tracking

namespace Verif.Track.Spec
open Verif.Track

section
variable {P J C I D : Type} [Field D] [LinearOrder D]

/-- The reason for a backward link with decision value `d` from a particle at `x1`, which goes to `x0` in the later
frame, to a particle at `x3` in the earlier frame: the step is within the velocity limits, and the angle and
acceleration with respect to the straight continuation of the path are accepted. -/
def BackReason (g : Geo P J C I D) (x0 x1 x3 : P) (d : D) : Prop :=
  g.inBounds (g.sub x1 x3) = true ∧
  ∃ angle acc, g.angleAcc x1 (g.predict x0 x1) x3 = .ok (angle, acc) ∧ Smooth g angle acc ∧
    IsDecision g ((g.dist x1 x3 + g.dist x0 x1) / 2) acc angle d

/-- The path `x0, x1, x3` (going backward in time) continues to `x4` in the frame before: the test of a particle that
already has a path of its own. -/
def BackContinues (g : Geo P J C I D) (x0 x1 x3 x4 : P) : Prop :=
  ∃ angle acc, g.angleAcc x3 x4 (g.predict2 x3 x1 x0) = .ok (angle, acc) ∧ Smooth g angle acc

/-- The particles of `b` and `b'` are the same; links that `b` has are kept. -/
def KeepsLinks (b b' : List (Part P D)) : Prop :=
  b'.length = b.length ∧ ∀ (i : Nat) (p : Part P D), b[i]? = some p → ∃ p', b'[i]? = some p' ∧ p'.x = p.x ∧
    (p.next ≠ NEXT_NONE → p'.next = p.next) ∧ (p.prev ≠ PREV_NONE → p'.prev = p.prev)

end
end Verif.Track.Spec
