/-
Specification for C117: a queue of limited capacity.
-/
import Verif.Model.RingBuf

namespace Verif.Ring.Spec

/-- One call on the queue `q` (oldest frame first): what it is afterwards, and what the call returns. A full queue refuses a frame, an
empty one returns nothing; a rotation moves the oldest frame to the end, or the newest to the front. -/
def qstep {F : Type} (cap : ℕ) (q : List F) : Op F → List F × Option F
  | .push x => (if q.length < cap then q ++ [x] else q, none)
  | .pop => (q.tail, q.head?)
  | .next => (q.tail ++ q.head?.toList, none)
  | .prev => (q.getLast?.toList ++ q.dropLast, none)

/-- A history of calls. -/
def qsteps {F : Type} (cap : ℕ) (q : List F) : List (Op F) → List F × List (Option F)
  | [] => (q, [])
  | o :: os => ((qsteps cap (qstep cap q o).1 os).1, (qstep cap q o).2 :: (qsteps cap (qstep cap q o).1 os).2)

/-- The call is a rotation. -/
def IsRot {F : Type} : Op F → Prop
  | .next | .prev => True
  | _ => False

/-- In the history a rotation happens only when the queue is full. -/
def RotFull {F : Type} (cap : ℕ) (q : List F) : List (Op F) → Prop
  | [] => True
  | o :: os => (IsRot o → q.length = cap) ∧ RotFull cap (qstep cap q o).1 os

end Verif.Ring.Spec
