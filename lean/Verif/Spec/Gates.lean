/-
Why a link may be made: vocabulary for C77.
-/
import Verif.Model.TrackStep

namespace Verif.Track.Spec
open Verif.Track

section
variable {P J C I D : Type} [Field D] [LinearOrder D]

/-- The acceptance test: acceleration and angle below their limits, or acceleration below a tenth of its limit. -/
def Smooth (g : Geo P J C I D) (angle acc : D) : Prop :=
  (acc < g.dacc ∧ angle < g.dangle) ∨ acc < g.dacc / 10

/-- The decision value of a candidate: relative path length, acceleration and angle, divided by the number of
images (`q`) that support it. -/
def IsDecision (g : Geo P J C I D) (len acc angle d : D) : Prop :=
  ∃ q : ℕ, d = (len / g.lmax + acc / g.dacc + angle / g.dangle) / q

/-- `i'` are the images `i` of a frame after particles have been added to the frame (which uses up some targets). -/
inductive WithAdded (g : Geo P J C I D) (i : I) : I → Prop
  | same : WithAdded g i i
  | add {i' i'' : I} (c : C) (n : ℕ) (h : WithAdded g i i') (h' : g.addImg i' c n = .ok i'') : WithAdded g i i''

/-- A position found by the search for new particles around `x` in the images `img` of a frame (as they are then: particles may
have been added before): triangulated from targets found in at least two images, inside the measurement volume. -/
def Triangulated (g : Geo P J C I D) (img : I) (x y : P) : Prop :=
  (∃ (img' : I) (q : ℕ) (v : J) (c : C), WithAdded g img img' ∧ g.assess x img' = .ok (q, v, c) ∧ 2 ≤ q ∧
    g.pointPos v = .ok y) ∧ g.inVolume y = true

/-- The position expected in the next frame. -/
def expected (g : Geo P J C I D) (x0 : Option P) (x1 : P) : P :=
  match x0 with
  | some x0 => g.predict x0 x1
  | none => x1

/-- The position expected in the frame after next, if the particle goes to `x3`. -/
def expectedAfter (g : Geo P J C I D) (x0 : Option P) (x1 x3 : P) : P :=
  match x0 with
  | some x0 => g.predict2 x3 x1 x0
  | none => g.predict x1 x3

/-- The reasons for a link with decision value `d` from a particle at `x1` (which came from `x0`, if it has a
predecessor) to a particle at `x3` in the next frame; `after` are the positions in the frame after next, `i2` the images of the
next frame, `i3` those of the frame after next. -/
inductive Reason (g : Geo P J C I D) (x0 : Option P) (x1 x3 : P) (i2 i3 : I) (after : List P) (d : D) : Prop
  /-- Three frames: some `x4` of the frame after next continues the path within the velocity limits, and the
  acceleration and angle, averaged over the two steps, are accepted. -/
  | continued (x4 : P) (angle0 acc0 angle1 acc1 : D) (h4 : x4 ∈ after)
      (hv : g.inBounds (g.sub x4 x3) = true)
      (h1 : g.angleAcc x3 x4 (expectedAfter g x0 x1 x3) = .ok (angle1, acc1))
      (h0 : if x0.isSome then g.angleAcc x1 (expected g x0 x1) x3 = .ok (angle0, acc0)
        else (angle0, acc0) = (angle1, acc1))
      (hs : Smooth g ((angle0 + angle1) / 2) ((acc0 + acc1) / 2))
      (hd : IsDecision g ((g.dist x1 x3 + g.dist x4 x3) / 2) ((acc0 + acc1) / 2) ((angle0 + angle1) / 2) d)
  /-- A new position `x4` for the frame after next, triangulated near the expected one. -/
  | continuedNew (x4 : P) (angle acc : D) (h4 : Triangulated g i3 (expectedAfter g x0 x1 x3) x4)
      (hadd : g.add = true → x4 ∈ after)
      (hv : g.inBounds (g.sub x3 x4) = true)
      (ha : g.angleAcc x3 x4 (expectedAfter g x0 x1 x3) = .ok (angle, acc)) (hs : Smooth g angle acc)
      (hd : IsDecision g ((g.dist x1 x3 + g.dist x4 x3) / 2) acc angle d)
  /-- Two steps backwards: the particle has a predecessor, the step to `x3` is within the velocity limits. -/
  | plain (y0 : P) (angle acc : D) (h0 : x0 = some y0) (hv : g.inBounds (g.sub x3 x1) = true)
      (ha : g.angleAcc x1 (expected g x0 x1) x3 = .ok (angle, acc)) (hs : Smooth g angle acc)
      (hd : IsDecision g ((g.dist x1 x3 + g.dist y0 x1) / 2) acc angle d)
  /-- `x3` is itself a new position, triangulated near the expected one. -/
  | added (y0 : P) (angle acc : D) (h0 : x0 = some y0) (hadd : g.add = true)
      (h3 : Triangulated g i2 (expected g x0 x1) x3) (hv : g.inBounds (g.sub (expected g x0 x1) x3) = true)
      (ha : g.angleAcc x1 (expected g x0 x1) x3 = .ok (angle, acc)) (hs : Smooth g angle acc)
      (hd : IsDecision g ((g.dist x1 x3 + g.dist y0 x1) / 2) acc angle d)

/-- The position of the predecessor of `p` in the frame `b0` before it: none without a predecessor. -/
def Predecessor (b0 : List P) (p : Part P D) (x0 : Option P) : Prop :=
  if p.prev < 0 then x0 = none else x0 ≠ none ∧ b0[p.prev.toNat]? = x0

end
end Verif.Track.Spec
