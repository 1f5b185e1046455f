/-
Why a link may be made, in space: vocabulary for C105. Lengths, angles and positions are those of the measurement; nothing here
refers to the tracking code (the parameters are those of the run).
-/
import Verif.Model.Tracker

namespace Verif.Track.Spec
open Verif.Track Verif.Geo V3

/-- `φ` is the angle between the displacements `u` and `v` in gon (a straight angle is 200); for two zero displacements it is 200
(so C47), and an angle with only one zero displacement does not exist. -/
def AngleOf (u v : V3) (φ : ℝ) : Prop :=
  (u ≠ 0 ∧ v ≠ 0 ∧ 0 ≤ φ ∧ φ ≤ 200 ∧ Real.cos (φ * (Real.pi / 200)) * (u.norm * v.norm) = dot u v) ∨
  (u = 0 ∧ v = 0 ∧ φ = 200)

/-- Angle and acceleration below their limits, or acceleration below a tenth of its limit. -/
def Accepted (s : Setup) (φ a : ℝ) : Prop := (a < s.dacc ∧ φ < s.dangle) ∨ a < s.dacc / 10

/-- The decision value: mean path length relative to the longest possible, acceleration and angle relative to their limits, over
the number of images that support the link. -/
def ScoreOf (s : Setup) (len a φ d : ℝ) : Prop := ∃ q : ℕ, d = (len / s.lmax + a / s.dacc + φ / s.dangle) / q

/-- Camera `cam` has a target at less than 3 pixels, in each direction, from the image of `X`; `f` is the target's position in
metric coordinates, corrected for lens distortion. -/
def ShowsNear (s : Setup) (targets : List (List (Search.Tgt ℝ))) (X : V3) (cam : ℕ) (f : ℝ × ℝ) : Prop :=
  ∃ c ts t px, s.cals[cam]? = some c ∧ targets[cam]? = some ts ∧ t ∈ ts ∧ pointToPixel X c.1 c.2 s.mm s.ip = some px ∧
    |t.x - px.1| < 3 ∧ |t.y - px.2| < 3 ∧
    f = distToFlat (pixelToMetric t.x t.y s.ip).1 (pixelToMetric t.x t.y s.ip).2 c.1.xh c.1.yh c.1.ap s.tol

/-- `y` is a position inside the volume, triangulated from targets near the images of `X` in at least two cameras. -/
def NewAt (s : Setup) (targets : List (List (Search.Tgt ℝ))) (X y : V3) : Prop :=
  ((s.lo.x < y.x ∧ y.x < s.hi.x) ∧ (s.lo.y < y.y ∧ y.y < s.hi.y) ∧ (s.lo.z < y.z ∧ y.z < s.hi.z)) ∧
  ∃ (v : List (ℝ × ℝ)) (miss : ℝ) (S : Finset ℕ), pointPosition v s.cals.length s.mm (s.cals.map Prod.fst) = .ok (some (miss, y)) ∧
    2 ≤ S.card ∧ v.length = s.cals.length ∧ ∀ (cam : ℕ) (f : ℝ × ℝ), v[cam]? = some f →
      (cam ∈ S ∧ ShowsNear s targets X cam f) ∨ (cam ∉ S ∧ f = (-10000000000, -10000000000))

/-- Where a particle that came from `x0` (if known) to `x1` goes if it keeps its velocity (stays, if there is none). -/
noncomputable def ahead (x0 : Option V3) (x1 : V3) : V3 :=
  match x0 with
  | some y0 => x1.smul 2 - y0
  | none => x1

/-- Where it goes from there, if it goes to `x3`: with a known past by the parabola of the code, else at constant velocity. -/
noncomputable def ahead2 (x0 : Option V3) (x1 x3 : V3) : V3 :=
  match x0 with
  | some y0 => (x3.smul 5 - x1.smul 4 + y0).smul (1 / 2)
  | none => x3.smul 2 - x1

/-- The reasons for a link with decision value `d` from a particle at `x1` (which came from `x0`, if it has a predecessor) to one
at `x3` in the next frame. `after` are the positions in the frame after next, `t2` and `t3` the targets of the next frame and of
the frame after next. -/
inductive LinkReason (s : Setup) (x0 : Option V3) (x1 x3 : V3) (t2 t3 : List (List (Search.Tgt ℝ))) (after : List V3) (d : ℝ) : Prop
  /-- The path goes on to some `x4` of the frame after next, within the velocity limits; angle and acceleration, averaged over the
  two steps, are accepted. -/
  | continued (x4 : V3) (φ0 a0 φ1 : ℝ) (h4 : x4 ∈ after) (hv : Pos3dInBounds (x4 - x3) s.vel)
      (h1 : AngleOf (x4 - x3) (ahead2 x0 x1 x3 - x3) φ1)
      (h0 : match x0 with
        | some y0 => AngleOf (x1 - y0) (x3 - x1) φ0 ∧ a0 = norm ((x3 - x1) - (x1 - y0))
        | none => φ0 = φ1 ∧ a0 = norm (x4 - ahead2 x0 x1 x3))
      (hs : Accepted s ((φ0 + φ1) / 2) ((a0 + norm (x4 - ahead2 x0 x1 x3)) / 2))
      (hd : ScoreOf s ((norm (x3 - x1) + norm (x4 - x3)) / 2) ((a0 + norm (x4 - ahead2 x0 x1 x3)) / 2) ((φ0 + φ1) / 2) d)
  /-- The path goes on to a new position `x4` of the frame after next (one that becomes a particle of that frame, if adding is on),
  whose displacement *backwards* is within the velocity limits. -/
  | continuedNew (x4 : V3) (φ : ℝ) (h4 : NewAt s t3 (ahead2 x0 x1 x3) x4) (hadd : s.add = true → x4 ∈ after)
      (hv : Pos3dInBounds (x3 - x4) s.vel) (ha : AngleOf (x4 - x3) (ahead2 x0 x1 x3 - x3) φ)
      (hs : Accepted s φ (norm (x4 - ahead2 x0 x1 x3)))
      (hd : ScoreOf s ((norm (x3 - x1) + norm (x4 - x3)) / 2) (norm (x4 - ahead2 x0 x1 x3)) φ d)
  /-- The path came from `y0` and the step is within the velocity limits; angle and acceleration are accepted. -/
  | plain (y0 : V3) (φ : ℝ) (h0 : x0 = some y0) (hv : Pos3dInBounds (x3 - x1) s.vel) (ha : AngleOf (x1 - y0) (x3 - x1) φ)
      (hs : Accepted s φ (norm ((x3 - x1) - (x1 - y0))))
      (hd : ScoreOf s ((norm (x3 - x1) + norm (x1 - y0)) / 2) (norm ((x3 - x1) - (x1 - y0))) φ d)
  /-- `x3` is itself a new position; its difference from the expected position is within the velocity limits. -/
  | added (y0 : V3) (φ : ℝ) (h0 : x0 = some y0) (hadd : s.add = true) (h3 : NewAt s t2 (ahead x0 x1) x3)
      (hv : Pos3dInBounds (ahead x0 x1 - x3) s.vel) (ha : AngleOf (x1 - y0) (x3 - x1) φ)
      (hs : Accepted s φ (norm ((x3 - x1) - (x1 - y0))))
      (hd : ScoreOf s ((norm (x3 - x1) + norm (x1 - y0)) / 2) (norm ((x3 - x1) - (x1 - y0))) φ d)

end Verif.Track.Spec
