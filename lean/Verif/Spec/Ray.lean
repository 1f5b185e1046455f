/-
Independent specification for C26, C29: planes, refraction, rays.
-/
import Verif.Model.Vec

namespace Verif.Geo.Spec

/-- Tangential part of a direction with respect to the unit normal `g`. -/
def tangential (g a : V3) : V3 := a - g.smul (a.dot g)

/-- Vector form of Snell's law at an interface with unit normal `g` between indices `na`, `nb`:
both directions are unit vectors, and `na` times the tangential part before equals `nb` times the
tangential part after (so the ray stays in the plane of incidence and `na sin a = nb sin b`). -/
def Snell (g : V3) (na nb : ℝ) (a b : V3) : Prop :=
  a.norm = 1 ∧ b.norm = 1 ∧ (tangential g a).smul na = (tangential g b).smul nb

/-- `p` is on the line through `v` with direction `a`. -/
def OnLine (v a p : V3) : Prop := ∃ t : ℝ, p = v + a.smul t

/-- `p` is on the half line from `v` in direction `a`. -/
def OnRay (v a p : V3) : Prop := ∃ t : ℝ, 0 ≤ t ∧ p = v + a.smul t

end Verif.Geo.Spec
