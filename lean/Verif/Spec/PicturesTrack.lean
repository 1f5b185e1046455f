/-
Vocabulary for C114, independent of how the model computes: pictures with one particle, and the frame that a user records from
the results of the correspondence search.
-/
import Verif.Spec.Pictures
import Verif.Model.Tracker
import Verif.Spec.Orientation

namespace Verif.FullCorr

open Verif.Geo Verif.Geo.V3 Verif.Geo.Spec Verif.Search Verif.Search.Spec Verif.Corr Verif.Corr.Spec

/-- Four pictures with one target each, exactly the image of the particle `P`. -/
structure LonePictured (p : Pars) (tol : ℝ) (pics : Fin 4 → Pic) (P : V3) (X : Fin 4 → V3) (t : Fin 4 → Det) : Prop where
  only : ∀ c, (pics c).dets = [t c]
  sizes : ∀ c, 0 ≤ (t c).shape.n ∧ 0 ≤ (t c).shape.nx ∧ 0 ≤ (t c).shape.ny ∧ 0 ≤ (t c).shape.sumg
  looks : ∀ c, Looks (pics c).cal p.vol P (X c)
  facing : ∀ c1 c2, c1 < c2 → Facing (pics c1).cal (pics c2).cal p.vol P (X c1)
  image : ∀ c, ∃ m, imgCoord P (pics c).cal (pics c).lut p.mm = some m ∧ metricToPixel m.1 m.2 p.ip = ((t c).x, (t c).y)
  inside : ∀ c, (sensorOf p.ip (pics c).cal).xmin < (flatPos p.ip tol (pics c).cal (t c)).1 ∧
    (flatPos p.ip tol (pics c).cal (t c)).1 < (sensorOf p.ip (pics c).cal).xmax ∧
    (sensorOf p.ip (pics c).cal).ymin < (flatPos p.ip tol (pics c).cal (t c)).2 ∧
    (flatPos p.ip tol (pics c).cal (t c)).2 < (sensorOf p.ip (pics c).cal).ymax
  alike : ∀ c1 c2, c1 < c2 → Alike p.crit (t c1).shape (t c2).shape
  slanted : ∀ c1 c2, c1 < c2 → ∀ e, Epi p ((pics c1).unsorted p.ip tol) ((pics c2).unsorted p.ip tol) 0 e → e.1.1 ≠ e.2.1
  /-- the particle is not on one line with two cameras -/
  line : ∀ c1 c2, c1 < c2 → NotParallel (P - (pics c1).cal.pos) (P - (pics c2).cal.pos)
  /-- no coordinate looks like the marker of unused coordinates -/
  mark : ∀ c, (flatPos p.ip tol (pics c).cal (t c)).1 ≠ -1e10

/-- The frame that the results `o` of `py_correspondences` are recorded as: one particle without links for every entry, at the position
`point_position` gives for the coordinates looked up by `get_by_pnrs`; the targets with the numbers `py_correspondences` left in
them; one correspondence row per entry, with the identifiers it lists. -/
structure Recorded (p : Pars) (tol : ℝ) (pics : Fin 4 → Pic) (o : Out) (f : Track.Frame V3 ℝ (Track.Img ℝ)) : Prop where
  count : f.parts.length = o.total
  place : ∀ (j : ℕ) (q : Track.Part V3 ℝ), f.parts[j]? = some q → q.prev = -1 ∧ q.next = -2 ∧ ∃ (v : Fin 4 → ℝ × ℝ) (e : ℝ),
    (∀ c, ((pics c).lookup p.ip tol ((listed o c).map Prod.fst))[j]? = some (v c)) ∧
    pointPosition ((List.finRange 4).map v) 4 p.mm ((List.finRange 4).map fun c => (pics c).cal) = .ok (some (e, q.x))
  targets : f.img.targets = (List.finRange 4).map fun c =>
    List.zipWith (fun (t : Det) (k : Int) => (⟨t.x, t.y, k⟩ : Search.Tgt ℝ)) (pics c).dets (o.tnr c)
  rows : f.img.corr.length = o.total
  row : ∀ (j : ℕ) (r : Track.Corres), f.img.corr[j]? = some r → r.p.length = 4 ∧
    ∀ c : Fin 4, ∃ e, (listed o c)[j]? = some e ∧ r.p[c.val]? = some e.1

end Verif.FullCorr
