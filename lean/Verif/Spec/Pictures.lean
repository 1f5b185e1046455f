/-
Vocabulary for C111, independent of how the model computes.
-/
import Verif.Model.Pictures
import Verif.Spec.FullCorr

namespace Verif.FullCorr

open Verif.Geo Verif.Geo.V3 Verif.Geo.Spec Verif.Search Verif.Search.Spec Verif.Corr Verif.Corr.Spec

/-- No lens distortion but scale and shear. -/
structure NoLens (cal : Cam) : Prop where
  k1 : cal.ap.k1 = 0
  k2 : cal.ap.k2 = 0
  k3 : cal.ap.k3 = 0
  p1 : cal.ap.p1 = 0
  p2 : cal.ap.p2 = 0
  scale : cal.ap.scx ≠ 0
  shear : Real.cos cal.ap.she ≠ 0

/-- The flat position of a detection. -/
noncomputable def flatPos (ip : ImgPar) (tol : ℝ) (cal : Cam) (t : Det) : ℝ × ℝ :=
  distToFlat (pixelToMetric t.x t.y ip).1 (pixelToMetric t.x t.y ip).2 cal.xh cal.yh cal.ap tol

/-- The camera's coordinates in the order of its targets: coordinate `n` belongs to target `n`. -/
noncomputable def Pic.unsorted (d : Pic) (ip : ImgPar) (tol : ℝ) : CamData where
  cal := d.cal
  lut := d.lut
  crd := d.dets.mapIdx fun n t => ⟨n, (flatPos ip tol d.cal t).1, (flatPos ip tol d.cal t).2⟩
  pix := d.dets.map Det.shape
  tnr := d.dets.map Det.tnr
  xy := d.dets.map fun t => (t.x, t.y)

/-- A particle that all four cameras see, exactly and not in a crowd: in camera `c` its image is the pixel position of
target `n c`. -/
structure Pictured (p : Pars) (tol : ℝ) (pics : Fin 4 → Pic) (P : V3) (X : Fin 4 → V3) (n : Fin 4 → ℕ) (t : Fin 4 → Det) : Prop where
  looks : ∀ c, Looks (pics c).cal p.vol P (X c)
  facing : ∀ c1 c2, c1 < c2 → Facing (pics c1).cal (pics c2).cal p.vol P (X c1)
  target : ∀ c, (pics c).dets[n c]? = some (t c)
  image : ∀ c, ∃ m, imgCoord P (pics c).cal (pics c).lut p.mm = some m ∧ metricToPixel m.1 m.2 p.ip = ((t c).x, (t c).y)
  inside : ∀ c, (sensorOf p.ip (pics c).cal).xmin < (flatPos p.ip tol (pics c).cal (t c)).1 ∧
    (flatPos p.ip tol (pics c).cal (t c)).1 < (sensorOf p.ip (pics c).cal).xmax ∧
    (sensorOf p.ip (pics c).cal).ymin < (flatPos p.ip tol (pics c).cal (t c)).2 ∧
    (flatPos p.ip tol (pics c).cal (t c)).2 < (sensorOf p.ip (pics c).cal).ymax
  alike : ∀ c1 c2, c1 < c2 → Alike p.crit (t c1).shape (t c2).shape
  slanted : ∀ c1 c2, c1 < c2 → ∀ e, Epi p ((pics c1).unsorted p.ip tol) ((pics c2).unsorted p.ip tol) (n c1) e → e.1.1 ≠ e.2.1
  sparse : ∀ c1 c2, c1 < c2 → NotCrowded p ((pics c1).unsorted p.ip tol) ((pics c2).unsorted p.ip tol) (n c1)

/-- No other four targets, one of them the particle's, are pairwise exactly on each other's epipolar lines. -/
def Unambiguous (p : Pars) (tol : ℝ) (pics : Fin 4 → Pic) (n : Fin 4 → ℕ) : Prop :=
  ∀ n' : Fin 4 → ℕ, n' ≠ n → (∃ c, n' c = n c) → ∃ c1 c2, c1 < c2 ∧
    ¬ OnEpi p ((pics c1).unsorted p.ip tol) ((pics c2).unsorted p.ip tol) (n' c1) (n' c2)

/-- Detections as the library gets them: at least one, fewer than 8190, no negative size. -/
structure PicFine (d : Pic) : Prop where
  some : 0 < d.dets.length
  few : d.dets.length < 8190
  sizes : ∀ t ∈ d.dets, 0 ≤ t.shape.n ∧ 0 ≤ t.shape.nx ∧ 0 ≤ t.shape.ny ∧ 0 ≤ t.shape.sumg

end Verif.FullCorr
