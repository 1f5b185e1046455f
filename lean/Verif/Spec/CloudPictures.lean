/-
Vocabulary for C149, independent of how the model computes: inexact pictures of a cloud of particles, and the frame that holds it.
-/
import Verif.Spec.PicturesTrack
import Verif.Spec.NoisyCorr
import Verif.Spec.Precision

namespace Verif.FullCorr

open Verif.Geo Verif.Geo.V3 Verif.Geo.Spec Verif.Search Verif.Search.Spec Verif.Corr Verif.Corr.Spec

/-- Four pictures of `N` particles: particle `n`, at `P n`, has target `m n c` in picture `c`. -/
structure PicturedCloud (p : Pars) (tol : ℝ) (pics : Fin 4 → Pic) (N : ℕ) (P : Fin N → V3) (m : Fin N → Fin 4 → ℕ)
    (t : Fin N → Fin 4 → Det) (d w : Fin N → Fin 4 → Fin 4 → ℝ) (cm δ σ : ℝ) (ray : Fin N → Fin 4 → Ray) : Prop where
  fine : ∀ c, PicFine (pics c)
  target : ∀ n c, (pics c).dets[m n c]? = some (t n c)
  /-- every target belongs to a particle, and no target to two -/
  all : ∀ c i, i < (pics c).dets.length → ∃ n, m n c = i
  once : ∀ n l c, m n c = m l c → n = l
  /-- the targets of a particle fit one another, with the distances `d n` and the correlations `w n`, well enough for the limit `cm` -/
  fit : ∀ n c1 c2, c1 < c2 → FitsWith p ((pics c1).unsorted p.ip tol) ((pics c2).unsorted p.ip tol) (m n c1) (m n c2) (d n c1 c2) (w n c1 c2)
  meets : ∀ n c1 c2, c1 < c2 → MeetsSensor p ((pics c1).unsorted p.ip tol) ((pics c2).unsorted p.ip tol) (m n c1)
  score : ∀ n, cm * six (d n) < six (w n)
  /-- targets of different particles do not fit -/
  only : ∀ n l c1 c2, c1 < c2 → Fits p ((pics c1).unsorted p.ip tol) ((pics c2).unsorted p.ip tol) (m n c1) (m l c2) → n = l
  /-- the lines of sight of the targets pass the particle at most at the distance `δ`, and cross at angles of sine at least `σ` -/
  sight : ∀ n c, rayTracing (flatPos p.ip tol (pics c).cal (t n c)).1 (flatPos p.ip tol (pics c).cal (t n c)).2 (pics c).cal p.mm =
    some (ray n c)
  near : ∀ n c, NearLine (ray n c).1 (ray n c).2 (P n) δ
  cross : ∀ n c1 c2, c1 < c2 → Crossing (ray n c1).2 (ray n c2).2 σ
  /-- no coordinate looks like the marker of unused coordinates -/
  mark : ∀ n c, (flatPos p.ip tol (pics c).cal (t n c)).1 ≠ -1e10

/-- The frame holds the `N` particles and nothing else: particle `n` is number `pos n`, without links, within `ρ` of `P n`; in every camera its target is
`m n c`, which has the number `pos n`; and its correspondence row lists its targets. -/
structure HoldsCloud (f : Track.Frame V3 ℝ (Track.Img ℝ)) (N : ℕ) (P : Fin N → V3) (m : Fin N → Fin 4 → ℕ) (t : Fin N → Fin 4 → Det)
    (ρ : ℝ) (pos : Fin N → ℕ) : Prop where
  count : f.parts.length = N
  once : Function.Injective pos
  part : ∀ n, ∃ q, f.parts[pos n]? = some q ∧ q.prev = -1 ∧ q.next = -2 ∧ (q.x - P n).norm ≤ ρ
  cams : f.img.targets.length = 4
  target : ∀ (c : Fin 4) ts, f.img.targets[c.val]? = some ts → ts.length = N ∧ ∀ n, ts[m n c]? = some ⟨(t n c).x, (t n c).y, pos n⟩
  row : ∀ n, ∃ r, f.img.corr[pos n]? = some r ∧ r.p = (List.finRange 4).map fun c => (m n c : Int)

end Verif.FullCorr
