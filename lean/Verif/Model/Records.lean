/-
Model of the comparisons of records (tracking_frame_buf.py, vec_utils.py), of the sorting of targets and coordinates, and of the
list of targets that `targ_rec` returns.
-/
import Verif.Model.TargetsIO
import Verif.Model.Segmentation
import Verif.Model.Search

namespace Verif.Rec

open Verif.IO (Target)

/-- Anything a record may be compared with: a target, or an object of another kind without the attributes of a target. -/
inductive Thing
  | target (t : Target)
  | other

/-- tracking_frame_buf.py:120-130 `Target.__eq__`. The attribute of another kind of object does not exist: AttributeError. -/
def targetEq (a : Target) : Thing → Py Bool
  | .target b => .ok (a.pnr == b.pnr && a.x == b.x && a.y == b.y && a.n == b.n && a.nx == b.nx && a.ny == b.ny && a.sumg == b.sumg &&
      a.tnr == b.tnr)
  | .other => .error .other

/-- tracking_frame_buf.py:249-260 `compare_targets`. -/
def compareTargets (a b : Target) : Py Bool := targetEq a (.target b)

/-- tracking_frame_buf.py:262-274 `Pathinfo`. -/
structure PathInfo where
  x : List ℚ
  prevFrame : ℤ
  nextFrame : ℤ
  prio : ℤ
  decis : List ℚ
  finaldecis : ℚ
  linkdecis : List ℤ
  inlist : ℤ
  deriving DecidableEq

/-- Anything a path record may be compared with. -/
inductive PThing
  | path (p : PathInfo)
  | other

/-- tracking_frame_buf.py:276-288 `Pathinfo.__eq__`. Positions have three components, so that the comparison of the arrays is by
component. -/
def pathEq (a : PathInfo) : PThing → Bool
  | .other => false
  | .path b => ((a.x.zip b.x).all fun p => p.1 == p.2) && a.prevFrame == b.prevFrame && a.nextFrame == b.nextFrame && a.prio == b.prio &&
      a.decis == b.decis && a.finaldecis == b.finaldecis && a.linkdecis == b.linkdecis && a.inlist == b.inlist

/-- tracking_frame_buf.py:303-305 `compare_path_info`. -/
def comparePathInfo (a b : PathInfo) : Bool := pathEq a (.path b)

/-- tracking_frame_buf.py:266-274 `Pathinfo()`, with PREV_NONE = -1, NEXT_NONE = -2, PRIO_DEFAULT = 2, POSI = 80. -/
def PathInfo.new : PathInfo := ⟨[0, 0, 0], -1, -2, 2, List.replicate 80 0, 0, List.replicate 80 0, 0⟩

/-- tracking_frame_buf.py:290-294 `register_link_candidate`. -/
def PathInfo.register (p : PathInfo) (fitness : ℚ) (cand : ℤ) : Py PathInfo :=
  if p.inlist < p.decis.length ∧ p.inlist < p.linkdecis.length then
    .ok { p with decis := p.decis.set p.inlist.toNat fitness, linkdecis := p.linkdecis.set p.inlist.toNat cand, inlist := p.inlist + 1 }
  else .error .indexError

/-- tracking_frame_buf.py:296-300 `reset_links`. -/
def PathInfo.resetLinks (p : PathInfo) : PathInfo := { p with prevFrame := -1, nextFrame := -2, prio := 2 }

/-- tracking_frame_buf.py:47-52 a row of correspondences. -/
structure Corres where
  nr : ℤ
  p : List ℤ
  deriving DecidableEq

/-- tracking_frame_buf.py:59-71 `compare_corres`: `(c1 == c2).all()`; a structured value compares by field. -/
def compareCorres (a b : Corres) : Bool := a.nr == b.nr && a.p == b.p

/-- vec_utils.py:81-84 `vec_cmp`: `np.allclose` with the absolute tolerance that is given and the default relative tolerance
1e-5, which counts in units of the second vector. -/
def vecCmp (u v : List ℚ) (tol : ℚ) : Bool := (u.zip v).all fun p => decide (|p.1 - p.2| ≤ tol + 1 / 100000 * |p.2|)

/-- tracking_frame_buf.py:133-135 `sort_target_y`: `sorted` with a key, which is stable. -/
def sortTargetY (ts : List Target) : List Target := ts.mergeSort fun a b => decide (a.y ≤ b.y)

/-- What the pixel search of the tracker reads of a target. -/
def view (t : Target) : Search.Tgt ℚ := ⟨t.x, t.y, t.tnr⟩

/-- segmentation.py:79-82: a detection as a `Target`, without a correspondence. -/
def ofDetection (t : Seg.Tgt) : Target := ⟨t.pnr, t.x, t.y, t.n, t.nx, t.ny, t.sumg, -1⟩

/-- segmentation.py:32-83 `targ_rec` with the targets it returns. -/
def detect (im : Seg.Image) (imx imy : ℤ) (q : Seg.Par) (fuel : ℕ) : Py (List Target) := do
  let ts ← Seg.targRec im imx imy q fuel
  .ok (ts.map ofDetection)

end Verif.Rec
