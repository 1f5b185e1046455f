/-
Models of openptv_python/find_candidate.py and of the two pixel searches in
openptv_python/track.py (candsearch_in_pix, candsearch_in_pix_rest).
-/
import Verif.Model.Py
import Mathlib.Analysis.Real.Sqrt
import Mathlib.Order.Lattice
import Mathlib.Algebra.Field.Basic

namespace Verif.Search

/-- find_candidate.py:193-198, track.py:303-308 and 395-397: the halving loop.
`j0 - dj` never goes below zero (Proofs), so natural subtraction is the Python one. -/
def startLoop {α : Type} [LT α] [DecidableLT α] (xs : List α) (thr : α) (j0 dj : Nat) : Py Nat :=
  if _h : dj > 1 then do
    let v ← pyGet xs j0
    if v < thr then startLoop xs thr (j0 + dj) (dj / 2)
    else startLoop xs thr (j0 - dj) (dj / 2)
  else .ok j0
termination_by dj
decreasing_by all_goals omega

/-- find_candidate.py:188-207 `find_start_point_binary` (threshold `xa - eps0` passed as `thr`);
the same code is inlined at track.py:301-312 and 394-399 with `ymin`. -/
def startPoint {α : Type} [LT α] [DecidableLT α] (xs : List α) (num : Nat) (thr : α) : Py Nat := do
  let j0 ← startLoop xs thr (num / 2) (num / 4)
  .ok (j0 - 12)

/-- find_candidate.py:159-164 `quality_ratio` (numba: division by zero raises). -/
noncomputable def qualityRatio (a b : ℝ) : Py ℝ :=
  if a = 0 ∧ b = 0 then .ok 0
  else if max a b = 0 then .error .zeroDivision
  else .ok (min a b / max a b)

/-- Flat image coordinate with its target number: `Coord2d_dtype` in tracking_frame_buf.py. -/
structure Coord where
  pnr : Nat
  x : ℝ
  y : ℝ

/-- The target fields find_candidate compares. -/
structure Shape where
  n : ℝ
  nx : ℝ
  ny : ℝ
  sumg : ℝ

/-- The volume parameters find_candidate uses. -/
structure VPar where
  eps0 : ℝ
  cn : ℝ
  cnx : ℝ
  cny : ℝ
  csumg : ℝ

/-- `Candidate_dtype` (epi.py). -/
structure Cand where
  pnr : Nat
  tol : ℝ
  corr : ℝ

/-- constants.py:4. -/
def MAXCAND : Nat := 40

/-- The quantities fixed before the candidate loop: search window and line `y = m x + b`. -/
structure Window where
  xa : ℝ
  ya : ℝ
  xb : ℝ
  yb : ℝ
  m : ℝ
  b : ℝ

/-- find_candidate.py:78-89: line equation from the segment, then ordering of the ends. -/
noncomputable def mkWindow (xa ya xb0 yb : ℝ) : Window :=
  let xb := if xa = xb0 then xb0 + 1e-10 else xb0
  let m := (yb - ya) / (xb - xa)
  let b := ya - m * xa
  let (xa', xb') := if xa > xb then (xb, xa) else (xa, xb)
  let (ya', yb') := if ya > yb then (yb, ya) else (ya, yb)
  ⟨xa', ya', xb', yb', m, b⟩

/-- find_candidate.py:115: distance from the epipolar line. -/
noncomputable def lineDist (w : Window) (x y : ℝ) : ℝ :=
  |(y - w.m * x - w.b) / Real.sqrt (w.m * w.m + 1)|

/-- find_candidate.py:100-146: the candidate loop over the indices `js`. -/
noncomputable def candLoop (w : Window) (v : VPar) (s : Shape) (crd : List Coord) (pix : List Shape) :
    List Nat → List Cand → Py (List Cand)
  | [], acc => .ok acc
  | j :: js, acc => do
    let c ← pyGet crd j
    if c.x > w.xb + v.eps0 then .ok acc
    else if c.y ≤ w.ya - v.eps0 ∨ c.y ≥ w.yb + v.eps0 then candLoop w v s crd pix js acc
    else if c.x ≤ w.xa - v.eps0 ∨ c.x ≥ w.xb + v.eps0 then candLoop w v s crd pix js acc
    else
      let d := lineDist w c.x c.y
      if d ≥ v.eps0 then candLoop w v s crd pix js acc
      else do
        let t ← pyGet pix c.pnr
        let qn ← qualityRatio s.n t.n
        let qnx ← qualityRatio s.nx t.nx
        let qny ← qualityRatio s.ny t.ny
        let qsumg ← qualityRatio s.sumg t.sumg
        if qn < v.cn ∨ qnx < v.cnx ∨ qny < v.cny ∨ qsumg ≤ v.csumg then
          candLoop w v s crd pix js acc
        else if acc.length ≥ MAXCAND then .ok acc
        else
          let corr := (4 * qsumg + 2 * qn + qnx + qny) * (s.sumg + t.sumg)
          candLoop w v s crd pix js (acc ++ [⟨j, d, corr⟩])

/-- The sensor rectangle (xmin, ymin, xmax, ymax), find_candidate.py:66-76 (already corrected for
distortion; the correction is modelled in Trafo). -/
structure Sensor where
  xmin : ℝ
  ymin : ℝ
  xmax : ℝ
  ymax : ℝ

/-- find_candidate.py:15-151 `find_candidate`; `crd` has `num` entries. -/
noncomputable def findCandidate (sen : Sensor) (v : VPar) (s : Shape) (crd : List Coord)
    (pix : List Shape) (xa ya xb yb : ℝ) : Py (List Cand) :=
  let w := mkWindow xa ya xb yb
  if w.xb ≤ sen.xmin ∨ w.xa ≥ sen.xmax ∨ w.yb ≤ sen.ymin ∨ w.ya ≥ sen.ymax then .ok []
  else do
    let j0 ← startPoint (crd.map Coord.x) crd.length (w.xa - v.eps0)
    candLoop w v s crd pix (List.range' j0 (crd.length - j0)) []

/-! ### Pixel searches of the tracker. Pixel coordinates are elements of an ordered field `K`: exact numbers. -/

/-- The target fields the tracker's window search reads. -/
structure Tgt (K : Type) where
  x : K
  y : K
  tnr : Int
  deriving DecidableEq, Repr

/-- The clipped search window. track.py:289-298 (and 385-390). -/
structure Win (K : Type) where
  xmin : K
  xmax : K
  ymin : K
  ymax : K
  deriving DecidableEq, Repr

section
variable {K : Type} [Field K] [LinearOrder K]

/-- track.py:289-298. -/
def clip (cx cy dl dr du dd : K) (imx imy : K) : Win K :=
  let xmin := cx - dl
  let xmax := cx + dr
  let ymin := cy - du
  let ymax := cy + dd
  ⟨if xmin < 0 then 0 else xmin, if xmax > imx then imx else xmax,
   if ymin < 0 then 0 else ymin, if ymax > imy then imy else ymax⟩

/-- Squared distance from the centre. track.py:319-322 takes the square root, which is strictly
monotone and only used in comparisons; the model compares squares. -/
def dist2 (cx cy : K) (t : Tgt K) : K := (cx - t.x) ^ 2 + (cy - t.y) ^ 2

/-- `1e20`, squared (see `dist2`). track.py:284. -/
def BIG : K := 10 ^ 40

/-- The four best slots, track.py:285-287. -/
structure Best (K : Type) where
  p1 : Int
  p2 : Int
  p3 : Int
  p4 : Int
  d1 : K
  d2 : K
  d3 : K
  d4 : K
  deriving DecidableEq, Repr

/-- track.py:285-287: initial slots (TR_UNUSED = -1, constants.py:23). -/
def Best.init : Best K := ⟨-1, -1, -1, -1, BIG, BIG, BIG, BIG⟩

/-- track.py:327-338: insertion of target `j` at (squared) distance `d`. -/
def Best.insert (s : Best K) (j : Nat) (d : K) : Best K :=
  if d < s.d1 then ⟨j, s.p1, s.p2, s.p3, d, s.d1, s.d2, s.d3⟩
  else if s.d1 < d ∧ d < s.d2 then ⟨s.p1, j, s.p2, s.p3, s.d1, d, s.d2, s.d3⟩
  else if s.d2 < d ∧ d < s.d3 then ⟨s.p1, s.p2, j, s.p3, s.d1, s.d2, d, s.d3⟩
  else if s.d3 < d ∧ d < s.d4 then ⟨s.p1, s.p2, s.p3, j, s.d1, s.d2, s.d3, d⟩
  else s

/-- track.py:314-338: the search loop over the indices `js`. -/
def pixLoop (ts : List (Tgt K)) (w : Win K) (cx cy : K) : List Nat → Best K → Py (Best K)
  | [], s => .ok s
  | j :: js, s => do
    let t ← pyGet ts j
    if t.tnr ≠ -1 then
      if t.y > w.ymax then .ok s
      else if (w.xmin < t.x ∧ t.x < w.xmax) ∧ (w.ymin < t.y ∧ t.y < w.ymax) then
        pixLoop ts w cx cy js (s.insert j (dist2 cx cy t))
      else pixLoop ts w cx cy js s
    else pixLoop ts w cx cy js s

/-- track.py:271-352 `candsearch_in_pix` (`num_targets` = length of the list). -/
def candsearchInPix (ts : List (Tgt K)) (cx cy dl dr du dd imx imy : K) : Py (List Int) :=
  let w := clip cx cy dl dr du dd imx imy
  if cx ≥ 0 ∧ cx ≤ imx ∧ cy ≥ 0 ∧ cy ≤ imy then do
    let j0 ← startPoint (ts.map Tgt.y) ts.length w.ymin
    let s ← pixLoop ts w cx cy (List.range' j0 (ts.length - j0)) Best.init
    .ok [s.p1, s.p2, s.p3, s.p4]
  else .ok [-1, -1, -1, -1]

/-- track.py:400-411: loop of `candsearch_in_pix_rest`; state (dmin, p[0]). -/
def restLoop (ts : List (Tgt K)) (w : Win K) (cx cy : K) : List Nat → K × Int → Py (K × Int)
  | [], s => .ok s
  | j :: js, s => do
    let t ← pyGet ts j
    if t.tnr = -1 then
      if t.y > w.ymax then .ok s
      else if (w.xmin < t.x ∧ t.x < w.xmax) ∧ (w.ymin < t.y ∧ t.y < w.ymax) ∧
          dist2 cx cy t < s.1 then
        restLoop ts w cx cy js (dist2 cx cy t, j)
      else restLoop ts w cx cy js s
    else restLoop ts w cx cy js s

/-- track.py:355-416 `candsearch_in_pix_rest`: returns (counter, p[0]); `p0` is the value of `p[0]`
on entry. -/
def candsearchInPixRest (ts : List (Tgt K)) (cx cy dl dr du dd imx imy : K) (p0 : Int) :
    Py (Nat × Int) :=
  let w := clip cx cy dl dr du dd imx imy
  if 0 ≤ cx ∧ cx ≤ imx ∧ 0 ≤ cy ∧ cy ≤ imy then do
    let j0 ← startPoint (ts.map Tgt.y) ts.length w.ymin
    let s ← restLoop ts w cx cy (List.range' j0 (ts.length - j0)) (BIG, p0)
    .ok (if s.2 ≠ -1 then 1 else 0, s.2)
  else .ok (0, p0)

end

end Verif.Search
