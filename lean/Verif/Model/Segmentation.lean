/-
Model of openptv_python/segmentation.py `targ_rec` and `fast_targ_rec`. Grey values and sums are integers
(numba widens them, so no 8-bit overflow); the weighted centre is a rational. A read or write outside an
array is an IndexError here (compiled code would touch foreign memory); negative indices are errors too
(Python would wrap around; the theorems show that there are none).
-/
import Verif.Model.Py

namespace Verif.Seg

/-- An image of `h` rows and `w` columns; `px y x` is the grey value in row `y`, column `x`. -/
structure Image where
  h : ℕ
  w : ℕ
  px : ℤ → ℤ → ℤ

/-- `a[y, x]` on an array with the size of the image. -/
def Image.read (im : Image) (a : ℤ → ℤ → ℤ) (y x : ℤ) : Py ℤ :=
  if 0 ≤ y ∧ y < im.h ∧ 0 ≤ x ∧ x < im.w then .ok (a y x) else .error .indexError

/-- `a[y, x] = 0`. -/
def clear (a : ℤ → ℤ → ℤ) (y x : ℤ) : ℤ → ℤ → ℤ := fun y' x' => if y' = y ∧ x' = x then 0 else a y' x'

/-- The parameters of `fast_targ_rec`: threshold, discontinuity, limits and search region. -/
structure Par where
  thres : ℤ
  disco : ℤ
  nnmin : ℤ
  nnmax : ℤ
  nxmin : ℤ
  nxmax : ℤ
  nymin : ℤ
  nymax : ℤ
  sumgMin : ℤ
  xmin : ℤ
  xmax : ℤ
  ymin : ℤ
  ymax : ℤ

/-- constants.py:26 `MAX_TARGETS`: the length of the wait list. -/
def MAX_TARGETS : ℕ := 20480

/-- A chain of `ref >= r` tests, evaluated from left to right until one fails. -/
def geAll (ref : ℤ) : List (Py ℤ) → Py Bool
  | [] => .ok true
  | r :: rs => do
    let u ← r
    if ref ≥ u then geAll ref rs else .ok false

/-- segmentation.py:127-138: is the pixel above threshold and not below its eight neighbours? -/
def isSeed (im : Image) (q : Par) (a : ℤ → ℤ → ℤ) (i j : ℤ) : Py Bool := do
  let gv ← im.read a i j
  if gv > q.thres then
    geAll gv [im.read a i (j - 1), im.read a i (j + 1), im.read a (i - 1) j, im.read a (i + 1) j,
      im.read a (i - 1) (j - 1), im.read a (i + 1) (j - 1), im.read a (i - 1) (j + 1), im.read a (i + 1) (j + 1)]
  else .ok false

/-- The variables of the flood fill. `wait` is the used part of `waitlist`, entries `(x, y)`. -/
structure Flood where
  img0 : ℤ → ℤ → ℤ
  sumg : ℤ
  xa : ℤ
  xb : ℤ
  ya : ℤ
  yb : ℤ
  x : ℤ
  y : ℤ
  numpix : ℤ
  wait : List (ℤ × ℤ)

/-- segmentation.py:139-156: start of the flood fill at a local maximum of grey value `gv`. -/
def startFlood (q : Par) (a : ℤ → ℤ → ℤ) (i j gv : ℤ) : Flood :=
  ⟨clear a i j, gv, j, j, i, i, j * (gv - q.thres), i * (gv - q.thres), 1, [(j, i)]⟩

/-- segmentation.py:178-189: does the pixel join the target? -/
def joins (im : Image) (q : Par) (gvref gv xn yn : ℤ) : Py Bool :=
  if gv > q.thres ∧ xn > q.xmin - 1 ∧ xn < q.xmax + 1 ∧ yn > q.ymin - 1 ∧ yn < q.ymax + 1
      ∧ gv ≤ gvref + q.disco then
    geAll (gvref + q.disco) [im.read im.px (yn - 1) xn, im.read im.px (yn + 1) xn, im.read im.px yn (xn - 1),
      im.read im.px yn (xn + 1)]
  else .ok false

/-- segmentation.py:190-210: add the pixel. -/
def addPixel (q : Par) (f : Flood) (gv xn yn : ℤ) : Py Flood :=
  if f.wait.length < MAX_TARGETS then
    .ok ⟨clear f.img0 yn xn, f.sumg + gv, if xn < f.xa then xn else f.xa, if xn > f.xb then xn else f.xb,
      if yn < f.ya then yn else f.ya, if yn > f.yb then yn else f.yb,
      f.x + xn * (gv - q.thres), f.y + yn * (gv - q.thres), f.numpix + 1, f.wait ++ [(xn, yn)]⟩
  else .error .indexError

/-- segmentation.py:171-210: one of the four neighbours. -/
def visit (im : Image) (q : Par) (gvref xn yn : ℤ) (f : Flood) : Py Flood :=
  if xn ≥ q.xmax ∨ yn ≥ q.ymax ∨ xn < 0 ∨ yn < 0 then .ok f
  else do
    let gv ← im.read f.img0 yn xn
    let b ← joins im q gvref gv xn yn
    if b then addPixel q f gv xn yn else .ok f

/-- segmentation.py:158-217: one pass of the `while` loop, for the first entry `p` of the wait list. -/
def floodStep (im : Image) (q : Par) (p : ℤ × ℤ) (f : Flood) : Py Flood := do
  let gvref ← im.read im.px p.2 p.1
  let f ← visit im q gvref (p.1 - 1) p.2 f
  let f ← visit im q gvref (p.1 + 1) p.2 f
  let f ← visit im q gvref p.1 (p.2 - 1) f
  let f ← visit im q gvref p.1 (p.2 + 1) f
  .ok { f with wait := f.wait.tail }

/-- segmentation.py:158-217: the `while` loop, with fuel. -/
def flood (im : Image) (q : Par) : ℕ → Flood → Py Flood
  | 0, f => if f.wait = [] then .ok f else .error .outOfFuel
  | fuel + 1, f =>
    match f.wait with
    | [] => .ok f
    | p :: _ => do
      let f ← floodStep im q p f
      flood im q fuel f

/-- A returned target: the list entries of segmentation.py:245. -/
structure Tgt where
  x : ℚ
  y : ℚ
  pnr : ℕ
  n : ℤ
  nx : ℤ
  ny : ℤ
  sumg : ℤ
  deriving DecidableEq

/-- segmentation.py:219-248: turn a finished flood fill into a target, or reject it. -/
def finish (q : Par) (f : Flood) (ts : List Tgt) : List Tgt :=
  if f.xa = q.xmin - 1 ∨ f.ya = q.ymin - 1 ∨ f.xb = q.xmax + 1 ∨ f.yb = q.ymax + 1 then ts
  else if f.numpix ≥ q.nnmin ∧ f.numpix ≤ q.nnmax ∧ f.xb - f.xa + 1 ≥ q.nxmin ∧ f.xb - f.xa + 1 ≤ q.nxmax
      ∧ f.yb - f.ya + 1 ≥ q.nymin ∧ f.yb - f.ya + 1 ≤ q.nymax ∧ f.sumg > q.sumgMin then
    ts ++ [⟨(f.x : ℚ) / ((f.sumg - f.numpix * q.thres : ℤ) : ℚ) + 1 / 2,
      (f.y : ℚ) / ((f.sumg - f.numpix * q.thres : ℤ) : ℚ) + 1 / 2, ts.length, f.numpix, f.xb - f.xa + 1,
      f.yb - f.ya + 1, f.sumg - f.numpix * q.thres⟩]
  else ts

/-- segmentation.py:123-248: one pixel of the scan; the state is `img0` and the targets so far
(`n_targets` is their number). -/
def scanPixel (im : Image) (q : Par) (fuel : ℕ) (i j : ℤ) (s : (ℤ → ℤ → ℤ) × List Tgt) :
    Py ((ℤ → ℤ → ℤ) × List Tgt) := do
  let b ← isSeed im q s.1 i j
  if b then do
    let gv ← im.read s.1 i j
    let f ← flood im q fuel (startFlood q s.1 i j gv)
    .ok (f.img0, finish q f s.2)
  else .ok s

/-- The loop over a list of pixels `(y, x)`. -/
def scan (im : Image) (q : Par) (fuel : ℕ) : List (ℤ × ℤ) → (ℤ → ℤ → ℤ) × List Tgt →
    Py ((ℤ → ℤ → ℤ) × List Tgt)
  | [], s => .ok s
  | p :: ps, s => do
    let s ← scanPixel im q fuel p.1 p.2 s
    scan im q fuel ps s

/-- `range(a, b)`. -/
def rangeI (a b : ℤ) : List ℤ := (List.range (b - a).toNat).map fun k : ℕ => a + k

/-- segmentation.py:123-124: the pixels in the order of the two loops. -/
def raster (q : Par) : List (ℤ × ℤ) :=
  (rangeI q.ymin q.ymax).flatMap fun i => (rangeI q.xmin q.xmax).map fun j => (i, j)

/-- segmentation.py:87-253 `fast_targ_rec`; `fuel` bounds the passes of each flood fill. -/
def fastTargRec (im : Image) (q : Par) (fuel : ℕ) : Py (List Tgt) := do
  let s ← scan im q fuel (raster q) (im.px, [])
  .ok s.2

/-- segmentation.py:47-54: keep the search region off the border. `imx`, `imy` are the image size in the
control parameters. -/
def clampPar (imx imy : ℤ) (q : Par) : Par :=
  { q with
    xmin := if q.xmin ≤ 0 then 1 else q.xmin
    ymin := if q.ymin ≤ 0 then 1 else q.ymin
    xmax := if q.xmax ≥ imx then imx - 1 else q.xmax
    ymax := if q.ymax ≥ imy then imy - 1 else q.ymax }

/-- segmentation.py:32-83 `targ_rec` (the threshold of the camera is already in `q`). -/
def targRec (im : Image) (imx imy : ℤ) (q : Par) (fuel : ℕ) : Py (List Tgt) :=
  fastTargRec im (clampPar imx imy q) fuel

end Verif.Seg
