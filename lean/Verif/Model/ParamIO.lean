/-
Model of the parameter files and dictionaries of openptv_python/parameters.py. A reader consumes the lines of
the file one after the other; at the end of the file `readline()` is the empty string.
-/
import Verif.Model.Text

namespace Verif.IO
open Text

/-- A reader: it takes the remaining lines. -/
abbrev Rd (α : Type) := List (List Char) → Py (α × List (List Char))

/-- `int(file.readline())` -/
def rdInt : Rd ℤ := fun ls => do
  let v ← pyInt (ls.headD [])
  .ok (v, ls.tail)

/-- `float(file.readline())` -/
def rdFloat : Rd ℚ := fun ls => do
  let v ← pyFloat (ls.headD [])
  .ok (v, ls.tail)

/-- `str.strip()` -/
def strip (s : List Char) : List Char := ((s.dropWhile isSpace).reverse.dropWhile isSpace).reverse

/-- `file.readline().strip()` -/
def rdStr : Rd (List Char) := fun ls => .ok (strip (ls.headD []), ls.tail)

/-- `[read() for _ in range(n)]` -/
def rdMany {α : Type} (r : Rd α) : ℕ → Rd (List α)
  | 0, ls => .ok ([], ls)
  | n + 1, ls => do
    let a ← r ls
    let as ← rdMany r n a.2
    .ok (a.1 :: as.1, as.2)

/-- parameters.py:336-352 `VolumePar`. -/
structure VolumePar where
  xLay : List ℚ
  zMinLay : List ℚ
  zMaxLay : List ℚ
  cn : ℚ
  cnx : ℚ
  cny : ℚ
  csumg : ℚ
  eps0 : ℚ
  corrmin : ℚ
  deriving DecidableEq

/-- parameters.py:396-416 `VolumePar.from_file`. -/
def readVolumePar (s : List Char) : Py VolumePar := do
  let x0 ← rdFloat (lines s)
  let zmin0 ← rdFloat x0.2
  let zmax0 ← rdFloat zmin0.2
  let x1 ← rdFloat zmax0.2
  let zmin1 ← rdFloat x1.2
  let zmax1 ← rdFloat zmin1.2
  let cnx ← rdFloat zmax1.2
  let cny ← rdFloat cnx.2
  let cn ← rdFloat cny.2
  let csumg ← rdFloat cn.2
  let corrmin ← rdFloat csumg.2
  let eps0 ← rdFloat corrmin.2
  .ok ⟨[x0.1, x1.1], [zmin0.1, zmin1.1], [zmax0.1, zmax1.1], cn.1, cnx.1, cny.1, csumg.1, eps0.1, corrmin.1⟩

/-- parameters.py:195-211 `TrackPar`. -/
structure TrackPar where
  dvxmin : ℚ
  dvxmax : ℚ
  dvymin : ℚ
  dvymax : ℚ
  dvzmin : ℚ
  dvzmax : ℚ
  dangle : ℚ
  dacc : ℚ
  add : ℤ
  dsumg : ℚ
  dn : ℚ
  dnx : ℚ
  dny : ℚ
  deriving DecidableEq

/-- parameters.py:224-234 `TrackPar.from_file`, the contents of the file. -/
def readTrackPar (s : List Char) : Py TrackPar := do
  let dvxmin ← rdFloat (lines s)
  let dvxmax ← rdFloat dvxmin.2
  let dvymin ← rdFloat dvxmax.2
  let dvymax ← rdFloat dvymin.2
  let dvzmin ← rdFloat dvymax.2
  let dvzmax ← rdFloat dvzmin.2
  let dangle ← rdFloat dvzmax.2
  let dacc ← rdFloat dangle.2
  let add ← rdInt dacc.2
  .ok ⟨dvxmin.1, dvxmax.1, dvymin.1, dvymax.1, dvzmin.1, dvzmax.1, dangle.1, dacc.1, add.1, 0, 0, 0, 0⟩

/-- parameters.py:213-235 `TrackPar.from_file`: for a missing file the code raises a string, which Python
refuses with a TypeError. -/
def readTrackParFile (fs : FS) (name : List Char) : Py TrackPar :=
  match fs name with
  | none => .error .typeError
  | some s => readTrackPar s

/-- parameters.py:125-131 `SequencePar`. -/
structure SequencePar where
  imgBaseName : List (List Char)
  first : ℤ
  last : ℤ
  deriving DecidableEq

/-- parameters.py:165-179 `SequencePar.from_file`. -/
def readSequencePar (s : List Char) (numCams : ℕ) : Py SequencePar := do
  let names ← rdMany rdStr numCams (lines s)
  let first ← rdInt names.2
  let last ← rdInt first.2
  .ok ⟨names.1, first.1, last.1⟩

/-- parameters.py:59-71 `MultimediaPar`. -/
structure MMPar where
  nlay : ℤ
  n1 : ℚ
  n2 : List ℚ
  d : List ℚ
  n3 : ℚ
  deriving DecidableEq

/-- Two base names of one camera. -/
def rdNames : Rd (List Char × List Char) := fun ls => do
  let a ← rdStr ls
  let b ← rdStr a.2
  .ok ((a.1, b.1), b.2)

/-- parameters.py:440-455 `ControlPar`, as read from a file. -/
structure ControlPar where
  numCams : ℤ
  imgBaseName : List (List Char)
  calImgBaseName : List (List Char)
  hpFlag : ℤ
  allCamFlag : ℤ
  tiffFlag : ℤ
  imx : ℤ
  imy : ℤ
  pixX : ℚ
  pixY : ℚ
  chfield : ℤ
  mm : MMPar
  deriving DecidableEq

/-- parameters.py:514-549 `ControlPar.from_file` (for an existing file). -/
def readControlPar (s : List Char) : Py ControlPar := do
  let numCams ← rdInt (lines s)
  let names ← rdMany rdNames numCams.1.toNat numCams.2
  let hp ← rdInt names.2
  let allCam ← rdInt hp.2
  let tiff ← rdInt allCam.2
  let imx ← rdInt tiff.2
  let imy ← rdInt imx.2
  let pixX ← rdFloat imy.2
  let pixY ← rdFloat pixX.2
  let chfield ← rdInt pixY.2
  let n1 ← rdFloat chfield.2
  let n2 ← rdFloat n1.2
  let n3 ← rdFloat n2.2
  let d ← rdFloat n3.2
  .ok ⟨numCams.1, names.1.map Prod.fst, names.1.map Prod.snd, hp.1, allCam.1, tiff.1, imx.1, imy.1, pixX.1,
    pixY.1, chfield.1, ⟨1, n1.1, [n2.1], [d.1], n3.1⟩⟩

/-- parameters.py:589-602 `TargetPar`. -/
structure TargetPar where
  gvthresh : List ℤ
  discont : ℤ
  nnmin : ℤ
  nnmax : ℤ
  nxmin : ℤ
  nxmax : ℤ
  nymin : ℤ
  nymax : ℤ
  sumgMin : ℤ
  crSz : ℤ
  deriving DecidableEq

/-- `TargetPar()` -/
def TargetPar.default : TargetPar := ⟨[], 100, 1, 100, 1, 100, 1, 100, 10, 1⟩

/-- parameters.py:624-668 `TargetPar.from_file`, the contents of the file. -/
def readTargetParText (s : List Char) : Py TargetPar := do
  let gv ← rdMany rdInt 4 (lines s)
  let discont ← rdInt gv.2
  let nnmin ← rdInt discont.2
  let nnmax ← rdInt nnmin.2
  let nxmin ← rdInt nnmax.2
  let nxmax ← rdInt nxmin.2
  let nymin ← rdInt nxmax.2
  let nymax ← rdInt nymin.2
  let sumgMin ← rdInt nymax.2
  let crSz ← rdInt sumgMin.2
  .ok ⟨gv.1, discont.1, nnmin.1, nnmax.1, nxmin.1, nxmax.1, nymin.1, nymax.1, sumgMin.1, crSz.1⟩

/-- parameters.py:624-668 `TargetPar.from_file`: a missing file is reported on the console only. -/
def readTargetPar (fs : FS) (name : List Char) : Py TargetPar :=
  match fs name with
  | none => .ok .default
  | some s => readTargetParText s

/-- Lines joined by line ends, no line end after the last one. -/
def joinNl : List (List Char) → List Char
  | [] => []
  | [f] => f
  | f :: fs => f ++ '\n' :: joinNl fs

/-- The text of parameters.py:708-710. Only the first four thresholds are written; fewer are an IndexError. -/
def targetParText (t : TargetPar) : Py (List Char) := do
  let g0 ← pyGet t.gvthresh 0
  let g1 ← pyGet t.gvthresh 1
  let g2 ← pyGet t.gvthresh 2
  let g3 ← pyGet t.gvthresh 3
  .ok (joinNl ([g0, g1, g2, g3, t.discont, t.nnmin, t.nnmax, t.nxmin, t.nxmax, t.nymin, t.nymax,
    t.sumgMin, t.crSz].map intStr))

/-- parameters.py:705-710 `write_target_par`: the disk afterwards, and whether the call returned. The file is
opened (emptied) before the text is made. -/
def writeTargetPar (fs : FS) (t : TargetPar) (name : List Char) : FS × Py Unit :=
  match targetParText t with
  | .ok s => (fs.write name s, .ok ())
  | .error e => (fs.write name [], .error e)

/-- parameters.py:713-728 `OrientPar`. -/
structure OrientPar where
  useflag : ℤ
  ccflag : ℤ
  xhflag : ℤ
  yhflag : ℤ
  k1flag : ℤ
  k2flag : ℤ
  k3flag : ℤ
  p1flag : ℤ
  p2flag : ℤ
  scxflag : ℤ
  sheflag : ℤ
  interfflag : ℤ
  deriving DecidableEq

/-- parameters.py:733-757 `OrientPar.from_file`, the contents of the file. -/
def readOrientPar (s : List Char) : Py OrientPar := do
  let use ← rdInt (lines s)
  let cc ← rdInt use.2
  let xh ← rdInt cc.2
  let yh ← rdInt xh.2
  let k1 ← rdInt yh.2
  let k2 ← rdInt k1.2
  let k3 ← rdInt k2.2
  let p1 ← rdInt k3.2
  let p2 ← rdInt p1.2
  let scx ← rdInt p2.2
  let she ← rdInt scx.2
  let interf ← rdInt she.2
  .ok ⟨use.1, cc.1, xh.1, yh.1, k1.1, k2.1, k3.1, p1.1, p2.1, scx.1, she.1, interf.1⟩

/-- parameters.py:730-760 `OrientPar.from_file`: a missing file is reported on the console only. -/
def readOrientParFile (fs : FS) (name : List Char) : Py OrientPar :=
  match fs name with
  | none => .ok ⟨0, 0, 0, 0, 0, 0, 0, 0, 0, 0, 0, 0⟩
  | some s => readOrientPar s

/-- parameters.py:763-772 `CalibrationPar`. -/
structure CalibrationPar where
  fixpName : List Char
  imgName : List (List Char)
  imgOri0 : List (List Char)
  tiffFlag : ℤ
  pairFlag : ℤ
  chfield : ℤ
  deriving DecidableEq

/-- `tmp[0::2]` -/
def evens {α : Type} : List α → List α
  | [] => []
  | [a] => [a]
  | a :: _ :: as => a :: evens as

/-- `tmp[1::2]` -/
def odds {α : Type} (as : List α) : List α := evens as.tail

/-- parameters.py:785-798 `CalibrationPar.from_file`, and 801-813 `read_cal_ori_parameters`, which does the same. -/
def readCalibrationPar (s : List Char) (numCams : ℕ) : Py CalibrationPar := do
  let fixp ← rdStr (lines s)
  let tmp ← rdMany rdStr (numCams * 2) fixp.2
  let tiff ← rdInt tmp.2
  let pair ← rdInt tiff.2
  let chfield ← rdInt pair.2
  .ok ⟨fixp.1, evens tmp.1, odds tmp.1, tiff.1, pair.1, chfield.1⟩

/-- parameters.py:816-821 `MultiPlanesPar`. -/
structure MultiPlanesPar where
  numPlanes : ℤ
  filename : List (List Char)
  deriving DecidableEq

/-- parameters.py:823-829 `MultiPlanesPar.from_file`. -/
def readMultiPlanesPar (s : List Char) : Py MultiPlanesPar := do
  let n ← rdInt (lines s)
  let names ← rdMany rdStr n.1.toNat n.2
  .ok ⟨n.1, names.1⟩

/-- parameters.py:839-845 `ExaminePar.from_file` (and 848-853): the two flags. -/
def readExaminePar (s : List Char) : Py (Bool × Bool) := do
  let a ← rdInt (lines s)
  let b ← rdInt a.2
  .ok (decide (a.1 ≠ 0), decide (b.1 ≠ 0))

/-- parameters.py:862-867 `PftVersionPar.from_file`: `bool(int(...))`. -/
def readPftVersion (s : List Char) : Py Bool := do
  let v ← rdInt (lines s)
  .ok (decide (v.1 ≠ 0))

/-- parameters.py:869-873 `PftVersionPar.write`: a class method, so it writes the default `False` of the class
(as Python writes a boolean) whatever the object holds; `cls.existing_target_flag` is `flag` here. -/
def writePftVersion (flag : Bool) : List Char :=
  (if flag then ['T', 'r', 'u', 'e'] else ['F', 'a', 'l', 's', 'e']) ++ ['\n']

end Verif.IO
