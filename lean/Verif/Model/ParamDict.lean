/-
Model of the conversion of parameter sets to and from dictionaries and YAML files (parameters.py). A dictionary
is a list of keys and values, in order of insertion; keys are different. Python does not check the types of the
values; here a value of an unexpected type is the error `other` (outside the model).
-/
import Verif.Model.ParamIO

namespace Verif.IO

/-- Values of a dictionary. -/
inductive Val
  | int (n : ℤ)
  | float (q : ℚ)
  | strs (l : List (List Char))
  | floats (l : List ℚ)
  /-- A `MultimediaPar` object. -/
  | mm (m : MMPar)
  /-- A dictionary. -/
  | dict (kvs : List (String × Val))

/-- A dictionary. -/
abbrev Dict := List (String × Val)

/-- `d[k] = v` -/
def Dict.set : Dict → String → Val → Dict
  | [], k, v => [(k, v)]
  | (a, b) :: d, k, v => if a = k then (k, v) :: d else (a, b) :: Dict.set d k v

/-- A keyword argument that is an integer. -/
def kwInt (d : Dict) (k : String) (dflt : ℤ) : Py ℤ :=
  match d.lookup k with
  | none => .ok dflt
  | some (.int n) => .ok n
  | some _ => .error .other

/-- A keyword argument that is a float. -/
def kwFloat (d : Dict) (k : String) (dflt : ℚ) : Py ℚ :=
  match d.lookup k with
  | none => .ok dflt
  | some (.float n) => .ok n
  | some _ => .error .other

/-- A keyword argument that is a list of floats. -/
def kwFloats (d : Dict) (k : String) (dflt : List ℚ) : Py (List ℚ) :=
  match d.lookup k with
  | none => .ok dflt
  | some (.floats n) => .ok n
  | some _ => .error .other

/-- A keyword argument that is a list of strings; the default is the empty list. -/
def kwStrs (d : Dict) (k : String) : Py (List (List Char)) :=
  match d.lookup k with
  | none => .ok []
  | some (.strs n) => .ok n
  | some _ => .error .other

/-- `cls(**d)`: a TypeError for a keyword that is no field. -/
def checkKeys (fields : List String) (d : Dict) : Py Unit :=
  if d.all (fun p => fields.contains p.1) then .ok () else .error .typeError

/-- parameters.py:59-71 `MultimediaPar(**d)` with the check of `__post_init__`. -/
def mmNew (d : Dict) : Py MMPar := do
  checkKeys ["nlay", "n1", "n2", "d", "n3"] d
  let nlay ← kwInt d "nlay" 1
  let n1 ← kwFloat d "n1" 1
  let n2 ← kwFloats d "n2" [1]
  let dd ← kwFloats d "d" [0]
  let n3 ← kwFloat d "n3" 1
  if n2.length ≠ dd.length then .error .valueError else .ok ⟨nlay, n1, n2, dd, n3⟩

/-- parameters.py:36-39 `MultimediaPar.from_dict(v)`: `cls(**v)` is a TypeError unless `v` is a dictionary. -/
def mmFromDict : Val → Py MMPar
  | .dict kvs => mmNew kvs
  | _ => .error .typeError

/-- `asdict` of a `MultimediaPar`. -/
def mmAsDict (m : MMPar) : Dict :=
  [("nlay", .int m.nlay), ("n1", .float m.n1), ("n2", .floats m.n2), ("d", .floats m.d), ("n3", .float m.n3)]

/-- A `ControlPar` object: nothing keeps its `mm` from being something else than a `MultimediaPar`. -/
structure ControlObj where
  numCams : ℤ
  imgBaseName : List (List Char)
  calImgBaseName : List (List Char)
  hpFlag : ℤ
  allCamFlag : ℤ
  tiffFlag : ℤ
  imx : ℤ
  imy : ℤ
  pixX : ℚ
  pixY : ℚ
  chfield : ℤ
  mm : Val

/-- A proper control parameter set as an object. -/
def ControlPar.obj (c : ControlPar) : ControlObj :=
  ⟨c.numCams, c.imgBaseName, c.calImgBaseName, c.hpFlag, c.allCamFlag, c.tiffFlag, c.imx, c.imy, c.pixX, c.pixY,
    c.chfield, .mm c.mm⟩

/-- Names of the fields, parameters.py:444-455. -/
def controlFields : List String :=
  ["num_cams", "img_base_name", "cal_img_base_name", "hp_flag", "all_cam_flag", "tiff_flag", "imx", "imy", "pix_x",
    "pix_y", "chfield", "mm"]

/-- parameters.py:440-455 `ControlPar(**d)`, with the default values. -/
def controlNew (d : Dict) : Py ControlObj := do
  checkKeys controlFields d
  let numCams ← kwInt d "num_cams" 0
  let img ← kwStrs d "img_base_name"
  let cal ← kwStrs d "cal_img_base_name"
  let hp ← kwInt d "hp_flag" 1
  let allCam ← kwInt d "all_cam_flag" 0
  let tiff ← kwInt d "tiff_flag" 1
  let imx ← kwInt d "imx" 0
  let imy ← kwInt d "imy" 0
  let pixX ← kwFloat d "pix_x" 0
  let pixY ← kwFloat d "pix_y" 0
  let chfield ← kwInt d "chfield" 0
  .ok ⟨numCams, img, cal, hp, allCam, tiff, imx, imy, pixX, pixY, chfield,
    (d.lookup "mm").getD (.mm ⟨1, 1, [1], [0], 1⟩)⟩

/-- parameters.py:457-462 `ControlPar.from_dict`: the dictionary afterwards (the argument is changed), and the
result. -/
def controlFromDict (d : Dict) : Dict × Py ControlObj :=
  match mmFromDict ((d.lookup "mm").getD (.dict [])) with
  | .error e => (d, .error e)
  | .ok m => (d.set "mm" (.mm m), controlNew (d.set "mm" (.mm m)))

/-- `asdict` turns a nested data class into a dictionary and leaves a dictionary one. -/
def asDictMM : Val → Val
  | .mm m => .dict (mmAsDict m)
  | v => v

/-- parameters.py:555-561 `ControlPar.to_dict` (a class method: it takes the object as its argument). -/
def controlToDict (c : ControlObj) : Dict :=
  [("num_cams", .int c.numCams), ("img_base_name", .strs c.imgBaseName), ("cal_img_base_name", .strs c.calImgBaseName),
    ("hp_flag", .int c.hpFlag), ("all_cam_flag", .int c.allCamFlag), ("tiff_flag", .int c.tiffFlag), ("imx", .int c.imx),
    ("imy", .int c.imy), ("pix_x", .float c.pixX), ("pix_y", .float c.pixY), ("chfield", .int c.chfield),
    ("mm", asDictMM c.mm)]

/-- parameters.py:51-56 `ControlPar.from_yaml` of a file whose contents are the dictionary `d`: `cls(**d)`. Unlike
`from_dict`, nothing turns the value of `mm` into an object. (`to_yaml`, 46-49, dumps `asdict(self)`; that YAML
gives back the dictionary that was dumped, in some order, is taken for granted.) -/
def controlFromYaml (d : Dict) : Py ControlObj := controlNew d

/-- parameters.py:51-56 `MultimediaPar.from_yaml`. -/
def mmFromYaml (d : Dict) : Py MMPar := mmNew d

/-- `c.mm.n1`, for instance in every projection: an AttributeError unless `mm` is an object. -/
def ControlObj.n1 (c : ControlObj) : Py ℚ :=
  match c.mm with
  | .mm m => .ok m.n1
  | _ => .error .other

/-- parameters.py:114-122 `compare_mm_np`: an IndexError without layers. -/
def compareMM (a b : MMPar) : Py Bool := do
  let a2 ← pyGet a.n2 0
  let ad ← pyGet a.d 0
  let b2 ← pyGet b.n2 0
  let bd ← pyGet b.d 0
  .ok (decide ((a.nlay, a.n1, a.n3, a2, ad) = (b.nlay, b.n1, b.n3, b2, bd)))

/-- parameters.py:569-587 `compare_control_par`, for proper parameter sets. -/
def compareControl (a b : ControlPar) : Bool :=
  decide (a.numCams = b.numCams) && (decide (a.imgBaseName = b.imgBaseName) && decide (a.calImgBaseName = b.calImgBaseName)) &&
    decide (a.hpFlag = b.hpFlag) && decide (a.allCamFlag = b.allCamFlag) && decide (a.tiffFlag = b.tiffFlag) &&
    decide (a.imx = b.imx) && decide (a.imy = b.imy) && decide (a.pixX = b.pixX) && decide (a.pixY = b.pixY) &&
    decide (a.chfield = b.chfield) && decide (a.mm = b.mm)

end Verif.IO
