/-
Model of the comparison of parameter sets by their annotated attributes (parameters.py).
-/
import Verif.Model.ParamIO

namespace Verif.IO

/-- The value of an attribute. -/
inductive Attr
  | int (n : ℤ)
  | float (q : ℚ)
  | ints (l : List ℤ)
  | floats (l : List ℚ)
  | strs (l : List (List Char))
  deriving DecidableEq

/-- parameters.py:129-131, the attributes of `SequencePar`. -/
def SequencePar.attrs (p : SequencePar) : List (String × Attr) :=
  [("img_base_name", .strs p.imgBaseName), ("first", .int p.first), ("last", .int p.last)]

/-- parameters.py:199-211, the attributes of `TrackPar`. -/
def TrackPar.attrs (p : TrackPar) : List (String × Attr) :=
  [("dvxmin", .float p.dvxmin), ("dvxmax", .float p.dvxmax), ("dvymin", .float p.dvymin), ("dvymax", .float p.dvymax),
   ("dvzmin", .float p.dvzmin), ("dvzmax", .float p.dvzmax), ("dangle", .float p.dangle), ("dacc", .float p.dacc),
   ("add", .int p.add), ("dsumg", .float p.dsumg), ("dn", .float p.dn), ("dnx", .float p.dnx), ("dny", .float p.dny)]

/-- parameters.py:340-352, the attributes of `VolumePar`. -/
def VolumePar.attrs (p : VolumePar) : List (String × Attr) :=
  [("x_lay", .floats p.xLay), ("z_min_lay", .floats p.zMinLay), ("z_max_lay", .floats p.zMaxLay), ("cn", .float p.cn),
   ("cnx", .float p.cnx), ("cny", .float p.cny), ("csumg", .float p.csumg), ("eps0", .float p.eps0), ("corrmin", .float p.corrmin)]

/-- parameters.py:593-602, the attributes of `TargetPar`. -/
def TargetPar.attrs (p : TargetPar) : List (String × Attr) :=
  [("gvthresh", .ints p.gvthresh), ("discont", .int p.discont), ("nnmin", .int p.nnmin), ("nnmax", .int p.nnmax),
   ("nxmin", .int p.nxmin), ("nxmax", .int p.nxmax), ("nymin", .int p.nymin), ("nymax", .int p.nymax),
   ("sumg_min", .int p.sumgMin), ("cr_sz", .int p.crSz)]

/-- `getattr(obj, name)`; an AttributeError (`other`) if there is none. -/
def getattr (obj : List (String × Attr)) (name : String) : Py Attr :=
  match obj.lookup name with
  | none => .error .other
  | some v => .ok v

/-- `all(getattr(a, name) == getattr(b, name) for name in names)`: stops at the first difference. -/
def allEqual (a b : List (String × Attr)) : List String → Py Bool
  | [] => .ok true
  | n :: ns => do
    let x ← getattr a n
    let y ← getattr b n
    if x = y then allEqual a b ns else .ok false

/-- parameters.py:187-192 `compare_sequence_par`; `SequencePar.__annotations__` are the names at 129-131. -/
def compareSequence (a b : SequencePar) : Py Bool := allEqual a.attrs b.attrs ["img_base_name", "first", "last"]

/-- parameters.py:312-314 `compare_track_par`; `t1.__annotations__` are the names at 199-211. -/
def compareTrack (a b : TrackPar) : Py Bool :=
  allEqual a.attrs b.attrs
    ["dvxmin", "dvxmax", "dvymin", "dvymax", "dvzmin", "dvzmax", "dangle", "dacc", "add", "dsumg", "dn", "dnx", "dny"]

/-- parameters.py:433-437 `compare_volume_par`; the names at 340-352. -/
def compareVolume (a b : VolumePar) : Py Bool :=
  allEqual a.attrs b.attrs ["x_lay", "z_min_lay", "z_max_lay", "cn", "cnx", "cny", "csumg", "eps0", "corrmin"]

/-- parameters.py:697-702 `compare_target_par`; the names at 593-602. -/
def compareTarget (a b : TargetPar) : Py Bool :=
  allEqual a.attrs b.attrs
    ["gvthresh", "discont", "nnmin", "nnmax", "nxmin", "nxmax", "nymin", "nymax", "sumg_min", "cr_sz"]

end Verif.IO
