/-
Model of the setters and getters of single attributes (parameters.py, tracking_frame_buf.py). Setters of lists and of the medium are in
`Verif.Model.ParamObj` and `Verif.Model.ParamIO`.
-/
import Verif.Model.Py

namespace Verif.Access

/-- An object: the values of its attributes. -/
abbrev Obj (V : Type) := String → V

/-- How a setter takes its values: one parameter for each attribute; one tuple that is unpacked (`self.x, self.y = pos`); one tuple that is
indexed (`self.imx = imsize[0]`, `self.imy = imsize[1]`). -/
inductive Takes
  | params
  | unpack
  | index

structure Setter where
  takes : Takes
  attrs : List String

/-- A class: the names of its setters, and its getters with the attributes they return (in this order). -/
structure Class where
  setters : List (String × Setter)
  getters : List (String × List String)

variable {V : Type}

/-- Assignments to attributes, one after the other, until there are no more values. -/
def assign (o : Obj V) : List String → List V → Obj V
  | a :: as, v :: vs => assign (fun x => if x = a then v else o x) as vs
  | _, _ => o

/-- A call of a setter. A wrong number of parameters, or of elements to unpack, is noticed before the first assignment, a missing index
when it is its turn (further elements are ignored). -/
def Setter.call (s : Setter) (o : Obj V) (args : List V) : Obj V × Py Unit :=
  match s.takes with
  | .params => if args.length = s.attrs.length then (assign o s.attrs args, .ok ()) else (o, .error .typeError)
  | .unpack => if args.length = s.attrs.length then (assign o s.attrs args, .ok ()) else (o, .error .valueError)
  | .index => (assign o s.attrs args, if args.length < s.attrs.length then .error .indexError else .ok ())

/-- `obj.method(args)`; an AttributeError if there is no such setter. -/
def Class.set (c : Class) (o : Obj V) (method : String) (args : List V) : Obj V × Py Unit :=
  match c.setters.lookup method with
  | none => (o, .error .other)
  | some s => s.call o args

/-- `obj.method()`, or the attribute itself. -/
def Class.get (c : Class) (o : Obj V) (method : String) : Py (List V) :=
  match c.getters.lookup method with
  | none => .error .other
  | some as => .ok (as.map o)

/-- An object after a history of calls of setters (a caller may catch the exceptions). -/
def Class.history (c : Class) (o : Obj V) (calls : List (String × List V)) : Obj V :=
  calls.foldl (fun o q => (c.set o q.1 q.2).1) o

/-- parameters.py:149-163, `SequencePar`. -/
def sequencePar : Class :=
  ⟨[("set_first", ⟨.params, ["first"]⟩), ("set_last", ⟨.params, ["last"]⟩)], [("get_first", ["first"]), ("get_last", ["last"])]⟩

/-- parameters.py:238-304, `TrackPar`. -/
def trackPar : Class :=
  ⟨[("set_dsumg", ⟨.params, ["dsumg"]⟩), ("set_dn", ⟨.params, ["dn"]⟩), ("set_dnx", ⟨.params, ["dnx"]⟩), ("set_dny", ⟨.params, ["dny"]⟩)],
   [("get_dvxmin", ["dvxmin"]), ("get_dvxmax", ["dvxmax"]), ("get_dvymin", ["dvymin"]), ("get_dvymax", ["dvymax"]),
    ("get_dvz_min", ["dvzmin"]), ("get_dvz_max", ["dvzmax"]), ("get_dangle", ["dangle"]), ("get_dacc", ["dacc"]), ("get_add", ["add"]),
    ("get_dsumg", ["dsumg"]), ("get_dn", ["dn"]), ("get_dnx", ["dnx"]), ("get_dny", ["dny"])]⟩

/-- parameters.py:376-394, `VolumePar`: its numbers are read as attributes. -/
def volumePar : Class :=
  ⟨[("set_cn", ⟨.params, ["cn"]⟩), ("set_cnx", ⟨.params, ["cnx"]⟩), ("set_csumg", ⟨.params, ["csumg"]⟩), ("set_eps0", ⟨.params, ["eps0"]⟩),
    ("set_corrmin", ⟨.params, ["corrmin"]⟩)],
   [("cn", ["cn"]), ("cnx", ["cnx"]), ("cny", ["cny"]), ("csumg", ["csumg"]), ("eps0", ["eps0"]), ("corrmin", ["corrmin"])]⟩

/-- parameters.py:464-512, 551-553, `ControlPar`. -/
def controlPar : Class :=
  ⟨[("set_image_size", ⟨.index, ["imx", "imy"]⟩), ("set_pixel_size", ⟨.index, ["pix_x", "pix_y"]⟩), ("set_chfield", ⟨.params, ["chfield"]⟩),
    ("set_hp_flag", ⟨.params, ["hp_flag"]⟩)],
   [("get_image_size", ["imx", "imy"]), ("get_pixel_size", ["pix_x", "pix_y"]), ("get_chfield", ["chfield"]), ("get_multimedia_par", ["mm"]),
    ("get_num_cams", ["num_cams"]), ("get_hp_flag", ["hp_flag"]), ("get_allCam_flag", ["all_cam_flag"]), ("get_tiff_flag", ["tiff_flag"]),
    ("get_multimedia_params", ["mm"])]⟩

/-- parameters.py:670-688, `TargetPar` (it has no setters). -/
def targetPar : Class :=
  ⟨[], [("get_grey_thresholds", ["gvthresh"]), ("get_pixel_count_bounds", ["nnmin", "nnmax"]), ("get_xsize_bounds", ["nxmin", "nxmax"]),
    ("get_ysize_bounds", ["nymin", "nymax"]), ("get_min_sum_grey", ["sumg_min"])]⟩

/-- tracking_frame_buf.py:89-118, `Target`; the number is read as an attribute. -/
def target : Class :=
  ⟨[("set_pos", ⟨.unpack, ["x", "y"]⟩), ("set_pnr", ⟨.params, ["pnr"]⟩), ("set_pixel_counts", ⟨.params, ["n", "nx", "ny"]⟩),
    ("set_sum_grey_value", ⟨.params, ["sumg"]⟩)],
   [("pos", ["x", "y"]), ("pnr", ["pnr"]), ("count_pixels", ["n", "nx", "ny"]), ("sum_grey_value", ["sumg"]), ("tnr", ["tnr"])]⟩

end Verif.Access
