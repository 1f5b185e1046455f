/-
Model of the `Calibration` objects of calibration.py: what they store, which arrays their getters hand out, and what their
setters do. Objects hold references to arrays: a getter that returns a slice returns a view, and a write into a view is a write
into the object. Numbers are reals; arrays have one dimension (the matrix is kept as its nine entries in row order).
-/
import Verif.Model.Trafo
import Verif.Model.Py

namespace Verif.CalObj

open Verif.Geo

/-- The four arrays an object refers to (calibration.py:123-126): `ext_par` (x0 y0 z0 omega phi kappa and the nine entries of dm),
`int_par` (xh yh cc), `glass_par`, `added_par` (k1 k2 k3 p1 p2 scx she). The look-up table is not modelled here. -/
inductive Slot
  | ext | int | glass | added
  deriving DecidableEq

/-- What the getters return and the setters set. -/
inductive Attr
  | pos | angles | rot | prim | radial | decent | affine | glass
  deriving DecidableEq

/-- The array in which an attribute is kept. -/
def Attr.slot : Attr → Slot
  | .pos | .angles | .rot => .ext
  | .prim => .int
  | .radial | .decent | .affine => .added
  | .glass => .glass

/-- Where in the array it begins. -/
def Attr.off : Attr → ℕ
  | .pos | .prim | .radial | .glass => 0
  | .angles | .decent => 3
  | .rot => 6
  | .affine => 5

/-- The part of the array that is the attribute: calibration.py:245 (x0, y0, z0), 265 (omega, phi, kappa), 269 (dm), 294
(xh, yh, cc), 321 (`[:3]`), 340 (`[3:5]`), 359 (`[5:]`), 380 (all of it). -/
def Attr.cut (a : Attr) (l : List ℝ) : List ℝ :=
  match a with
  | .pos | .angles | .prim | .radial => (l.drop a.off).take 3
  | .rot => (l.drop 6).take 9
  | .decent => (l.drop 3).take 2
  | .affine => l.drop 5
  | .glass => l

/-- calibration.py:321, 340, 359, 380 return a slice of the array or the array itself; 245, 265, 269, 294 a new array. -/
def Attr.isView : Attr → Bool
  | .radial | .decent | .affine | .glass => true
  | .pos | .angles | .rot | .prim => false

/-- An object: where its four arrays are. -/
structure Obj where
  ext : ℕ
  int : ℕ
  glass : ℕ
  added : ℕ

def Obj.loc (b : Obj) : Slot → ℕ
  | .ext => b.ext
  | .int => b.int
  | .glass => b.glass
  | .added => b.added

/-- An array that a getter returned: the place of its entries. `obj` and `attr` only record which call returned it. -/
structure Handle where
  loc : ℕ
  off : ℕ
  len : ℕ
  obj : ℕ
  attr : Attr

/-- All arrays, all objects, and all arrays returned to the caller so far. -/
structure St where
  arrs : List (List ℝ)
  objs : List Obj
  handles : List Handle

/-- Nothing yet. -/
def St.init : St := ⟨[], [], []⟩

/-- `l[off : off + len(v)] = v` -/
def splice (l : List ℝ) (off : ℕ) (v : List ℝ) : List ℝ := l.take off ++ v ++ l.drop (off + v.length)

/-- The array at a place. -/
def St.arr (s : St) (loc : ℕ) : List ℝ := s.arrs.getD loc []

/-- Write `v` into the array at `loc`, from `off` on. -/
def St.put (s : St) (loc off : ℕ) (v : List ℝ) : St := { s with arrs := s.arrs.set loc (splice (s.arr loc) off v) }

/-- The nine entries of a matrix. -/
def entries (m : M3) : List ℝ := [m.r0.x, m.r0.y, m.r0.z, m.r1.x, m.r1.y, m.r1.z, m.r2.x, m.r2.y, m.r2.z]

/-- calibration.py:12-50 `rotation_matrix`: the entries of the matrix of three angles. -/
noncomputable def rotEntries (angles : List ℝ) : List ℝ :=
  entries (rotationMatrix (angles.getD 0 0) (angles.getD 1 0) (angles.getD 2 0))

/-- calibration.py:64-66 `Exterior`, with the matrix that line 67 computes, the unit matrix. -/
noncomputable def defaultExt : List ℝ := [0, 0, 0, 0, 0, 0] ++ rotEntries [0, 0, 0]

/-- calibration.py:71 `Interior`. -/
def defaultInt : List ℝ := [0, 0, 0]

/-- calibration.py:115 -/
def defaultGlass : List ℝ := [0, 0, 1]

/-- calibration.py:117 -/
def defaultAdded : List ℝ := [0, 0, 0, 0, 0, 1, 0]

/-- calibration.py:102-128 `Calibration()`: everything is a new array (`copy.deepcopy`, `np.array`). -/
noncomputable def St.new (s : St) : St :=
  let n := s.arrs.length
  { s with arrs := s.arrs ++ [defaultExt, defaultInt, defaultGlass, defaultAdded], objs := s.objs ++ [⟨n, n + 1, n + 2, n + 3⟩] }

/-- The number of entries a setter wants (calibration.py:223, 235, 255, 282, 307, 331, 351, 373). -/
def Attr.want : Attr → ℕ
  | .pos | .angles | .prim | .radial | .glass => 3
  | .decent | .affine => 2
  | .rot => 9

/-- calibration.py:217-219 `update_rotation_matrix`. -/
noncomputable def St.update (s : St) (b : Obj) : St := s.put b.ext 6 (rotEntries (Attr.angles.cut (s.arr b.ext)))

/-- calibration.py:221-376, the setters. The argument is a list of numbers: no setter keeps a reference to its argument
(`np.array`, slice assignment). `set_rotation_matrix` (221-225) indexes an array without dimensions, which raises IndexError.
A slice assignment raises ValueError if the slice does not have the length of the value. `set_glass_vec` makes a new array. -/
noncomputable def St.setAttr (s : St) (o : ℕ) (b : Obj) (a : Attr) (v : List ℝ) : Py St :=
  if v.length ≠ a.want then .error .valueError
  else match a with
    | .rot => .error .indexError
    | .glass => .ok { s with arrs := s.arrs ++ [v], objs := s.objs.set o { b with glass := s.arrs.length } }
    | .angles => .ok ((s.put b.ext 3 v).update b)
    | a =>
      if (a.cut (s.arr (b.loc a.slot))).length ≠ v.length then .error .valueError
      else .ok (s.put (b.loc a.slot) a.off v)

/-- Names that `increment_attribute` finds. -/
inductive Name
  | x0 | y0 | z0 | omega | phi | kappa | dm | xh | yh | cc
  deriving DecidableEq

/-- The attribute a name belongs to. -/
def Name.attr : Name → Attr
  | .x0 | .y0 | .z0 => .pos
  | .omega | .phi | .kappa => .angles
  | .dm => .rot
  | .xh | .yh | .cc => .prim

/-- Its place in the array, and the number of entries. -/
def Name.off : Name → ℕ
  | .x0 | .xh => 0
  | .y0 | .yh => 1
  | .z0 | .cc => 2
  | .omega => 3
  | .phi => 4
  | .kappa => 5
  | .dm => 6

def Name.len : Name → ℕ
  | .dm => 9
  | _ => 1

/-- calibration.py:202-216 `increment_attribute`. -/
noncomputable def St.incr (s : St) (b : Obj) (n : Name) (x : ℝ) : St :=
  let l := b.loc n.attr.slot
  s.put l n.off ((((s.arr l).drop n.off).take n.len).map (· + x))

/-- The getters, calibration.py:243-245, 263-269, 287-294, 314-321, 337-340, 356-359, 378-380. -/
def St.get (s : St) (o : ℕ) (b : Obj) (a : Attr) : St :=
  let l := b.loc a.slot
  let v := a.cut (s.arr l)
  if a.isView then { s with handles := s.handles ++ [⟨l, a.off, v.length, o, a⟩] }
  else { s with arrs := s.arrs ++ [v], handles := s.handles ++ [⟨s.arrs.length, 0, v.length, o, a⟩] }

/-- What a user can do. -/
inductive Call
  /-- `Calibration()` -/
  | new
  /-- the setter of the attribute -/
  | set (o : ℕ) (a : Attr) (v : List ℝ)
  /-- calibration.py:382-385 `set_added_par`, which copies (`astype`) and does not look at the length -/
  | setAdded (o : ℕ) (v : List ℝ)
  | incr (o : ℕ) (n : Name) (x : ℝ)
  | update (o : ℕ)
  /-- the getter of the attribute; the array is kept -/
  | get (o : ℕ) (a : Attr)
  /-- `h[i] = x` for the `k`-th array that a getter returned -/
  | write (k i : ℕ) (x : ℝ)
  /-- calibration.py:387-394 `copy`: object `o` is asked to copy itself to object `o'` -/
  | copy (o o' : ℕ)

/-- calibration.py:387-394 `copy`: line 389 binds the name of the argument to a new object; lines 390-394 let the new object refer
to the arrays of this one; nothing is returned, so that the new object is gone at the end. Left over are the arrays that were made
for it. The object that was passed is not looked at. -/
noncomputable def St.copy (s : St) : St := { s.new with objs := s.objs }

/-- One call. An object that does not exist is not a possible call (`other`). -/
noncomputable def step (s : St) : Call → Py St
  | .new => .ok s.new
  | .set o a v => match s.objs[o]? with
    | none => .error .other
    | some b => s.setAttr o b a v
  | .setAdded o v => match s.objs[o]? with
    | none => .error .other
    | some b => .ok { s with arrs := s.arrs ++ [v], objs := s.objs.set o { b with added := s.arrs.length } }
  | .incr o n x => match s.objs[o]? with
    | none => .error .other
    | some b => .ok (s.incr b n x)
  | .update o => match s.objs[o]? with
    | none => .error .other
    | some b => .ok (s.update b)
  | .get o a => match s.objs[o]? with
    | none => .error .other
    | some b => .ok (s.get o b a)
  | .write k i x => match s.handles[k]? with
    | none => .error .other
    | some h => if i < h.len then .ok (s.put h.loc (h.off + i) [x]) else .error .indexError
  | .copy o o' => match s.objs[o]?, s.objs[o']? with
    | some _, some _ => .ok s.copy
    | _, _ => .error .other

/-- A call whose exception, if any, is caught: no call changes anything before it raises. -/
noncomputable def exec (s : St) (c : Call) : St :=
  match step s c with
  | .ok s' => s'
  | .error _ => s

/-- A history of calls. -/
noncomputable def runCalls (s : St) (cs : List Call) : St := cs.foldl exec s

/-- What the getter of object `o` would return. -/
def St.read (s : St) (o : ℕ) (a : Attr) : Option (List ℝ) := (s.objs[o]?).map fun b => a.cut (s.arr (b.loc a.slot))

/-- What stands in the `k`-th array that a getter returned. -/
def St.look (s : St) (k : ℕ) : Option (List ℝ) := (s.handles[k]?).map fun h => ((s.arr h.loc).drop h.off).take h.len

end Verif.CalObj
