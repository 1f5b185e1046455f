/-
Specification for C108: what may change what in a `Calibration` object.
-/
import Verif.Model.CalibObj

namespace Verif.CalObj
open Verif.Geo

/-- The attributes whose getters return an array that belongs to the object: the three parts of the distortion and the glass. -/
def Shared (a : Attr) : Prop := a = .radial ∨ a = .decent ∨ a = .affine ∨ a = .glass

/-- The call is one that may change attribute `a` of object `o`: the one that makes the object, its own setter, `set_angles` for the matrix, `set_added_par` for
the distortion, `increment_attribute` of a component, `update_rotation_matrix` for the matrix, or a write into an array
that the getter of this attribute of this object returned, if it is one of those that return views; or a `copy` of another object
into this one. -/
def Touches (s : St) (c : Call) (o : ℕ) (a : Attr) : Prop :=
  match c with
  | .new => s.objs.length = o
  | .set o' a' _ => o' = o ∧ (a' = a ∨ (a' = .angles ∧ a = .rot))
  | .setAdded o' _ => o' = o ∧ (a = .radial ∨ a = .decent ∨ a = .affine)
  | .incr o' n _ => o' = o ∧ n.attr = a
  | .update o' => o' = o ∧ a = .rot
  | .get _ _ => False
  | .write k _ _ => ∃ h, s.handles[k]? = some h ∧ h.obj = o ∧ h.attr = a ∧ Shared a
  | .copy _ o' => o' = o

/-- No call of a history is one that may change the attribute. -/
def Untouched (s : St) (cs : List Call) (o : ℕ) (a : Attr) : Prop :=
  match cs with
  | [] => True
  | c :: cs => ¬ Touches s c o a ∧ Untouched (exec s c) cs o a

/-- The matrix of the object is the rotation by its three angles (row by row). -/
def RotOk (s : St) (o : ℕ) : Prop := ∃ omega phi kappa : ℝ, s.read o .angles = some [omega, phi, kappa] ∧
  s.read o .rot = some
    [(rotationMatrix omega phi kappa).r0.x, (rotationMatrix omega phi kappa).r0.y, (rotationMatrix omega phi kappa).r0.z,
     (rotationMatrix omega phi kappa).r1.x, (rotationMatrix omega phi kappa).r1.y, (rotationMatrix omega phi kappa).r1.z,
     (rotationMatrix omega phi kappa).r2.x, (rotationMatrix omega phi kappa).r2.y, (rotationMatrix omega phi kappa).r2.z]

/-- What a new object has: at the origin, not turned, no distortion, the glass one unit along z. -/
def documented : Attr → List ℝ
  | .pos => [0, 0, 0]
  | .angles => [0, 0, 0]
  | .rot => [1, 0, 0, 0, 1, 0, 0, 0, 1]
  | .prim => [0, 0, 0]
  | .radial => [0, 0, 0]
  | .decent => [0, 0]
  | .affine => [1, 0]
  | .glass => [0, 0, 1]

/-- What `increment_attribute` by `x` makes of the value `v` of an attribute: the named coordinate, angle or interior parameter (with
`dm`: every entry of the matrix) grows by `x`. -/
def incremented (n : Name) (x : ℝ) (a : Attr) (v : List ℝ) : List ℝ :=
  match n, a with
  | .x0, .pos | .omega, .angles | .xh, .prim => v.modify 0 (· + x)
  | .y0, .pos | .phi, .angles | .yh, .prim => v.modify 1 (· + x)
  | .z0, .pos | .kappa, .angles | .cc, .prim => v.modify 2 (· + x)
  | .dm, .rot => v.map (· + x)
  | _, _ => v

/-- The object that a call is about: the one it is called on, the one that returned the array that is written to, or the one
that is copied to. -/
def About (s : St) (c : Call) (o : ℕ) : Prop :=
  match c with
  | .new => s.objs.length = o
  | .set o' _ _ | .setAdded o' _ | .incr o' _ _ | .update o' | .get o' _ => o' = o
  | .write k _ _ => ∃ h, s.handles[k]? = some h ∧ h.obj = o
  | .copy _ o' => o' = o

end Verif.CalObj
