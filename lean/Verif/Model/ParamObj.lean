/-
Model of the lists inside parameter objects (parameters.py): which attributes are lists, which setters and constructors keep a
reference to the list they are given, which write into the list that is already there, and which getters hand the list out.
-/
import Verif.Model.Py
import Mathlib.Data.Rat.Defs

namespace Verif.ParObj

/-- An entry of a list: a number or a name. -/
inductive Entry
  | num (x : ℚ)
  | name (s : String)
  deriving DecidableEq

/-- The classes with list attributes. -/
inductive Kind
  /-- parameters.py:125-131 `SequencePar`: attribute 0 is `img_base_name` -/
  | sequence
  /-- parameters.py:336-342 `VolumePar`: 0 `x_lay`, 1 `z_min_lay`, 2 `z_max_lay` -/
  | volume
  /-- parameters.py:58-67 `MultimediaPar`: 0 `n2`, 1 `d` -/
  | multimedia
  /-- parameters.py:440-447 `ControlPar`: 0 `img_base_name`, 1 `cal_img_base_name` -/
  | control
  /-- parameters.py:590-593 `TargetPar`: 0 `gvthresh` -/
  | target
  deriving DecidableEq

/-- What the default factories make (parameters.py:64-65, 129, 340-342, 445-446, 593): new lists. -/
def Kind.defaults : Kind → List (List Entry)
  | .sequence => [[]]
  | .volume => [[], [], []]
  | .multimedia => [[.num 1], [.num 0]]
  | .control => [[], []]
  | .target => [[]]

/-- An object: its class and where its lists are. -/
structure PObj where
  kind : Kind
  refs : List ℕ

/-- All lists, all parameter objects, and the lists the caller has in hand. -/
structure PSt where
  lists : List (List Entry)
  objs : List PObj
  held : List ℕ

def PSt.init : PSt := ⟨[], [], []⟩

/-- The list at a place. -/
def PSt.at (s : PSt) (p : ℕ) : List Entry := s.lists.getD p []

/-- An object with new lists. -/
def PSt.fresh (s : PSt) (k : Kind) (vs : List (List Entry)) : PSt :=
  { s with lists := s.lists ++ vs, objs := s.objs ++ [⟨k, (List.range vs.length).map (s.lists.length + ·)⟩] }

/-- Let attribute `j` of object `o` refer to the list at `p`. -/
def PSt.bind (s : PSt) (o : ℕ) (b : PObj) (j p : ℕ) : PSt := { s with objs := s.objs.set o { b with refs := b.refs.set j p } }

/-- What a user can do. -/
inductive PCall
  /-- a list is made: `l = [...]` -/
  | list (v : List Entry)
  /-- `MultimediaPar()` and so on: all lists are new -/
  | new (k : Kind)
  /-- `from_file`: all lists are new, with what is in the file (parameters.py:166-177, 397-417, 517-536, 645-647) -/
  | read (k : Kind) (vs : List (List Entry))
  /-- the constructor of a dataclass with lists as arguments: it keeps them; parameters.py:69-71 the two lists of a
  `MultimediaPar` must have the same length -/
  | make (k : Kind) (hs : List ℕ)
  /-- parameters.py:101-108 `set_layers` -/
  | setLayers (o h h' : ℕ)
  /-- parameters.py:367-373 `set_z_min_lay`, `set_z_max_lay` -/
  | setZ (o : ℕ) (upper : Bool) (h : ℕ)
  /-- parameters.py:141-143 `SequencePar.set_img_base_name` -/
  | setNames (o h : ℕ)
  /-- an attribute is read, or a getter called that returns the list (parameters.py:93-99, 668-670): the caller keeps it -/
  | get (o j : ℕ)
  /-- `l[i] = x` for a list the caller has in hand -/
  | write (h i : ℕ) (x : Entry)

/-- One call. A list or object that does not exist is not a possible call (`other`); an attribute that the class does not have is
an AttributeError (`other` too). -/
def pstep (s : PSt) : PCall → Py PSt
  | .list v => .ok { s with lists := s.lists ++ [v], held := s.held ++ [s.lists.length] }
  | .new k => .ok (s.fresh k k.defaults)
  | .read k vs => if vs.length = k.defaults.length then .ok (s.fresh k vs) else .error .other
  | .make k hs =>
    match hs.mapM (fun h => s.held[h]?) with
    | some ps =>
      if ps.length = k.defaults.length then
        if k = .multimedia ∧ (s.at (ps.getD 0 0)).length ≠ (s.at (ps.getD 1 0)).length then .error .valueError
        else .ok { s with objs := s.objs ++ [⟨k, ps⟩] }
      else .error .other
    | none => .error .other
  | .setLayers o h h' =>
    match s.objs[o]?, s.held[h]?, s.held[h']? with
    | some b, some p, some p' =>
      if b.kind = .multimedia then
        if (s.at p).length ≠ (s.at p').length then .error .valueError
        else .ok ((s.bind o b 0 p).bind o { b with refs := b.refs.set 0 p } 1 p')
      else .error .other
    | _, _, _ => .error .other
  | .setZ o upper h =>
    match s.objs[o]?, s.held[h]? with
    | some b, some p => if b.kind = .volume then .ok (s.bind o b (if upper then 2 else 1) p) else .error .other
    | _, _ => .error .other
  | .setNames o h =>
    match s.objs[o]?, s.held[h]? with
    | some b, some p =>
      if b.kind = .sequence then .ok { s with lists := s.lists.set (b.refs.getD 0 0) (s.at p) } else .error .other
    | _, _ => .error .other
  | .get o j =>
    match s.objs[o]? with
    | none => .error .other
    | some b => match b.refs[j]? with
      | none => .error .other
      | some p => .ok { s with held := s.held ++ [p] }
  | .write h i x =>
    match s.held[h]? with
    | none => .error .other
    | some p => if i < (s.at p).length then .ok { s with lists := s.lists.set p ((s.at p).set i x) } else .error .indexError

/-- A call whose exception, if any, is caught: no call changes anything before it raises. -/
def pexec (s : PSt) (c : PCall) : PSt :=
  match pstep s c with
  | .ok s' => s'
  | .error _ => s

/-- A history of calls. -/
def prun (s : PSt) (cs : List PCall) : PSt := cs.foldl pexec s

/-- What attribute `j` of object `o` holds. -/
def PSt.val (s : PSt) (o j : ℕ) : Option (List Entry) :=
  match s.objs[o]? with
  | none => none
  | some b => (b.refs[j]?).map s.at

/-- What stands in the list that the caller has in hand as number `h`. -/
def PSt.hand (s : PSt) (h : ℕ) : Option (List Entry) := (s.held[h]?).map s.at

end Verif.ParObj
