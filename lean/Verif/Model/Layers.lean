/-
Model of the layers of a `MultimediaPar` (parameters.py:58-108): the setter and the getters.
-/
import Verif.Model.Multimed
import Verif.Model.Py

namespace Verif.Geo

/-- parameters.py:59-67 `MultimediaPar()`. -/
def MM.default : MM := ⟨1, 1, [1], 1, [0]⟩

/-- parameters.py:69-71 `MultimediaPar(nlay, n1, n2, d, n3)` with the check of `__post_init__`. -/
def MM.new (nlay : ℕ) (n1 : ℝ) (n2 d : List ℝ) (n3 : ℝ) : Py MM :=
  if n2.length ≠ d.length then .error .valueError else .ok ⟨nlay, n1, n2, n3, d⟩

/-- parameters.py:101-108 `set_layers`: the number of layers is left as it is (line 108 is a comment). That the lists are kept
by reference is not modelled. -/
def MM.setLayers (mm : MM) (refr thick : List ℝ) : Py MM :=
  if refr.length ≠ thick.length then .error .valueError else .ok { mm with n2 := refr, d := thick }

/-- parameters.py:81-83 `set_n1`. -/
def MM.setN1 (mm : MM) (x : ℝ) : MM := { mm with n1 := x }

/-- parameters.py:89-91 `set_n3`. -/
def MM.setN3 (mm : MM) (x : ℝ) : MM := { mm with n3 := x }

/-- parameters.py:73-75, 77-79, 85-87, 93-95, 97-99: `get_nlay`, `get_n1`, `get_n2`, `get_n3`, `get_d`. -/
def MM.getters (mm : MM) : ℕ × ℝ × List ℝ × ℝ × List ℝ := (mm.nlay, mm.n1, mm.n2, mm.n3, mm.d)

end Verif.Geo
