/-
Shared vocabulary of the models: Python exceptions as values and the few numpy number
facts the decision logic depends on.
-/
import Mathlib.Data.Rat.Defs
import Mathlib.Algebra.Field.Rat
import Mathlib.Algebra.Field.Basic
import Mathlib.Algebra.Order.Ring.Rat
import Mathlib.Order.Lattice
import Mathlib.Data.Prod.Lex

namespace Verif

/-- Python exceptions that the modelled code can raise, as values. -/
inductive PyErr
  | indexError
  | valueError
  | typeError
  | zeroDivision
  | other
  | ioError
  /-- Not an exception: the fuel of a modelled loop ran out. -/
  | outOfFuel
  deriving DecidableEq, Repr

abbrev Py := Except PyErr

/-- `xs[i]` for a non-negative Python index: an IndexError beyond the end. -/
def pyGet {α : Type} (xs : List α) (i : Nat) : Py α :=
  match xs[i]? with
  | some x => .ok x
  | none => .error .indexError

/-- `xs[i]` for a Python integer index: negative indices count from the end. -/
def pyGetI {α : Type} (xs : List α) (i : Int) : Py α :=
  if 0 ≤ i then pyGet xs i.toNat
  else if 0 ≤ i + xs.length then pyGet xs (i + xs.length).toNat
  else .error .indexError

/-- An idealised numpy float64: the exact numbers of an ordered field `K` together with the two infinities and nan.
(IEEE rounding is not modelled; the special values are, because they decide comparisons.) -/
inductive Fl (K : Type)
  | ninf
  | fin (q : K)
  | pinf
  | nan
  deriving DecidableEq

namespace Fl

variable {K : Type} [Field K] [LinearOrder K]

/-- Position of a value in the order used by `numpy.sort`: -inf < finite < inf < nan. -/
def key : Fl K → ℕ ×ₗ K
  | ninf => toLex (0, 0)
  | fin q => toLex (1, q)
  | pinf => toLex (2, 0)
  | nan => toLex (3, 0)

theorem key_injective : Function.Injective (key (K := K)) := by
  intro a b h
  cases a <;> cases b <;> simp_all [key]

/-- The total order of `numpy.sort`. -/
instance : LinearOrder (Fl K) := LinearOrder.lift' key key_injective

/-- numpy's `a <= b`: always false when a nan is involved. -/
def npLe (a b : Fl K) : Bool :=
  match a, b with
  | nan, _ => false
  | _, nan => false
  | a, b => decide (a ≤ b)

/-- numpy's true division of two finite float64 values (no exception, inf/nan results). -/
def npDiv (a b : K) : Fl K :=
  if b = 0 then (if a = 0 then nan else if 0 < a then pinf else ninf) else fin (a / b)

end Fl
end Verif
