/-
Model of `matmul_numba_optimized` (ray_tracing.py): the rows are computed by parallel threads that share the memory.
-/
import Mathlib.Data.List.Basic

namespace Verif.MatMul

/-- The memory: the entry of array `x` in row `i` and column `j`. -/
abbrev Heap (α : Type) := ℕ → ℕ → ℕ → α

/-- The registers of the thread that computes one row: the loop variables `j` and `ll`, and `temp`. -/
structure Thread (α : Type) where
  j : ℕ
  l : ℕ
  temp : α

structure State (α : Type) where
  heap : Heap α
  thread : ℕ → Thread α

variable {α : Type} [Add α] [Mul α] [Zero α]

/-- ray_tracing.py:330-335: the beginning of the parallel loop (`prange`). -/
def start (h : Heap α) : State α := ⟨h, fun _ => ⟨0, 0, 0⟩⟩

/-- ray_tracing.py:331-335: the next step of the thread of row `i`: one round of the innermost loop, or, after its last round, the
store into the array `a`. A thread that is through its columns does nothing. Simplified: the two reads of a round are one step, and all
indices are within the arrays (compiled code does not check them). -/
def step (a b c n k : ℕ) (s : State α) (i : ℕ) : State α :=
  let t := s.thread i
  if t.j < k then
    if t.l < n then
      ⟨s.heap, fun q => if q = i then ⟨t.j, t.l + 1, t.temp + s.heap b i t.l * s.heap c t.l t.j⟩ else s.thread q⟩
    else
      ⟨fun x p q => if x = a ∧ p = i ∧ q = t.j then t.temp else s.heap x p q,
        fun q => if q = i then ⟨t.j + 1, 0, 0⟩ else s.thread q⟩
  else s

/-- ray_tracing.py:329-336 `matmul_numba_optimized(a, b, c, m, n, k)`, with the threads taking steps in the order of the schedule. -/
def run (a b c n k : ℕ) (h : Heap α) (schedule : List ℕ) : State α := schedule.foldl (step a b c n k) (start h)

/-- The end of the parallel loop: all threads are through. -/
def Finished (m k : ℕ) (s : State α) : Prop := ∀ i < m, k ≤ (s.thread i).j

end Verif.MatMul
