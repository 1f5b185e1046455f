/-
C43: the parameter file of the grid sorting.
-/
import Verif.Model.CalBlock
import Verif.Spec.ParamIO
import Verif.Proofs.Text

namespace Verif.IO
open Text Verif.Spec

theorem linesAux_first : ∀ (s acc : List Char), (linesAux s acc).getD 0 [] = acc ++ s.takeWhile (· != '\n')
  | [], acc => by
    by_cases h : acc = [] <;> simp [linesAux, h]
  | c :: cs, acc => by
    by_cases h : c = '\n'
    · simp [linesAux, h]
    · simp only [linesAux, if_neg h]
      rw [linesAux_first cs (acc ++ [c])]
      simp [h]

/-- C43: `read_sortgrid_par` returns the integer on the first line of the file, and 25 if the file is missing; a first
line that is no integer raises. -/
theorem C43_sortgrid (fs : FS) (name : List Char) :
    (fs name = none → readSortgridPar fs name = .ok 25) ∧
    (∀ s, fs name = some s → ∀ n : ℤ, readSortgridPar fs name = .ok n ↔ IntOn s 0 n) ∧
    (∀ (n : ℤ) (rest : List Char), fs name = some (intStr n ++ '\n' :: rest) → readSortgridPar fs name = .ok n) := by
  have h1 : ∀ s, fs name = some s → readSortgridPar fs name = pyInt (lineAt s 0) := by
    intro s hs
    have : lineAt s 0 = (readline s).1 := linesAux_first s []
    rw [this]
    simp only [readSortgridPar, hs]
  refine ⟨fun h => by simp only [readSortgridPar, h], fun s hs n => by rw [h1 s hs]; rfl, ?_⟩
  intro n rest hs
  simp only [readSortgridPar, hs]
  have : (readline (intStr n ++ '\n' :: rest)).1 = intStr n := by
    have hn := (intStr_word n).no_nl
    simp only [readline]
    rw [List.takeWhile_append_of_pos (by
      intro c hc
      have : c ≠ '\n' := fun e => hn (e ▸ hc)
      simpa using this)]
    simp
  rw [this, pyInt_intStr]

/-- A file, a missing file, and a file without a number. -/
example : readSortgridPar (fun _ => some "30\n".toList) [] = .ok 30 ∧ readSortgridPar (fun _ => none) [] = .ok 25 ∧
    readSortgridPar (fun _ => some "eps\n".toList) [] = .error .valueError := by
  refine ⟨by decide +kernel, by decide +kernel, by decide +kernel⟩

end Verif.IO
