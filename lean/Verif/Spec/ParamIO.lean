/-
Layout of the parameter files: which line holds which value. Lines are counted from 0; beyond the last line of
the file there is only the empty text.
-/
import Verif.Model.Text

namespace Verif.Spec
open Text

/-- The text of line `i`. -/
def lineAt (s : List Char) (i : ℕ) : List Char := (lines s).getD i []

/-- Line `i` is the integer `x`. -/
def IntOn (s : List Char) (i : ℕ) (x : ℤ) : Prop := pyInt (lineAt s i) = .ok x

/-- Line `i` is the number `x`. -/
def NumOn (s : List Char) (i : ℕ) (x : ℚ) : Prop := pyFloat (lineAt s i) = .ok x

/-- `t` is `l` without the white space around it. -/
def Stripped (l t : List Char) : Prop :=
  ∃ a b, l = a ++ t ++ b ∧ a.all isSpace = true ∧ b.all isSpace = true ∧
    (∀ c ∈ t.head?, isSpace c = false) ∧ ∀ c ∈ t.getLast?, isSpace c = false

/-- Line `i` is the text `t`, up to white space around it. -/
def TextOn (s : List Char) (i : ℕ) (t : List Char) : Prop := Stripped (lineAt s i) t

/-- Lines `i, i+1, …` are the texts `ts`. -/
def TextsOn (s : List Char) (i : ℕ) (ts : List (List Char)) : Prop :=
  ∀ (k : ℕ) (t : List Char), ts[k]? = some t → TextOn s (i + k) t

end Verif.Spec
