/-
Text files: the part of Python's number formatting, number parsing and line reading that the readers and
writers of openptv_python use. A file is a list of characters. A float is an exact rational: the decimal
written is the exact one rounded to nearest, ties to even, and the decimal read is exact (binary rounding of
floats, nan and infinities are not modelled). Numbers with exponents or underscores are not parsed.
-/
import Verif.Model.Py
import Mathlib.Data.Rat.Floor

namespace Verif.Text

/-- White space as `str.split()` sees it (ASCII part). -/
def isSpace (c : Char) : Bool := c == ' ' || c == '\n' || c == '\t' || c == '\r'

/-- `str(n)` for an integer. -/
def intStr (n : ℤ) : List Char := (if n < 0 then ['-'] else []) ++ Nat.toDigits 10 n.natAbs

/-- Pad on the left to a width. -/
def padLeft (w : ℕ) (c : Char) (s : List Char) : List Char := List.replicate (w - s.length) c ++ s

/-- `"%wd" % n`. -/
def fmtInt (w : ℕ) (n : ℤ) : List Char := padLeft w ' ' (intStr n)

/-- Rounding to the nearest integer, ties to even. -/
def roundEven (q : ℚ) : ℤ :=
  if q - ⌊q⌋ < 1 / 2 then ⌊q⌋
  else if 1 / 2 < q - ⌊q⌋ then ⌊q⌋ + 1
  else if ⌊q⌋ % 2 = 0 then ⌊q⌋ else ⌊q⌋ + 1

/-- `f"{q:.kf}"` for `k ≥ 1`: sign, integer part, point and `k` decimals. -/
def fixedStr (k : ℕ) (q : ℚ) : List Char :=
  let n := (roundEven (q * 10 ^ k)).natAbs
  (if q < 0 then ['-'] else []) ++ Nat.toDigits 10 (n / 10 ^ k) ++ '.' :: padLeft k '0' (Nat.toDigits 10 (n % 10 ^ k))

/-- `"%w.kf" % q`. -/
def fmtFixed (w k : ℕ) (q : ℚ) : List Char := padLeft w ' ' (fixedStr k q)

/-- `str.split()`: the maximal runs of characters that are not white space. `acc` is the current run. -/
def wordsAux : List Char → List Char → List (List Char)
  | [], acc => if acc = [] then [] else [acc]
  | c :: cs, acc =>
    if isSpace c then (if acc = [] then wordsAux cs [] else acc :: wordsAux cs [])
    else wordsAux cs (acc ++ [c])

/-- `str.split()`. -/
def words (s : List Char) : List (List Char) := wordsAux s []

/-- `file.readline()` on the unread part of a file: the line without its end, and what follows. -/
def readline (s : List Char) : List Char × List Char :=
  (s.takeWhile (· != '\n'), (s.dropWhile (· != '\n')).tail)

/-- The lines of a file, without their ends; `acc` is the current one. -/
def linesAux : List Char → List Char → List (List Char)
  | [], acc => if acc = [] then [] else [acc]
  | c :: cs, acc => if c = '\n' then acc :: linesAux cs [] else linesAux cs (acc ++ [c])

/-- The lines of a file, as `file.readline()` returns them until the end of the file. -/
def lines (s : List Char) : List (List Char) := linesAux s []

/-- Digits only, at least one. -/
def parseNat (s : List Char) : Option ℕ :=
  if s ≠ [] ∧ s.all Char.isDigit = true then some (Nat.ofDigitChars 10 s 0) else none

/-- An optional sign: the factor and the rest. -/
def sign : List Char → ℤ × List Char
  | '-' :: s => (-1, s)
  | '+' :: s => (1, s)
  | s => (1, s)

/-- `int(w)` for a word without white space. -/
def parseInt (w : List Char) : Py ℤ :=
  match parseNat (sign w).2 with
  | some n => .ok ((sign w).1 * n)
  | none => .error .valueError

/-- An unsigned decimal: digits, with or without a point and decimals. -/
def parseUDec (s : List Char) : Option ℚ :=
  let ip := s.takeWhile Char.isDigit
  match s.dropWhile Char.isDigit with
  | [] => (parseNat ip).map fun n : ℕ => (n : ℚ)
  | '.' :: fp =>
    if (ip ≠ [] ∨ fp ≠ []) ∧ fp.all Char.isDigit = true then
      some ((Nat.ofDigitChars 10 ip 0 : ℚ) + (Nat.ofDigitChars 10 fp 0 : ℚ) / 10 ^ fp.length)
    else none
  | _ => none

/-- `float(w)` for a word without white space. -/
def parseFloat (w : List Char) : Py ℚ :=
  match parseUDec (sign w).2 with
  | some x => .ok ((sign w).1 * x)
  | none => .error .valueError

/-- `int(s)`: white space around the number is ignored. -/
def pyInt (s : List Char) : Py ℤ :=
  match words s with
  | [w] => parseInt w
  | _ => .error .valueError

/-- `float(s)`. -/
def pyFloat (s : List Char) : Py ℚ :=
  match words s with
  | [w] => parseFloat w
  | _ => .error .valueError

/-- `np.fromstring(s, dtype=float, sep=" ")`. (numpy stops at the first word that is not a number; here it is
an error.) -/
def fromString (s : List Char) : Py (List ℚ) := (words s).mapM parseFloat

/-- `x.astype(int)`: truncation. -/
def truncQ (q : ℚ) : ℤ := if q < 0 then ⌈q⌉ else ⌊q⌋

/-- Fields of a line, separated by single spaces. -/
def joinSp : List (List Char) → List Char
  | [] => []
  | [f] => f
  | f :: fs => f ++ ' ' :: joinSp fs

/-- Files by name. -/
abbrev FS := List Char → Option (List Char)

/-- `open(name, "w")` and write. -/
def FS.write (fs : FS) (name content : List Char) : FS := fun n => if n = name then some content else fs n

/-- `open(name, "r")` and read: a missing file is an IOError. -/
def FS.read (fs : FS) (name : List Char) : Py (List Char) :=
  match fs name with
  | some s => .ok s
  | none => .error .ioError

/-- State of `base % frame` inside a directive: zero flag, width, and whether nothing but `%` was read. -/
structure Directive where
  zero : Bool
  width : ℕ
  fresh : Bool

/-- `"%0wd" % n` and `"%wd" % n`: zeros go between the sign and the digits. -/
def fmtDirective (d : Directive) (n : ℤ) : List Char :=
  if d.zero then
    (if n < 0 then ['-'] else []) ++ padLeft (d.width - (if n < 0 then 1 else 0)) '0' (Nat.toDigits 10 n.natAbs)
  else fmtInt d.width n

/-- `base % frame` for one integer and directives `%d`, `%wd`, `%0wd` and `%%`. `used` tells whether the
integer was consumed. -/
def fmtPct (n : ℤ) : List Char → Option Directive → Bool → Py (List Char)
  | [], some _, _ => .error .valueError
  | [], none, used => if used then .ok [] else .error .typeError
  | c :: cs, none, used =>
    if c = '%' then fmtPct n cs (some ⟨false, 0, true⟩) used
    else do
      let r ← fmtPct n cs none used
      .ok (c :: r)
  | c :: cs, some d, used =>
    if c = '%' ∧ d.fresh then do
      let r ← fmtPct n cs none used
      .ok ('%' :: r)
    else if c = 'd' then
      if used then .error .typeError
      else do
        let r ← fmtPct n cs none true
        .ok (fmtDirective d n ++ r)
    else if c = '0' ∧ d.width = 0 then fmtPct n cs (some ⟨true, 0, false⟩) used
    else if c.isDigit then fmtPct n cs (some ⟨d.zero, d.width * 10 + (c.toNat - 48), false⟩) used
    else .error .valueError

/-- `base % frame`. -/
def pyMod (base : List Char) (n : ℤ) : Py (List Char) := fmtPct n base none false

end Verif.Text
