/-
Number formatting and parsing are inverse to each other up to rounding; lines and words of formatted text.
-/
import Verif.Model.Text
import Verif.Spec.Text
import Mathlib.Tactic.Ring
import Mathlib.Tactic.Linarith
import Mathlib.Tactic.LinearCombination
import Mathlib.Tactic.FieldSimp
import Mathlib.Tactic.NormNum
import Mathlib.Tactic.Positivity

namespace Verif.Text
open Spec

/-! ### Rounding -/

theorem roundEven_spec (q : ℚ) : |(roundEven q : ℚ) - q| ≤ 1 / 2 ∧
    (|(roundEven q : ℚ) - q| = 1 / 2 → Even (roundEven q)) := by
  have h1 := Int.floor_le q
  have h2 := Int.lt_floor_add_one q
  unfold roundEven
  split_ifs with a b c
  · refine ⟨by rw [abs_le]; constructor <;> linarith, ?_⟩
    intro h
    rw [abs_of_nonpos (by linarith)] at h
    linarith
  · push_cast
    refine ⟨by rw [abs_le]; constructor <;> linarith, ?_⟩
    intro h
    rw [abs_of_nonneg (by linarith)] at h
    linarith
  · exact ⟨by rw [abs_le]; constructor <;> linarith, fun _ => Int.even_iff.2 c⟩
  · push_cast
    refine ⟨by rw [abs_le]; constructor <;> linarith, fun _ => ?_⟩
    rw [Int.even_iff]; omega

theorem roundEven_int (n : ℤ) : roundEven n = n := by simp [roundEven]

theorem roundEven_nonneg {q : ℚ} (h : 0 ≤ q) : 0 ≤ roundEven q := by
  have : 0 ≤ ⌊q⌋ := Int.floor_nonneg.2 h
  unfold roundEven
  split_ifs <;> omega

theorem roundEven_nonpos {q : ℚ} (h : q < 0) : roundEven q ≤ 0 := by
  have : ⌊q⌋ < 0 := by
    rw [Int.floor_lt]; exact_mod_cast h
  unfold roundEven
  split_ifs <;> omega

/-- `q` rounded to `k` decimals. -/
def rnd (k : ℕ) (q : ℚ) : ℚ := roundEven (q * 10 ^ k) / 10 ^ k

theorem rnd_rounded (k : ℕ) (q : ℚ) : Rounded k q (rnd k q) := by
  have hk : (0 : ℚ) < 10 ^ k := by positivity
  obtain ⟨h1, h2⟩ := roundEven_spec (q * 10 ^ k)
  have e : rnd k q - q = ((roundEven (q * 10 ^ k) : ℚ) - q * 10 ^ k) / 10 ^ k := by
    rw [rnd]; field_simp
  refine ⟨_, rfl, ?_, ?_⟩
  · rw [e, abs_div, abs_of_pos hk, div_le_iff₀ hk]
    refine h1.trans (le_of_eq ?_)
    field_simp
  · rw [e, abs_div, abs_of_pos hk, div_eq_iff hk.ne']
    intro h
    apply h2
    rw [h]
    field_simp

theorem rounded_unique {k : ℕ} {q r s : ℚ} (h : Rounded k q r) (h' : Rounded k q s) : r = s := by
  have hk : (0 : ℚ) < 10 ^ k := by positivity
  obtain ⟨m, rfl, h1, h2⟩ := h
  obtain ⟨n, rfl, h3, h4⟩ := h'
  have key : ∀ m n : ℤ, m < n → |(m : ℚ) / 10 ^ k - q| ≤ 1 / (2 * 10 ^ k) →
      (|(m : ℚ) / 10 ^ k - q| = 1 / (2 * 10 ^ k) → Even m) →
      |(n : ℚ) / 10 ^ k - q| ≤ 1 / (2 * 10 ^ k) → (|(n : ℚ) / 10 ^ k - q| = 1 / (2 * 10 ^ k) → Even n) → False := by
    intro m n hmn h1 h2 h3 h4
    have hle : (m : ℚ) + 1 ≤ n := by exact_mod_cast hmn
    have d : 1 / 10 ^ k ≤ (n : ℚ) / 10 ^ k - m / 10 ^ k := by
      rw [← sub_div]; exact div_le_div_of_nonneg_right (by linarith) hk.le
    have e2 : (1 : ℚ) / 10 ^ k = 1 / (2 * 10 ^ k) + 1 / (2 * 10 ^ k) := by field_simp; norm_num
    have a1 := abs_le.1 h1
    have a3 := abs_le.1 h3
    have b1 : q - (m : ℚ) / 10 ^ k = 1 / (2 * 10 ^ k) := by linarith
    have b3 : (n : ℚ) / 10 ^ k - q = 1 / (2 * 10 ^ k) := by linarith
    have hpos : (0 : ℚ) < 1 / (2 * 10 ^ k) := by positivity
    have em := h2 (by rw [abs_of_nonpos (by linarith)]; linarith)
    have en := h4 (by rw [abs_of_nonneg (by linarith)]; linarith)
    have hn1 : (n : ℚ) = m + 1 := by
      have : (n : ℚ) / 10 ^ k - m / 10 ^ k = 1 / 10 ^ k := by linarith
      rw [← sub_div, div_left_inj' hk.ne'] at this
      linarith
    have : n = m + 1 := by exact_mod_cast hn1
    rw [Int.even_iff] at em en
    omega
  rcases lt_trichotomy m n with h | h | h
  · exact absurd (key m n h h1 h2 h3 h4) id
  · rw [h]
  · exact absurd (key n m h h3 h4 h1 h2) id

theorem rnd_rnd (k : ℕ) (q : ℚ) : rnd k (rnd k q) = rnd k q := by
  have hk : (10 : ℚ) ^ k ≠ 0 := by positivity
  unfold rnd
  rw [div_mul_cancel₀ _ hk, roundEven_int]

theorem rounded_eq_rnd {k : ℕ} {q r : ℚ} (h : Rounded k q r) : r = rnd k q := rounded_unique h (rnd_rounded k q)

/-! ### Digits -/

theorem digits_isDigit (n : ℕ) : (Nat.toDigits 10 n).all Char.isDigit = true := by
  rw [List.all_eq_true]
  exact fun c hc => Nat.isDigit_of_mem_toDigits (by norm_num) (by norm_num) hc

theorem isDigit_not_space {c : Char} (h : c.isDigit = true) : isSpace c = false := by
  rw [Char.isDigit] at h
  simp only [ge_iff_le, Bool.and_eq_true, decide_eq_true_eq] at h
  simp only [isSpace, Bool.or_eq_false_iff, beq_eq_false_iff_ne, ne_eq]
  refine ⟨⟨⟨?_, ?_⟩, ?_⟩, ?_⟩ <;> rintro rfl <;> revert h <;> decide

theorem isDigit_ne {c d : Char} (h : c.isDigit = true) (hd : d.isDigit = false) : c ≠ d := by
  rintro rfl; rw [h] at hd; exact absurd hd (by decide)

theorem sign_of_digit {s : List Char} (hs : s.all Char.isDigit = true) (hne : s ≠ []) (t : List Char) :
    sign (s ++ t) = (1, s ++ t) := by
  cases s with
  | nil => exact absurd rfl hne
  | cons c s =>
    rw [List.all_cons, Bool.and_eq_true] at hs
    have h1 := isDigit_ne hs.1 (d := '-') (by decide)
    have h2 := isDigit_ne hs.1 (d := '+') (by decide)
    rw [List.cons_append]
    unfold sign
    split
    · rename_i heq; exact absurd (List.cons.inj heq).1 h1
    · rename_i heq; exact absurd (List.cons.inj heq).1 h2
    · rfl

theorem parseNat_toDigits (n : ℕ) : parseNat (Nat.toDigits 10 n) = some n := by
  rw [parseNat, if_pos ⟨Nat.toDigits_ne_nil, digits_isDigit n⟩, Nat.ofDigitChars_ten_toDigits]

theorem sign_neg (s : List Char) : sign ('-' :: s) = (-1, s) := rfl

theorem parseInt_intStr (n : ℤ) : parseInt (intStr n) = .ok n := by
  unfold intStr parseInt
  split_ifs with h
  · rw [List.singleton_append, sign_neg]
    simp only [parseNat_toDigits]
    congr 1
    omega
  · have := sign_of_digit (digits_isDigit n.natAbs) Nat.toDigits_ne_nil []
    rw [List.append_nil] at this
    rw [List.nil_append, this]
    simp only [parseNat_toDigits]
    congr 1
    omega

theorem takeWhile_all {p : Char → Bool} {s t : List Char} (h : s.all p = true) {c : Char} (hc : p c = false) :
    (s ++ c :: t).takeWhile p = s ∧ (s ++ c :: t).dropWhile p = c :: t := by
  induction s with
  | nil => simp [hc]
  | cons d s ih =>
    rw [List.all_cons, Bool.and_eq_true] at h
    obtain ⟨i1, i2⟩ := ih h.2
    simp [h.1, i1, i2]

theorem takeWhile_all_nil {p : Char → Bool} {s : List Char} (h : s.all p = true) :
    s.takeWhile p = s ∧ s.dropWhile p = [] := by
  induction s with
  | nil => simp
  | cons d s ih =>
    rw [List.all_cons, Bool.and_eq_true] at h
    obtain ⟨i1, i2⟩ := ih h.2
    simp [h.1, i1, i2]

theorem padLeft_digits {k n : ℕ} (hk : 0 < k) (hn : n < 10 ^ k) :
    (padLeft k '0' (Nat.toDigits 10 n)).all Char.isDigit = true ∧
    (padLeft k '0' (Nat.toDigits 10 n)).length = k ∧
    Nat.ofDigitChars 10 (padLeft k '0' (Nat.toDigits 10 n)) 0 = n := by
  have hl := (Nat.length_toDigits_le_iff (b := 10) (by norm_num) hk).2 hn
  refine ⟨?_, ?_, ?_⟩
  · rw [padLeft, List.all_append, digits_isDigit, Bool.and_true]
    rw [List.all_eq_true]
    intro c hc
    rw [(List.mem_replicate.1 hc).2]; decide
  · rw [padLeft, List.length_append, List.length_replicate]; omega
  · rw [padLeft, Nat.ofDigitChars_append, Nat.ofDigitChars_replicate_zero, Nat.mul_zero,
      Nat.ofDigitChars_ten_toDigits]

theorem parseUDec_fixed {k : ℕ} (hk : 0 < k) (n : ℕ) :
    parseUDec (Nat.toDigits 10 (n / 10 ^ k) ++ '.' :: padLeft k '0' (Nat.toDigits 10 (n % 10 ^ k))) =
      some ((n : ℚ) / 10 ^ k) := by
  have hp : 0 < 10 ^ k := by positivity
  obtain ⟨h1, h2⟩ := takeWhile_all (t := padLeft k '0' (Nat.toDigits 10 (n % 10 ^ k))) (c := '.')
    (digits_isDigit (n / 10 ^ k)) (by decide)
  obtain ⟨p1, p2, p3⟩ := padLeft_digits hk (Nat.mod_lt n hp)
  unfold parseUDec
  rw [h1, h2]
  simp only
  rw [if_pos ⟨Or.inl Nat.toDigits_ne_nil, p1⟩, p3, p2, Nat.ofDigitChars_ten_toDigits]
  congr 1
  have hq : ((10 : ℚ) ^ k) ≠ 0 := by positivity
  have := Nat.div_add_mod n (10 ^ k)
  have e : (n : ℚ) = 10 ^ k * (n / 10 ^ k : ℕ) + (n % 10 ^ k : ℕ) := by exact_mod_cast this.symm
  rw [eq_div_iff hq, add_mul, div_mul_cancel₀ _ hq]
  linear_combination -e

theorem parseFloat_fixedStr {k : ℕ} (hk : 0 < k) (q : ℚ) : parseFloat (fixedStr k q) = .ok (rnd k q) := by
  have hp : (0 : ℚ) < 10 ^ k := by positivity
  unfold fixedStr parseFloat
  simp only
  split_ifs with h
  · rw [List.singleton_append, List.cons_append, sign_neg]
    simp only [parseUDec_fixed hk]
    congr 1
    have := roundEven_nonpos (q := q * 10 ^ k) (by nlinarith)
    rw [rnd]
    have e : (((roundEven (q * 10 ^ k)).natAbs : ℕ) : ℚ) = -(roundEven (q * 10 ^ k) : ℚ) := by
      rw [← Int.cast_natCast, Int.ofNat_natAbs_of_nonpos this]
      push_cast; rfl
    rw [e]
    push_cast
    ring
  · rw [List.nil_append, sign_of_digit (digits_isDigit _) Nat.toDigits_ne_nil]
    simp only [parseUDec_fixed hk]
    congr 1
    have := roundEven_nonneg (q := q * 10 ^ k) (by nlinarith)
    rw [rnd]
    have e : (((roundEven (q * 10 ^ k)).natAbs : ℕ) : ℚ) = (roundEven (q * 10 ^ k) : ℚ) := by
      rw [← Int.cast_natCast, Int.natAbs_of_nonneg this]
    rw [e]
    push_cast
    ring

theorem parseFloat_intStr (n : ℤ) : parseFloat (intStr n) = .ok (n : ℚ) := by
  have hu : ∀ m : ℕ, parseUDec (Nat.toDigits 10 m) = some (m : ℚ) := by
    intro m
    obtain ⟨h1, h2⟩ := takeWhile_all_nil (digits_isDigit m)
    unfold parseUDec
    rw [h1, h2]
    simp [parseNat_toDigits]
  unfold intStr parseFloat
  split_ifs with h
  · rw [List.singleton_append, sign_neg]
    simp only [hu]
    congr 1
    have e : ((n.natAbs : ℕ) : ℚ) = -(n : ℚ) := by
      rw [← Int.cast_natCast, Int.ofNat_natAbs_of_nonpos (by omega)]
      push_cast; rfl
    rw [e]; push_cast; ring
  · have := sign_of_digit (digits_isDigit n.natAbs) Nat.toDigits_ne_nil []
    rw [List.append_nil] at this
    rw [List.nil_append, this]
    simp only [hu]
    congr 1
    have e : ((n.natAbs : ℕ) : ℚ) = (n : ℚ) := by
      rw [← Int.cast_natCast, Int.natAbs_of_nonneg (by omega)]
    rw [e]; push_cast; ring

/-! ### Words and lines -/

/-- A word: not empty and without white space. -/
def IsWord (w : List Char) : Prop := w ≠ [] ∧ ∀ c ∈ w, isSpace c = false

theorem wordsAux_run {w : List Char} (hw : ∀ c ∈ w, isSpace c = false) (s acc : List Char) :
    wordsAux (w ++ s) acc = wordsAux s (acc ++ w) := by
  induction w generalizing acc with
  | nil => simp
  | cons c w ih =>
    rw [List.cons_append, wordsAux, hw c (by simp)]
    simp only [Bool.false_eq_true, if_false]
    rw [ih (fun d hd => hw d (by simp [hd]))]
    simp

theorem words_word {w : List Char} (hw : IsWord w) : words w = [w] := by
  have := wordsAux_run hw.2 [] []
  rw [List.append_nil] at this
  rw [words, this, wordsAux]
  simp [hw.1]

theorem words_cons {w : List Char} (hw : IsWord w) {c : Char} (hc : isSpace c = true) (s : List Char) :
    words (w ++ c :: s) = w :: words s := by
  rw [words, wordsAux_run hw.2, wordsAux, hc]
  simp [hw.1, words]

theorem words_space {c : Char} (hc : isSpace c = true) (s : List Char) : words (c :: s) = words s := by
  rw [words, wordsAux, hc]; simp [words]

theorem words_pad (n : ℕ) (s : List Char) : words (List.replicate n ' ' ++ s) = words s := by
  induction n with
  | zero => simp
  | succ n ih => rw [List.replicate_succ, List.cons_append, words_space (by decide), ih]

theorem words_padLeft (n : ℕ) (s t : List Char) : words (padLeft n ' ' s ++ t) = words (s ++ t) := by
  rw [padLeft, List.append_assoc, words_pad]

theorem words_nil : words [] = [] := by simp [words, wordsAux]

theorem digits_word (n : ℕ) : ∀ c ∈ Nat.toDigits 10 n, isSpace c = false := by
  intro c hc
  exact isDigit_not_space (Nat.isDigit_of_mem_toDigits (by norm_num) (by norm_num) hc)

theorem intStr_word (n : ℤ) : IsWord (intStr n) := by
  unfold intStr
  constructor
  · intro h
    exact Nat.toDigits_ne_nil (List.append_eq_nil_iff.1 h).2
  · intro c hc
    rcases List.mem_append.1 hc with hc | hc
    · split_ifs at hc
      · simp only [List.mem_singleton] at hc; subst hc; decide
      · simp at hc
    · exact digits_word _ c hc

theorem fixedStr_word (k : ℕ) (q : ℚ) : IsWord (fixedStr k q) := by
  unfold fixedStr
  constructor
  · simp
  · intro c hc
    simp only [List.mem_append, List.mem_cons] at hc
    rcases hc with (hc | hc) | hc | hc
    · split_ifs at hc
      · simp only [List.mem_singleton] at hc; subst hc; decide
      · simp at hc
    · exact digits_word _ c hc
    · subst hc; decide
    · rw [padLeft] at hc
      rcases List.mem_append.1 hc with hc | hc
      · rw [(List.mem_replicate.1 hc).2]; decide
      · exact digits_word _ c hc

theorem readline_line {l : List Char} (hl : '\n' ∉ l) (s : List Char) : readline (l ++ '\n' :: s) = (l, s) := by
  obtain ⟨h1, h2⟩ := takeWhile_all (p := (· != '\n')) (s := l) (t := s) (c := '\n')
    (by rw [List.all_eq_true]; intro c hc; simp only [bne_iff_ne]; rintro rfl; exact hl hc) (by decide)
  rw [readline, h1, h2]; rfl

theorem linesAux_run {l : List Char} (hl : '\n' ∉ l) (s acc : List Char) :
    linesAux (l ++ s) acc = linesAux s (acc ++ l) := by
  induction l generalizing acc with
  | nil => simp
  | cons c l ih =>
    rw [List.cons_append, linesAux, if_neg (fun e => hl (by simp [e])), ih (fun h => hl (by simp [h]))]
    simp

theorem lines_cons {l : List Char} (hl : '\n' ∉ l) (s : List Char) : lines (l ++ '\n' :: s) = l :: lines s := by
  rw [lines, linesAux_run hl, linesAux, if_pos rfl]; simp [lines]

theorem lines_nil : lines [] = [] := by simp [lines, linesAux]

theorem lines_flatMap {α : Type} (f : α → List Char) (hf : ∀ a, '\n' ∉ f a) : ∀ xs : List α,
    lines (xs.flatMap fun a => f a ++ ['\n']) = xs.map f
  | [] => lines_nil
  | a :: xs => by
    rw [List.flatMap_cons, List.append_assoc, List.singleton_append, lines_cons (hf a), lines_flatMap f hf xs,
      List.map_cons]

theorem IsWord.no_nl {w : List Char} (h : IsWord w) : '\n' ∉ w := by
  intro hc
  have := h.2 _ hc
  exact absurd this (by decide)

theorem no_nl_pad {w : List Char} (h : '\n' ∉ w) (n : ℕ) : '\n' ∉ padLeft n ' ' w := by
  rw [padLeft, List.mem_append]
  rintro (hc | hc)
  · exact absurd (List.mem_replicate.1 hc).2 (by decide)
  · exact h hc

theorem pyInt_intStr (n : ℤ) : pyInt (intStr n) = .ok n := by
  rw [pyInt, words_word (intStr_word n)]
  exact parseInt_intStr n

theorem truncQ_int (n : ℤ) : truncQ n = n := by
  unfold truncQ
  split_ifs <;> simp

/-- `f` is the word `w`, padded with blanks on the left. -/
def IsField (f w : List Char) : Prop := IsWord w ∧ ∃ n, f = padLeft n ' ' w

theorem IsWord.field {w : List Char} (h : IsWord w) : IsField w w := ⟨h, 0, by simp [padLeft]⟩

theorem IsWord.padded {w : List Char} (h : IsWord w) (n : ℕ) : IsField (padLeft n ' ' w) w := ⟨h, n, rfl⟩

theorem words_joinSp : ∀ {fs ws : List (List Char)}, List.Forall₂ IsField fs ws → words (joinSp fs) = ws
  | _, _, .nil => words_nil
  | _, _, .cons (a := f) (b := w) (l₁ := fs) (l₂ := ws) h hs => by
    obtain ⟨hw, n, rfl⟩ := h
    cases hs with
    | nil =>
      rw [joinSp]
      have := words_padLeft n w []
      rw [List.append_nil, List.append_nil] at this
      rw [this, words_word hw]
    | cons h' hs' =>
      rw [joinSp, words_padLeft, words_cons hw (by decide), words_joinSp (.cons h' hs')]
      simp

theorem joinSp_no_nl : ∀ {fs ws : List (List Char)}, List.Forall₂ IsField fs ws → '\n' ∉ joinSp fs
  | _, _, .nil => by simp [joinSp]
  | _, _, .cons (a := f) (b := w) (l₁ := fs) (l₂ := ws) h hs => by
    obtain ⟨hw, n, rfl⟩ := h
    cases hs with
    | nil => rw [joinSp]; exact no_nl_pad hw.no_nl n
    | cons h' hs' =>
      rw [joinSp]
      · intro hc
        rcases List.mem_append.1 hc with hc | hc
        · exact no_nl_pad hw.no_nl n hc
        · rcases List.mem_cons.1 hc with hc | hc
          · exact absurd hc (by decide)
          · exact joinSp_no_nl (.cons h' hs') hc
      · simp

end Verif.Text
