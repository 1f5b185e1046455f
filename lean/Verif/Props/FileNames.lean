import Verif.Props.TargetsIO
import Verif.Props.PathIO

/-!
C127: which file a frame of targets goes to, for old-type names (`cam1.#`, `cam1.`) and for names with a number
format, and which whole number a decimal number of a path file stands for.
-/

namespace Verif.IO

open Text

/-- Specification: five digits or more, the number itself, leading zeros only to fill up five places. -/
structure FiveDigits (n : ℕ) (s : List Char) : Prop where
  digits : ∀ c ∈ s, c.isDigit = true
  value : Nat.ofDigitChars 10 s 0 = n
  five : 5 ≤ s.length
  short : n < 100000 → s.length = 5
  exact : 100000 ≤ n → s = Nat.toDigits 10 n

theorem isDigit_toDigits (n : ℕ) : ∀ c ∈ Nat.toDigits 10 n, c.isDigit = true := by
  intro c hc
  exact Nat.isDigit_of_mem_toDigits (by norm_num) (by norm_num) hc

theorem length_toDigits_le {n k : ℕ} (hk : 0 < k) (h : n < 10 ^ k) : (Nat.toDigits 10 n).length ≤ k :=
  (Nat.length_toDigits_le_iff (by norm_num) hk).2 h

theorem fiveDigits_directive (n : ℕ) : FiveDigits n (fmtDirective ⟨true, 5, false⟩ n) := by
  have e : fmtDirective ⟨true, 5, false⟩ n = padLeft 5 '0' (Nat.toDigits 10 n) := by
    have h : ¬ ((n : ℤ) < 0) := by omega
    simp [fmtDirective, h]
  rw [e]
  refine ⟨?_, ?_, ?_, ?_, ?_⟩
  · intro c hc
    rw [padLeft, List.mem_append] at hc
    rcases hc with hc | hc
    · rw [List.mem_replicate] at hc
      rw [hc.2]; decide
    · exact isDigit_toDigits n c hc
  · simp [padLeft, Nat.ofDigitChars_append, Nat.ofDigitChars_replicate_zero]
  · simp [padLeft]; omega
  · intro h
    have := length_toDigits_le (k := 5) (by norm_num) (show n < 10 ^ 5 by omega)
    simp [padLeft]; omega
  · intro h
    have h6 : 5 < (Nat.toDigits 10 n).length := by
      by_contra hc
      have := (Nat.length_toDigits_le_iff (b := 10) (n := n) (k := 5) (by norm_num) (by norm_num)).1 (by omega)
      omega
    have : 5 - (Nat.toDigits 10 n).length = 0 := by omega
    simp [padLeft, this]

theorem fmtPct_none_plain (n : ℤ) : ∀ (s : List Char), '%' ∉ s → fmtPct n s none true = .ok s
  | [], _ => by simp [fmtPct]
  | c :: cs, h => by
    rw [fmtPct, if_neg (fun e => h (by simp [e])), fmtPct_none_plain n cs (fun e => h (by simp [e]))]
    rfl

theorem fmtPct_five (n : ℤ) (b : List Char) (hb : '%' ∉ b) :
    ∀ (a : List Char), '%' ∉ a →
      pyMod (a ++ '%' :: '0' :: '5' :: 'd' :: b) n = .ok (a ++ fmtDirective ⟨true, 5, false⟩ n ++ b) := by
  intro a
  induction a with
  | nil =>
    intro _
    simp [pyMod, fmtPct, fmtPct_none_plain n b hb, Char.isDigit, bind, Except.bind]
  | cons c cs ih =>
    intro h
    have ih' := ih (fun e => h (by simp [e]))
    unfold pyMod at ih' ⊢
    rw [List.cons_append, fmtPct, if_neg (fun e => h (by simp [e])), ih']
    rfl

theorem replaceHash_plain {s : List Char} (h : '#' ∉ s) : replaceHash s = s := by
  unfold replaceHash
  induction s with
  | nil => rfl
  | cons c cs ih =>
    have hc : c ≠ '#' := fun e => h (by simp [e])
    rw [List.flatMap_cons, if_neg hc, ih (fun e => h (by simp [e]))]
    rfl

theorem fixName_hash {a b : List Char} (ha : '#' ∉ a) (hb : '#' ∉ b) :
    fixName (a ++ '#' :: b) = a ++ '%' :: '0' :: '5' :: 'd' :: b := by
  have e : replaceHash (a ++ '#' :: b) = a ++ '%' :: '0' :: '5' :: 'd' :: b := by
    have h1 := replaceHash_plain ha
    have h2 := replaceHash_plain hb
    unfold replaceHash at h1 h2 ⊢
    rw [List.flatMap_append, List.flatMap_cons, h1, h2]
    simp
  simp [fixName, e]

theorem fixName_plain {a : List Char} (hp : '%' ∉ a) (hh : '#' ∉ a) :
    fixName a = a ++ ['%', '0', '5', 'd'] := by
  simp [fixName, hp, hh]

/-- C127: with an old-type name with a mark, `cam1.#x`, a frame with a positive number is written to one file
only: the name with the frame number, five digits or more, in the place of the mark, and `_targets` after it. -/
theorem C127_marked_name (fs : FS) (targets : List Target) (num : ℤ) (a b : List Char) (frame : ℕ)
    (ha : '%' ∉ a ∧ '#' ∉ a) (hb : '%' ∉ b ∧ '#' ∉ b) (hf : 0 < frame) (hne : targets ≠ []) :
    ∃ digits, FiveDigits frame digits ∧
      (writeTargets fs targets num (a ++ '#' :: b) frame).2 = .ok true ∧
      ∀ name, (writeTargets fs targets num (a ++ '#' :: b) frame).1 name ≠ fs name →
        name = a ++ digits ++ b ++ "_targets".toList := by
  refine ⟨_, fiveDigits_directive frame, ?_⟩
  have e : writeName (a ++ '#' :: b) frame = .ok (a ++ fmtDirective ⟨true, 5, false⟩ frame ++ b ++ suffix) := by
    rw [writeName, if_neg (by omega), fixName_hash ha.2 hb.2, fmtPct_five _ b hb.1 a ha.1]
    rfl
  refine ⟨C41_written fs targets num _ _ _ hne e, ?_⟩
  intro name hn
  rw [writeTargets, e] at hn
  simp only [if_neg hne, FS.write] at hn
  by_contra hc
  exact hn (if_neg hc)

/-- C127: the same for a name without a mark, `cam1.`: the number goes to the end. -/
theorem C127_plain_name (fs : FS) (targets : List Target) (num : ℤ) (a : List Char) (frame : ℕ)
    (ha : '%' ∉ a ∧ '#' ∉ a) (hf : 0 < frame) (hne : targets ≠ []) :
    ∃ digits, FiveDigits frame digits ∧
      (writeTargets fs targets num a frame).2 = .ok true ∧
      ∀ name, (writeTargets fs targets num a frame).1 name ≠ fs name →
        name = a ++ digits ++ "_targets".toList := by
  refine ⟨_, fiveDigits_directive frame, ?_⟩
  have e : writeName a frame = .ok (a ++ fmtDirective ⟨true, 5, false⟩ frame ++ suffix) := by
    have := fmtPct_five frame [] (by simp) a ha.1
    rw [writeName, if_neg (by omega), fixName_plain ha.1 ha.2, this]
    simp [bind, Except.bind]
  refine ⟨C41_written fs targets num _ _ _ hne e, ?_⟩
  intro name hn
  rw [writeTargets, e] at hn
  simp only [if_neg hne, FS.write] at hn
  by_contra hc
  exact hn (if_neg hc)

/-- C127: what was written under the old-type name `a#b` is read back under the name `a%05db` (and only a name
with a number format can be read, `C41_old_names_refuted`). -/
theorem C127_read_back (fs : FS) (targets : List Target) (num : ℕ) (a b : List Char) (frame : ℕ)
    (ha : '%' ∉ a ∧ '#' ∉ a) (hb : '%' ∉ b ∧ '#' ∉ b) (hf : 0 < frame) (hne : targets ≠ [])
    (hnum : num ≤ targets.length) :
    ∃ ts, readTargets (writeTargets fs targets num (a ++ '#' :: b) frame).1 (a ++ "%05d".toList ++ b) frame = .ok ts ∧
      List.Forall₂ SameTarget (targets.take num) ts := by
  have e5 : a ++ "%05d".toList ++ b = a ++ '%' :: '0' :: '5' :: 'd' :: b := by simp
  have hh : '#' ∉ a ++ '%' :: '0' :: '5' :: 'd' :: b := by simp [ha.2, hb.2]
  have hp : '%' ∈ a ++ '%' :: '0' :: '5' :: 'd' :: b := by simp
  have hw : writeTargets fs targets num (a ++ '#' :: b) frame =
      writeTargets fs targets num (a ++ '%' :: '0' :: '5' :: 'd' :: b) frame := by
    unfold writeTargets writeName
    rw [fixName_hash ha.2 hb.2, fixName_eq hp hh]
  rw [e5, hw]
  refine C41_roundtrip_partial fs targets num _ frame hp hh (by exact_mod_cast hf) hnum ?_
  have e : writeName (a ++ '%' :: '0' :: '5' :: 'd' :: b) frame =
      .ok (a ++ fmtDirective ⟨true, 5, false⟩ frame ++ b ++ suffix) := by
    rw [writeName, if_neg (by omega), fixName_eq hp hh, fmtPct_five _ b hb.1 a ha.1]
    rfl
  exact C41_written fs targets num _ _ _ hne e

example : ∃ ts, readTargets (writeTargets (fun _ => none) twoTargets 2 "cam1.#".toList 7).1 "cam1.%05d".toList 7 = .ok ts ∧
    List.Forall₂ SameTarget twoTargets ts :=
  C127_read_back (fun _ => none) twoTargets 2 "cam1.".toList [] 7 (by decide) (by decide) (by decide) (by decide)
    (by decide)

example : (writeTargets (fun _ => none) twoTargets 2 "cam1.#".toList 7).1 "cam1.00007_targets".toList ≠ none ∧
    (writeTargets (fun _ => none) twoTargets 2 "cam1.".toList 1234567).1 "cam1.1234567_targets".toList ≠ none := by
  decide +kernel

/-- Specification: `n` is `q` without its decimals. -/
structure Truncated (q : ℚ) (n : ℤ) : Prop where
  near : |q - n| < 1
  small : |(n : ℚ)| ≤ |q|
  sign : 0 ≤ q * n

theorem truncated_truncQ (q : ℚ) : Truncated q (truncQ q) := by
  unfold truncQ
  split_ifs with h
  · have h1 := Int.le_ceil q
    have h2 := Int.ceil_lt_add_one q
    have h3 : ⌈q⌉ ≤ 0 := Int.ceil_le.2 (by simpa using h.le)
    have h3' : (⌈q⌉ : ℚ) ≤ 0 := by exact_mod_cast h3
    refine ⟨?_, ?_, mul_nonneg_of_nonpos_of_nonpos h.le h3'⟩
    · rw [abs_lt]; constructor <;> linarith
    · rw [abs_of_nonpos h3', abs_of_neg h]; linarith
  · push Not at h
    have h1 := Int.floor_le q
    have h2 := Int.lt_floor_add_one q
    have h3' : (0 : ℚ) ≤ (⌊q⌋ : ℚ) := by exact_mod_cast Int.floor_nonneg.2 h
    refine ⟨?_, ?_, mul_nonneg h h3'⟩
    · rw [abs_lt]; constructor <;> linarith
    · rw [abs_of_nonneg h3', abs_of_nonneg h]; linarith

/-- C127: a link or a priority that is written with decimals is read without them. -/
theorem C127_decimals_dropped (l : List Char) (a b : ℚ) (rest : List ℚ) (hl : fromString l = .ok (a :: b :: rest)) :
    (∃ m n, readLinks (some l) = .ok (m, n) ∧ Truncated a m ∧ Truncated b n) ∧
    (∃ p, readPrio (some l) = .ok p ∧ Truncated ((a :: b :: rest).getLast (by simp)) p) := by
  refine ⟨⟨truncQ a, truncQ b, ?_, truncated_truncQ a, truncated_truncQ b⟩, ⟨_, ?_, truncated_truncQ _⟩⟩
  · simp [readLinks, hl, pyGet, bind, Except.bind]
  · simp only [readPrio, hl, bind, Except.bind]
    have : pyGetI (a :: b :: rest) (-1) = .ok ((a :: b :: rest).getLast (by simp)) := by
      rw [List.getLast_eq_getElem]
      simp [pyGetI, pyGet]
      omega
    rw [this]

example : readLinks (some "-0.7 2.9".toList) = .ok (0, 2) := by
  obtain ⟨⟨m, n, e, h1, h2⟩, _⟩ := C127_decimals_dropped "-0.7 2.9".toList (-7 / 10) (29 / 10) [] (by decide +kernel)
  have a := abs_lt.1 h1.near
  have b := abs_lt.1 h2.near
  have a2 := h1.small
  have b2 := h2.small
  have hm : m = 0 := by
    have : |(m : ℚ)| < 1 := lt_of_le_of_lt a2 (by rw [abs_of_neg (by norm_num)]; norm_num)
    have := abs_lt.1 this
    have h1 : (-1 : ℤ) < m := by exact_mod_cast this.1
    have h2 : m < 1 := by exact_mod_cast this.2
    omega
  have hn : n = 2 := by
    have h3 : |(n : ℚ)| < 3 := lt_of_le_of_lt b2 (by rw [abs_of_pos (by norm_num)]; norm_num)
    have := abs_lt.1 h3
    have h1 : n < 3 := by exact_mod_cast this.2
    have h2 : (1 : ℚ) < n := by linarith [b.2]
    have h2 : 1 < n := by exact_mod_cast h2
    omega
  rw [e, hm, hn]

end Verif.IO
