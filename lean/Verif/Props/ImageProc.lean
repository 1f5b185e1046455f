/-
C51: image preparation (image_processing.py).
-/
import Verif.Model.ImageProc
import Mathlib.Data.Nat.Bitwise
import Mathlib.Algebra.BigOperators.Ring.Finset
import Mathlib.Algebra.Group.Action.Defs
import Mathlib.Algebra.Order.BigOperators.Group.Finset
import Mathlib.Tactic.Linarith
import Mathlib.Tactic.Ring
import Mathlib.Tactic.LinearCombination
import Mathlib.Tactic.Positivity
import Mathlib.Tactic.NormNum

namespace Verif.Img
open Text (FS)

/-- All pixels are 8-bit values. -/
def Is8Bit (im : Image) : Prop := ∀ i j : ℤ, 0 ≤ i → i < im.h → 0 ≤ j → j < im.w → im.px i j < 256

/-- The pixel is at least `r` away from the border of the image. -/
def Interior (im : Image) (r : ℕ) (i j : ℤ) : Prop := r ≤ i ∧ i + r < im.h ∧ r ≤ j ∧ j + r < im.w

/-- The sum over the square of `(2 r + 1)²` pixels around a pixel; pixels outside the image count as zero. -/
def boxSum (im : Image) (r : ℕ) (i j : ℤ) : ℕ :=
  ∑ k ∈ Finset.range (2 * r + 1), ∑ l ∈ Finset.range (2 * r + 1), im.at (i + l - r) (j + k - r)

theorem at_le {im : Image} {b : ℕ} (h : ∀ i j : ℤ, 0 ≤ i → i < im.h → 0 ≤ j → j < im.w → im.px i j ≤ b) (i j : ℤ) :
    im.at i j ≤ b := by
  rw [Image.at]
  split
  · rename_i hh; exact h i j hh.1 hh.2.1 hh.2.2.1 hh.2.2.2
  · omega

theorem mean_le {n b : ℕ} (f : ℕ → ℕ) (h : ∀ k, f k ≤ b) : (∑ k ∈ Finset.range n, f k) / n ≤ b := by
  apply Nat.div_le_of_le_mul
  calc ∑ k ∈ Finset.range n, f k ≤ ∑ _k ∈ Finset.range n, b := Finset.sum_le_sum fun k _ => h k
    _ = n * b := by simp

theorem blurCols_le {im : Image} {b : ℕ} (r : ℕ)
    (h : ∀ i j : ℤ, 0 ≤ i → i < im.h → 0 ≤ j → j < im.w → im.px i j ≤ b) (i j : ℤ) : (blurCols r im).px i j ≤ b :=
  mean_le _ fun _ => at_le h _ _

theorem blurRows_le {im : Image} {b : ℕ} (r : ℕ)
    (h : ∀ i j : ℤ, 0 ≤ i → i < im.h → 0 ≤ j → j < im.w → im.px i j ≤ b) (i j : ℤ) : (blurRows r im).px i j ≤ b :=
  mean_le _ fun _ => at_le h _ _

theorem uniform_le {im : Image} {b : ℕ} (r : ℕ)
    (h : ∀ i j : ℤ, 0 ≤ i → i < im.h → 0 ≤ j → j < im.w → im.px i j ≤ b) (i j : ℤ) :
    (uniformFilter r im).px i j ≤ b :=
  blurRows_le r (fun i j _ _ _ _ => blurCols_le r h i j) i j

theorem uniform_8bit {im : Image} (r : ℕ) (h : Is8Bit im) (i j : ℤ) : (uniformFilter r im).px i j < 256 := by
  have := uniform_le (b := 255) r (fun i j h1 h2 h3 h4 => Nat.le_of_lt_succ (h i j h1 h2 h3 h4)) i j
  omega

theorem orLowpass_8bit {im : Image} (r : ℕ) (h : Is8Bit im) : Is8Bit (orLowpass im r) := by
  intro i j a b c d
  exact Nat.or_lt_two_pow (n := 8) (h i j a b c d) (uniform_8bit r h i j)

theorem castByte_lt {wild : ℚ → ℕ} (hw : ∀ x, wild x < 256) (x : ℚ) : castByte wild x < 256 := by
  rw [castByte]
  split
  · rename_i h
    have : ⌊x⌋ < 256 := by rw [Int.floor_lt]; exact_mod_cast h.2
    omega
  · exact hw x

theorem prepare_two {wild : ℚ → ℕ} {fs : FS} {im out : Image} {r : ℕ} {file : List Char} (hf : file ≠ [])
    (h : prepareImage wild fs im r 2 file = .ok out) :
    ∃ filt, openFilter fs file = .ok filt ∧ out = convolve3 wild filt (orLowpass im r) := by
  rw [prepareImage, if_neg (by norm_num), if_pos ⟨rfl, hf⟩] at h
  rcases ho : openFilter fs file with e | filt
  · rw [ho] at h; exact absurd h (by simp [bind, Except.bind])
  · rw [ho] at h
    exact ⟨filt, rfl, (Except.ok.inj h).symm⟩

/-- C51: the prepared image has the size of the image, and 8-bit grey values, for every setting and every filter file.
`wild`: whatever the C library makes of a number outside of the range of 8-bit values. -/
theorem C51_range (wild : ℚ → ℕ) (hw : ∀ x, wild x < 256) (fs : FS) (im out : Image) (r : ℕ) (hp : ℤ)
    (file : List Char) (h : Is8Bit im) (ho : prepareImage wild fs im r hp file = .ok out) :
    Is8Bit out ∧ out.h = im.h ∧ out.w = im.w := by
  have h1 := orLowpass_8bit r h
  by_cases e1 : hp = 1
  · rw [prepareImage, if_pos e1] at ho
    obtain rfl := Except.ok.inj ho
    exact ⟨fun i j _ _ _ _ => uniform_8bit 1 h1 i j, rfl, rfl⟩
  · by_cases e2 : hp = 2 ∧ file ≠ []
    · obtain ⟨rfl, hf⟩ := e2
      obtain ⟨filt, _, rfl⟩ := prepare_two hf ho
      exact ⟨fun i j _ _ _ _ => castByte_lt hw _, rfl, rfl⟩
    · rw [prepareImage, if_neg e1, if_neg e2] at ho
      obtain rfl := Except.ok.inj ho
      exact ⟨h1, rfl, rfl⟩

/-- The file holds nine numbers, separated by white space. -/
def NineNumbers (fs : FS) (file : List Char) (a : List ℚ) : Prop :=
  ∃ s, fs file = some s ∧ (Text.words s).mapM Text.parseFloat = .ok a ∧ a.length = 9

theorem openFilter_iff (fs : FS) (file : List Char) (a : List ℚ) :
    openFilter fs file = .ok a ↔ NineNumbers fs file a := by
  unfold NineNumbers openFilter
  rcases fs file with _ | s
  · simp
  · simp only [readFilter]
    rcases hm : (Text.words s).mapM Text.parseFloat with e | ws
    · simp only [bind, Except.bind]
      simp [hm]
    · simp only [bind, Except.bind]
      by_cases hl : ws.length = 9
      · rw [if_pos hl]
        simp only [Except.ok.injEq, Option.some.injEq]
        constructor
        · rintro rfl; exact ⟨s, rfl, hm, hl⟩
        · rintro ⟨s', rfl, h1, _⟩
          rw [hm] at h1; exact Except.ok.inj h1
      · rw [if_neg hl]
        simp only [reduceCtorEq, false_iff]
        rintro ⟨s', e, h1, h2⟩
        obtain rfl := Option.some.inj e
        rw [hm] at h1
        obtain rfl := Except.ok.inj h1
        exact hl h2

theorem openFilter_err (fs : FS) (file : List Char) (e : PyErr) (h : openFilter fs file = .error e) : e = .ioError := by
  unfold openFilter at h
  split at h
  · exact (Except.error.inj h).symm
  · split at h
    · exact absurd h (by simp)
    · exact (Except.error.inj h).symm

/-- C51: it fails only with an IOError, and only if a filter from a file is asked for and the file does not hold nine
numbers. -/
theorem C51_error (wild : ℚ → ℕ) (fs : FS) (im : Image) (r : ℕ) (hp : ℤ) (file : List Char) :
    (∀ e, prepareImage wild fs im r hp file = .error e → e = .ioError) ∧
      ((∃ e, prepareImage wild fs im r hp file = .error e) ↔
        hp = 2 ∧ file ≠ [] ∧ ¬∃ a, NineNumbers fs file a) := by
  by_cases e1 : hp = 1
  · rw [prepareImage, if_pos e1]
    refine ⟨fun e h => absurd h (by simp), ?_⟩
    simp [e1]
  · by_cases e2 : hp = 2 ∧ file ≠ []
    · rw [prepareImage, if_neg e1, if_pos e2]
      rcases ho : openFilter fs file with e' | filt
      · simp only [bind, Except.bind, Except.error.injEq]
        refine ⟨fun e h => h ▸ openFilter_err fs file e' ho, ⟨fun _ => ⟨e2.1, e2.2, ?_⟩, fun _ => ⟨_, rfl⟩⟩⟩
        rintro ⟨a, ha⟩
        rw [(openFilter_iff fs file a).mpr ha] at ho
        exact absurd ho (by simp)
      · simp only [bind, Except.bind]
        refine ⟨fun e h => absurd h (by simp), ⟨fun ⟨e, h⟩ => absurd h (by simp), fun h => ?_⟩⟩
        exact absurd ⟨filt, (openFilter_iff fs file filt).mp ho⟩ h.2.2
    · rw [prepareImage, if_neg e1, if_neg e2]
      refine ⟨fun e h => absurd h (by simp), ⟨fun ⟨e, h⟩ => absurd h (by simp), fun h => absurd ⟨h.1, h.2.1⟩ e2⟩⟩

/-- C51: without a high-pass filter the prepared image is the bitwise "or" of the image and its low-pass image; with the
second filter it is that image filtered by the numbers `a` of the file, row by row, turned by 180 degrees (a convolution),
wherever the sum fits into 8 bits. -/
theorem C51_filter (wild : ℚ → ℕ) (fs : FS) (im plain out : Image) (r : ℕ) (file : List Char) (a : List ℚ)
    (hf : file ≠ []) (ha : NineNumbers fs file a) (hpl : prepareImage wild fs im r 0 file = .ok plain)
    (ho : prepareImage wild fs im r 2 file = .ok out) (i j : ℤ) :
    plain.px i j = im.px i j ||| (uniformFilter r im).px i j ∧
      ∀ x : ℚ, x = a.getD 0 0 * plain.at (i + 1) (j + 1) + a.getD 1 0 * plain.at (i + 1) j +
          a.getD 2 0 * plain.at (i + 1) (j - 1) + a.getD 3 0 * plain.at i (j + 1) + a.getD 4 0 * plain.at i j +
          a.getD 5 0 * plain.at i (j - 1) + a.getD 6 0 * plain.at (i - 1) (j + 1) + a.getD 7 0 * plain.at (i - 1) j +
          a.getD 8 0 * plain.at (i - 1) (j - 1) →
        (0 ≤ x ∧ x < 256 → (out.px i j : ℚ) ≤ x ∧ x < out.px i j + 1) ∧ (-1 < x ∧ x < 0 → out.px i j = 0) := by
  rw [prepareImage, if_neg (by norm_num), if_neg (by norm_num)] at hpl
  obtain rfl := Except.ok.inj hpl
  obtain ⟨filt, h1, rfl⟩ := prepare_two hf ho
  rw [(openFilter_iff fs file a).mpr ha] at h1
  obtain rfl := Except.ok.inj h1
  refine ⟨rfl, fun x hx => ?_⟩
  have e : (convolve3 wild a (orLowpass im r)).px i j = castByte wild x := by
    rw [hx, convolve3]
    show castByte wild _ = castByte wild _
    apply congrArg (castByte wild)
    simp only [Finset.sum_range_succ, Finset.sum_range_zero]
    push_cast
    have t1 : i + 1 - 0 = i + 1 := by ring
    have t2 : i + 1 - 1 = i := by ring
    have t3 : i + 1 - 2 = i - 1 := by ring
    have u1 : j + 1 - 0 = j + 1 := by ring
    have u2 : j + 1 - 1 = j := by ring
    have u3 : j + 1 - 2 = j - 1 := by ring
    rw [t1, t2, t3, u1, u2, u3]
    norm_num
    ring
  rw [e]
  constructor
  · rintro ⟨h0, h1⟩
    rw [castByte, if_pos ⟨by linarith, h1⟩]
    have hfl : 0 ≤ ⌊x⌋ := Int.floor_nonneg.mpr h0
    have : ((⌊x⌋.toNat : ℕ) : ℚ) = (⌊x⌋ : ℚ) := by exact_mod_cast Int.toNat_of_nonneg hfl
    rw [this]
    exact ⟨Int.floor_le x, Int.lt_floor_add_one x⟩
  · rintro ⟨h0, h1⟩
    rw [castByte, if_pos ⟨h0, by linarith⟩]
    have : ⌊x⌋ < 0 := Int.floor_lt.mpr (by exact_mod_cast h1)
    omega

/-- C51: the low-pass filter gives the mean over the square, cut to an integer: never above it and less than two
grey values below. -/
theorem C51_lowpass (im : Image) (r : ℕ) (i j : ℤ) (hi : 0 ≤ i ∧ i < im.h) :
    (uniformFilter r im).px i j * (2 * r + 1) ^ 2 ≤ boxSum im r i j ∧
      boxSum im r i j < ((uniformFilter r im).px i j + 2) * (2 * r + 1) ^ 2 := by
  set n := 2 * r + 1 with hn
  have hn0 : 0 < n := by omega
  -- inner means
  have inner : ∀ j' : ℤ, (blurCols r im).at i j' * n ≤ ∑ l ∈ Finset.range n, im.at (i + l - r) j' ∧
      ∑ l ∈ Finset.range n, im.at (i + l - r) j' < ((blurCols r im).at i j' + 1) * n := by
    intro j'
    rw [Image.at]
    by_cases hj : 0 ≤ j' ∧ j' < im.w
    · rw [if_pos ⟨hi.1, hi.2, hj.1, hj.2⟩]
      refine ⟨Nat.div_mul_le_self _ _, ?_⟩
      have := Nat.lt_div_mul_add (a := ∑ l ∈ Finset.range n, im.at (i + l - r) j') hn0
      rw [Nat.add_mul, Nat.one_mul]
      exact this
    · rw [if_neg (fun hh => hj ⟨hh.2.2.1, hh.2.2.2⟩)]
      have : ∑ l ∈ Finset.range n, im.at (i + l - r) j' = 0 := by
        apply Finset.sum_eq_zero
        intro l _
        rw [Image.at, if_neg (fun hh => hj ⟨hh.2.2.1, hh.2.2.2⟩)]
      rw [this]
      omega
  have e : (uniformFilter r im).px i j = (∑ k ∈ Finset.range n, (blurCols r im).at i (j + k - r)) / n := rfl
  set S := ∑ k ∈ Finset.range n, (blurCols r im).at i (j + k - r) with hS
  have h1 := Nat.div_mul_le_self S n
  have h2 := Nat.lt_div_mul_add (a := S) hn0
  have h3 : S * n ≤ boxSum im r i j := by
    rw [hS, Finset.sum_mul, boxSum]
    exact Finset.sum_le_sum fun k _ => (inner (j + k - r)).1
  have h4 : boxSum im r i j < (S + n) * n := by
    have : ∑ k ∈ Finset.range n, ((blurCols r im).at i (j + k - r) + 1) * n = (S + n) * n := by
      rw [← Finset.sum_mul, Finset.sum_add_distrib]
      simp [hS]
    rw [← this, boxSum]
    exact Finset.sum_lt_sum_of_nonempty (Finset.nonempty_range_iff.mpr (by omega)) fun k _ => (inner (j + k - r)).2
  rw [e]
  constructor
  · calc S / n * n ^ 2 = S / n * n * n := by ring
      _ ≤ S * n := Nat.mul_le_mul_right n h1
      _ ≤ _ := h3
  · calc boxSum im r i j < (S + n) * n := h4
      _ ≤ (S / n * n + n + n) * n := Nat.mul_le_mul_right n (by omega)
      _ = (S / n + 2) * n ^ 2 := by ring

theorem mean_const {n c : ℕ} (hn : 0 < n) (f : ℕ → ℕ) (h : ∀ k < n, f k = c) :
    (∑ k ∈ Finset.range n, f k) / n = c := by
  rw [Finset.sum_congr rfl fun k hk => h k (Finset.mem_range.mp hk), Finset.sum_const, Finset.card_range, smul_eq_mul,
    Nat.mul_div_cancel_left c hn]

/-- A square of constant grey value keeps its value in the middle. -/
theorem uniform_const (im : Image) (r : ℕ) (c : ℕ) (i j : ℤ) (hin : Interior im r i j)
    (h : ∀ i' j' : ℤ, |i' - i| ≤ r → |j' - j| ≤ r → im.px i' j' = c) : (uniformFilter r im).px i j = c := by
  obtain ⟨a1, a2, a3, a4⟩ := hin
  apply mean_const (by omega)
  intro k hk
  have hj : |(j + k - r) - j| ≤ (r : ℤ) := by rw [abs_le]; omega
  have hj' := abs_le.mp hj
  rw [Image.at, if_pos ⟨by omega, by show i < (im.h : ℤ); omega, by omega, by show j + k - r < (im.w : ℤ); omega⟩]
  apply mean_const (by omega)
  intro l hl
  have hi : |(i + l - r) - i| ≤ (r : ℤ) := by rw [abs_le]; omega
  have hi' := abs_le.mp hi
  rw [Image.at, if_pos ⟨by omega, by omega, by omega, by omega⟩]
  exact h _ _ hi hj

theorem orLowpass_const (im : Image) (r : ℕ) (c : ℕ) (i j : ℤ) (m : ℕ) (hin : Interior im (r + m) i j)
    (h : ∀ i' j' : ℤ, |i' - i| ≤ (r + m : ℕ) → |j' - j| ≤ (r + m : ℕ) → im.px i' j' = c) (i' j' : ℤ)
    (hi : |i' - i| ≤ m) (hj : |j' - j| ≤ m) : (orLowpass im r).px i' j' = c := by
  have e := abs_le.mp hi
  have e' := abs_le.mp hj
  have h1 : ∀ i'' j'' : ℤ, |i'' - i'| ≤ r → |j'' - j'| ≤ r → im.px i'' j'' = c := by
    intro i'' j'' h1 h2
    have f := abs_le.mp h1
    have f' := abs_le.mp h2
    apply h <;> rw [abs_le] <;> push_cast <;> omega
  show im.px i' j' ||| (uniformFilter r im).px i' j' = c
  rw [uniform_const im r c i' j' ?_ h1]
  · rw [h1 i' j' (by simp) (by simp), Nat.or_self]
  · obtain ⟨a1, a2, a3, a4⟩ := hin
    push_cast at a1 a2 a3 a4
    exact ⟨by omega, by omega, by omega, by omega⟩

/-- C51: where the image has a constant grey value (in a square around the pixel), the prepared image has the same
one, away from the border; with a filter from a file, if its numbers add up to 1. -/
theorem C51_constant (wild : ℚ → ℕ) (fs : FS) (im out : Image) (r : ℕ) (hp : ℤ) (file : List Char) (c : ℕ) (i j : ℤ)
    (hc : c < 256) (hin : Interior im (r + 1) i j)
    (hsum : ∀ a, hp = 2 → file ≠ [] → NineNumbers fs file a → a.sum = 1)
    (h : ∀ i' j' : ℤ, |i' - i| ≤ (r + 1 : ℕ) → |j' - j| ≤ (r + 1 : ℕ) → im.px i' j' = c)
    (ho : prepareImage wild fs im r hp file = .ok out) : out.px i j = c := by
  have key := orLowpass_const im r c i j 1 hin h
  obtain ⟨a1, a2, a3, a4⟩ := hin
  push_cast at a1 a2 a3 a4
  by_cases e1 : hp = 1
  · rw [prepareImage, if_pos e1] at ho
    obtain rfl := Except.ok.inj ho
    apply uniform_const
    · exact ⟨by push_cast; omega, by push_cast; show i + 1 < (im.h : ℤ); omega, by push_cast; omega,
        by push_cast; show j + 1 < (im.w : ℤ); omega⟩
    · intro i' j' hi hj
      exact key i' j' (by simpa using hi) (by simpa using hj)
  · by_cases e2 : hp = 2 ∧ file ≠ []
    · obtain ⟨rfl, hf⟩ := e2
      obtain ⟨a, h1, rfl⟩ := prepare_two hf ho
      have hn := (openFilter_iff fs file a).mp h1
      have hs := hsum a rfl hf hn
      obtain ⟨_, _, _, hl⟩ := hn
      have ka : ∀ k l : ℕ, k < 3 → l < 3 → (orLowpass im r).at (i + 1 - k) (j + 1 - l) = c := by
        intro k l hk hl
        rw [Image.at, if_pos ⟨by omega, by show i + 1 - k < (im.h : ℤ); omega, by omega,
          by show j + 1 - l < (im.w : ℤ); omega⟩]
        apply key <;> rw [abs_le] <;> push_cast <;> omega
      have : ∑ k ∈ Finset.range 3, ∑ l ∈ Finset.range 3,
          a.getD (3 * k + l) 0 * ((orLowpass im r).at (i + 1 - k) (j + 1 - l) : ℚ) = c := by
        have e : ∀ k ∈ Finset.range 3, ∑ l ∈ Finset.range 3,
            a.getD (3 * k + l) 0 * ((orLowpass im r).at (i + 1 - k) (j + 1 - l) : ℚ) =
            ∑ l ∈ Finset.range 3, a.getD (3 * k + l) 0 * (c : ℚ) := by
          intro k hk
          apply Finset.sum_congr rfl
          intro l hl
          rw [ka k l (Finset.mem_range.mp hk) (Finset.mem_range.mp hl)]
        rw [Finset.sum_congr rfl e]
        match a, hl with
        | [b0, b1, b2, b3, b4, b5, b6, b7, b8], _ =>
          simp only [Finset.sum_range_succ, Finset.sum_range_zero]
          simp at hs ⊢
          linear_combination (c : ℚ) * hs
      show castByte wild _ = c
      rw [this, castByte, if_pos ⟨by have : (0 : ℚ) ≤ c := by positivity
                                     linarith, by exact_mod_cast hc⟩]
      simp
    · rw [prepareImage, if_neg e1, if_neg e2] at ho
      obtain rfl := Except.ok.inj ho
      exact key i j (by simp) (by simp)

/-- C51, refuted as a high-pass: no pixel gets darker, so the background is never removed (the code combines image
and low-pass with a bitwise "or" where its comment says "subtract"). -/
theorem C51_highpass_refuted (wild : ℚ → ℕ) (fs : FS) (im out : Image) (r : ℕ) (hp : ℤ) (h1 : hp ≠ 1) (h2 : hp ≠ 2)
    (file : List Char) (ho : prepareImage wild fs im r hp file = .ok out) (i j : ℤ) :
    im.px i j ≤ out.px i j ∧ (uniformFilter r im).px i j ≤ out.px i j := by
  rw [prepareImage, if_neg h1, if_neg (fun h => h2 h.1)] at ho
  obtain rfl := Except.ok.inj ho
  exact ⟨Nat.left_le_or, Nat.right_le_or⟩

/-- C51: `preprocess_image` has no way to name a filter file: with `filter_hp = 2` (as with any number but 1) the image is
not filtered, and no error is raised. -/
theorem C51_preprocess (wild : ℚ → ℕ) (fs : FS) (im : Image) (r : ℕ) (hp : ℤ) (h1 : hp ≠ 1) :
    ∃ out, preprocessImage wild fs im hp r = .ok out ∧ preprocessImage wild fs im 0 r = .ok out := by
  refine ⟨orLowpass im r, ?_, ?_⟩
  · rw [preprocessImage, prepareImage, if_neg h1, if_neg (by simp)]
  · rw [preprocessImage, prepareImage, if_neg (by norm_num), if_neg (by simp)]

/-! Concrete cases. -/

/-- A bright spot on a background of 10. -/
def exImage : Image := ⟨5, 5, fun i j => if i = 2 ∧ j = 2 then 200 else 10⟩

example : Is8Bit exImage := by
  intro i j _ _ _ _
  simp only [exImage]
  split <;> omega

/-- The mean over the 3x3 square of the spot is 31.1…, the filter gives 31. -/
example : (uniformFilter 1 exImage).px 2 2 = 31 ∧ boxSum exImage 1 2 2 = 280 := by decide +kernel

example : (uniformFilter 1 exImage).px 2 2 * 9 ≤ 280 ∧ 280 < ((uniformFilter 1 exImage).px 2 2 + 2) * 9 :=
  C51_lowpass exImage 1 2 2 (by unfold exImage; norm_num)

example : Interior exImage 1 2 2 := by unfold Interior exImage; norm_num

/-- A file of a sharpening filter. -/
def exFs : FS := fun n => if n = "f".toList then some "0 -1 0\n-1 5 -1\n0 -1 0\n".toList else none

example : ((prepareImage (fun _ => 0) exFs exImage 1 0 []).map fun o => o.px 2 2) = .ok (200 ||| 31) := by
  decide +kernel

theorem exFilter : NineNumbers exFs "f".toList [0, -1, 0, -1, 5, -1, 0, -1, 0] :=
  ⟨_, rfl, by decide +kernel, by decide +kernel⟩

theorem exSharp (im : Image) : prepareImage (fun _ => 0) exFs im 1 2 "f".toList =
    .ok (convolve3 (fun _ => 0) [0, -1, 0, -1, 5, -1, 0, -1, 0] (orLowpass im 1)) := by
  rw [prepareImage, if_neg (by norm_num), if_pos ⟨rfl, by decide⟩, (openFilter_iff _ _ _).mpr exFilter]
  rfl

/-- Beside the spot: 5 * 31 - 31 - 31 - 14 - 14 = 65. -/
example : (convolve3 (fun _ => 0) [0, -1, 0, -1, 5, -1, 0, -1, 0] (orLowpass exImage 1)).px 1 1 = 65 := by
  have h := (C51_filter (fun _ => 0) exFs exImage (orLowpass exImage 1) _ 1 "f".toList _ (by decide) exFilter
    (by rfl) (exSharp exImage) 1 1).2 65 (by
      have e1 : (orLowpass exImage 1).at (1 + 1) 1 = 31 := by decide +kernel
      have e2 : (orLowpass exImage 1).at 1 (1 + 1) = 31 := by decide +kernel
      have e3 : (orLowpass exImage 1).at 1 1 = 31 := by decide +kernel
      have e4 : (orLowpass exImage 1).at 1 (1 - 1) = 14 := by decide +kernel
      have e5 : (orLowpass exImage 1).at (1 - 1) 1 = 14 := by decide +kernel
      rw [e1, e2, e3, e4, e5]
      norm_num)
  obtain ⟨h1, h2⟩ := h.1 (by norm_num)
  have h3 : (convolve3 (fun _ => 0) [0, -1, 0, -1, 5, -1, 0, -1, 0] (orLowpass exImage 1)).px 1 1 ≤ 65 := by
    exact_mod_cast h1
  have h4 : 65 < (convolve3 (fun _ => 0) [0, -1, 0, -1, 5, -1, 0, -1, 0] (orLowpass exImage 1)).px 1 1 + 1 := by
    exact_mod_cast h2
  omega

example : prepareImage (fun _ => 0) exFs exImage 1 2 "g".toList = .error .ioError := by
  simp [prepareImage, openFilter, exFs, bind, Except.bind]

example : ∃ out, prepareImage (fun _ => 0) exFs ⟨7, 7, fun _ _ => 77⟩ 1 2 "f".toList = .ok out ∧ out.px 3 3 = 77 := by
  have ho := exSharp ⟨7, 7, fun _ _ => 77⟩
  refine ⟨_, ho, C51_constant _ exFs _ _ 1 2 "f".toList 77 3 3 (by norm_num) (by unfold Interior; norm_num) ?_
    (fun _ _ _ _ => rfl) ho⟩
  intro a _ _ ha
  have := (openFilter_iff _ _ _).mpr ha
  rw [(openFilter_iff _ _ _).mpr exFilter] at this
  obtain rfl := Except.ok.inj this
  norm_num

end Verif.Img
