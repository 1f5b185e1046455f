/-
C155: arrays of found pixels are copied and reset.
-/
import Verif.Model.FoundPix
import Mathlib.Data.List.Basic
import Mathlib.Tactic.Common

namespace Verif.FoundPix

/-- `new` is the memory `old` after `n` records from `src` on have been copied to `dest`, with the marks of the first `k` cameras. -/
structure Spec.Copied (old new : Mem) (dest src n k : ℕ) : Prop where
  number : ∀ i < n, (new (dest + i)).ftnr = (old (src + i)).ftnr
  freq : ∀ i < n, (new (dest + i)).freq = (old (src + i)).freq
  marks : ∀ i < n, ∀ cam < k, (new (dest + i)).whichcam cam = (old (src + i)).whichcam cam
  otherMarks : ∀ i < n, ∀ cam, k ≤ cam → (new (dest + i)).whichcam cam = (old (dest + i)).whichcam cam
  others : ∀ p, p < dest ∨ dest + n ≤ p → new p = old p

/-- C155: the records are copied, and nothing else is changed, if the two ranges do not overlap or the destination begins before the
source. -/
theorem C155_copy_partial (m : Mem) (dest src n k : ℕ) (h : dest ≤ src ∨ src + n ≤ dest) :
    Spec.Copied m (copyFoundpixArray m dest src n k) dest src n k := by
  induction n with
  | zero => exact ⟨by simp, by simp, by simp, by simp, fun _ _ => rfl⟩
  | succ n ih =>
    have ih := ih (by omega)
    have e : copyFoundpixArray m dest src (n + 1) k = copyRec (copyFoundpixArray m dest src n k) (dest + n) (src + n) k := by
      rw [copyFoundpixArray, List.range_succ, List.foldl_append]; rfl
    rw [e]
    generalize copyFoundpixArray m dest src n k = m' at ih
    have hs : m' (src + n) = m (src + n) := ih.others _ (by omega)
    have hd : m' (dest + n) = m (dest + n) := ih.others _ (by omega)
    have old : ∀ i < n, copyRec m' (dest + n) (src + n) k (dest + i) = m' (dest + i) := fun i hi => by
      rw [copyRec, if_neg (by omega)]
    have new : copyRec m' (dest + n) (src + n) k (dest + n) = ⟨(m (src + n)).ftnr, (m (src + n)).freq,
        fun cam => if cam < k then (m (src + n)).whichcam cam else (m (dest + n)).whichcam cam⟩ := by
      rw [copyRec, if_pos rfl, hs, hd]
    have split : ∀ i < n + 1, i < n ∨ i = n := fun i hi => by omega
    refine ⟨fun i hi => ?_, fun i hi => ?_, fun i hi cam hc => ?_, fun i hi cam hc => ?_, fun p hp => ?_⟩
    · rcases split i hi with h | rfl
      · rw [old i h]; exact ih.number i h
      · rw [new]
    · rcases split i hi with h | rfl
      · rw [old i h]; exact ih.freq i h
      · rw [new]
    · rcases split i hi with h | rfl
      · rw [old i h]; exact ih.marks i h cam hc
      · rw [new]; exact if_pos hc
    · rcases split i hi with h | rfl
      · rw [old i h]; exact ih.otherMarks i h cam hc
      · rw [new]; exact if_neg (not_lt.2 hc)
    · rw [copyRec, if_neg (by omega)]
      exact ih.others p (by omega)

/-- C155 is false if the destination begins within the source: with the array moved up by one place, the first record is copied all the way. -/
theorem C155_overlap_refuted (m : Mem) (src n k : ℕ) : ∀ i < n, (copyFoundpixArray m (src + 1) src n k (src + 1 + i)).ftnr = (m src).ftnr := by
  induction n with
  | zero => simp
  | succ n ih =>
    have e : copyFoundpixArray m (src + 1) src (n + 1) k = copyRec (copyFoundpixArray m (src + 1) src n k) (src + 1 + n) (src + n) k := by
      rw [copyFoundpixArray, List.range_succ, List.foldl_append]; rfl
    have first : copyFoundpixArray m (src + 1) src n k src = m src := by
      clear ih e
      induction n with
      | zero => rfl
      | succ n ih =>
        rw [copyFoundpixArray, List.range_succ, List.foldl_append]
        simp only [List.foldl_cons, List.foldl_nil]
        rw [copyRec, if_neg (by omega)]
        exact ih
    intro i hi
    rw [e, copyRec]
    by_cases h : i = n
    · subst h
      rw [if_pos rfl]
      simp only
      cases i with
      | zero => exact congrArg Rec.ftnr first
      | succ j =>
        have := ih j (Nat.lt_succ_self _)
        rwa [show src + 1 + j = src + (j + 1) by omega] at this
    · rw [if_neg (by omega)]
      exact ih i (by omega)

/-- So that this is no copy, as soon as two records are to be copied and differ. -/
theorem C155_moved_up_refuted (m : Mem) (src n k : ℕ) (hn : 2 ≤ n) (hm : (m (src + 1)).ftnr ≠ (m src).ftnr) :
    ¬ Spec.Copied m (copyFoundpixArray m (src + 1) src n k) (src + 1) src n k := fun h =>
  hm ((h.number 1 (by omega)).symm.trans (C155_overlap_refuted m src n k 1 (by omega)))

/-- C155: resetting clears the number, the count and the marks of the first `k` cameras in the first `n` records, and nothing else. -/
theorem C155_reset (m : Mem) (arr n k : ℕ) :
    (∀ i < n, (resetFoundpixArray m arr n k (arr + i)).ftnr = -1 ∧ (resetFoundpixArray m arr n k (arr + i)).freq = 0 ∧
      (∀ cam < k, (resetFoundpixArray m arr n k (arr + i)).whichcam cam = 0) ∧
      ∀ cam, k ≤ cam → (resetFoundpixArray m arr n k (arr + i)).whichcam cam = (m (arr + i)).whichcam cam) ∧
    ∀ p, p < arr ∨ arr + n ≤ p → resetFoundpixArray m arr n k p = m p := by
  induction n with
  | zero => exact ⟨by simp, fun _ _ => rfl⟩
  | succ n ih =>
    have e : resetFoundpixArray m arr (n + 1) k = fun p => if p = arr + n then
        ⟨-1, 0, fun cam => if cam < k then 0 else (resetFoundpixArray m arr n k (arr + n)).whichcam cam⟩
        else resetFoundpixArray m arr n k p := by
      rw [resetFoundpixArray, List.range_succ, List.foldl_append]; rfl
    rw [e]
    generalize resetFoundpixArray m arr n k = m' at ih
    refine ⟨fun i hi => ?_, fun p hp => ?_⟩
    · rcases (by omega : i < n ∨ i = n) with h | rfl
      · simp only [show ¬ arr + i = arr + n by omega, if_false]
        exact ih.1 i h
      · simp only [if_true]
        refine ⟨trivial, trivial, fun cam hc => if_pos hc, fun cam hc => ?_⟩
        rw [if_neg (not_lt.2 hc), ih.2 _ (Or.inr le_rfl)]
    · simp only [show ¬ p = arr + n by omega, if_false]
      exact ih.2 p (by omega)

/-- Two records moved down by one place; moved up by one place, both become the first. -/
example (m : Mem) : (copyFoundpixArray m 4 5 2 4 5).ftnr = (m 6).ftnr ∧ (copyFoundpixArray m 6 5 2 4 7).ftnr = (m 5).ftnr :=
  ⟨(C155_copy_partial m 4 5 2 4 (Or.inl (by decide))).number 1 (by decide), C155_overlap_refuted m 5 2 4 1 (by decide)⟩

end Verif.FoundPix
