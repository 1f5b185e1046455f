/-
C120: the box blur.
-/
import Verif.Model.BoxBlur
import Mathlib.Data.List.Basic
import Mathlib.Tactic.Ring
import Mathlib.Algebra.BigOperators.Group.Finset.Basic
import Mathlib.Algebra.BigOperators.Intervals

namespace Verif.Blur

/-- The box blur a user expects, away from the edges: the sum over the window around pixel `(i, j)`, divided by its size. -/
def Spec.boxMean (src : ℤ → ℤ) (span imx : ℕ) (i j : ℕ) : ℤ :=
  (∑ a ∈ Finset.range (2 * span + 1), ∑ b ∈ Finset.range (2 * span + 1),
    src (((i : ℤ) + a - span) * imx + (j + b - span))) / ((2 * span + 1) * (2 * span + 1))

/-- The image is returned, every pixel of it away from the edges the mean of its window. -/
def Spec.Blurred (src : ℤ → ℤ) (span imx imy : ℕ) : Prop :=
  ∃ out, fastBoxBlur src span imx imy = .ok out ∧ out.length = imx * imy ∧
    ∀ i j : ℕ, span ≤ i → i + span < imy → span ≤ j → j + span < imx → out[i * imx + j]? = some (boxMean src span imx i j)

open Spec

theorem addInto_error {acc x : List ℤ} (h1 : x.length ≠ acc.length) (h2 : x.length ≠ 1) : addInto acc x = .error .valueError := by
  rw [addInto, if_neg h1, if_neg h2]

theorem midFold (src : ℤ → ℤ) : ∀ (n k : ℕ) (l : List ℤ), 1 ≤ k →
    (List.range' k n).foldl (midStep src 0) (src (k - 1), l) = (src (k + n - 1), l ++ (List.range' k n).map fun j : ℕ => src j)
  | 0, k, l, _ => by simp
  | n + 1, k, l, hk => by
    rw [List.range'_succ, List.foldl_cons]
    have e : midStep src 0 (src (k - 1), l) k = (src ((k + 1 : ℕ) - 1), l ++ [src k]) := by
      simp only [midStep, Nat.cast_zero, add_zero, sub_zero]
      have : src ((k : ℤ) - 1) + (src k - src (k - 1)) = src k := by ring
      rw [this]
      simp
    rw [e, midFold src n (k + 1) _ (by omega)]
    have : ((k + 1 : ℕ) : ℤ) + n - 1 = k + (n + 1 : ℕ) - 1 := by push_cast; ring
    rw [this]
    simp

theorem rowAccum_zero (src : ℤ → ℤ) (imx : ℕ) (h : 0 < imx) : rowAccum src 0 imx = (List.range imx).map fun j : ℕ => src j := by
  obtain ⟨m, rfl⟩ : ∃ m, imx = m + 1 := ⟨imx - 1, by omega⟩
  have := midFold src m 1 [src 0] le_rfl
  simp only [Nat.cast_one, sub_self] at this
  simp only [rowAccum, List.range'_zero, List.foldl_nil, Nat.cast_zero, mul_zero, zero_add, mul_one, Nat.sub_zero, Nat.add_sub_cancel, this]
  rw [List.range_eq_range', List.range'_succ, List.map_cons]
  simp

theorem rowAccum_length (src : ℤ → ℤ) (span imx : ℕ) (h : 2 * span < imx) : (rowAccum src span imx).length = imx := by
  have aux : ∀ (f : ℤ × List ℤ → ℕ → ℤ × List ℤ), (∀ s j, (f s j).2.length = s.2.length + 1) → ∀ (l : List ℕ) (s : ℤ × List ℤ),
      (l.foldl f s).2.length = s.2.length + l.length := by
    intro f hf l
    induction l with
    | nil => intro s; simp
    | cons a l ih => intro s; rw [List.foldl_cons, ih, hf]; simp; omega
  simp only [rowAccum]
  rw [aux (rightStep src span imx) (by intro s j; simp [rightStep]), aux (midStep src span) (by intro s j; simp [midStep]),
    aux (leftStep src span) (by intro s j; simp [leftStep])]
  simp
  omega

theorem rowsAccum_length (src : ℤ → ℤ) (span imx imy : ℕ) (h : 2 * span < imx) : (rowsAccum src span imx imy).length = imy * imx := by
  unfold rowsAccum
  rw [List.length_flatMap]
  simp [rowAccum_length _ span imx h]

/-- C120 refuted: with a positive half width the call never returns: two slices of different length are added. -/
theorem C120_blur_refuted (src : ℤ → ℤ) (span imx imy : ℕ) (hs : 0 < span) (hx : 2 * span < imx) (hy : 0 < imy) :
    fastBoxBlur src span imx imy = .error .valueError ∧ ¬ Blurred src span imx imy := by
  have key : fastBoxBlur src span imx imy = .error .valueError := by
    obtain ⟨m, rfl⟩ : ∃ m, span = m + 1 := ⟨span - 1, by omega⟩
    unfold fastBoxBlur
    rw [List.range'_succ]
    simp only [topLoop, bind, Except.bind]
    set acc := rowsAccum src (m + 1) imx imy with hacc
    have hl : acc.length = imy * imx := rowsAccum_length _ _ _ _ hx
    have l1 : (slice acc ((2 * 1 - 1) * imx) ((2 * 1 + 1) * imx)).length = min (3 * imx) (imy * imx) - imx := by
      simp [slice, hl]
    have l2 : ((slice acc ((2 * 1 - 1) * imx) ((2 * 1 + 1) * imx)).drop imx).length = min (3 * imx) (imy * imx) - imx - imx := by
      rw [List.length_drop, l1]
    rcases Nat.lt_or_ge imy 2 with h1 | h1
    · obtain rfl : imy = 1 := by omega
      have z1 : slice acc ((2 * 1 - 1) * imx) ((2 * 1 + 1) * imx) = [] := List.length_eq_zero_iff.1 (by rw [l1]; omega)
      have hc : (acc.take imx).length = imx := by rw [List.length_take, hl]; omega
      rw [z1]
      simp only [List.drop_nil, bcastAdd, if_true, List.zipWith_nil_left]
      rw [addInto_error (by rw [hc, List.length_nil]; omega) (by simp)]
    · have h2 : 2 * imx ≤ imy * imx := Nat.mul_le_mul_right _ h1
      have h3 : bcastAdd (slice acc ((2 * 1 - 1) * imx) ((2 * 1 + 1) * imx))
          ((slice acc ((2 * 1 - 1) * imx) ((2 * 1 + 1) * imx)).drop imx) = .error .valueError := by
        have h4 : imy = 2 ∨ 3 * imx ≤ imy * imx := by
          rcases Nat.lt_or_ge imy 3 with h | h
          · left; omega
          · right; exact Nat.mul_le_mul_right _ h
        unfold bcastAdd
        rw [if_neg (by rw [l1, l2]; omega), if_neg (by rw [l1]; omega), if_neg]
        rw [l2]
        rcases h4 with rfl | h4 <;> omega
      rw [h3]
  exact ⟨key, fun ⟨out, h, _⟩ => by rw [key] at h; cases h⟩

theorem rowsAccum_zero (src : ℤ → ℤ) (imx imy : ℕ) (h : 0 < imx) :
    rowsAccum src 0 imx imy = (List.range imy).flatMap fun i : ℕ => (List.range imx).map fun j : ℕ => src ((i : ℤ) * imx + j) := by
  unfold rowsAccum
  congr 1
  funext i
  rw [rowAccum_zero _ _ h]

/-- Row `i` of an image that consists of rows of equal length. -/
theorem slice_row (f : ℕ → List ℤ) (w : ℕ) (hw : ∀ i, (f i).length = w) (n i : ℕ) (hi : i < n) :
    slice ((List.range n).flatMap f) (i * w) ((i + 1) * w) = f i := by
  have hlen : ∀ k, ((List.range k).flatMap f).length = k * w := by
    intro k
    rw [List.length_flatMap]
    simp [hw]
  have hsplit : ∀ k, k ≤ n → (List.range n).flatMap f = (List.range k).flatMap f ++ (List.range' k (n - k)).flatMap f := by
    intro k hk
    rw [← List.flatMap_append]
    congr 1
    have := List.range'_append_1 (s := 0) (m := k) (n := n - k)
    rw [Nat.zero_add, show k + (n - k) = n by omega] at this
    rw [List.range_eq_range', List.range_eq_range', this]
  unfold slice
  rw [hsplit (i + 1) hi, List.take_append_of_le_length (by rw [hlen]), List.take_of_length_le (by rw [hlen]), List.range_succ,
    List.flatMap_append, List.drop_append_of_le_length (by rw [hlen]), List.drop_of_length_le (by rw [hlen])]
  simp

theorem midLoop_zero (f : ℕ → List ℤ) (w : ℕ) (hw : ∀ i, (f i).length = w) (n : ℕ) : ∀ (m k : ℕ), 1 ≤ k → k + m ≤ n →
    midLoop ((List.range n).flatMap f) 0 w 1 (List.range' k m) (f (k - 1)) = .ok (f (k + m - 1), (List.range' k m).flatMap f)
  | 0, k, _, _ => rfl
  | m + 1, k, hk, hn => by
    have s1 : slice ((List.range n).flatMap f) ((k - 0 - 1) * w) (k * w) = f (k - 1) := by
      have := slice_row f w hw n (k - 1) (by omega)
      rwa [show k - 1 + 1 = k by omega] at this
    have s2 : slice ((List.range n).flatMap f) ((k + 0) * w) ((k + 0 + 1) * w) = f k := slice_row f w hw n k (by omega)
    have s3 : bcastAdd (f k) ((f (k - 1)).map fun x => -x) = .ok (List.zipWith (· + ·) (f k) ((f (k - 1)).map fun x => -x)) := by
      rw [bcastAdd, if_pos (by simp [hw])]
    have s4 : addInto (f (k - 1)) (List.zipWith (· + ·) (f k) ((f (k - 1)).map fun x => -x)) = .ok (f k) := by
      rw [addInto, if_pos (by simp [hw])]
      congr 1
      apply List.ext_getElem
      · simp [hw]
      · intro j h1 h2
        simp
    have ih := midLoop_zero f w hw n m (k + 1) (by omega) (by omega)
    rw [show k + 1 - 1 = k by omega] at ih
    rw [List.range'_succ]
    simp only [midLoop, s1, s2, s3, s4, ih, bind, Except.bind]
    rw [show k + (m + 1) - 1 = k + 1 + m - 1 by omega]
    simp

/-- C120 (part that holds): with half width 0 the image is returned as it is, which is what a window of one pixel means. Missing:
every other half width (false: `C120_blur_refuted`). -/
theorem C120_identity_partial (src : ℤ → ℤ) (imx imy : ℕ) (hx : 0 < imx) (hy : 0 < imy) :
    fastBoxBlur src 0 imx imy = .ok ((List.range (imx * imy)).map fun k : ℕ => src k) ∧ Blurred src 0 imx imy := by
  set f : ℕ → List ℤ := fun i => (List.range imx).map fun j : ℕ => src ((i : ℤ) * imx + j) with hf
  have hw : ∀ i, (f i).length = imx := by intro i; simp [hf]
  have hflat : ∀ m, (List.range m).flatMap f = (List.range (imx * m)).map fun k : ℕ => src k := by
    intro m
    induction m with
    | zero => simp
    | succ m ih =>
      rw [List.range_succ, List.flatMap_append, ih, Nat.mul_succ, List.range_add, List.map_append]
      congr 1
      simp only [List.flatMap_cons, List.flatMap_nil, List.append_nil, hf, List.map_map]
      apply List.map_congr_left
      intro j _
      simp only [Function.comp]
      congr 1
      push_cast
      ring
  have key : fastBoxBlur src 0 imx imy = .ok ((List.range (imx * imy)).map fun k : ℕ => src k) := by
    unfold fastBoxBlur
    rw [rowsAccum_zero _ _ _ hx]
    show (do
      let top ← topLoop ((List.range imy).flatMap f) imx (2 * ((0 : ℕ) : ℤ) + 1) (List.range' 1 0) (((List.range imy).flatMap f).take imx)
      let mid ← midLoop ((List.range imy).flatMap f) 0 imx (2 * ((0 : ℕ) : ℤ) + 1) (List.range' (0 + 1) (imy - 0 - (0 + 1))) top.1
      Except.ok ((((List.range imy).flatMap f).take imx).map (fun c => c / (2 * ((0 : ℕ) : ℤ) + 1)) ++ top.2 ++ mid.2)) = _
    have hc : ((List.range imy).flatMap f).take imx = f 0 := by
      have := slice_row f imx hw imy 0 hy
      simpa [slice] using this
    have hm := midLoop_zero f imx hw imy (imy - 1) 1 le_rfl (by omega)
    simp only [Nat.sub_self] at hm
    simp only [hc, List.range'_zero, topLoop, bind, Except.bind, Nat.cast_zero, mul_zero, zero_add, Nat.sub_zero, hm]
    rw [← hflat imy]
    obtain ⟨m, rfl⟩ : ∃ m, imy = m + 1 := ⟨imy - 1, by omega⟩
    rw [List.range_eq_range', List.range'_succ]
    simp
  refine ⟨key, _, key, by simp, fun i j _ hi _ hj => ?_⟩
  have hk : i * imx + j < imx * imy := by
    calc i * imx + j < i * imx + imx := by omega
      _ = (i + 1) * imx := by ring
      _ ≤ imy * imx := Nat.mul_le_mul_right _ (by omega)
      _ = imx * imy := Nat.mul_comm _ _
  rw [List.getElem?_map, List.getElem?_eq_getElem (by simpa using hk)]
  simp [boxMean]

/-- A window of three by three pixels on an image of three by three: an exception. Half width 0: the image. -/
example : fastBoxBlur (fun k => k) 1 3 3 = .error .valueError ∧ fastBoxBlur (fun k => k) 0 3 2 = .ok [0, 1, 2, 3, 4, 5] := by
  decide

/-- C120: `subtract_mask` keeps the pixels under a non-zero mask and clears the others. -/
theorem C120_mask (img mask : List ℤ) (h : img.length = mask.length) (k : ℕ) (p m : ℤ) (hp : img[k]? = some p) (hm : mask[k]? = some m) :
    (subtractMask img mask).length = img.length ∧ (m = 0 → (subtractMask img mask)[k]? = some 0) ∧
      (m ≠ 0 → (subtractMask img mask)[k]? = some p) := by
  refine ⟨by simp [subtractMask, h], fun e => ?_, fun e => ?_⟩
  · simp [subtractMask, List.getElem?_zipWith, hp, hm, e]
  · simp [subtractMask, List.getElem?_zipWith, hp, hm, e]

example : subtractMask [5, 6, 7] [0, 1, 255] = [0, 6, 7] := rfl

end Verif.Blur
