/-
Proofs for C150: errors of single operations.
-/
import Verif.Spec.Rounded
import Mathlib.Tactic.Linarith
import Mathlib.Tactic.NormNum
import Mathlib.Tactic.Positivity
import Mathlib.Tactic.Ring

namespace Verif.Round

theorem tiny : (2⁻¹ : ℝ) ^ 1075 ≤ 1 / 10 ^ 60 :=
  (pow_le_pow_of_le_one (by norm_num) (by norm_num) (show 200 ≤ 1075 by norm_num)).trans (by norm_num)

theorem huge : (10 : ℝ) ^ 12 ≤ 2 ^ 1023 :=
  le_trans (by norm_num : (10 : ℝ) ^ 12 ≤ 2 ^ 100) (pow_le_pow_right₀ (by norm_num) (by norm_num))

theorem unit_up : (2⁻¹ : ℝ) ^ 53 ≤ 1112 / 10 ^ 19 := by norm_num
theorem unit2_up : (2⁻¹ : ℝ) ^ 52 ≤ 2224 / 10 ^ 19 := by norm_num

/-- A result near a number of moderate size. -/
theorem Doubles.near {r : ℝ → ℝ} (h : Doubles r) {a x X e : ℝ} (ha : |a - x| ≤ e) (hx : |x| ≤ X) (hX : X + e ≤ 10 ^ 12) :
    |r a - x| ≤ e + 1112 / 10 ^ 19 * (X + e) + 1 / 10 ^ 60 := by
  have hb : |a| ≤ X + e := by
    have := abs_add_le (a - x) x
    rw [sub_add_cancel] at this
    linarith
  have h1 := h a (hb.trans (hX.trans huge))
  have h2 := abs_sub_le (r a) a x
  have h3 : (2⁻¹ : ℝ) ^ 53 * |a| ≤ 1112 / 10 ^ 19 * (X + e) :=
    mul_le_mul unit_up hb (abs_nonneg _) (by norm_num)
  have h4 := tiny
  generalize (2⁻¹ : ℝ) ^ 1075 = q at h1 h4
  generalize (2⁻¹ : ℝ) ^ 53 * |a| = q' at h1 h3
  linarith

theorem mul_near {a b x y α β X Y : ℝ} (ha : |a - x| ≤ α) (hb : |b - y| ≤ β) (hx : |x| ≤ X) (hy : |y| ≤ Y) :
    |a * b - x * y| ≤ α * Y + X * β + α * β := by
  have e : a * b - x * y = (a - x) * y + x * (b - y) + (a - x) * (b - y) := by ring
  have hα := (abs_nonneg _).trans ha
  have hX := (abs_nonneg _).trans hx
  rw [e]
  refine (abs_add_three _ _ _).trans ?_
  rw [abs_mul, abs_mul, abs_mul]
  have h1 := mul_le_mul ha hy (abs_nonneg _) hα
  have h2 := mul_le_mul hx hb (abs_nonneg _) hX
  have h3 := mul_le_mul ha hb (abs_nonneg _) hα
  linarith

theorem add_near {a b x y α β : ℝ} (ha : |a - x| ≤ α) (hb : |b - y| ≤ β) : |a + b - (x + y)| ≤ α + β := by
  have e : a + b - (x + y) = (a - x) + (b - y) := by ring
  rw [e]
  exact (abs_add_le _ _).trans (by linarith)

theorem sub_near {a b x y α β : ℝ} (ha : |a - x| ≤ α) (hb : |b - y| ≤ β) : |a - b - (x - y)| ≤ α + β := by
  have e : a - b - (x - y) = (a - x) - (b - y) := by ring
  rw [e]
  exact (abs_sub _ _).trans (by linarith)

/-- Rounding to the nearest double precision number is a rounding as required. -/
theorem nearestDouble_doubles : Doubles nearestDouble := by
  intro x _
  have p2 : (0 : ℝ) ≤ 2⁻¹ ^ 1075 := pow_nonneg (by norm_num) _
  rcases eq_or_ne x 0 with rfl | hx0
  · simp only [nearestDouble, zero_div, round_zero, Int.cast_zero, zero_mul, sub_zero, abs_zero, mul_zero, zero_add]
    exact p2
  have hs : 0 < spacing x := zpow_pos (by norm_num) _
  have h1 : |nearestDouble x - x| ≤ 1 / 2 * spacing x := by
    have e : nearestDouble x - x = -(x / spacing x - round (x / spacing x)) * spacing x := by
      rw [nearestDouble]
      field_simp
      ring
    rw [e, abs_mul, abs_neg, abs_of_pos hs]
    exact mul_le_mul_of_nonneg_right (abs_sub_round _) hs.le
  refine h1.trans ?_
  have p1 : (0 : ℝ) ≤ 2⁻¹ ^ 53 * |x| := by positivity
  rcases le_total (Int.log 2 |x| - 52) (-1074) with h | h
  · have e : 1 / 2 * spacing x = 2⁻¹ ^ 1075 := by
      rw [spacing, max_eq_right h, show (-1074 : ℤ) = -((1074 : ℕ) : ℤ) by norm_num, zpow_neg, zpow_natCast, ← inv_pow, pow_succ' _ 1074]
      norm_num
    rw [e]
    exact le_add_of_nonneg_left p1
  · have e : 1 / 2 * spacing x = 2⁻¹ ^ 53 * 2 ^ Int.log 2 |x| := by
      rw [spacing, max_eq_left h, zpow_sub₀ (by norm_num)]
      norm_num
      ring
    have hpos : 0 < |x| := abs_pos.2 hx0
    have := Int.zpow_log_le_self (b := 2) (by norm_num) hpos
    rw [e]
    have h2 : (2⁻¹ : ℝ) ^ 53 * 2 ^ Int.log 2 |x| ≤ 2⁻¹ ^ 53 * |x| := mul_le_mul_of_nonneg_left (by exact_mod_cast this) (by positivity)
    exact h2.trans (le_add_of_nonneg_right p2)

end Verif.Round
