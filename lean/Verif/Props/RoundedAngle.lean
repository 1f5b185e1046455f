/-
C152: the angle between predicted and found motion is a number.
-/
import Verif.Model.RoundedAngle
import Verif.Spec.RoundedTrace
import Verif.Props.RoundedTrace
import Verif.Props.Motion

namespace Verif.Round
open Verif.Geo Verif.Geo.Spec

/-- C152 (exact arithmetic): unless the call raises, the angle is a number, that of C47. In double precision this is wrong
(`C152_straight_refuted`). -/
theorem C152_exact_partial (start pred cand : V3) :
    angleAcc id exactLib Real.arccos start pred cand = (Geo.angleAcc start pred cand).map fun x => (some x.1, x.2) := by
  have e : ∀ a b : V3, sub id a b = a - b := fun _ _ => rfl
  have e1 : exactLib.norm = V3.norm := rfl
  have e2 : exactLib.dot = V3.dot := rfl
  simp only [angleAcc, Geo.angleAcc, e, e1, e2, id]
  by_cases h1 : pred - start = neg (cand - start)
  · rw [if_pos (show sub id pred start = neg (sub id cand start) from h1), if_pos h1]; rfl
  rw [if_neg (show ¬ sub id pred start = neg (sub id cand start) from h1), if_neg h1]
  by_cases h2 : pred - start = cand - start
  · rw [if_pos (show sub id pred start = sub id cand start from h2), if_pos h2]; rfl
  rw [if_neg (show ¬ sub id pred start = sub id cand start from h2), if_neg h2]
  by_cases h3 : (start - pred).norm * (start - cand).norm = 0
  · rw [if_pos h3, if_pos h3]; rfl
  rw [if_neg h3, if_neg h3]
  have hp : 0 < (start - pred).norm * (start - cand).norm :=
    lt_of_le_of_ne (mul_nonneg (V3.norm_nonneg _) (V3.norm_nonneg _)) (Ne.symm h3)
  have hq : |V3.dot (pred - start) (cand - start) / ((start - pred).norm * (start - cand).norm)| ≤ 1 := by
    rw [abs_div, abs_of_pos hp, div_le_one hp, norm_sub_comm start pred, norm_sub_comm start cand]
    exact abs_dot_le _ _
  rw [arccosF, if_pos hq]
  rfl

/-- C152 is refuted in double precision: a particle at the origin that is predicted at (1, 1, 1) and found at (2, 2, 2) goes straight on.
The cosine of the angle is computed as 1.0000000000000002, and the angle is not a number. -/
theorem C152_straight_refuted (ac : ℝ → ℝ) :
    ∃ acc, angleAcc nearestDouble doubleLib ac ⟨0, 0, 0⟩ ⟨1, 1, 1⟩ ⟨2, 2, 2⟩ = .ok (none, acc) ∧ 1.7 < acc ∧ acc < 1.8 := by
  have z := nearestDouble_zero
  have v1 : nearestDouble 1 = 1 := by
    rw [nearestDouble_eq 0 (2 ^ 52) (by norm_num) (by norm_num) (by norm_num) (by norm_num)]; norm_num
  have vm1 : nearestDouble (-1) = -1 := by
    rw [nearestDouble_eq 0 (-2 ^ 52) (by norm_num) (by norm_num) (by norm_num) (by norm_num)]; norm_num
  have vm2 : nearestDouble (-2) = -2 := by
    rw [nearestDouble_eq 1 (-2 ^ 52) (by norm_num) (by norm_num) (by norm_num) (by norm_num)]; norm_num
  have v2 : nearestDouble 2 = 2 := by
    rw [nearestDouble_eq 1 (2 ^ 52) (by norm_num) (by norm_num) (by norm_num) (by norm_num)]; norm_num
  have v3 : nearestDouble 3 = 3 := by
    rw [nearestDouble_eq 1 (3 * 2 ^ 51) (by norm_num) (by norm_num) (by norm_num) (by norm_num)]; norm_num
  have v4 : nearestDouble 4 = 4 := by
    rw [nearestDouble_eq 2 (2 ^ 52) (by norm_num) (by norm_num) (by norm_num) (by norm_num)]; norm_num
  have v6 : nearestDouble 6 = 6 := by
    rw [nearestDouble_eq 2 (6 * 2 ^ 50) (by norm_num) (by norm_num) (by norm_num) (by norm_num)]; norm_num
  have v8 : nearestDouble 8 = 8 := by
    rw [nearestDouble_eq 3 (2 ^ 52) (by norm_num) (by norm_num) (by norm_num) (by norm_num)]; norm_num
  have v12 : nearestDouble 12 = 12 := by
    rw [nearestDouble_eq 3 (12 * 2 ^ 49) (by norm_num) (by norm_num) (by norm_num) (by norm_num)]; norm_num
  -- the roots
  have l3 : (2 * 7800463371553962 - 1) / 2 ^ 53 < Real.sqrt 3 := by
    apply Real.lt_sqrt_of_sq_lt; norm_num
  have u3 : Real.sqrt 3 < (2 * 7800463371553962 + 1) / 2 ^ 53 := by
    rw [Real.sqrt_lt' (by norm_num)]; norm_num
  have s3 : nearestDouble (Real.sqrt 3) = 7800463371553962 / 2 ^ 52 := by
    have hp : |Real.sqrt 3| = Real.sqrt 3 := abs_of_nonneg (Real.sqrt_nonneg _)
    rw [nearestDouble_eq 0 7800463371553962 (by norm_num) (by rw [hp]; norm_num at l3 ⊢) (by rw [hp]; norm_num at u3 ⊢; linarith) ?_]
    · norm_num
    · rw [abs_lt]
      norm_num at l3 u3 ⊢
      constructor <;> linarith
  have h12 : Real.sqrt 12 = 2 * Real.sqrt 3 := by
    rw [show (12 : ℝ) = 2 ^ 2 * 3 by norm_num, Real.sqrt_mul (by norm_num), Real.sqrt_sq (by norm_num)]
  have s12 : nearestDouble (Real.sqrt 12) = 7800463371553962 / 2 ^ 51 := by
    have hp : |Real.sqrt 12| = Real.sqrt 12 := abs_of_nonneg (Real.sqrt_nonneg _)
    rw [nearestDouble_eq 1 7800463371553962 (by norm_num) (by rw [hp, h12]; norm_num at l3 ⊢; try linarith)
      (by rw [hp, h12]; norm_num at u3 ⊢; linarith) ?_]
    · norm_num
    · rw [abs_lt, h12]
      norm_num at l3 u3 ⊢
      constructor <;> linarith
  have sp : nearestDouble (7800463371553962 / 2 ^ 52 * (7800463371553962 / 2 ^ 51)) = 6755399441055743 / 2 ^ 50 := by
    rw [nearestDouble_eq 2 6755399441055743 (by norm_num) (by norm_num [le_abs]) (by norm_num [abs_lt]) (by norm_num [abs_lt])]; norm_num
  have sq : nearestDouble (6 / (6755399441055743 / 2 ^ 50)) = 1 + 1 / 2 ^ 52 := by
    rw [nearestDouble_eq 0 4503599627370497 (by norm_num) (by norm_num [le_abs]) (by norm_num [abs_lt]) (by norm_num [abs_lt])]; norm_num
  -- the vectors
  have e0 : sub nearestDouble ⟨1, 1, 1⟩ ⟨0, 0, 0⟩ = ⟨1, 1, 1⟩ := by simp only [sub, sub_zero, v1]
  have e1 : sub nearestDouble ⟨2, 2, 2⟩ ⟨0, 0, 0⟩ = ⟨2, 2, 2⟩ := by simp only [sub, sub_zero, v2]
  have e2 : sub nearestDouble ⟨0, 0, 0⟩ ⟨1, 1, 1⟩ = ⟨-1, -1, -1⟩ := by simp only [sub, zero_sub, vm1]
  have e3 : sub nearestDouble ⟨0, 0, 0⟩ ⟨2, 2, 2⟩ = ⟨-2, -2, -2⟩ := by simp only [sub, zero_sub, vm2]
  have e4 : sub nearestDouble ⟨1, 1, 1⟩ ⟨2, 2, 2⟩ = ⟨-1, -1, -1⟩ := by
    simp only [sub]; rw [show (1 : ℝ) - 2 = -1 by norm_num, vm1]
  have n1 : doubleLib.norm ⟨-1, -1, -1⟩ = 7800463371553962 / 2 ^ 52 := by
    simp only [doubleLib, doubleDot]
    rw [show (-1 : ℝ) * -1 = 1 by norm_num, v1, show (1 : ℝ) + 1 = 2 by norm_num, v2, show (2 : ℝ) + 1 = 3 by norm_num, v3, s3]
  have n2 : doubleLib.norm ⟨-2, -2, -2⟩ = 7800463371553962 / 2 ^ 51 := by
    simp only [doubleLib, doubleDot]
    rw [show (-2 : ℝ) * -2 = 4 by norm_num, v4, show (4 : ℝ) + 4 = 8 by norm_num, v8, show (8 : ℝ) + 4 = 12 by norm_num, v12, s12]
  have hd : doubleLib.dot ⟨1, 1, 1⟩ ⟨2, 2, 2⟩ = 6 := by
    simp only [doubleLib, doubleDot, one_mul, v2]
    rw [show (2 : ℝ) + 2 = 4 by norm_num, v4, show (4 : ℝ) + 2 = 6 by norm_num, v6]
  have c1 : ¬ ((⟨1, 1, 1⟩ : V3) = neg ⟨2, 2, 2⟩) := fun h => by
    have := congrArg V3.x h
    norm_num [neg] at this
  have c2 : ¬ ((⟨1, 1, 1⟩ : V3) = ⟨2, 2, 2⟩) := fun h => by
    have := congrArg V3.x h
    norm_num at this
  refine ⟨7800463371553962 / 2 ^ 52, ?_, by norm_num, by norm_num⟩
  simp only [angleAcc, e0, e1, e2, e3, e4, n1, n2, hd, sp, sq]
  rw [if_neg (by rw [e0, e1]; exact c1), if_neg (by rw [e0, e1]; exact c2), if_neg (by norm_num), arccosF, if_neg (by norm_num [abs_le])]
  rfl

/-- C152 is refuted in double precision also for the candidates the tracker keeps: with the limits 100 gon and 2 mm the particle of
`C152_straight_refuted` is not kept, although it goes straight on (angle 0) and its acceleration is below the limit: exact arithmetic
keeps it. -/
theorem C152_kept_refuted (ac : ℝ → ℝ) :
    (∃ angle acc, angleAcc nearestDouble doubleLib ac ⟨0, 0, 0⟩ ⟨1, 1, 1⟩ ⟨2, 2, 2⟩ = .ok (angle, acc) ∧
      ¬ kept nearestDouble angle acc 100 2) ∧
    Geo.angleAcc ⟨0, 0, 0⟩ ⟨1, 1, 1⟩ ⟨2, 2, 2⟩ = .ok (0, Real.sqrt 3) ∧ kept id (some 0) (Real.sqrt 3) 100 2 := by
  have u3 : Real.sqrt 3 < 1.8 := by
    rw [Real.sqrt_lt' (by norm_num)]; norm_num
  refine ⟨?_, ?_, Or.inl ⟨by linarith, 0, rfl, by norm_num⟩⟩
  · obtain ⟨acc, h, h1, h2⟩ := C152_straight_refuted ac
    refine ⟨_, _, h, ?_⟩
    rintro (⟨-, a, h, -⟩ | h)
    · exact absurd h (by simp)
    · rw [nearestDouble_eq (-3) 7205759403792794 (by norm_num) (by norm_num [le_abs]) (by norm_num [abs_lt]) (by norm_num [abs_lt])] at h
      norm_num at h h1
      linarith
  · obtain ⟨angle, acc, h, -, -, -, h0, -⟩ := C47_angle_partial ⟨0, 0, 0⟩ ⟨1, 1, 1⟩ ⟨2, 2, 2⟩
      (fun h => by have := congrArg V3.x h; norm_num at this) (fun h => by have := congrArg V3.x h; norm_num at this)
    have ha : angle = 0 := h0.2 ⟨2, by norm_num, by ext <;> norm_num [V3.smul]⟩
    have hc := C47_acceleration _ _ _ _ _ h
    rw [h, ha, hc]
    congr 2
    rw [V3.norm]
    norm_num

end Verif.Round
