/-
C147: the correction undoes the distortion of every weak lens, with all its kinds of distortion, up to a rest of second order.
-/
import Verif.Proofs.WeakLens
import Verif.Spec.Precision

namespace Verif.Geo
open V3 Spec

/-- C147: a lens that displaces by at most 1 % up to the radius `R`, with any of radial distortion, decentering, scale and shear.
Whatever point `P` within the radius `R`, and whatever measured point `m` within 0.9 `R`: the corrected `m` is as near to `P` as `m` is
to the distorted image of `P`, up to the factor 5/2 and the rest. -/
theorem C147_correction (ap : AddPar) (R κ tol : ℝ) (P m : ℝ × ℝ) (h : WeakLens ap R κ) (htol : 0 ≤ tol)
    (hP : Real.sqrt (P.1 ^ 2 + P.2 ^ 2) ≤ R) (hm : Real.sqrt (m.1 ^ 2 + m.2 ^ 2) ≤ 0.9 * R) :
    imageDist P (correctBrownAffine m.1 m.2 ap tol) ≤ 5 / 2 * imageDist (distortBrownAffine P.1 P.2 ap) m + lensRest ap R κ tol := by
  have hc := weakLens_correction h hm hP htol
  have h1 := radius_le_sum (P.1 - (correctBrownAffine m.1 m.2 ap tol).1) (P.2 - (correctBrownAffine m.1 m.2 ap tol).2)
  rw [abs_sub_comm, abs_sub_comm P.2] at h1
  have h2 : |m.1 - (distortBrownAffine P.1 P.2 ap).1| + |m.2 - (distortBrownAffine P.1 P.2 ap).2|
      ≤ 3 / 2 * imageDist (distortBrownAffine P.1 P.2 ap) m := by
    rw [abs_sub_comm m.1, abs_sub_comm m.2, imageDist]
    set a := (distortBrownAffine P.1 P.2 ap).1 - m.1
    set b := (distortBrownAffine P.1 P.2 ap).2 - m.2
    have hs := Real.sq_sqrt (by positivity : 0 ≤ a ^ 2 + b ^ 2)
    have h0 := Real.sqrt_nonneg (a ^ 2 + b ^ 2)
    apply abs_le_of_sq_le_sq' _ (by positivity) |>.2
    nlinarith [sq_abs a, sq_abs b, sq_nonneg (|a| - |b|)]
  have h0 : 0 ≤ imageDist (distortBrownAffine P.1 P.2 ap) m := Real.sqrt_nonneg _
  rw [imageDist]
  linarith

/-- C147, without noise: what remains of the distortion after the correction. -/
theorem C147_undoes (ap : AddPar) (R κ tol : ℝ) (P : ℝ × ℝ) (h : WeakLens ap R κ) (htol : 0 ≤ tol)
    (hP : Real.sqrt (P.1 ^ 2 + P.2 ^ 2) ≤ R)
    (hm : Real.sqrt ((distortBrownAffine P.1 P.2 ap).1 ^ 2 + (distortBrownAffine P.1 P.2 ap).2 ^ 2) ≤ 0.9 * R) :
    imageDist P (correctBrownAffine (distortBrownAffine P.1 P.2 ap).1 (distortBrownAffine P.1 P.2 ap).2 ap tol) ≤ lensRest ap R κ tol := by
  have := C147_correction ap R κ tol P (distortBrownAffine P.1 P.2 ap) h htol hP hm
  have e : imageDist (distortBrownAffine P.1 P.2 ap) (distortBrownAffine P.1 P.2 ap) = 0 := by simp [imageDist]
  rw [e] at this
  linarith

/-- C147, with the principal point: `dist_to_flat` undoes `flat_to_dist`. -/
theorem C147_flat (ap : AddPar) (xh yh R κ tol : ℝ) (f m : ℝ × ℝ) (h : WeakLens ap R κ) (htol : 0 ≤ tol)
    (hf : Real.sqrt ((f.1 + xh) ^ 2 + (f.2 + yh) ^ 2) ≤ R) (hm : Real.sqrt (m.1 ^ 2 + m.2 ^ 2) ≤ 0.9 * R) :
    imageDist f (distToFlat m.1 m.2 xh yh ap tol) ≤ 5 / 2 * imageDist (flatToDist f.1 f.2 xh yh ap) m + lensRest ap R κ tol := by
  have := C147_correction ap R κ tol (f.1 + xh, f.2 + yh) m h htol hf hm
  refine le_trans (le_of_eq ?_) this
  simp only [distToFlat, imageDist]
  congr 1
  ring

/-- A lens with every kind of distortion: three radial terms, two of decentering, scale and shear. -/
noncomputable def everyLens : AddPar := ⟨5 / 10 ^ 5, 1 / 10 ^ 7, -1 / 10 ^ 9, 1 / 10 ^ 5, -2 / 10 ^ 5, 1 + 2 / 10 ^ 3, 1 / 10 ^ 3⟩

theorem everyLens_weak : WeakLens everyLens 6 (6 / 10 ^ 3) := by
  refine ⟨by norm_num, ?_, by norm_num⟩
  simp only [everyLens]
  rw [abs_of_pos, abs_of_pos, abs_of_neg, abs_of_pos, abs_of_neg, abs_of_pos, abs_of_pos] <;> norm_num

/-- The hypotheses are met: the point (3, 4), 5 mm from the centre of that lens, imaged with an error of (5, -10) µm. The
correction leaves of the distortion at most 6 µm, and twice and a half the error. -/
example : imageDist (3, 4) (correctBrownAffine ((distortBrownAffine 3 4 everyLens).1 + 5 / 1000)
    ((distortBrownAffine 3 4 everyLens).2 - 1 / 100) everyLens (1 / 10 ^ 5)) ≤ 5 / 2 * (12 / 1000) + 6 / 1000 := by
  have h5 : Real.sqrt (((3 : ℝ), (4 : ℝ)).1 ^ 2 + ((3 : ℝ), (4 : ℝ)).2 ^ 2) = 5 := by
    rw [show ((3 : ℝ), (4 : ℝ)).1 ^ 2 + ((3 : ℝ), (4 : ℝ)).2 ^ 2 = 5 ^ 2 by norm_num]
    exact Real.sqrt_sq (by norm_num)
  have hmv := (weakLens_numbers everyLens_weak).moved (X := 3) (Y := 4) (by
    have : Real.sqrt ((3 : ℝ) ^ 2 + 4 ^ 2) = 5 := h5
    rw [this]; norm_num)
  have hr := radius_diff ((distortBrownAffine 3 4 everyLens).1 + 5 / 1000) ((distortBrownAffine 3 4 everyLens).2 - 1 / 100) 3 4
  have hP : Real.sqrt ((3 : ℝ) ^ 2 + 4 ^ 2) = 5 := h5
  rw [hP] at hr
  have hr' := (abs_le.1 hr).2
  have t1 := abs_add_le ((distortBrownAffine 3 4 everyLens).1 - 3) (5 / 1000)
  have t2 := abs_sub ((distortBrownAffine 3 4 everyLens).2 - 4) (1 / 100)
  rw [show (distortBrownAffine 3 4 everyLens).1 - 3 + 5 / 1000 = (distortBrownAffine 3 4 everyLens).1 + 5 / 1000 - 3 by ring,
    abs_of_pos (by norm_num : (0 : ℝ) < 5 / 1000)] at t1
  rw [show (distortBrownAffine 3 4 everyLens).2 - 4 - 1 / 100 = (distortBrownAffine 3 4 everyLens).2 - 1 / 100 - 4 by ring,
    abs_of_pos (by norm_num : (0 : ℝ) < 1 / 100)] at t2
  have key := C147_correction everyLens 6 (6 / 10 ^ 3) (1 / 10 ^ 5) (3, 4) ((distortBrownAffine 3 4 everyLens).1 + 5 / 1000,
    (distortBrownAffine 3 4 everyLens).2 - 1 / 100) everyLens_weak (by norm_num) (by rw [h5]; norm_num) (by
      simp only
      linarith)
  have hn : imageDist (distortBrownAffine 3 4 everyLens) ((distortBrownAffine 3 4 everyLens).1 + 5 / 1000,
      (distortBrownAffine 3 4 everyLens).2 - 1 / 100) ≤ 12 / 1000 := by
    rw [imageDist]
    apply Real.sqrt_le_iff.2
    refine ⟨by norm_num, ?_⟩
    simp only
    ring_nf
    norm_num
  have hrest : lensRest everyLens 6 (6 / 10 ^ 3) (1 / 10 ^ 5) ≤ 6 / 1000 := by
    simp only [lensRest, everyLens]
    rw [abs_of_pos, abs_of_pos] <;> norm_num
  linarith

end Verif.Geo
