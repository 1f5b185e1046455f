/-
C23, C24, C25: pixel/metric conversion, lens distortion, rotation matrix.
-/
import Verif.Model.Trafo
import Verif.Spec.Trafo
import Verif.Proofs.Distortion
import Mathlib.Tactic.NormNum
import Mathlib.Tactic.LinearCombination

namespace Verif.Geo
open Verif.Geo.Spec

/-! ### C23 -/

/-- C23: for non-zero pixel sizes `metric_to_pixel` and `pixel_to_metric` undo each other. -/
theorem C23_inverse (c : ImgPar) (hx : c.pixX ≠ 0) (hy : c.pixY ≠ 0) (a b : ℝ) :
    metricToPixel (pixelToMetric a b c).1 (pixelToMetric a b c).2 c = (a, b) ∧
    pixelToMetric (metricToPixel a b c).1 (metricToPixel a b c).2 c = (a, b) := by
  simp only [metricToPixel, pixelToMetric, Prod.mk.injEq]
  refine ⟨⟨?_, ?_⟩, ?_, ?_⟩ <;> field_simp <;> ring

/-- C23: the image centre is the metric origin, x grows to the right and y grows upwards by one
pixel size per pixel. -/
theorem C23_orientation (c : ImgPar) (a b da db : ℝ) :
    pixelToMetric ((c.imx : ℝ) / 2) ((c.imy : ℝ) / 2) c = (0, 0) ∧
    (pixelToMetric (a + da) b c).1 = (pixelToMetric a b c).1 + da * c.pixX ∧
    (pixelToMetric a (b + db) c).2 = (pixelToMetric a b c).2 - db * c.pixY := by
  simp only [pixelToMetric, Prod.mk.injEq]
  refine ⟨⟨?_, ?_⟩, ?_, ?_⟩ <;> ring

/-- C23: `arr_metric_to_pixel` has one row per input row, equal to `metric_to_pixel` of that row. -/
theorem C23_array_pixels (c : ImgPar) (l : List (ℝ × ℝ)) :
    (arrMetricToPixel l c).length = l.length ∧
    ∀ (i : ℕ) (p : ℝ × ℝ), l[i]? = some p → (arrMetricToPixel l c)[i]? = some (metricToPixel p.1 p.2 c) := by
  have h2 : arrMetricToPixel l c = l.map fun p => metricToPixel p.1 p.2 c := by
    induction l with
    | nil => rfl
    | cons p l ih =>
      simp only [arrMetricToPixel, zipCols, List.map_cons, List.zip_cons_cons] at ih ⊢
      rw [ih]; rfl
  refine ⟨by simp [h2], fun i p hp => ?_⟩
  simp [h2, hp]

/-- C23 (partial): for whole pixel positions in an array of type `int32`, `arr_pixel_to_metric` returns one row per input row, equal to
`pixel_to_metric` of that row. Missing: other arrays (`C23_array_float_refuted`). -/
theorem C23_array_metric_partial (c : ImgPar) (l : List (ℤ × ℤ)) : ∃ m : List (ℝ × ℝ), arrPixelToMetric (.int32 l) c = .ok m ∧
    m.length = l.length ∧ ∀ (i : ℕ) (p : ℤ × ℤ), l[i]? = some p → m[i]? = some (pixelToMetric p.1 p.2 c) := by
  refine ⟨_, rfl, ?_⟩
  have h1 : metricColumns (l.map fun r : ℤ × ℤ => ((r.1 : ℝ), (r.2 : ℝ))) c = l.map fun p => pixelToMetric p.1 p.2 c := by
    induction l with
    | nil => rfl
    | cons p l ih =>
      simp only [metricColumns, zipCols, List.map_cons, List.zip_cons_cons] at ih ⊢
      rw [ih]; rfl
  rw [h1]
  refine ⟨by simp, fun i p hp => ?_⟩
  simp [hp]

/-- C23 is false of arrays of pixel positions that are not of type `int32`, such as the result of `arr_metric_to_pixel`:
`arr_pixel_to_metric` raises TypeError. -/
theorem C23_array_float_refuted (c : ImgPar) (l m : List (ℝ × ℝ)) :
    arrPixelToMetric (.float64 l) c ≠ .ok m ∧ arrPixelToMetric (.float64 (arrMetricToPixel l c)) c = .error .typeError :=
  ⟨by simp [arrPixelToMetric], rfl⟩

example : (arrPixelToMetric (.int32 [(10, 20), (640, 512)]) ⟨1280, 1024, 1, 1⟩) = .ok [(-630, 492), (0, 0)] := by
  norm_num [arrPixelToMetric, metricColumns, zipCols]

example : metricToPixel (pixelToMetric 10 20 ⟨1280, 1024, 0.017, 0.017⟩).1
    (pixelToMetric 10 20 ⟨1280, 1024, 0.017, 0.017⟩).2 ⟨1280, 1024, 0.017, 0.017⟩ = (10, 20) :=
  (C23_inverse ⟨1280, 1024, 0.017, 0.017⟩ (by norm_num) (by norm_num) 10 20).1

/-! ### C24 -/

/-- The default added parameters (calibration.py `ap_52` default: all 0, `scx = 1`). -/
def defaultAddPar : AddPar := ⟨0, 0, 0, 0, 0, 1, 0⟩

private theorem corrStep_affine {x y : ℝ} {ap : AddPar} (h1 : ap.k1 = 0) (h2 : ap.k2 = 0)
    (h3 : ap.k3 = 0) (h4 : ap.p1 = 0) (h5 : ap.p2 = 0) (s : CorrState) :
    (corrStep x y ap s).yq = y / Real.cos ap.she ∧ (corrStep x y ap s).common = 0 := by
  simp [corrStep, h1, h2, h3, h4, h5]

private theorem corrLoop_is_step {x y : ℝ} {ap : AddPar} {tol : ℝ} (n : ℕ) (s : CorrState) :
    ∃ s0, corrLoop x y ap tol n s = corrStep x y ap s0 := by
  induction n generalizing s with
  | zero => exact ⟨s, rfl⟩
  | succ n ih =>
    rw [corrLoop]
    split_ifs
    · exact ⟨s, rfl⟩
    · exact ih _

/-- C24, no radial or decentering terms: for every scale `scx ≠ 0` and every shear with
`cos she ≠ 0`, and whatever the tolerance, correction and distortion undo each other exactly
(in both orders). -/
theorem C24_affine_inverse (ap : AddPar) (h1 : ap.k1 = 0) (h2 : ap.k2 = 0) (h3 : ap.k3 = 0)
    (h4 : ap.p1 = 0) (h5 : ap.p2 = 0) (hs : ap.scx ≠ 0) (hc : Real.cos ap.she ≠ 0) (tol x y : ℝ) :
    distortBrownAffine (correctBrownAffine x y ap tol).1 (correctBrownAffine x y ap tol).2 ap
      = (x, y) ∧
    correctBrownAffine (distortBrownAffine x y ap).1 (distortBrownAffine x y ap).2 ap tol
      = (x, y) := by
  have hd : ∀ a b, distortBrownAffine a b ap
      = (ap.scx * a - Real.sin ap.she * b, Real.cos ap.she * b) := by
    intro a b
    simp only [distortBrownAffine]
    split_ifs with h
    · simp [h.1, h.2]
    · simp [h1, h2, h3, h4, h5]
  have hcor : ∀ a b, correctBrownAffine a b ap tol
      = ((a + b / Real.cos ap.she * Real.sin ap.she) / ap.scx, b / Real.cos ap.she) := by
    intro a b
    simp only [correctBrownAffine]
    split_ifs with h
    · simp [h.1, h.2]
    · obtain ⟨s0, hs0⟩ := corrLoop_is_step (x := a) (y := b) (ap := ap) (tol := tol) 200
        (corrInit a b)
      have := corrStep_affine (x := a) (y := b) h1 h2 h3 h4 h5 s0
      rw [hs0, corrFinal]
      simp [this.1, this.2, h4, h5]
  rw [hd, hcor, hcor, hd]
  simp only [Prod.mk.injEq]
  refine ⟨⟨?_, ?_⟩, ?_, ?_⟩ <;> field_simp <;> ring

/-- C24, default parameters: distortion and its correction are the identity. -/
theorem C24_default_identity (tol x y : ℝ) :
    distortBrownAffine x y defaultAddPar = (x, y) ∧
    correctBrownAffine x y defaultAddPar tol = (x, y) := by
  have hd : distortBrownAffine x y defaultAddPar = (x, y) := by
    simp only [distortBrownAffine, defaultAddPar]
    split_ifs with h
    · simp [h.1, h.2]
    · simp
  have := (C24_affine_inverse defaultAddPar rfl rfl rfl rfl rfl (by norm_num [defaultAddPar])
    (by norm_num [defaultAddPar]) tol x y).2
  rw [hd] at this
  exact ⟨hd, this⟩

/-- C24: the same through the principal point: without distortion terms `dist_to_flat` and
`flat_to_dist` undo each other for every principal point. -/
theorem C24_flat_dist_inverse (ap : AddPar) (h1 : ap.k1 = 0) (h2 : ap.k2 = 0) (h3 : ap.k3 = 0)
    (h4 : ap.p1 = 0) (h5 : ap.p2 = 0) (hs : ap.scx ≠ 0) (hc : Real.cos ap.she ≠ 0)
    (tol x y xh yh : ℝ) :
    flatToDist (distToFlat x y xh yh ap tol).1 (distToFlat x y xh yh ap tol).2 xh yh ap = (x, y) ∧
    distToFlat (flatToDist x y xh yh ap).1 (flatToDist x y xh yh ap).2 xh yh ap tol = (x, y) := by
  constructor
  · simp only [flatToDist, distToFlat, sub_add_cancel]
    exact (C24_affine_inverse ap h1 h2 h3 h4 h5 hs hc tol x y).1
  · simp only [flatToDist, distToFlat]
    rw [(C24_affine_inverse ap h1 h2 h3 h4 h5 hs hc tol (x + xh) (y + yh)).2]
    simp

/-- The iterate `(xq, yq)` of `correct_brown_affine` for the input `(x, y)` has converged: with its
own radius in `rq`, another pass of the loop does not move it. -/
def Converged (x y : ℝ) (ap : AddPar) (xq yq : ℝ) : Prop :=
  let s := corrStep x y ap ⟨xq, yq, Real.sqrt (xq ^ 2 + yq ^ 2), 0, 0⟩
  s.xq = xq ∧ s.yq = yq

/-- What `distort_brown_affine` does to a converged iterate, for all added parameters: the input
comes back except for two error terms, one from decentering (`p1`) and one from the shear. -/
theorem C24_converged_residual (ap : AddPar) (hs : ap.scx ≠ 0) (hc : Real.cos ap.she ≠ 0)
    (x y xq yq : ℝ) (hconv : Converged x y ap xq yq) :
    distortBrownAffine xq yq ap =
      (x + Real.sin ap.she * (yq - y / Real.cos ap.she
          - 2 * ap.p1 * ((x + yq * Real.sin ap.she) / ap.scx - xq) * yq),
       y + Real.cos ap.she * (2 * ap.p1 * ((x + yq * Real.sin ap.she) / ap.scx - xq) * yq)) := by
  obtain ⟨e1, e2⟩ := hconv
  simp only [corrStep] at e1 e2
  rw [e1] at e2
  simp only [distortBrownAffine]
  split_ifs with hz
  · obtain ⟨rfl, rfl⟩ := hz
    simp at e1 e2
    have hx : x = 0 := by rcases e1 with h | h; exact h; exact absurd h hs
    have hy : y = 0 := by rcases e2 with h | h; exact h; exact absurd h hc
    simp [hx, hy]
  · set r := Real.sqrt (xq ^ 2 + yq ^ 2)
    have e1' : xq + (xq * (ap.k1 * r ^ 2 + ap.k2 * r ^ 4 + ap.k3 * r ^ 6)
        + ap.p1 * (r ^ 2 + 2 * xq ^ 2) + 2 * ap.p2 * xq * yq)
        = (x + yq * Real.sin ap.she) / ap.scx := by linear_combination -e1
    rw [e1']
    have e2' : yq + (yq * (ap.k1 * r ^ 2 + ap.k2 * r ^ 4 + ap.k3 * r ^ 6)
        + ap.p2 * (r ^ 2 + 2 * yq ^ 2)
        + 2 * ap.p1 * ((x + yq * Real.sin ap.she) / ap.scx) * yq)
        = y / Real.cos ap.she
          + 2 * ap.p1 * ((x + yq * Real.sin ap.she) / ap.scx - xq) * yq := by
      linear_combination -e2
    rw [e2']
    simp only [Prod.mk.injEq]
    constructor <;> field_simp <;> ring

/-- C24: without `p1` decentering and with `sin she = 0` a converged iterate is mapped by
`distort_brown_affine` exactly to the input, for all radial and `p2` terms.
Missing for the full property, and false of the code (next two theorems): `p1 ≠ 0`, `sin she ≠ 0`. -/
theorem C24_converged_partial (ap : AddPar) (hp : ap.p1 = 0) (hs : ap.scx ≠ 0)
    (hsin : Real.sin ap.she = 0) (x y xq yq : ℝ) (hconv : Converged x y ap xq yq) :
    distortBrownAffine xq yq ap = (x, y) := by
  have hc : Real.cos ap.she ≠ 0 := by
    intro h; have := Real.sin_sq_add_cos_sq ap.she; rw [hsin, h] at this; norm_num at this
  rw [C24_converged_residual ap hs hc x y xq yq hconv]
  simp [hp, hsin]

/-- C24 is false with decentering: with `p1 = 1`, the iteration for the input (5,3) has converged
at (1,1), but `distort_brown_affine` maps (1,1) to (5,11). -/
theorem C24_decentering_refuted :
    Converged 5 3 ⟨0, 0, 0, 1, 0, 1, 0⟩ 1 1 ∧
    distortBrownAffine 1 1 ⟨0, 0, 0, 1, 0, 1, 0⟩ = (5, 11) := by
  have h2 : Real.sqrt 2 ^ 2 = 2 := Real.sq_sqrt (by norm_num)
  constructor
  · constructor <;> norm_num [corrStep, h2]
  · norm_num [distortBrownAffine, h2]

/-- C24 is false with shear and radial distortion: with `k1 = 1` and `she = π/4` the iteration for
the input `(3, 3 cos(π/4)) - sin(π/4)·(1, 0)` has converged at (1,1), but that point is not mapped
to the input. -/
theorem C24_shear_refuted :
    Converged (3 - Real.sin (Real.pi / 4)) (3 * Real.cos (Real.pi / 4))
      ⟨1, 0, 0, 0, 0, 1, Real.pi / 4⟩ 1 1 ∧
    distortBrownAffine 1 1 ⟨1, 0, 0, 0, 0, 1, Real.pi / 4⟩ ≠
      (3 - Real.sin (Real.pi / 4), 3 * Real.cos (Real.pi / 4)) := by
  have h2 : Real.sqrt 2 ^ 2 = 2 := Real.sq_sqrt (by norm_num)
  have h4 : Real.sqrt 2 ^ 4 = 4 := by
    rw [show (4 : ℕ) = 2 * 2 by norm_num, pow_mul, h2]; norm_num
  have hpos : 0 < Real.sqrt 2 := Real.sqrt_pos.2 (by norm_num)
  have hconv : Converged (3 - Real.sin (Real.pi / 4)) (3 * Real.cos (Real.pi / 4))
      ⟨1, 0, 0, 0, 0, 1, Real.pi / 4⟩ 1 1 := by
    constructor
    · norm_num [corrStep, h2]
    · simp only [corrStep, Real.cos_pi_div_four]
      norm_num [h2]
  refine ⟨hconv, ?_⟩
  rw [C24_converged_residual _ (by norm_num) (by simp [Real.cos_pi_div_four])
    _ _ _ _ hconv]
  intro h
  have h1 := congrArg Prod.fst h
  simp only [Real.sin_pi_div_four, Real.cos_pi_div_four] at h1
  field_simp at h1
  nlinarith

/-- A non-trivial converged case: with `k1 = 1` the iteration for (3,3) has converged at (1,1). -/
example : Converged 3 3 ⟨1, 0, 0, 0, 0, 1, 0⟩ 1 1 := by
  have h2 : Real.sqrt 2 ^ 2 = 2 := Real.sq_sqrt (by norm_num)
  constructor <;> norm_num [corrStep, h2]

/-- C24 for radial distortion, including the loop with its stopping rule and iteration limit:
whenever the radial terms at the input's radius are at most 1/24, and for every tolerance not below
2^-200, distorting the corrected point gives the input back to within `tol` times its radius.
Missing for the full property: the same bound with decentering, scale and shear. -/
theorem C24_radial_roundtrip_partial (k1 k2 k3 tol x y : ℝ)
    (hk : |k1| * (x ^ 2 + y ^ 2) + |k2| * (x ^ 2 + y ^ 2) ^ 2 + |k3| * (x ^ 2 + y ^ 2) ^ 3 ≤ 1 / 24)
    (htol : (1 / 2) ^ 200 ≤ tol) :
    let ap : AddPar := ⟨k1, k2, k3, 0, 0, 1, 0⟩
    let q := correctBrownAffine x y ap tol
    let d := distortBrownAffine q.1 q.2 ap
    Real.sqrt ((d.1 - x) ^ 2 + (d.2 - y) ^ 2) ≤ tol * Real.sqrt (x ^ 2 + y ^ 2) := by
  intro ap q d
  have ht0 : 0 ≤ tol := le_trans (by positivity) htol
  by_cases h0 : x = 0 ∧ y = 0
  · simp [d, q, correctBrownAffine, distortBrownAffine, h0.1, h0.2]
  set ρ := Real.sqrt (x ^ 2 + y ^ 2) with hρ
  have hsq : ρ ^ 2 = x ^ 2 + y ^ 2 := Real.sq_sqrt (by positivity)
  have hρ0 : 0 ≤ ρ := Real.sqrt_nonneg _
  have h' : |k1 * ρ ^ 2| + |k2 * ρ ^ 4| + |k3 * ρ ^ 6| ≤ 1 / 24 := by
    rw [abs_mul, abs_mul, abs_mul, abs_of_nonneg (by positivity : 0 ≤ ρ ^ 2),
      abs_of_nonneg (by positivity : 0 ≤ ρ ^ 4), abs_of_nonneg (by positivity : 0 ≤ ρ ^ 6),
      show ρ ^ 4 = (ρ ^ 2) ^ 2 by ring, show ρ ^ 6 = (ρ ^ 2) ^ 3 by ring, hsq]
    exact hk
  obtain ⟨s, s1, s2, s3, s4⟩ := correct_radial h0 hρ h' htol
  set t := s * (1 + radC (k1 * ρ ^ 2) (k2 * ρ ^ 4) (k3 * ρ ^ 6) s)
  have hd : d = (x * t, y * t) := by
    simp only [d, q, ap]
    rw [s3]
    exact distort_radial h0 hρ (by linarith)
  rw [hd]
  rw [show (x * t - x) ^ 2 + (y * t - y) ^ 2 = (t - 1) ^ 2 * (x ^ 2 + y ^ 2) by ring,
    Real.sqrt_mul (by positivity), Real.sqrt_sq_eq_abs, ← hρ]
  exact mul_le_mul_of_nonneg_right (by linarith) hρ0

/-- C24 for radial distortion, other order: correcting a distorted point gives the point back to
within `2 tol` times the distorted radius, if the radial terms at the distorted radius are at most
1/24 and the point itself is not displaced by more than a twelfth. -/
theorem C24_radial_roundtrip'_partial (k1 k2 k3 tol x y : ℝ) (htol : (1 / 2) ^ 200 ≤ tol)
    (hp : |k1 * (x ^ 2 + y ^ 2) + k2 * (x ^ 2 + y ^ 2) ^ 2 + k3 * (x ^ 2 + y ^ 2) ^ 3| ≤ 1 / 12) :
    let ap : AddPar := ⟨k1, k2, k3, 0, 0, 1, 0⟩
    let d := distortBrownAffine x y ap
    let ρ2 := d.1 ^ 2 + d.2 ^ 2
    let q := correctBrownAffine d.1 d.2 ap tol
    |k1| * ρ2 + |k2| * ρ2 ^ 2 + |k3| * ρ2 ^ 3 ≤ 1 / 24 →
    Real.sqrt ((q.1 - x) ^ 2 + (q.2 - y) ^ 2) ≤ 2 * tol * Real.sqrt ρ2 := by
  intro ap d ρ2 q hk
  have ht0 : 0 ≤ tol := le_trans (by positivity) htol
  by_cases h0 : x = 0 ∧ y = 0
  · simp [q, d, ρ2, correctBrownAffine, distortBrownAffine, h0.1, h0.2]
  have hsq : Real.sqrt (x ^ 2 + y ^ 2) ^ 2 = x ^ 2 + y ^ 2 := Real.sq_sqrt (by positivity)
  set e := k1 * (x ^ 2 + y ^ 2) + k2 * (x ^ 2 + y ^ 2) ^ 2 + k3 * (x ^ 2 + y ^ 2) ^ 3 with he
  have hd : d = (x * (1 + e), y * (1 + e)) := by
    have := distort_radial (k1 := k1) (k2 := k2) (k3 := k3) (s := 1) h0 rfl one_pos
    simp only [mul_one, one_mul, radC, one_pow] at this
    simp only [d, ap, this]
    rw [show Real.sqrt (x ^ 2 + y ^ 2) ^ 4 = (Real.sqrt (x ^ 2 + y ^ 2) ^ 2) ^ 2 by ring,
      show Real.sqrt (x ^ 2 + y ^ 2) ^ 6 = (Real.sqrt (x ^ 2 + y ^ 2) ^ 2) ^ 3 by ring, hsq]
  have he' := abs_le.1 hp
  have h1e : 0 < 1 + e := by linarith
  have hne : ¬(d.1 = 0 ∧ d.2 = 0) := by
    rw [hd]; rintro ⟨h1, h2⟩
    exact h0 ⟨(mul_eq_zero.1 h1).resolve_right h1e.ne', (mul_eq_zero.1 h2).resolve_right h1e.ne'⟩
  set ρ := Real.sqrt ρ2 with hρ
  have hρsq : ρ ^ 2 = ρ2 := Real.sq_sqrt (by simp only [ρ2]; positivity)
  have hρ0 : 0 ≤ ρ := Real.sqrt_nonneg _
  have h' : |k1 * ρ ^ 2| + |k2 * ρ ^ 4| + |k3 * ρ ^ 6| ≤ 1 / 24 := by
    rw [abs_mul, abs_mul, abs_mul, abs_of_nonneg (by positivity : 0 ≤ ρ ^ 2),
      abs_of_nonneg (by positivity : 0 ≤ ρ ^ 4), abs_of_nonneg (by positivity : 0 ≤ ρ ^ 6),
      show ρ ^ 4 = (ρ ^ 2) ^ 2 by ring, show ρ ^ 6 = (ρ ^ 2) ^ 3 by ring, hρsq]
    exact hk
  obtain ⟨s, s1, s2, s3, s4⟩ := correct_radial hne hρ h' htol
  -- the true scale factor
  set t := 1 / (1 + e) with htdef
  have ht1 : 10 / 11 ≤ t := by rw [htdef, le_div_iff₀ h1e]; linarith
  have ht2 : t ≤ 12 / 11 := by rw [htdef, div_le_iff₀ h1e]; linarith
  have hxt : d.1 * t = x := by rw [hd, htdef]; field_simp
  have hyt : d.2 * t = y := by rw [hd, htdef]; field_simp
  have hteq : t * (1 + radC (k1 * ρ ^ 2) (k2 * ρ ^ 4) (k3 * ρ ^ 6) t) = 1 := by
    have hte : t ^ 2 * ρ ^ 2 = x ^ 2 + y ^ 2 := by
      rw [hρsq, ← hxt, ← hyt]; simp only [ρ2]; ring
    have : radC (k1 * ρ ^ 2) (k2 * ρ ^ 4) (k3 * ρ ^ 6) t = e := by
      rw [he, ← hte, radC]; ring
    rw [this, htdef]; field_simp
  have hl := radC_lip h' s1 s2 ht1 ht2
  set Cs := radC (k1 * ρ ^ 2) (k2 * ρ ^ 4) (k3 * ρ ^ 6) s
  set Ct := radC (k1 * ρ ^ 2) (k2 * ρ ^ 4) (k3 * ρ ^ 6) t
  have hst : |s - t| ≤ 2 * tol := by
    have e1 : s - t = (s * (1 + Cs) - 1) + -(s * Cs - t * Ct) := by linear_combination -hteq
    have : |s - t| ≤ 7 / 10 * tol + 1 / 2 * |s - t| := by
      calc |s - t| = |(s * (1 + Cs) - 1) + -(s * Cs - t * Ct)| := by rw [← e1]
        _ ≤ _ := (abs_add_le _ _).trans (by rw [abs_neg]; linarith)
    linarith
  have hq : q = (d.1 * s, d.2 * s) := s3
  rw [hq]
  rw [show (d.1 * s - x) ^ 2 + (d.2 * s - y) ^ 2 = (s - t) ^ 2 * ρ2 by
    rw [← hxt, ← hyt]; simp only [ρ2]; ring,
    Real.sqrt_mul (by positivity), Real.sqrt_sq_eq_abs, ← hρ]
  exact mul_le_mul_of_nonneg_right hst hρ0

/-- Realistic values meet the hypotheses: a 3 mm radius with `k1 = 0.004` (3.6 % distortion). -/
example : |(0.004 : ℝ)| * ((3 : ℝ) ^ 2 + 0 ^ 2) + |(0 : ℝ)| * (3 ^ 2 + 0 ^ 2) ^ 2
    + |(0 : ℝ)| * (3 ^ 2 + 0 ^ 2) ^ 3 ≤ 1 / 24 ∧ ((1 : ℝ) / 2) ^ 200 ≤ 1e-5 := by
  constructor <;> norm_num

/-! ### C25 -/

/-- C25: for all angles the matrix is a proper rotation (orthogonal, determinant 1) and is the
product of the elementary rotations about the x, y and z axes. -/
theorem C25_rotation (omega phi kappa : ℝ) :
    toMatrix (rotationMatrix omega phi kappa) = rotX omega * rotY phi * rotZ kappa ∧
    toMatrix (rotationMatrix omega phi kappa) ∈ Matrix.specialOrthogonalGroup (Fin 3) ℝ := by
  have hX : ∀ a, rotX a ∈ Matrix.specialOrthogonalGroup (Fin 3) ℝ := by
    intro a
    have := Real.sin_sq_add_cos_sq a
    rw [Matrix.mem_specialOrthogonalGroup_iff, Matrix.mem_orthogonalGroup_iff]
    constructor
    · ext i j
      fin_cases i <;> fin_cases j <;>
        simp [rotX, Matrix.mul_apply, Fin.sum_univ_three] <;> nlinarith
    · simp [rotX, Matrix.det_fin_three]; nlinarith
  have hY : ∀ a, rotY a ∈ Matrix.specialOrthogonalGroup (Fin 3) ℝ := by
    intro a
    have := Real.sin_sq_add_cos_sq a
    rw [Matrix.mem_specialOrthogonalGroup_iff, Matrix.mem_orthogonalGroup_iff]
    constructor
    · ext i j
      fin_cases i <;> fin_cases j <;>
        simp [rotY, Matrix.mul_apply, Fin.sum_univ_three] <;> nlinarith
    · simp [rotY, Matrix.det_fin_three]; nlinarith
  have hZ : ∀ a, rotZ a ∈ Matrix.specialOrthogonalGroup (Fin 3) ℝ := by
    intro a
    have := Real.sin_sq_add_cos_sq a
    rw [Matrix.mem_specialOrthogonalGroup_iff, Matrix.mem_orthogonalGroup_iff]
    constructor
    · ext i j
      fin_cases i <;> fin_cases j <;>
        simp [rotZ, Matrix.mul_apply, Fin.sum_univ_three] <;> nlinarith
    · simp [rotZ, Matrix.det_fin_three]; nlinarith
  have e : toMatrix (rotationMatrix omega phi kappa) = rotX omega * rotY phi * rotZ kappa := by
    ext i j
    fin_cases i <;> fin_cases j <;>
      simp [toMatrix, rotationMatrix, rotX, rotY, rotZ, Matrix.mul_apply, Fin.sum_univ_three] <;>
      ring
  exact ⟨e, e ▸ mul_mem (mul_mem (hX _) (hY _)) (hZ _)⟩

/-- C25: hence rotating a vector keeps its length, for all angles. -/
theorem C25_isometry (omega phi kappa : ℝ) (v : V3) :
    ((rotationMatrix omega phi kappa).mulVec v).norm = v.norm := by
  have ho := Real.sin_sq_add_cos_sq omega
  have hp := Real.sin_sq_add_cos_sq phi
  have hk := Real.sin_sq_add_cos_sq kappa
  rw [V3.norm, V3.norm]
  congr 1
  simp only [M3.mulVec, V3.dot, rotationMatrix]
  generalize Real.sin omega = so at *
  generalize Real.cos omega = co at *
  generalize Real.sin phi = sp at *
  generalize Real.cos phi = cp at *
  generalize Real.sin kappa = sk at *
  generalize Real.cos kappa = ck at *
  have e1 : so ^ 2 = 1 - co ^ 2 := by linarith
  have e2 : sp ^ 2 = 1 - cp ^ 2 := by linarith
  have e3 : sk ^ 2 = 1 - ck ^ 2 := by linarith
  ring_nf
  simp only [e1, e2, e3]
  ring

/-- A non-trivial instance: a quarter turn about x maps the y axis to the z axis. -/
example : (rotationMatrix (Real.pi / 2) 0 0).mulVec ⟨0, 1, 0⟩ = ⟨0, 0, 1⟩ := by
  ext <;> simp [rotationMatrix, M3.mulVec, V3.dot]

end Verif.Geo
