/-
The lens correction for lenses with all kinds of distortion.
-/
import Verif.Spec.WeakLens
import Mathlib.Analysis.SpecialFunctions.Trigonometric.Bounds
import Mathlib.Algebra.Order.Ring.GeomSum
import Mathlib.Tactic.Linarith
import Mathlib.Tactic.FieldSimp

namespace Verif.Geo
open Spec

/-- The radial polynomial. -/
noncomputable def radialTerm (ap : AddPar) (r : ℝ) : ℝ := ap.k1 * r ^ 2 + ap.k2 * r ^ 4 + ap.k3 * r ^ 6

/-- Its bound. -/
noncomputable def radialBound (ap : AddPar) (R : ℝ) : ℝ := |ap.k1| * R ^ 2 + |ap.k2| * R ^ 4 + |ap.k3| * R ^ 6

theorem radialBound_nonneg (ap : AddPar) (R : ℝ) : 0 ≤ radialBound ap R := by unfold radialBound; positivity

theorem radial_le {ap : AddPar} {r R : ℝ} (h0 : 0 ≤ r) (h : r ≤ R) : |radialTerm ap r| ≤ radialBound ap R := by
  unfold radialTerm radialBound
  refine (abs_add_three _ _ _).trans ?_
  rw [abs_mul, abs_mul, abs_mul, abs_of_nonneg (by positivity : 0 ≤ r ^ 2), abs_of_nonneg (by positivity : 0 ≤ r ^ 4),
    abs_of_nonneg (by positivity : 0 ≤ r ^ 6)]
  gcongr

theorem pow_diff {r t R : ℝ} (hr : 0 ≤ r) (hr' : r ≤ R) (ht : 0 ≤ t) (ht' : t ≤ R) (n : ℕ) :
    |r ^ (n + 1) - t ^ (n + 1)| ≤ (n + 1) * R ^ n * |r - t| := by
  have h := abs_pow_sub_pow_le (α := ℝ) r t (n + 1)
  rw [abs_of_nonneg hr, abs_of_nonneg ht] at h
  simp only [Nat.add_sub_cancel] at h
  have hmax : max r t ^ n ≤ R ^ n := pow_le_pow_left₀ (le_max_of_le_left hr) (max_le hr' ht') n
  refine h.trans ?_
  push_cast
  have := mul_le_mul_of_nonneg_left hmax (by positivity : 0 ≤ |r - t| * (n + 1))
  linarith

theorem radial_diff {ap : AddPar} {r t R : ℝ} (hr : 0 ≤ r) (hr' : r ≤ R) (ht : 0 ≤ t) (ht' : t ≤ R) :
    R * |radialTerm ap r - radialTerm ap t| ≤ 6 * radialBound ap R * |r - t| := by
  have hR : 0 ≤ R := hr.trans hr'
  have h2 := pow_diff hr hr' ht ht' 1
  have h4 := pow_diff hr hr' ht ht' 3
  have h6 := pow_diff hr hr' ht ht' 5
  norm_num at h2 h4 h6
  have e : radialTerm ap r - radialTerm ap t = ap.k1 * (r ^ 2 - t ^ 2) + ap.k2 * (r ^ 4 - t ^ 4) + ap.k3 * (r ^ 6 - t ^ 6) := by
    unfold radialTerm; ring
  have h := abs_add_three (ap.k1 * (r ^ 2 - t ^ 2)) (ap.k2 * (r ^ 4 - t ^ 4)) (ap.k3 * (r ^ 6 - t ^ 6))
  rw [← e, abs_mul, abs_mul, abs_mul] at h
  have a2 := mul_le_mul_of_nonneg_left h2 (abs_nonneg ap.k1)
  have a4 := mul_le_mul_of_nonneg_left h4 (abs_nonneg ap.k2)
  have a6 := mul_le_mul_of_nonneg_left h6 (abs_nonneg ap.k3)
  have hh := mul_le_mul_of_nonneg_left (h.trans (add_le_add (add_le_add a2 a4) a6)) hR
  refine hh.trans ?_
  unfold radialBound
  have hd := abs_nonneg (r - t)
  have b2 : 0 ≤ |ap.k1| * R ^ 2 * |r - t| := by positivity
  have b4 : 0 ≤ |ap.k2| * R ^ 4 * |r - t| := by positivity
  nlinarith

theorem abs_le_radius (x y : ℝ) : |x| ≤ Real.sqrt (x ^ 2 + y ^ 2) ∧ |y| ≤ Real.sqrt (x ^ 2 + y ^ 2) := by
  constructor <;> rw [← Real.sqrt_sq_eq_abs] <;> apply Real.sqrt_le_sqrt <;> nlinarith [sq_nonneg x, sq_nonneg y]

theorem radius_le_sum (x y : ℝ) : Real.sqrt (x ^ 2 + y ^ 2) ≤ |x| + |y| := by
  apply Real.sqrt_le_iff.2
  refine ⟨by positivity, ?_⟩
  have := sq_abs x
  have := sq_abs y
  nlinarith [mul_nonneg (abs_nonneg x) (abs_nonneg y)]

theorem radius_diff (a b x y : ℝ) : |Real.sqrt (a ^ 2 + b ^ 2) - Real.sqrt (x ^ 2 + y ^ 2)| ≤ |a - x| + |b - y| := by
  have key : ∀ a b x y : ℝ, Real.sqrt (a ^ 2 + b ^ 2) ≤ Real.sqrt (x ^ 2 + y ^ 2) + (|a - x| + |b - y|) := by
    intro a b x y
    apply Real.sqrt_le_iff.2
    refine ⟨by positivity, ?_⟩
    obtain ⟨h1, h2⟩ := abs_le_radius x y
    set ρ := Real.sqrt (x ^ 2 + y ^ 2)
    have hρ : ρ ^ 2 = x ^ 2 + y ^ 2 := Real.sq_sqrt (by positivity)
    have e1 : a ^ 2 = x ^ 2 + 2 * (x * (a - x)) + |a - x| ^ 2 := by rw [sq_abs]; ring
    have e2 : b ^ 2 = y ^ 2 + 2 * (y * (b - y)) + |b - y| ^ 2 := by rw [sq_abs]; ring
    have i1 : x * (a - x) ≤ ρ * |a - x| := (le_abs_self _).trans (by rw [abs_mul]; exact mul_le_mul_of_nonneg_right h1 (abs_nonneg _))
    have i2 : y * (b - y) ≤ ρ * |b - y| := (le_abs_self _).trans (by rw [abs_mul]; exact mul_le_mul_of_nonneg_right h2 (abs_nonneg _))
    nlinarith [mul_nonneg (abs_nonneg (a - x)) (abs_nonneg (b - y))]
  rw [abs_le]
  have h1 := key a b x y
  have h2 := key x y a b
  rw [abs_sub_comm x a, abs_sub_comm y b] at h2
  constructor <;> linarith

/-- One coordinate times the radial term. -/
theorem radial_part {q X c c0 u K kd : ℝ} (hu : |q - X| = u) (hc : |c| ≤ K) (hd : |X| * |c - c0| ≤ kd) :
    |q * c - X * c0| ≤ K * u + kd := by
  have e : q * c - X * c0 = (q - X) * c + X * (c - c0) := by ring
  rw [e]
  refine (abs_add_le _ _).trans ?_
  rw [abs_mul, abs_mul, hu]
  have := mul_le_mul_of_nonneg_left hc (hu ▸ abs_nonneg (q - X) : 0 ≤ u)
  linarith

theorem sq_part {q X u R : ℝ} (hu : |q - X| = u) (hq : |q| ≤ R) (hX : |X| ≤ R) : |q ^ 2 - X ^ 2| ≤ 2 * R * u := by
  rw [show q ^ 2 - X ^ 2 = (q - X) * (q + X) by ring, abs_mul, hu]
  have h1 : |q + X| ≤ 2 * R := (abs_add_le _ _).trans (by linarith)
  have := mul_le_mul_of_nonneg_left h1 (hu ▸ abs_nonneg (q - X) : 0 ≤ u)
  linarith

theorem prod_part {q w X Y u v R : ℝ} (hu : |q - X| = u) (hv : |w - Y| = v) (hw : |w| ≤ R) (hX : |X| ≤ R) :
    |q * w - X * Y| ≤ R * (u + v) := by
  rw [show q * w - X * Y = (q - X) * w + X * (w - Y) by ring]
  refine (abs_add_le _ _).trans ?_
  rw [abs_mul, abs_mul, hu, hv]
  have h1 := mul_le_mul_of_nonneg_left hw (hu ▸ abs_nonneg (q - X) : 0 ≤ u)
  have h2 := mul_le_mul_of_nonneg_right hX (hv ▸ abs_nonneg (w - Y) : 0 ≤ v)
  linarith

/-- The x of one pass. -/
theorem x_part {X Y Y' ex a s xq yq c c0 r2 ρ2 p1 p2 u v K kd R α β : ℝ} (ha : 99 / 100 ≤ a)
    (hu : |xq - X| = u) (hv : |yq - Y| = v) (hxq : |xq| ≤ R) (hyq : |yq| ≤ R) (hX : |X| ≤ R) (hY : |Y| ≤ R)
    (hc : |c| ≤ K) (hd : |X| * |c - c0| ≤ kd) (hr2 : r2 = xq ^ 2 + yq ^ 2) (hρ2 : ρ2 = X ^ 2 + Y ^ 2) (hα : α = |p1| * R) (hβ : β = |p2| * R) :
    |(a * (X + (X * c0 + p1 * (ρ2 + 2 * X ^ 2) + 2 * p2 * X * Y)) - s * Y' + ex + yq * s) / a - xq * c - p1 * (r2 + 2 * xq ^ 2)
      - 2 * p2 * xq * yq - X|
      ≤ 100 / 99 * (|ex| + |s| * (v + |Y' - Y|)) + K * u + kd + α * (2 * (u + v) + 4 * u) + 2 * β * (u + v) := by
  have ha0 : 0 < a := by linarith
  have e : (a * (X + (X * c0 + p1 * (ρ2 + 2 * X ^ 2) + 2 * p2 * X * Y)) - s * Y' + ex + yq * s) / a - xq * c - p1 * (r2 + 2 * xq ^ 2)
      - 2 * p2 * xq * yq - X = (ex + s * (yq - Y')) / a - (xq * c - X * c0)
        - p1 * ((xq ^ 2 - X ^ 2) + (yq ^ 2 - Y ^ 2) + 2 * (xq ^ 2 - X ^ 2)) - 2 * p2 * (xq * yq - X * Y) := by
    rw [hr2, hρ2]; field_simp; ring
  rw [e]
  have h1 : |(ex + s * (yq - Y')) / a| ≤ 100 / 99 * (|ex| + |s| * (v + |Y' - Y|)) := by
    rw [abs_div, abs_of_pos ha0, div_le_iff₀ ha0]
    have k1 : |ex + s * (yq - Y')| ≤ |ex| + |s| * (v + |Y' - Y|) := by
      refine (abs_add_le _ _).trans ?_
      rw [abs_mul]
      have : |yq - Y'| ≤ v + |Y' - Y| := by
        rw [show yq - Y' = (yq - Y) - (Y' - Y) by ring, ← hv]; exact abs_sub _ _
      have := mul_le_mul_of_nonneg_left this (abs_nonneg s)
      linarith
    have k0 : 0 ≤ |ex| + |s| * (v + |Y' - Y|) := (abs_nonneg _).trans k1
    nlinarith
  have h2 := radial_part hu hc hd
  have h3 : |p1 * ((xq ^ 2 - X ^ 2) + (yq ^ 2 - Y ^ 2) + 2 * (xq ^ 2 - X ^ 2))| ≤ α * (2 * (u + v) + 4 * u) := by
    rw [abs_mul, hα, mul_assoc]
    apply mul_le_mul_of_nonneg_left _ (abs_nonneg p1)
    have a1 := sq_part hu hxq hX
    have a2 := sq_part hv hyq hY
    have := abs_add_three (xq ^ 2 - X ^ 2) (yq ^ 2 - Y ^ 2) (2 * (xq ^ 2 - X ^ 2))
    rw [abs_mul, abs_of_pos (by norm_num : (0 : ℝ) < 2)] at this
    linarith
  have h4 : |2 * p2 * (xq * yq - X * Y)| ≤ 2 * β * (u + v) := by
    rw [abs_mul, abs_mul, abs_of_pos (by norm_num : (0 : ℝ) < 2), hβ]
    have := mul_le_mul_of_nonneg_left (prod_part hu hv hyq hX) (abs_nonneg p2)
    linarith
  have t1 := abs_sub ((ex + s * (yq - Y')) / a - (xq * c - X * c0)
        - p1 * ((xq ^ 2 - X ^ 2) + (yq ^ 2 - Y ^ 2) + 2 * (xq ^ 2 - X ^ 2))) (2 * p2 * (xq * yq - X * Y))
  have t2 := abs_sub ((ex + s * (yq - Y')) / a - (xq * c - X * c0))
        (p1 * ((xq ^ 2 - X ^ 2) + (yq ^ 2 - Y ^ 2) + 2 * (xq ^ 2 - X ^ 2)))
  have t3 := abs_sub ((ex + s * (yq - Y')) / a) (xq * c - X * c0)
  linarith

/-- The y of one pass; `w` is the x that it uses. -/
theorem y_part {X X' Y ey b xq yq w c c0 r2 ρ2 p1 p2 u v K kd R α β : ℝ} (hb : 99 / 100 ≤ b)
    (hu : |xq - X| = u) (hv : |yq - Y| = v) (hxq : |xq| ≤ R) (hyq : |yq| ≤ R) (hX : |X| ≤ R) (hY : |Y| ≤ R) (hw : |w| ≤ R)
    (hc : |c| ≤ K) (hd : |Y| * |c - c0| ≤ kd) (hr2 : r2 = xq ^ 2 + yq ^ 2) (hρ2 : ρ2 = X ^ 2 + Y ^ 2) (hα : α = |p1| * R) (hβ : β = |p2| * R) :
    |(b * (Y + (Y * c0 + p2 * (ρ2 + 2 * Y ^ 2) + 2 * p1 * X' * Y)) + ey) / b - yq * c - p2 * (r2 + 2 * yq ^ 2)
      - 2 * p1 * w * yq - Y|
      ≤ 100 / 99 * |ey| + K * v + kd + β * (2 * (u + v) + 4 * v) + 2 * α * (|X' - X| + |w - X| + v) := by
  have hb0 : 0 < b := by linarith
  have e : (b * (Y + (Y * c0 + p2 * (ρ2 + 2 * Y ^ 2) + 2 * p1 * X' * Y)) + ey) / b - yq * c - p2 * (r2 + 2 * yq ^ 2)
      - 2 * p1 * w * yq - Y = ey / b - (yq * c - Y * c0)
        - p2 * ((xq ^ 2 - X ^ 2) + (yq ^ 2 - Y ^ 2) + 2 * (yq ^ 2 - Y ^ 2)) - 2 * p1 * (w * yq - X' * Y) := by
    rw [hr2, hρ2]; field_simp; ring
  rw [e]
  have h1 : |ey / b| ≤ 100 / 99 * |ey| := by
    rw [abs_div, abs_of_pos hb0, div_le_iff₀ hb0]
    nlinarith [abs_nonneg ey]
  have h2 := radial_part hv hc hd
  have h3 : |p2 * ((xq ^ 2 - X ^ 2) + (yq ^ 2 - Y ^ 2) + 2 * (yq ^ 2 - Y ^ 2))| ≤ β * (2 * (u + v) + 4 * v) := by
    rw [abs_mul, hβ, mul_assoc]
    apply mul_le_mul_of_nonneg_left _ (abs_nonneg p2)
    have a1 := sq_part hu hxq hX
    have a2 := sq_part hv hyq hY
    have := abs_add_three (xq ^ 2 - X ^ 2) (yq ^ 2 - Y ^ 2) (2 * (yq ^ 2 - Y ^ 2))
    rw [abs_mul, abs_of_pos (by norm_num : (0 : ℝ) < 2)] at this
    linarith
  have h4 : |2 * p1 * (w * yq - X' * Y)| ≤ 2 * α * (|X' - X| + |w - X| + v) := by
    rw [abs_mul, abs_mul, abs_of_pos (by norm_num : (0 : ℝ) < 2), hα]
    have k1 : |w * yq - X' * Y| ≤ R * (|X' - X| + |w - X| + v) := by
      rw [show w * yq - X' * Y = w * (yq - Y) + (w - X) * Y - (X' - X) * Y by ring]
      have t := abs_sub (w * (yq - Y) + (w - X) * Y) ((X' - X) * Y)
      have t' := abs_add_le (w * (yq - Y)) ((w - X) * Y)
      rw [abs_mul, abs_mul, hv] at t'
      rw [abs_mul (X' - X)] at t
      have b1 := mul_le_mul_of_nonneg_right hw (hv ▸ abs_nonneg (yq - Y) : 0 ≤ v)
      have b2 := mul_le_mul_of_nonneg_left hY (abs_nonneg (w - X))
      have b3 := mul_le_mul_of_nonneg_left hY (abs_nonneg (X' - X))
      linarith
    have := mul_le_mul_of_nonneg_left k1 (abs_nonneg p1)
    linarith
  have t1 := abs_sub (ey / b - (yq * c - Y * c0)
        - p2 * ((xq ^ 2 - X ^ 2) + (yq ^ 2 - Y ^ 2) + 2 * (yq ^ 2 - Y ^ 2))) (2 * p1 * (w * yq - X' * Y))
  have t2 := abs_sub (ey / b - (yq * c - Y * c0))
        (p2 * ((xq ^ 2 - X ^ 2) + (yq ^ 2 - Y ^ 2) + 2 * (yq ^ 2 - Y ^ 2)))
  have t3 := abs_sub (ey / b) (yq * c - Y * c0)
  linarith

/-- The point after the radial and decentering terms, before scale and shear. -/
noncomputable def lensX (ap : AddPar) (X Y : ℝ) : ℝ :=
  X + (X * radialTerm ap (Real.sqrt (X ^ 2 + Y ^ 2)) + ap.p1 * (X ^ 2 + Y ^ 2 + 2 * X ^ 2) + 2 * ap.p2 * X * Y)

noncomputable def lensY (ap : AddPar) (X Y : ℝ) : ℝ :=
  Y + (Y * radialTerm ap (Real.sqrt (X ^ 2 + Y ^ 2)) + ap.p2 * (X ^ 2 + Y ^ 2 + 2 * Y ^ 2) + 2 * ap.p1 * lensX ap X Y * Y)

theorem distort_lens (ap : AddPar) (X Y : ℝ) : distortBrownAffine X Y ap =
    (ap.scx * lensX ap X Y - Real.sin ap.she * lensY ap X Y, Real.cos ap.she * lensY ap X Y) := by
  have h2 : Real.sqrt (X ^ 2 + Y ^ 2) ^ 2 = X ^ 2 + Y ^ 2 := Real.sq_sqrt (by positivity)
  unfold distortBrownAffine
  split_ifs with h
  · obtain ⟨rfl, rfl⟩ := h
    simp [lensX, lensY]
  · simp only [lensX, lensY, radialTerm, h2]

/-- The numbers of a weak lens. -/
structure LensNumbers (ap : AddPar) (R κ K α β S A : ℝ) : Prop where
  radius : 0 < R
  eK : K = radialBound ap R
  eα : α = |ap.p1| * R
  eβ : β = |ap.p2| * R
  eS : S = |ap.she|
  eA : A = |ap.scx - 1|
  sum : K + α + β + A + S ≤ κ
  percent : κ ≤ 1 / 100
  K0 : 0 ≤ K
  α0 : 0 ≤ α
  β0 : 0 ≤ β
  S0 : 0 ≤ S
  A0 : 0 ≤ A
  sin : |Real.sin ap.she| ≤ S
  cos : 1 - κ / 100 ≤ Real.cos ap.she
  cos1 : Real.cos ap.she ≤ 1

theorem weakLens_numbers {ap : AddPar} {R κ : ℝ} (h : WeakLens ap R κ) :
    LensNumbers ap R κ (radialBound ap R) (|ap.p1| * R) (|ap.p2| * R) |ap.she| |ap.scx - 1| := by
  have hR := h.radius
  have hw := h.weak
  have hK := radialBound_nonneg ap R
  have hα : 0 ≤ |ap.p1| * R := by positivity
  have hβ : 0 ≤ |ap.p2| * R := by positivity
  have hsum : radialBound ap R + |ap.p1| * R + |ap.p2| * R + |ap.scx - 1| + |ap.she| ≤ κ := by
    unfold radialBound
    linarith
  refine ⟨hR, rfl, rfl, rfl, rfl, rfl, hsum, h.percent, hK, hα, hβ, abs_nonneg _, abs_nonneg _, Real.abs_sin_le_abs, ?_, Real.cos_le_one _⟩
  have h1 := Real.one_sub_sq_div_two_le_cos (x := ap.she)
  have h2 : |ap.she| ≤ κ := by linarith [abs_nonneg (ap.scx - 1)]
  have h3 := h.percent
  have h4 : ap.she ^ 2 ≤ κ * (1 / 100) := by
    rw [← sq_abs]
    nlinarith [abs_nonneg ap.she]
  linarith [abs_nonneg ap.she]

theorem LensNumbers.scale {ap : AddPar} {R κ K α β S A : ℝ} (h : LensNumbers ap R κ K α β S A) : 99 / 100 ≤ ap.scx ∧ ap.scx ≤ 101 / 100 := by
  have h1 := abs_le.1 h.eA.ge
  have := h.sum
  have := h.percent
  have := h.K0
  have := h.α0
  have := h.β0
  have := h.S0
  constructor <;> linarith

theorem LensNumbers.x_moved {ap : AddPar} {R κ K α β S A X Y : ℝ} (h : LensNumbers ap R κ K α β S A) (hf : Real.sqrt (X ^ 2 + Y ^ 2) ≤ R) :
    |lensX ap X Y - X| ≤ R * (K + 3 * α + 3 * β) := by
  obtain ⟨hx, hy⟩ := abs_le_radius X Y
  have hc := radial_le (ap := ap) (Real.sqrt_nonneg (X ^ 2 + Y ^ 2)) hf
  rw [← h.eK] at hc
  have h2 : X ^ 2 + Y ^ 2 ≤ R ^ 2 := by
    have := pow_le_pow_left₀ (Real.sqrt_nonneg _) hf 2
    rwa [Real.sq_sqrt (by positivity)] at this
  have hR := h.radius
  rw [lensX, add_sub_cancel_left]
  refine (abs_add_three _ _ _).trans ?_
  have a1 : |X * radialTerm ap (Real.sqrt (X ^ 2 + Y ^ 2))| ≤ R * K := by
    rw [abs_mul]; exact mul_le_mul (hx.trans hf) hc (abs_nonneg _) hR.le
  have a2 : |ap.p1 * (X ^ 2 + Y ^ 2 + 2 * X ^ 2)| ≤ R * (3 * α) := by
    rw [abs_mul, h.eα, abs_of_nonneg (by positivity : 0 ≤ X ^ 2 + Y ^ 2 + 2 * X ^ 2)]
    have := mul_le_mul_of_nonneg_left (by nlinarith [sq_nonneg Y] : X ^ 2 + Y ^ 2 + 2 * X ^ 2 ≤ 3 * R ^ 2) (abs_nonneg ap.p1)
    linarith
  have a3 : |2 * ap.p2 * X * Y| ≤ R * (3 * β) := by
    rw [mul_assoc, abs_mul, abs_mul, h.eβ, abs_of_pos (by norm_num : (0 : ℝ) < 2)]
    have e : |X * Y| ≤ R ^ 2 := by
      rw [abs_mul, pow_two]; exact mul_le_mul (hx.trans hf) (hy.trans hf) (abs_nonneg _) hR.le
    have := mul_le_mul_of_nonneg_left e (abs_nonneg ap.p2)
    have h0 : 0 ≤ |ap.p2| * R ^ 2 := by positivity
    linarith
  linarith

theorem LensNumbers.y_moved {ap : AddPar} {R κ K α β S A X Y : ℝ} (h : LensNumbers ap R κ K α β S A) (hf : Real.sqrt (X ^ 2 + Y ^ 2) ≤ R) :
    |lensY ap X Y - Y| ≤ R * (K + 3 * α + 3 * β) := by
  obtain ⟨hx, hy⟩ := abs_le_radius X Y
  have hc := radial_le (ap := ap) (Real.sqrt_nonneg (X ^ 2 + Y ^ 2)) hf
  rw [← h.eK] at hc
  have h2 : X ^ 2 + Y ^ 2 ≤ R ^ 2 := by
    have := pow_le_pow_left₀ (Real.sqrt_nonneg _) hf 2
    rwa [Real.sq_sqrt (by positivity)] at this
  have hR := h.radius
  have hX := h.x_moved hf
  have hX' : |lensX ap X Y| ≤ 3 / 2 * R := by
    have e : lensX ap X Y = X + (lensX ap X Y - X) := by ring
    rw [e]
    refine (abs_add_le _ _).trans ?_
    have := h.sum
    have := h.percent
    have := h.S0
    have := h.A0
    have := h.K0
    have : K + 3 * α + 3 * β ≤ 3 / 100 := by linarith
    have := mul_le_mul_of_nonneg_left this hR.le
    linarith
  rw [lensY, add_sub_cancel_left]
  refine (abs_add_three _ _ _).trans ?_
  have a1 : |Y * radialTerm ap (Real.sqrt (X ^ 2 + Y ^ 2))| ≤ R * K := by
    rw [abs_mul]; exact mul_le_mul (hy.trans hf) hc (abs_nonneg _) hR.le
  have a2 : |ap.p2 * (X ^ 2 + Y ^ 2 + 2 * Y ^ 2)| ≤ R * (3 * β) := by
    rw [abs_mul, h.eβ, abs_of_nonneg (by positivity : 0 ≤ X ^ 2 + Y ^ 2 + 2 * Y ^ 2)]
    have := mul_le_mul_of_nonneg_left (by nlinarith [sq_nonneg X] : X ^ 2 + Y ^ 2 + 2 * Y ^ 2 ≤ 3 * R ^ 2) (abs_nonneg ap.p2)
    linarith
  have a3 : |2 * ap.p1 * lensX ap X Y * Y| ≤ R * (3 * α) := by
    rw [mul_assoc, abs_mul, abs_mul, h.eα, abs_of_pos (by norm_num : (0 : ℝ) < 2)]
    have e : |lensX ap X Y * Y| ≤ 3 / 2 * R * R := by
      rw [abs_mul]; exact mul_le_mul hX' (hy.trans hf) (abs_nonneg _) (by positivity)
    have := mul_le_mul_of_nonneg_left e (abs_nonneg ap.p1)
    linarith
  linarith

/-- How far a pass moves from the input `m`, in terms of the radius `r` of the point it starts from. -/
theorem pass_stays_numbers {κ K α β S A r ρ dx dy : ℝ} (hsum : K + α + β + A + S ≤ κ) (hκ : κ ≤ 1 / 100) (hK : 0 ≤ K) (hα : 0 ≤ α)
    (hβ : 0 ≤ β) (hS : 0 ≤ S) (hA : 0 ≤ A) (hr0 : 0 ≤ r) (hr : r ≤ 1.08 * ρ)
    (hx : dx ≤ 100 / 99 * (A * ρ + S * r) + K * r + 3 * α * r + β * r)
    (hy : dy ≤ κ * ρ / 50 + K * r + 3 * β * r + 2 * α * r) : dx ≤ 0.07 * ρ ∧ dx + dy ≤ 0.08 * ρ := by
  have hρ : 0 ≤ ρ := by linarith
  have k1 : 0 ≤ K * (1.08 * ρ - r) := mul_nonneg hK (by linarith)
  have k2 : 0 ≤ α * (1.08 * ρ - r) := mul_nonneg hα (by linarith)
  have k3 : 0 ≤ β * (1.08 * ρ - r) := mul_nonneg hβ (by linarith)
  have k4 : 0 ≤ S * (1.08 * ρ - r) := mul_nonneg hS (by linarith)
  have k5 : 0 ≤ (κ - K - α - β - A - S) * ρ := mul_nonneg (by linarith) hρ
  have k6 : 0 ≤ (1 / 100 - κ) * ρ := mul_nonneg (by linarith) hρ
  have m1 := mul_nonneg hK hρ
  have m2 := mul_nonneg hα hρ
  have m3 := mul_nonneg hβ hρ
  have m4 := mul_nonneg hS hρ
  have m5 := mul_nonneg hA hρ
  constructor <;> nlinarith


/-- A state of the iteration that has not left the neighbourhood of the input. -/
structure NearInput (mx my : ℝ) (s : CorrState) : Prop where
  radius : s.rq = Real.sqrt (s.xq ^ 2 + s.yq ^ 2)
  near : |s.xq - mx| + |s.yq - my| ≤ 0.08 * Real.sqrt (mx ^ 2 + my ^ 2)

theorem NearInput.bounds {mx my : ℝ} {s : CorrState} (h : NearInput mx my s) :
    0.92 * Real.sqrt (mx ^ 2 + my ^ 2) ≤ s.rq ∧ s.rq ≤ 1.08 * Real.sqrt (mx ^ 2 + my ^ 2) := by
  have h1 := radius_diff s.xq s.yq mx my
  rw [← h.radius] at h1
  have h2 := abs_le.1 (h1.trans h.near)
  constructor <;> linarith [h2.1, h2.2]

theorem nearInput_init (mx my : ℝ) : NearInput mx my (corrInit mx my) := by
  refine ⟨rfl, ?_⟩
  have := Real.sqrt_nonneg (mx ^ 2 + my ^ 2)
  show |mx - mx| + |my - my| ≤ _
  rw [sub_self, sub_self, abs_zero]
  linarith

set_option maxHeartbeats 1000000 in
theorem pass_stays {ap : AddPar} {R κ K α β S A mx my : ℝ} (h : LensNumbers ap R κ K α β S A)
    (hm : Real.sqrt (mx ^ 2 + my ^ 2) ≤ 0.9 * R) {s : CorrState} (hs : NearInput mx my s) :
    NearInput mx my (corrStep mx my ap s) ∧ (corrStep mx my ap s).r = s.rq ∧ (corrStep mx my ap s).common = radialTerm ap s.rq
      ∧ |(corrStep mx my ap s).xq| ≤ R := by
  obtain ⟨b1, b2⟩ := hs.bounds
  obtain ⟨m1, m2⟩ := abs_le_radius mx my
  obtain ⟨q1, q2⟩ := abs_le_radius s.xq s.yq
  rw [← hs.radius] at q1 q2
  have hr0 : 0 ≤ s.rq := (abs_nonneg _).trans q1
  have hr2 : s.rq ^ 2 = s.xq ^ 2 + s.yq ^ 2 := by rw [hs.radius]; exact Real.sq_sqrt (by positivity)
  obtain ⟨a1, a2⟩ := h.scale
  have hR := h.radius
  have hrR : s.rq ≤ R := by linarith
  have hc := radial_le (ap := ap) hr0 hrR
  rw [← h.eK] at hc
  set ρ := Real.sqrt (mx ^ 2 + my ^ 2) with hρ
  set r := s.rq with hr
  have hρ0 : 0 ≤ ρ := Real.sqrt_nonneg _
  set x' := (mx + s.yq * Real.sin ap.she) / ap.scx - s.xq * radialTerm ap r - ap.p1 * (r ^ 2 + 2 * s.xq ^ 2)
    - 2 * ap.p2 * s.xq * s.yq with hx'
  set y' := my / Real.cos ap.she - s.yq * radialTerm ap r - ap.p2 * (r ^ 2 + 2 * s.yq ^ 2) - 2 * ap.p1 * x' * s.yq with hy'
  have ha0 : 0 < ap.scx := by linarith
  -- the parts of x
  have x1 : |(mx + s.yq * Real.sin ap.she) / ap.scx - mx| ≤ 100 / 99 * (A * ρ + S * r) := by
    have e : (mx + s.yq * Real.sin ap.she) / ap.scx - mx = (s.yq * Real.sin ap.she - (ap.scx - 1) * mx) / ap.scx := by field_simp; ring
    rw [e, abs_div, abs_of_pos ha0, div_le_iff₀ ha0]
    have k := abs_sub (s.yq * Real.sin ap.she) ((ap.scx - 1) * mx)
    rw [abs_mul, abs_mul, ← h.eA] at k
    have k1 := mul_le_mul q2 h.sin (abs_nonneg _) hr0
    have k2 := mul_le_mul_of_nonneg_left m1 h.A0
    have k3 : 0 ≤ A * ρ + S * r := add_nonneg (mul_nonneg h.A0 hρ0) (mul_nonneg h.S0 hr0)
    nlinarith
  have x2 : |s.xq * radialTerm ap r| ≤ K * r := by
    rw [abs_mul, mul_comm]; exact mul_le_mul hc q1 (abs_nonneg _) h.K0
  have sq1 : s.xq ^ 2 ≤ r ^ 2 := by rw [hr2]; nlinarith [sq_nonneg s.yq]
  have sq2 : s.yq ^ 2 ≤ r ^ 2 := by rw [hr2]; nlinarith [sq_nonneg s.xq]
  have rR : r ^ 2 ≤ R * r := by nlinarith
  have x3 : |ap.p1 * (r ^ 2 + 2 * s.xq ^ 2)| ≤ 3 * α * r := by
    rw [abs_mul, h.eα, abs_of_nonneg (by positivity : 0 ≤ r ^ 2 + 2 * s.xq ^ 2)]
    have := mul_le_mul_of_nonneg_left (by linarith : r ^ 2 + 2 * s.xq ^ 2 ≤ 3 * (R * r)) (abs_nonneg ap.p1)
    linarith
  have y3 : |ap.p2 * (r ^ 2 + 2 * s.yq ^ 2)| ≤ 3 * β * r := by
    rw [abs_mul, h.eβ, abs_of_nonneg (by positivity : 0 ≤ r ^ 2 + 2 * s.yq ^ 2)]
    have := mul_le_mul_of_nonneg_left (by linarith : r ^ 2 + 2 * s.yq ^ 2 ≤ 3 * (R * r)) (abs_nonneg ap.p2)
    linarith
  have x4 : |2 * ap.p2 * s.xq * s.yq| ≤ β * r := by
    have e : |2 * ap.p2 * s.xq * s.yq| = |ap.p2| * (2 * (|s.xq| * |s.yq|)) := by
      rw [abs_mul, abs_mul, abs_mul, abs_of_pos (by norm_num : (0 : ℝ) < 2)]; ring
    rw [e, h.eβ]
    have k : 2 * (|s.xq| * |s.yq|) ≤ R * r := by
      have e1 := sq_abs s.xq
      have e2 := sq_abs s.yq
      nlinarith [sq_nonneg (|s.xq| - |s.yq|)]
    have := mul_le_mul_of_nonneg_left k (abs_nonneg ap.p2)
    linarith
  have hdx : |x' - mx| ≤ 100 / 99 * (A * ρ + S * r) + K * r + 3 * α * r + β * r := by
    have e : x' - mx = ((mx + s.yq * Real.sin ap.she) / ap.scx - mx) - s.xq * radialTerm ap r - ap.p1 * (r ^ 2 + 2 * s.xq ^ 2)
      - 2 * ap.p2 * s.xq * s.yq := by rw [hx']; ring
    rw [e]
    have t1 := abs_sub (((mx + s.yq * Real.sin ap.she) / ap.scx - mx) - s.xq * radialTerm ap r - ap.p1 * (r ^ 2 + 2 * s.xq ^ 2))
      (2 * ap.p2 * s.xq * s.yq)
    have t2 := abs_sub (((mx + s.yq * Real.sin ap.she) / ap.scx - mx) - s.xq * radialTerm ap r) (ap.p1 * (r ^ 2 + 2 * s.xq ^ 2))
    have t3 := abs_sub ((mx + s.yq * Real.sin ap.she) / ap.scx - mx) (s.xq * radialTerm ap r)
    linarith
  have hκ0 : 0 ≤ κ := by linarith [h.sum, h.K0, h.α0, h.β0, h.A0, h.S0]
  have hxm : |x' - mx| ≤ 0.07 * ρ := by
    refine (pass_stays_numbers (dy := 0) h.sum h.percent h.K0 h.α0 h.β0 h.S0 h.A0 hr0 b2 hdx ?_).1
    have := mul_nonneg hκ0 hρ0
    have := mul_nonneg h.K0 hr0
    have := mul_nonneg h.β0 hr0
    have := mul_nonneg h.α0 hr0
    linarith
  have hxR : |x'| ≤ R := by
    have e : x' = mx + (x' - mx) := by ring
    rw [e]
    exact (abs_add_le _ _).trans (by linarith)
  -- the parts of y
  have hcos := h.cos
  have hcos1 := h.cos1
  have hcos9 : 99 / 100 ≤ Real.cos ap.she := by linarith [h.percent]
  have hc0 : 0 < Real.cos ap.she := by linarith
  have y1 : |my / Real.cos ap.she - my| ≤ κ * ρ / 50 := by
    have e : my / Real.cos ap.she - my = my * (1 - Real.cos ap.she) / Real.cos ap.she := by field_simp
    rw [e, abs_div, abs_of_pos hc0, div_le_iff₀ hc0, abs_mul, abs_of_nonneg (by linarith : 0 ≤ 1 - Real.cos ap.she)]
    have k1 := mul_le_mul m2 (by linarith : 1 - Real.cos ap.she ≤ κ / 100) (by linarith) hρ0
    have k2 := mul_nonneg hκ0 hρ0
    nlinarith
  have y2 : |s.yq * radialTerm ap r| ≤ K * r := by
    rw [abs_mul, mul_comm]; exact mul_le_mul hc q2 (abs_nonneg _) h.K0
  have y4 : |2 * ap.p1 * x' * s.yq| ≤ 2 * α * r := by
    have e : |2 * ap.p1 * x' * s.yq| = |ap.p1| * (2 * (|x'| * |s.yq|)) := by
      rw [abs_mul, abs_mul, abs_mul, abs_of_pos (by norm_num : (0 : ℝ) < 2)]; ring
    rw [e, h.eα]
    have k := mul_le_mul hxR q2 (abs_nonneg _) hR.le
    have := mul_le_mul_of_nonneg_left k (abs_nonneg ap.p1)
    linarith
  have hdy : |y' - my| ≤ κ * ρ / 50 + K * r + 3 * β * r + 2 * α * r := by
    have e : y' - my = (my / Real.cos ap.she - my) - s.yq * radialTerm ap r - ap.p2 * (r ^ 2 + 2 * s.yq ^ 2) - 2 * ap.p1 * x' * s.yq := by
      rw [hy']; ring
    rw [e]
    have t1 := abs_sub ((my / Real.cos ap.she - my) - s.yq * radialTerm ap r - ap.p2 * (r ^ 2 + 2 * s.yq ^ 2)) (2 * ap.p1 * x' * s.yq)
    have t2 := abs_sub ((my / Real.cos ap.she - my) - s.yq * radialTerm ap r) (ap.p2 * (r ^ 2 + 2 * s.yq ^ 2))
    have t3 := abs_sub (my / Real.cos ap.she - my) (s.yq * radialTerm ap r)
    linarith
  have hall := (pass_stays_numbers h.sum h.percent h.K0 h.α0 h.β0 h.S0 h.A0 hr0 b2 hdx hdy).2
  have hrq : Real.sqrt (x' ^ 2 + y' ^ 2) ≤ 1.2 * r := by
    have := (abs_le.1 (radius_diff x' y' mx my)).2
    rw [← hρ] at this
    linarith
  have e1 : (corrStep mx my ap s).xq = x' := rfl
  have e2 : (corrStep mx my ap s).yq = y' := rfl
  refine ⟨⟨?_, ?_⟩, rfl, rfl, by rw [e1]; exact hxR⟩
  · rw [e1, e2]
    show (if Real.sqrt (x' ^ 2 + y' ^ 2) > 1.2 * r then 0.5 * r else Real.sqrt (x' ^ 2 + y' ^ 2)) = _
    rw [if_neg (not_lt.2 hrq)]
  · rw [e1, e2]; exact hall

/-- The distance of a state from the point sought. -/
noncomputable def offBy (X Y : ℝ) (s : CorrState) : ℝ := |s.xq - X| + |s.yq - Y|

/-- The bound of one pass, as numbers. -/
theorem step_numbers {κ K α β S A R u v u' v' ex ey dX dY kd M : ℝ} (hsum : K + α + β + A + S ≤ κ) (hκ : κ ≤ 1 / 100) (hK : 0 ≤ K) (hα : 0 ≤ α)
    (hβ : 0 ≤ β) (hS : 0 ≤ S) (hA : 0 ≤ A) (hR : 0 < R) (hu : 0 ≤ u) (hv : 0 ≤ v) (hu' : 0 ≤ u') (hv' : 0 ≤ v') (hex : 0 ≤ ex) (hey : 0 ≤ ey)
    (hM : M = K + 3 * α + 3 * β) (hdX : dX ≤ R * M) (hdY : dY ≤ R * M) (hkd : kd ≤ 6 * K * (u + v))
    (hx : u' ≤ 100 / 99 * (ex + S * (v + dY)) + K * u + kd + α * (2 * (u + v) + 4 * u) + 2 * β * (u + v))
    {w : ℝ} (hw : w ≤ u' ∨ w ≤ u)
    (hy : v' ≤ 100 / 99 * ey + K * v + kd + β * (2 * (u + v) + 4 * v) + 2 * α * (dX + w + v)) :
    u' + v' ≤ 1.05 * (ex + ey) + 13.5 * κ * (u + v) + 7 * (S + α) * κ * R := by
  have hκ0 : 0 ≤ κ := by linarith
  have hMκ : M ≤ 3 * κ := by linarith
  have d1 : dX ≤ 3 * (κ * R) := by nlinarith
  have d2 : dY ≤ 3 * (κ * R) := by nlinarith
  have s1 := mul_le_mul_of_nonneg_left d2 hS
  have s2 := mul_le_mul_of_nonneg_left d1 hα
  have k0 : 0 ≤ (κ - K - α - β - A - S) * (u + v) := mul_nonneg (by linarith) (by linarith)
  have k1 := mul_nonneg hK (by linarith : 0 ≤ u + v)
  have k2 := mul_nonneg hα (by linarith : 0 ≤ u + v)
  have k3 := mul_nonneg hβ (by linarith : 0 ≤ u + v)
  have k4 := mul_nonneg hS (by linarith : 0 ≤ u + v)
  have k5 := mul_nonneg hA (by linarith : 0 ≤ u + v)
  have n1 := mul_nonneg hα hu
  have n2 := mul_nonneg hα hv
  have n3 := mul_nonneg hβ hu
  have n4 := mul_nonneg hβ hv
  have n5 := mul_nonneg hS hu
  have n6 := mul_nonneg hS hv
  have n7 := mul_nonneg hK hu
  have n8 := mul_nonneg hK hv
  have o1 := mul_nonneg (mul_nonneg hS hκ0) hR.le
  have o2 := mul_nonneg (mul_nonneg hα hκ0) hR.le
  have w1 : α * w ≤ u' / 100 + α * u := by
    have h1 : α * u' ≤ 1 / 100 * u' := mul_le_mul_of_nonneg_right (by linarith) hu'
    rcases hw with hw | hw
    · have := mul_le_mul_of_nonneg_left hw hα
      linarith
    · have := mul_le_mul_of_nonneg_left hw hα
      linarith
  have p1 : 0.98 * (u' + v') ≤ 100 / 99 * (ex + ey) + 13 * κ * (u + v) + (100 / 99 * 3 * S + 6 * α) * κ * R := by
    nlinarith
  nlinarith

set_option maxHeartbeats 1000000 in
/-- One pass brings the state nearer to the point sought. -/
theorem pass_error {ap : AddPar} {R κ K α β S A mx my X Y : ℝ} (h : LensNumbers ap R κ K α β S A)
    (hm : Real.sqrt (mx ^ 2 + my ^ 2) ≤ 0.9 * R) (hP : Real.sqrt (X ^ 2 + Y ^ 2) ≤ R) {s : CorrState} (hs : NearInput mx my s) :
    offBy X Y (corrStep mx my ap s) ≤ 1.05 * (|mx - (distortBrownAffine X Y ap).1| + |my - (distortBrownAffine X Y ap).2|)
      + 13.5 * κ * offBy X Y s + 7 * (S + α) * κ * R := by
  obtain ⟨hn, -, -, hxR⟩ := pass_stays h hm hs
  obtain ⟨b1, b2⟩ := hs.bounds
  obtain ⟨P1, P2⟩ := abs_le_radius X Y
  obtain ⟨q1, q2⟩ := abs_le_radius s.xq s.yq
  rw [← hs.radius] at q1 q2
  have hr0 : 0 ≤ s.rq := (abs_nonneg _).trans q1
  have hr2 : s.rq ^ 2 = s.xq ^ 2 + s.yq ^ 2 := by rw [hs.radius]; exact Real.sq_sqrt (by positivity)
  obtain ⟨a1, a2⟩ := h.scale
  have hR := h.radius
  have hrR : s.rq ≤ R := by linarith
  have hc := radial_le (ap := ap) hr0 hrR
  rw [← h.eK] at hc
  have hcos9 : 99 / 100 ≤ Real.cos ap.she := by linarith [h.percent, h.cos]
  rw [distort_lens]
  set ex := mx - (ap.scx * lensX ap X Y - Real.sin ap.she * lensY ap X Y) with hex
  set ey := my - Real.cos ap.she * lensY ap X Y with hey
  have hdr := radial_diff (ap := ap) hr0 hrR (Real.sqrt_nonneg (X ^ 2 + Y ^ 2)) hP
  rw [← h.eK] at hdr
  have hrad : |s.rq - Real.sqrt (X ^ 2 + Y ^ 2)| ≤ |s.xq - X| + |s.yq - Y| := by rw [hs.radius]; exact radius_diff _ _ _ _
  have hkd : R * |radialTerm ap s.rq - radialTerm ap (Real.sqrt (X ^ 2 + Y ^ 2))| ≤ 6 * K * (|s.xq - X| + |s.yq - Y|) :=
    hdr.trans (mul_le_mul_of_nonneg_left hrad (by linarith [h.K0]))
  have hx := x_part (X := X) (Y := Y) (Y' := lensY ap X Y) (ex := ex) (a := ap.scx) (s := Real.sin ap.she) (xq := s.xq) (yq := s.yq)
    (c := radialTerm ap s.rq) (c0 := radialTerm ap (Real.sqrt (X ^ 2 + Y ^ 2))) (p1 := ap.p1) (p2 := ap.p2) a1 rfl rfl (q1.trans hrR) (q2.trans hrR)
    (P1.trans hP) (P2.trans hP) hc (mul_le_mul_of_nonneg_right (P1.trans hP) (abs_nonneg _)) hr2 rfl h.eα h.eβ
  have hy := y_part (X := X) (X' := lensX ap X Y) (Y := Y) (ey := ey) (b := Real.cos ap.she) (xq := s.xq) (yq := s.yq)
    (w := (corrStep mx my ap s).xq)
    (c := radialTerm ap s.rq) (c0 := radialTerm ap (Real.sqrt (X ^ 2 + Y ^ 2))) (p1 := ap.p1) (p2 := ap.p2) hcos9 rfl rfl (q1.trans hrR)
    (q2.trans hrR) (P1.trans hP) (P2.trans hP) hxR hc (mul_le_mul_of_nonneg_right (P2.trans hP) (abs_nonneg _)) hr2 rfl h.eα h.eβ
  have ex' : (corrStep mx my ap s).xq = (ap.scx * (X + (X * radialTerm ap (Real.sqrt (X ^ 2 + Y ^ 2)) + ap.p1 * (X ^ 2 + Y ^ 2 + 2 * X ^ 2)
      + 2 * ap.p2 * X * Y)) - Real.sin ap.she * lensY ap X Y + ex + s.yq * Real.sin ap.she) / ap.scx - s.xq * radialTerm ap s.rq
      - ap.p1 * (s.rq ^ 2 + 2 * s.xq ^ 2) - 2 * ap.p2 * s.xq * s.yq := by
    have : ap.scx * (X + (X * radialTerm ap (Real.sqrt (X ^ 2 + Y ^ 2)) + ap.p1 * (X ^ 2 + Y ^ 2 + 2 * X ^ 2)
      + 2 * ap.p2 * X * Y)) - Real.sin ap.she * lensY ap X Y + ex = mx := by rw [hex, lensX]; ring
    rw [this]; rfl
  have ey' : (corrStep mx my ap s).yq = (Real.cos ap.she * (Y + (Y * radialTerm ap (Real.sqrt (X ^ 2 + Y ^ 2)) + ap.p2 * (X ^ 2 + Y ^ 2 + 2 * Y ^ 2)
      + 2 * ap.p1 * lensX ap X Y * Y)) + ey) / Real.cos ap.she - s.yq * radialTerm ap s.rq
      - ap.p2 * (s.rq ^ 2 + 2 * s.yq ^ 2) - 2 * ap.p1 * (corrStep mx my ap s).xq * s.yq := by
    have : Real.cos ap.she * (Y + (Y * radialTerm ap (Real.sqrt (X ^ 2 + Y ^ 2)) + ap.p2 * (X ^ 2 + Y ^ 2 + 2 * Y ^ 2)
      + 2 * ap.p1 * lensX ap X Y * Y)) + ey = my := by rw [hey, lensY]; ring
    rw [this]; rfl
  rw [← ex'] at hx
  rw [← ey'] at hy
  have hs1 := mul_le_mul_of_nonneg_right h.sin (by positivity : 0 ≤ |s.yq - Y| + |lensY ap X Y - Y|)
  exact step_numbers h.sum h.percent h.K0 h.α0 h.β0 h.S0 h.A0 hR (abs_nonneg _) (abs_nonneg _) (abs_nonneg _) (abs_nonneg _) (abs_nonneg ex)
    (abs_nonneg ey) rfl (h.x_moved hP) (h.y_moved hP) hkd (by linarith) (Or.inl le_rfl) hy


/-- The distortion moves a point by little. -/
theorem LensNumbers.moved {ap : AddPar} {R κ K α β S A X Y : ℝ} (h : LensNumbers ap R κ K α β S A) (hP : Real.sqrt (X ^ 2 + Y ^ 2) ≤ R) :
    |(distortBrownAffine X Y ap).1 - X| + |(distortBrownAffine X Y ap).2 - Y| ≤ 6.1 * κ * R := by
  rw [distort_lens]
  obtain ⟨P1, P2⟩ := abs_le_radius X Y
  obtain ⟨a1, a2⟩ := h.scale
  have hx := h.x_moved hP
  have hy := h.y_moved hP
  have hR := h.radius
  have hM : K + 3 * α + 3 * β ≤ 3 * κ := by linarith [h.sum, h.K0, h.α0, h.β0, h.S0, h.A0]
  have hM0 : 0 ≤ R * (K + 3 * α + 3 * β) := (abs_nonneg _).trans hx
  have hYY : |lensY ap X Y| ≤ 1.03 * R := by
    have e : lensY ap X Y = Y + (lensY ap X Y - Y) := by ring
    rw [e]
    refine (abs_add_le _ _).trans ?_
    have := mul_le_mul_of_nonneg_left (hM.trans (by linarith [h.percent] : 3 * κ ≤ 0.03)) hR.le
    linarith
  have e1 : (ap.scx * lensX ap X Y - Real.sin ap.she * lensY ap X Y) - X
      = ap.scx * (lensX ap X Y - X) + (ap.scx - 1) * X - Real.sin ap.she * lensY ap X Y := by ring
  have e2 : Real.cos ap.she * lensY ap X Y - Y = (lensY ap X Y - Y) - (1 - Real.cos ap.she) * lensY ap X Y := by ring
  simp only
  rw [e1, e2]
  have t1 := abs_sub (ap.scx * (lensX ap X Y - X) + (ap.scx - 1) * X) (Real.sin ap.she * lensY ap X Y)
  have t2 := abs_add_le (ap.scx * (lensX ap X Y - X)) ((ap.scx - 1) * X)
  have t3 := abs_sub (lensY ap X Y - Y) ((1 - Real.cos ap.she) * lensY ap X Y)
  rw [abs_mul, abs_mul, abs_of_nonneg (by linarith : 0 ≤ ap.scx), ← h.eA] at t2
  rw [abs_mul (Real.sin _)] at t1
  rw [abs_mul, abs_of_nonneg (by linarith [h.cos1] : 0 ≤ 1 - Real.cos ap.she)] at t3
  have m1 := mul_le_mul a2 hx (abs_nonneg _) (by norm_num)
  have m2 := mul_le_mul_of_nonneg_left (P1.trans hP) h.A0
  have m3 := mul_le_mul h.sin hYY (abs_nonneg _) h.S0
  have hκ0 : 0 ≤ κ := by linarith [h.sum, h.K0, h.α0, h.β0, h.S0, h.A0]
  have m4 := mul_le_mul (by linarith [h.cos] : 1 - Real.cos ap.she ≤ κ / 100) hYY (abs_nonneg _) (by positivity)
  have z1 := mul_nonneg h.K0 hR.le
  have z2 := mul_nonneg h.α0 hR.le
  have z3 := mul_nonneg h.β0 hR.le
  have z4 := mul_nonneg h.S0 hR.le
  have z5 := mul_nonneg h.A0 hR.le
  have z6 := mul_nonneg (by linarith [h.sum] : 0 ≤ κ - K - α - β - A - S) hR.le
  nlinarith

/-- What is known of the state with which the loop ends. -/
structure LoopEnd (ap : AddPar) (mx my X Y E tol : ℝ) (s : CorrState) : Prop where
  near : NearInput mx my s
  off : offBy X Y s ≤ E
  common : s.common = radialTerm ap s.r
  prev : 0 ≤ s.r ∧ s.r ≤ 1.08 * Real.sqrt (mx ^ 2 + my ^ 2)
  stop : |s.rq - s.r| ≤ tol * s.r ∨ |s.rq - s.r| ≤ 2 * E

theorem offBy_radius {mx my X Y : ℝ} {s t : CorrState} (hs : NearInput mx my s) (ht : NearInput mx my t) :
    |t.rq - s.rq| ≤ offBy X Y t + offBy X Y s := by
  rw [hs.radius, ht.radius]
  refine (radius_diff _ _ _ _).trans ?_
  have h1 := abs_sub (t.xq - X) (s.xq - X)
  have h2 := abs_sub (t.yq - Y) (s.yq - Y)
  rw [show t.xq - X - (s.xq - X) = t.xq - s.xq by ring] at h1
  rw [show t.yq - Y - (s.yq - Y) = t.yq - s.yq by ring] at h2
  unfold offBy
  linarith

theorem loop_end {ap : AddPar} {R κ K α β S A mx my X Y E tol : ℝ} (h : LensNumbers ap R κ K α β S A)
    (hm : Real.sqrt (mx ^ 2 + my ^ 2) ≤ 0.9 * R)
    (hE : ∀ s, NearInput mx my s → offBy X Y s ≤ E → offBy X Y (corrStep mx my ap s) ≤ E) (fuel : ℕ) :
    ∀ s, NearInput mx my s → offBy X Y s ≤ E → LoopEnd ap mx my X Y E tol (corrLoop mx my ap tol fuel s) := by
  have one : ∀ s, NearInput mx my s → offBy X Y s ≤ E → LoopEnd ap mx my X Y E tol (corrStep mx my ap s) := by
    intro s hs he
    obtain ⟨n, er, ec, -⟩ := pass_stays h hm hs
    have he' := hE s hs he
    refine ⟨n, he', by rw [ec, er], ?_, Or.inr ?_⟩
    · rw [er]
      refine ⟨?_, hs.bounds.2⟩
      rw [hs.radius]; exact Real.sqrt_nonneg _
    · rw [er]
      have := offBy_radius (X := X) (Y := Y) hs n
      linarith
  induction fuel with
  | zero => exact one
  | succ f ih =>
    intro s hs he
    show LoopEnd _ _ _ _ _ _ _ (if |(corrStep mx my ap s).rq - (corrStep mx my ap s).r| ≤ tol * (corrStep mx my ap s).r then corrStep mx my ap s
      else corrLoop mx my ap tol f (corrStep mx my ap s))
    split_ifs
    · exact one s hs he
    · exact ih _ (one s hs he).near (hE s hs he)

/-- The loop from the start: after the first pass the error is at most `E`. -/
theorem loop_end_start {ap : AddPar} {R κ K α β S A mx my X Y E tol : ℝ} (h : LensNumbers ap R κ K α β S A)
    (hm : Real.sqrt (mx ^ 2 + my ^ 2) ≤ 0.9 * R)
    (hE : ∀ s, NearInput mx my s → offBy X Y s ≤ E → offBy X Y (corrStep mx my ap s) ≤ E)
    (h0 : offBy X Y (corrStep mx my ap (corrInit mx my)) ≤ E) (fuel : ℕ) :
    LoopEnd ap mx my X Y E tol (corrLoop mx my ap tol (fuel + 1) (corrInit mx my)) := by
  have hs := nearInput_init mx my
  obtain ⟨n, er, ec, -⟩ := pass_stays h hm hs
  show LoopEnd _ _ _ _ _ _ _ (if |(corrStep mx my ap (corrInit mx my)).rq - (corrStep mx my ap (corrInit mx my)).r|
      ≤ tol * (corrStep mx my ap (corrInit mx my)).r then corrStep mx my ap (corrInit mx my)
      else corrLoop mx my ap tol fuel (corrStep mx my ap (corrInit mx my)))
  split_ifs with hstop
  · refine ⟨n, h0, by rw [ec, er], ?_, Or.inl hstop⟩
    rw [er]
    refine ⟨?_, hs.bounds.2⟩
    rw [hs.radius]; exact Real.sqrt_nonneg _
  · exact loop_end h hm hE fuel _ n h0

set_option maxHeartbeats 1000000 in
/-- The final evaluation. -/
theorem final_error {ap : AddPar} {R κ K α β S A mx my X Y E tol : ℝ} (h : LensNumbers ap R κ K α β S A)
    (hm : Real.sqrt (mx ^ 2 + my ^ 2) ≤ 0.9 * R) (hP : Real.sqrt (X ^ 2 + Y ^ 2) ≤ R) {s : CorrState} (he : LoopEnd ap mx my X Y E tol s) :
    |(corrFinal mx my ap s).1 - X| + |(corrFinal mx my ap s).2 - Y|
      ≤ 1.05 * (|mx - (distortBrownAffine X Y ap).1| + |my - (distortBrownAffine X Y ap).2|)
        + 13.5 * κ * offBy X Y s + 7 * (S + α) * κ * R + 12 * K * |s.rq - s.r| := by
  have hs := he.near
  obtain ⟨b1, b2⟩ := hs.bounds
  obtain ⟨P1, P2⟩ := abs_le_radius X Y
  obtain ⟨q1, q2⟩ := abs_le_radius s.xq s.yq
  rw [← hs.radius] at q1 q2
  have hr0 : 0 ≤ s.rq := (abs_nonneg _).trans q1
  have hr2 : s.rq ^ 2 = s.xq ^ 2 + s.yq ^ 2 := by rw [hs.radius]; exact Real.sq_sqrt (by positivity)
  obtain ⟨a1, a2⟩ := h.scale
  have hR := h.radius
  have hrR : s.rq ≤ R := by linarith
  have hpR : s.r ≤ R := by linarith [he.prev.2]
  have hc := radial_le (ap := ap) hr0 hrR
  rw [← h.eK] at hc
  have hcos9 : 99 / 100 ≤ Real.cos ap.she := by linarith [h.percent, h.cos]
  rw [distort_lens]
  set ex := mx - (ap.scx * lensX ap X Y - Real.sin ap.she * lensY ap X Y) with hex
  set ey := my - Real.cos ap.she * lensY ap X Y with hey
  have hdr := radial_diff (ap := ap) hr0 hrR (Real.sqrt_nonneg (X ^ 2 + Y ^ 2)) hP
  rw [← h.eK] at hdr
  have hst := radial_diff (ap := ap) hr0 hrR he.prev.1 hpR
  rw [← h.eK] at hst
  have hrad : |s.rq - Real.sqrt (X ^ 2 + Y ^ 2)| ≤ |s.xq - X| + |s.yq - Y| := by rw [hs.radius]; exact radius_diff _ _ _ _
  have hkd : R * |radialTerm ap s.rq - radialTerm ap (Real.sqrt (X ^ 2 + Y ^ 2))| ≤ 6 * K * (|s.xq - X| + |s.yq - Y|) :=
    hdr.trans (mul_le_mul_of_nonneg_left hrad (by linarith [h.K0]))
  have hx := x_part (X := X) (Y := Y) (Y' := lensY ap X Y) (ex := ex) (a := ap.scx) (s := Real.sin ap.she) (xq := s.xq) (yq := s.yq)
    (c := radialTerm ap s.rq) (c0 := radialTerm ap (Real.sqrt (X ^ 2 + Y ^ 2))) (p1 := ap.p1) (p2 := ap.p2) a1 rfl rfl (q1.trans hrR) (q2.trans hrR)
    (P1.trans hP) (P2.trans hP) hc (mul_le_mul_of_nonneg_right (P1.trans hP) (abs_nonneg _)) hr2 rfl h.eα h.eβ
  have hy := y_part (X := X) (X' := lensX ap X Y) (Y := Y) (ey := ey) (b := Real.cos ap.she) (xq := s.xq) (yq := s.yq)
    (w := s.xq)
    (c := radialTerm ap s.rq) (c0 := radialTerm ap (Real.sqrt (X ^ 2 + Y ^ 2))) (p1 := ap.p1) (p2 := ap.p2) hcos9 rfl rfl (q1.trans hrR)
    (q2.trans hrR) (P1.trans hP) (P2.trans hP) (q1.trans hrR) hc (mul_le_mul_of_nonneg_right (P2.trans hP) (abs_nonneg _)) hr2 rfl h.eα h.eβ
  set x1 := (ap.scx * (X + (X * radialTerm ap (Real.sqrt (X ^ 2 + Y ^ 2)) + ap.p1 * (X ^ 2 + Y ^ 2 + 2 * X ^ 2)
      + 2 * ap.p2 * X * Y)) - Real.sin ap.she * lensY ap X Y + ex + s.yq * Real.sin ap.she) / ap.scx - s.xq * radialTerm ap s.rq
      - ap.p1 * (s.rq ^ 2 + 2 * s.xq ^ 2) - 2 * ap.p2 * s.xq * s.yq with hx1
  set y1 := (Real.cos ap.she * (Y + (Y * radialTerm ap (Real.sqrt (X ^ 2 + Y ^ 2)) + ap.p2 * (X ^ 2 + Y ^ 2 + 2 * Y ^ 2)
      + 2 * ap.p1 * lensX ap X Y * Y)) + ey) / Real.cos ap.she - s.yq * radialTerm ap s.rq
      - ap.p2 * (s.rq ^ 2 + 2 * s.yq ^ 2) - 2 * ap.p1 * s.xq * s.yq with hy1
  have ex' : (corrFinal mx my ap s).1 - X = (x1 - X) + s.xq * (radialTerm ap s.rq - radialTerm ap s.r) := by
    have : ap.scx * (X + (X * radialTerm ap (Real.sqrt (X ^ 2 + Y ^ 2)) + ap.p1 * (X ^ 2 + Y ^ 2 + 2 * X ^ 2)
      + 2 * ap.p2 * X * Y)) - Real.sin ap.she * lensY ap X Y + ex = mx := by rw [hex, lensX]; ring
    rw [hx1, this, corrFinal, he.common]; ring
  have ey' : (corrFinal mx my ap s).2 - Y = (y1 - Y) + s.yq * (radialTerm ap s.rq - radialTerm ap s.r) := by
    have : Real.cos ap.she * (Y + (Y * radialTerm ap (Real.sqrt (X ^ 2 + Y ^ 2)) + ap.p2 * (X ^ 2 + Y ^ 2 + 2 * Y ^ 2)
      + 2 * ap.p1 * lensX ap X Y * Y)) + ey = my := by rw [hey, lensY]; ring
    rw [hy1, this, corrFinal, he.common]; ring
  have hs1 := mul_le_mul_of_nonneg_right h.sin (by positivity : 0 ≤ |s.yq - Y| + |lensY ap X Y - Y|)
  have hn := step_numbers h.sum h.percent h.K0 h.α0 h.β0 h.S0 h.A0 hR (abs_nonneg _) (abs_nonneg _) (abs_nonneg (x1 - X)) (abs_nonneg (y1 - Y))
    (abs_nonneg ex)
    (abs_nonneg ey) rfl (h.x_moved hP) (h.y_moved hP) hkd (by linarith) (Or.inr le_rfl) hy
  have t1 := abs_add_le (x1 - X) (s.xq * (radialTerm ap s.rq - radialTerm ap s.r))
  have t2 := abs_add_le (y1 - Y) (s.yq * (radialTerm ap s.rq - radialTerm ap s.r))
  rw [abs_mul s.xq] at t1
  rw [abs_mul s.yq] at t2
  rw [ex', ey']
  have w1 := mul_le_mul_of_nonneg_right (q1.trans hrR) (abs_nonneg (radialTerm ap s.rq - radialTerm ap s.r))
  have w2 := mul_le_mul_of_nonneg_right (q2.trans hrR) (abs_nonneg (radialTerm ap s.rq - radialTerm ap s.r))
  unfold offBy
  linarith

/-- All together, as numbers. -/
theorem all_numbers {κ n e0 B W E R Q rest : ℝ} (hκ0 : 0 ≤ κ) (hκ : κ ≤ 1 / 100) (hn : 0 ≤ n) (hB : 0 ≤ B) (hR : 0 < R) (hW : W = 1.05 * n + B)
    (h0 : e0 ≤ n + 6.1 * κ * R) (hE : E = 13.5 * κ * e0 + 6 / 5 * W) (hQ : Q ≤ W + 37.5 * κ * E + rest) :
    Q ≤ 8 / 5 * n + 3 / 2 * B + 3100 * κ ^ 3 * R + rest := by
  have hW0 : 0 ≤ W := by rw [hW]; positivity
  have k1 : κ * W ≤ 1 / 100 * W := mul_le_mul_of_nonneg_right hκ hW0
  have k2 : κ ^ 2 * n ≤ 1 / 10000 * n := mul_le_mul_of_nonneg_right (by nlinarith) hn
  have k3 : κ ^ 2 * e0 ≤ κ ^ 2 * (n + 6.1 * κ * R) := mul_le_mul_of_nonneg_left h0 (by positivity)
  have k4 : κ * E = 13.5 * (κ ^ 2 * e0) + 6 / 5 * (κ * W) := by rw [hE]; ring
  have k5 : 0 ≤ κ ^ 3 * R := by positivity
  have k6 : κ ^ 2 * (n + 6.1 * κ * R) = κ ^ 2 * n + 6.1 * (κ ^ 3 * R) := by ring
  have k7 : 37.5 * κ * E = 37.5 * (κ * E) := by ring
  rw [k7, k4] at hQ
  rw [k6] at k3
  have : 3100 * κ ^ 3 * R = 3100 * (κ ^ 3 * R) := by ring
  rw [this]
  subst hW
  linarith

set_option maxHeartbeats 1000000 in
/-- The correction in the sum of the coordinates. -/
theorem correction_sum {ap : AddPar} {R κ K α β S A mx my X Y tol : ℝ} (h : LensNumbers ap R κ K α β S A)
    (hm : Real.sqrt (mx ^ 2 + my ^ 2) ≤ 0.9 * R) (hP : Real.sqrt (X ^ 2 + Y ^ 2) ≤ R) (htol : 0 ≤ tol) (hz : ¬ (mx = 0 ∧ my = 0)) :
    |(correctBrownAffine mx my ap tol).1 - X| + |(correctBrownAffine mx my ap tol).2 - Y|
      ≤ 8 / 5 * (|mx - (distortBrownAffine X Y ap).1| + |my - (distortBrownAffine X Y ap).2|)
        + 12 * (S + α) * κ * R + 3100 * κ ^ 3 * R + 12 * κ * tol * R := by
  have hκ0 : 0 ≤ κ := by linarith [h.sum, h.K0, h.α0, h.β0, h.S0, h.A0]
  have hR := h.radius
  set n := |mx - (distortBrownAffine X Y ap).1| + |my - (distortBrownAffine X Y ap).2| with hn
  have hn0 : 0 ≤ n := by positivity
  set B := 7 * (S + α) * κ * R with hB
  have hB0 : 0 ≤ B := by have := h.S0; have := h.α0; positivity
  set e0 := offBy X Y (corrInit mx my) with he0
  have he00 : 0 ≤ e0 := by rw [he0, offBy]; positivity
  have h0 : e0 ≤ n + 6.1 * κ * R := by
    have hmv := h.moved hP
    have t1 := abs_add_le (mx - (distortBrownAffine X Y ap).1) ((distortBrownAffine X Y ap).1 - X)
    have t2 := abs_add_le (my - (distortBrownAffine X Y ap).2) ((distortBrownAffine X Y ap).2 - Y)
    rw [sub_add_sub_cancel] at t1 t2
    show |mx - X| + |my - Y| ≤ _
    linarith
  set W := 1.05 * n + B with hW
  have hW0 : 0 ≤ W := by positivity
  set E := 13.5 * κ * e0 + 6 / 5 * W with hEdef
  have hE0 : 0 ≤ E := by positivity
  have hpass := fun s hs => pass_error (s := s) h hm hP hs
  have hstep : ∀ s, NearInput mx my s → offBy X Y s ≤ E → offBy X Y (corrStep mx my ap s) ≤ E := by
    intro s hs he
    have h1 := hpass s hs
    have h2 : 13.5 * κ * offBy X Y s ≤ 13.5 * κ * E := mul_le_mul_of_nonneg_left he (by positivity)
    have h3 : κ * E ≤ 13.5 / 100 * (κ * e0) + 6 / 5 / 100 * W := by
      rw [hEdef]
      have a1 : κ * (κ * e0) ≤ 1 / 100 * (κ * e0) := mul_le_mul_of_nonneg_right h.percent (by positivity)
      have a2 : κ * W ≤ 1 / 100 * W := mul_le_mul_of_nonneg_right h.percent hW0
      linarith
    have h4 : 0 ≤ κ * e0 := by positivity
    have h5 : E = 13.5 * (κ * e0) + 6 / 5 * W := by rw [hEdef]; ring
    rw [← hB] at h1
    have h6 : 13.5 * κ * E = 13.5 * (κ * E) := by ring
    linarith
  have hfirst : offBy X Y (corrStep mx my ap (corrInit mx my)) ≤ E := by
    have h1 := hpass _ (nearInput_init mx my)
    rw [← hB, ← he0] at h1
    linarith
  have hend := loop_end_start (tol := tol) h hm hstep hfirst 199
  have hfin := final_error h hm hP hend
  have hcorr : correctBrownAffine mx my ap tol = corrFinal mx my ap (corrLoop mx my ap tol (199 + 1) (corrInit mx my)) := by
    rw [correctBrownAffine, if_neg hz]
  rw [hcorr]
  set s := corrLoop mx my ap tol (199 + 1) (corrInit mx my) with hs
  rw [← hB, ← hn] at hfin
  have hoff := mul_le_mul_of_nonneg_left hend.off (by positivity : 0 ≤ 13.5 * κ)
  have hstale : 12 * K * |s.rq - s.r| ≤ 24 * κ * E + 12 * κ * tol * R := by
    have hKκ : K ≤ κ := by linarith [h.sum, h.α0, h.β0, h.S0, h.A0]
    have hpR : s.r ≤ R := by linarith [hend.prev.2]
    have t1 : tol * s.r ≤ tol * R := mul_le_mul_of_nonneg_left hpR htol
    have t2 : 0 ≤ tol * R := mul_nonneg htol hR.le
    have : |s.rq - s.r| ≤ 2 * E + tol * R := by
      rcases hend.stop with h1 | h1 <;> linarith
    have h2 := mul_le_mul hKκ this (abs_nonneg _) hκ0
    linarith
  have hQ : |(corrFinal mx my ap s).1 - X| + |(corrFinal mx my ap s).2 - Y| ≤ W + 37.5 * κ * E + 12 * κ * tol * R := by linarith
  have := all_numbers hκ0 h.percent hn0 hB0 hR hW h0 hEdef hQ
  have hBle : 3 / 2 * B ≤ 12 * (S + α) * κ * R := by rw [hB] at hB0 ⊢; linarith
  linarith


/-- A lens that is weak up to `R` is weak up to any smaller radius. -/
theorem weakLens_shrink {ap : AddPar} {R κ ρ : ℝ} (h : WeakLens ap R κ) (h0 : 0 < ρ) (hρ : ρ ≤ R) : WeakLens ap ρ κ := by
  refine ⟨h0, le_trans ?_ h.weak, h.percent⟩
  gcongr

/-- The correction, with the input at the principal point included. -/
theorem weakLens_correction {ap : AddPar} {R κ mx my X Y tol : ℝ} (h : WeakLens ap R κ)
    (hm : Real.sqrt (mx ^ 2 + my ^ 2) ≤ 0.9 * R) (hP : Real.sqrt (X ^ 2 + Y ^ 2) ≤ R) (htol : 0 ≤ tol) :
    |(correctBrownAffine mx my ap tol).1 - X| + |(correctBrownAffine mx my ap tol).2 - Y|
      ≤ 8 / 5 * (|mx - (distortBrownAffine X Y ap).1| + |my - (distortBrownAffine X Y ap).2|) + lensRest ap R κ tol := by
  have hκ0 : 0 ≤ κ := by
    have := weakLens_numbers h
    linarith [this.sum, this.K0, this.α0, this.β0, this.S0, this.A0]
  have hR := h.radius
  by_cases hz : mx = 0 ∧ my = 0
  · have hrest : 0 ≤ lensRest ap R κ tol := by unfold lensRest; positivity
    obtain ⟨rfl, rfl⟩ := hz
    have e : correctBrownAffine 0 0 ap tol = (0, 0) := by simp [correctBrownAffine]
    rw [e]
    rcases (Real.sqrt_nonneg (X ^ 2 + Y ^ 2)).eq_or_lt with h0 | h0
    · have h1 := abs_le_radius X Y
      rw [← h0] at h1
      have hX : X = 0 := abs_nonpos_iff.1 h1.1
      have hY : Y = 0 := abs_nonpos_iff.1 h1.2
      subst hX hY
      simp only [sub_self, abs_zero, add_zero]
      positivity
    · have hmv := (weakLens_numbers (weakLens_shrink h h0 hP)).moved le_rfl
      have hs := radius_le_sum X Y
      have hk : 6.1 * κ * Real.sqrt (X ^ 2 + Y ^ 2) ≤ 0.061 * (|X| + |Y|) := by
        have := mul_le_mul h.percent hs h0.le (by norm_num)
        linarith
      have t1 := abs_sub_abs_le_abs_sub X (distortBrownAffine X Y ap).1
      have t2 := abs_sub_abs_le_abs_sub Y (distortBrownAffine X Y ap).2
      rw [abs_sub_comm] at t1 t2
      simp only [zero_sub, abs_neg]
      linarith [abs_nonneg X, abs_nonneg Y, abs_nonneg (distortBrownAffine X Y ap).1, abs_nonneg (distortBrownAffine X Y ap).2]
  · have := correction_sum (weakLens_numbers h) hm hP htol hz
    unfold lensRest
    linarith

end Verif.Geo
