/-
A mild radial lens does not magnify measuring errors by more than two.
-/
import Verif.Props.Precision
import Verif.Props.Trafo
import Verif.Spec.Measured

namespace Verif.Geo
open V3 Spec
open Verif.Track (norm_sub_le' norm_add_le' v3_norm_comm)

/-- One term of the distortion polynomial. -/
theorem term_lipschitz {p q : V3} {R : ℝ} (k : ℝ) (n : ℕ) (hp : p.norm ≤ R) (hq : q.norm ≤ R) :
    (p.smul (k * p.norm ^ (n + 1)) - q.smul (k * q.norm ^ (n + 1))).norm ≤ |k| * ((n + 2) * R ^ (n + 1)) * (p - q).norm := by
  have hp0 := V3.norm_nonneg p
  have hq0 := V3.norm_nonneg q
  have hR : 0 ≤ R := hp0.trans hp
  have e : p.smul (k * p.norm ^ (n + 1)) - q.smul (k * q.norm ^ (n + 1))
      = (p - q).smul (k * p.norm ^ (n + 1)) + q.smul (k * (p.norm ^ (n + 1) - q.norm ^ (n + 1))) := by
    ext <;> simp only [sub_x, sub_y, sub_z, add_x, add_y, add_z, smul_x, smul_y, smul_z] <;> ring
  rw [e]
  refine (norm_add_le' _ _).trans ?_
  rw [V3.norm_smul, V3.norm_smul, abs_mul, abs_mul, abs_of_nonneg (pow_nonneg hp0 _)]
  have htri : |p.norm - q.norm| ≤ (p - q).norm := by
    rw [abs_le]
    have a1 := norm_add_le' (p - q) q
    have a2 := norm_add_le' (q - p) p
    rw [v3_norm_comm q p] at a2
    have b1 : p - q + q = p := by ext <;> simp
    have b2 : q - p + p = q := by ext <;> simp
    rw [b1] at a1
    rw [b2] at a2
    constructor <;> linarith
  have hpw := abs_pow_sub_pow_le (α := ℝ) p.norm q.norm (n + 1)
  rw [abs_of_nonneg hp0, abs_of_nonneg hq0] at hpw
  simp only [Nat.add_sub_cancel] at hpw
  have hmax : max p.norm q.norm ^ n ≤ R ^ n := pow_le_pow_left₀ (le_max_of_le_left hp0) (max_le hp hq) n
  have hd : |p.norm ^ (n + 1) - q.norm ^ (n + 1)| ≤ (p - q).norm * (n + 1) * R ^ n := by
    refine hpw.trans ?_
    push_cast
    exact mul_le_mul (mul_le_mul_of_nonneg_right htri (by positivity)) hmax (by positivity)
      (mul_nonneg (V3.norm_nonneg _) (by positivity))
  have h1 : (p - q).norm * (|k| * p.norm ^ (n + 1)) ≤ (p - q).norm * (|k| * R ^ (n + 1)) := by
    refine mul_le_mul_of_nonneg_left (mul_le_mul_of_nonneg_left (pow_le_pow_left₀ hp0 hp _) (abs_nonneg _)) (V3.norm_nonneg _)
  have h2 : q.norm * (|k| * |p.norm ^ (n + 1) - q.norm ^ (n + 1)|) ≤ R * (|k| * ((p - q).norm * (n + 1) * R ^ n)) :=
    mul_le_mul hq (mul_le_mul_of_nonneg_left hd (abs_nonneg _)) (by positivity) hR
  have : |k| * ((n + 2) * R ^ (n + 1)) * (p - q).norm
      = (p - q).norm * (|k| * R ^ (n + 1)) + R * (|k| * ((p - q).norm * (n + 1) * R ^ n)) := by ring
  rw [this]; linarith

/-- The distortion as a map of the plane. -/
noncomputable def lensMap (k1 k2 k3 : ℝ) (p : V3) : V3 :=
  p + (p.smul (k1 * p.norm ^ 2) + p.smul (k2 * p.norm ^ 4) + p.smul (k3 * p.norm ^ 6))

theorem plane_norm (x y : ℝ) : (⟨x, y, 0⟩ : V3).norm = Real.sqrt (x ^ 2 + y ^ 2) := by
  rw [V3.norm]; congr 1; ring

theorem distort_lensMap (k1 k2 k3 x y : ℝ) :
    (⟨(distortBrownAffine x y ⟨k1, k2, k3, 0, 0, 1, 0⟩).1, (distortBrownAffine x y ⟨k1, k2, k3, 0, 0, 1, 0⟩).2, 0⟩ : V3)
      = lensMap k1 k2 k3 ⟨x, y, 0⟩ := by
  by_cases h : x = 0 ∧ y = 0
  · obtain ⟨rfl, rfl⟩ := h
    simp only [distortBrownAffine, lensMap]
    ext <;> simp
  · simp only [distortBrownAffine, if_neg h, lensMap, plane_norm]
    ext <;> simp <;> ring

theorem lensMap_expands {k1 k2 k3 R : ℝ} (hk : |k1| * R ^ 2 + |k2| * R ^ 4 + |k3| * R ^ 6 ≤ 1 / 24) {p q : V3}
    (hp : p.norm ≤ 12 / 11 * R) (hq : q.norm ≤ 12 / 11 * R) :
    (p - q).norm ≤ 2 * (lensMap k1 k2 k3 p - lensMap k1 k2 k3 q).norm := by
  have t1 := term_lipschitz k1 1 hp hq
  have t2 := term_lipschitz k2 3 hp hq
  have t3 := term_lipschitz k3 5 hp hq
  norm_num at t1 t2 t3
  have e : p - q = (lensMap k1 k2 k3 p - lensMap k1 k2 k3 q)
      - ((p.smul (k1 * p.norm ^ 2) - q.smul (k1 * q.norm ^ 2)) + (p.smul (k2 * p.norm ^ 4) - q.smul (k2 * q.norm ^ 4))
        + (p.smul (k3 * p.norm ^ 6) - q.smul (k3 * q.norm ^ 6))) := by
    simp only [lensMap]
    ext <;> simp only [sub_x, sub_y, sub_z, add_x, add_y, add_z, smul_x, smul_y, smul_z] <;> ring
  have h0 := norm_sub_le' (lensMap k1 k2 k3 p - lensMap k1 k2 k3 q)
    ((p.smul (k1 * p.norm ^ 2) - q.smul (k1 * q.norm ^ 2)) + (p.smul (k2 * p.norm ^ 4) - q.smul (k2 * q.norm ^ 4))
        + (p.smul (k3 * p.norm ^ 6) - q.smul (k3 * q.norm ^ 6)))
  rw [← e] at h0
  have h1 := norm_add_le' (p.smul (k1 * p.norm ^ 2) - q.smul (k1 * q.norm ^ 2) + (p.smul (k2 * p.norm ^ 4) - q.smul (k2 * q.norm ^ 4)))
    (p.smul (k3 * p.norm ^ 6) - q.smul (k3 * q.norm ^ 6))
  have h2 := norm_add_le' (p.smul (k1 * p.norm ^ 2) - q.smul (k1 * q.norm ^ 2)) (p.smul (k2 * p.norm ^ 4) - q.smul (k2 * q.norm ^ 4))
  have hc : |k1| * (3 * (12 / 11 * R) ^ 2) + |k2| * (5 * (12 / 11 * R) ^ 4) + |k3| * (7 * (12 / 11 * R) ^ 6) ≤ 1 / 2 := by
    have a1 : 0 ≤ |k1| * R ^ 2 := by positivity
    have a2 : 0 ≤ |k2| * R ^ 4 := by positivity
    have a3 : 0 ≤ |k3| * R ^ 6 := by positivity
    have e1 : |k1| * (3 * (12 / 11 * R) ^ 2) = 432 / 121 * (|k1| * R ^ 2) := by ring
    have e2 : |k2| * (5 * (12 / 11 * R) ^ 4) = 103680 / 14641 * (|k2| * R ^ 4) := by ring
    have e3 : |k3| * (7 * (12 / 11 * R) ^ 6) = 20901888 / 1771561 * (|k3| * R ^ 6) := by ring
    rw [e1, e2, e3]
    linarith
  have hpq := V3.norm_nonneg (p - q)
  have := mul_le_mul_of_nonneg_right hc hpq
  have e9 : (|k1| * (3 * (12 / 11 * R) ^ 2) + |k2| * (5 * (12 / 11 * R) ^ 4) + |k3| * (7 * (12 / 11 * R) ^ 6)) * (p - q).norm
      = |k1| * (3 * (12 / 11 * R) ^ 2) * (p - q).norm + |k2| * (5 * (12 / 11 * R) ^ 4) * (p - q).norm
        + |k3| * (7 * (12 / 11 * R) ^ 6) * (p - q).norm := by ring
  linarith

/-- Correcting a measured point: the error is at most twice that of the measurement, plus twice the tolerance times the radius. -/
theorem lens_noise {ap : AddPar} {R tol x y : ℝ} {m : ℝ × ℝ} (h : MildLens ap R) (htol : (1 / 2) ^ 200 ≤ tol)
    (hx : Real.sqrt (x ^ 2 + y ^ 2) ≤ R) (hm : Real.sqrt (m.1 ^ 2 + m.2 ^ 2) ≤ R) :
    imageDist (x, y) (correctBrownAffine m.1 m.2 ap tol) ≤ 2 * (imageDist (distortBrownAffine x y ap) m + tol * R) := by
  obtain ⟨k1, k2, k3, p1, p2, scx, she⟩ := ap
  obtain ⟨h1, h2, h3, h4, hk⟩ := h
  simp only at h1 h2 h3 h4 hk
  subst h1 h2 h3 h4
  have hR : 0 ≤ R := (Real.sqrt_nonneg _).trans hx
  have ht0 : 0 ≤ tol := le_trans (by positivity) htol
  set ρ := Real.sqrt (m.1 ^ 2 + m.2 ^ 2) with hρ
  have hρ0 : 0 ≤ ρ := Real.sqrt_nonneg _
  have hsq : ρ ^ 2 = m.1 ^ 2 + m.2 ^ 2 := Real.sq_sqrt (by positivity)
  have hkρ : |k1| * ρ ^ 2 + |k2| * ρ ^ 4 + |k3| * ρ ^ 6 ≤ 1 / 24 := by
    refine le_trans ?_ hk
    gcongr
  set q := correctBrownAffine m.1 m.2 ⟨k1, k2, k3, 0, 0, 1, 0⟩ tol with hq
  have hqn : (⟨q.1, q.2, 0⟩ : V3).norm ≤ 12 / 11 * R := by
    by_cases h0 : m.1 = 0 ∧ m.2 = 0
    · rw [plane_norm, hq]
      simp only [correctBrownAffine, h0]
      simp
      linarith
    · obtain ⟨s, s1, s2, s3, -⟩ := correct_radial (k1 := k1) (k2 := k2) (k3 := k3) h0 hρ (by
        rw [abs_mul, abs_mul, abs_mul, abs_of_nonneg (by positivity : 0 ≤ ρ ^ 2),
          abs_of_nonneg (by positivity : 0 ≤ ρ ^ 4), abs_of_nonneg (by positivity : 0 ≤ ρ ^ 6)]
        exact hkρ) htol
      rw [plane_norm, hq, s3]
      simp only
      rw [show (m.1 * s) ^ 2 + (m.2 * s) ^ 2 = s ^ 2 * (m.1 ^ 2 + m.2 ^ 2) by ring, Real.sqrt_mul (by positivity), ← hρ,
        Real.sqrt_sq (by linarith)]
      exact mul_le_mul s2 hm hρ0 (by norm_num)
  have hpn : (⟨x, y, 0⟩ : V3).norm ≤ 12 / 11 * R := by rw [plane_norm]; linarith
  have hd : ∀ a b : ℝ × ℝ, imageDist a b = ((⟨a.1, a.2, 0⟩ : V3) - ⟨b.1, b.2, 0⟩).norm := by
    intro a b
    rw [imageDist, ← plane_norm]
    congr 1
    ext <;> simp
  have hr := C24_radial_roundtrip_partial k1 k2 k3 tol m.1 m.2 (by
    rw [← hsq, show (ρ ^ 2) ^ 2 = ρ ^ 4 by ring, show (ρ ^ 2) ^ 3 = ρ ^ 6 by ring]; exact hkρ) htol
  simp only at hr
  rw [← hq, ← hρ] at hr
  have hr' : imageDist m (distortBrownAffine q.1 q.2 ⟨k1, k2, k3, 0, 0, 1, 0⟩) ≤ tol * R := by
    refine le_trans (le_of_eq ?_) (hr.trans (mul_le_mul_of_nonneg_left hm ht0))
    rw [imageDist]; congr 1; ring
  have hex := lensMap_expands hk hpn hqn
  rw [hd]
  simp only
  refine hex.trans ?_
  rw [← distort_lensMap, ← distort_lensMap, ← hd]
  have htri : imageDist (distortBrownAffine x y ⟨k1, k2, k3, 0, 0, 1, 0⟩) (distortBrownAffine q.1 q.2 ⟨k1, k2, k3, 0, 0, 1, 0⟩)
      ≤ imageDist (distortBrownAffine x y ⟨k1, k2, k3, 0, 0, 1, 0⟩) m
        + imageDist m (distortBrownAffine q.1 q.2 ⟨k1, k2, k3, 0, 0, 1, 0⟩) := by
    rw [hd, hd, hd]
    refine le_trans (le_of_eq ?_) (norm_add_le' _ _)
    congr 1
    ext <;> simp
  linarith

end Verif.Geo
