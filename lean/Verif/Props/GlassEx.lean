/-
Examples for C135.
-/
import Verif.Props.Glass

namespace Verif.Geo
open V3 Spec

/-! Two cameras on both sides, 50 over a window of thickness 6, and a point 50 below it. -/

/-- A camera over the window. -/
noncomputable def glassCam (a : ℝ) : Cam :=
  ⟨⟨a, 0, 100⟩, rotationMatrix 0 0 0, 4, 0, 0, ⟨0, 0, 0, 0, 0, 1, 0⟩, ⟨0, 0, 50⟩⟩

theorem glassCam_norm : (⟨0, 0, 50⟩ : V3).norm = 50 := by
  simp only [V3.norm]
  rw [show (0 : ℝ) * 0 + 0 * 0 + 50 * 50 = 50 ^ 2 by norm_num, Real.sqrt_sq (by norm_num)]

theorem glassCam_unit : (⟨0, 0, 50⟩ : V3).unit = ⟨0, 0, 1⟩ := by
  rw [unit_of_ne (by intro h; have := congrArg V3.z h; simp at this), glassCam_norm]
  ext <;> simp

theorem glassCam_height (P : V3) : height ⟨0, 0, 50⟩ P = P.z := by
  simp [height, glassCam_norm]

theorem glassCam_sees (a : ℝ) : SeesThrough (glassCam a) 6 ⟨0, 0, 0⟩ where
  rot := ⟨0, 0, 0, rfl⟩
  glass := by intro h; have := congrArg V3.z h; simp [glassCam] at this
  camera := by simp only [glassCam, glassCam_height, glassCam_norm]; norm_num
  behind := by simp only [glassCam, glassCam_height, glassCam_norm]; norm_num
  front := by simp only [glassCam, rotationMatrix, M3.c2, dot]; norm_num
  window := by
    simp only [glassCam, windowAbove, glassCam_height, glassCam_norm, rotationMatrix, M3.c2, dot]; norm_num

theorem glassCam_plate : OnePlate ⟨1, 1, [3 / 2], 4 / 3, [6]⟩ 6 (3 / 2) :=
  ⟨rfl, rfl, rfl, by norm_num, by norm_num, by norm_num, by norm_num⟩

theorem glassCam_error {a : ℝ} (ha : |a| = 30) : sightError (glassCam a) 6 ⟨0, 0, 0⟩ ≤ 0.0013 := by
  have ho : offNormal (glassCam a) ⟨0, 0, 0⟩ = 30 := by
    simp only [offNormal, glassCam, glassCam_height, glassCam_norm]
    rw [show (⟨0, 0, 0⟩ : V3) - ⟨a, 0, 100⟩ - (⟨0, 0, 50⟩ : V3).smul ((0 - 100) / 50) = ⟨-a, 0, 0⟩ by ext <;> norm_num]
    rw [V3.norm]
    norm_num
    rw [← pow_two, Real.sqrt_sq_eq_abs, ha]
  simp only [sightError, ho]
  simp only [glassCam, glassCam_height, glassCam_norm]
  rw [max_eq_left (by norm_num)]
  norm_num

theorem glassCam_ray {a : ℝ} (ha : |a| = 30) : ∃ t X s k, flatImageCoord ⟨0, 0, 0⟩ (glassCam a) emptyLUT ⟨1, 1, [3 / 2], 4 / 3, [6]⟩ = some t ∧
    rayTracing t.1 t.2 (glassCam a) ⟨1, 1, [3 / 2], 4 / 3, [6]⟩ = some (X, ⟨-a / 30 * s, 0, -k⟩) ∧ t.1 ≠ coordUnused ∧
    0.2 ≤ s ∧ 0.9 ≤ k ∧ s ^ 2 + k ^ 2 = 1 := by
  obtain ⟨t, X, out, h1, h2, -, h3, h4, F, h5, h6, h7, h8, -, -⟩ := sight_core (glassCam a) ⟨1, 1, [3 / 2], 4 / 3, [6]⟩ 6 (3 / 2) ⟨0, 0, 0⟩
    glassCam_plate (glassCam_sees a)
  have ha2 : a ^ 2 = 900 := by rw [← sq_abs, ha]; norm_num
  simp only [glassCam, glassCam_height, glassCam_norm, glassCam_unit, tangential] at h4 h6 h7 h8
  norm_num [dot] at h4 h6 h7 h8
  have e : ((⟨0, 0, 0⟩ : V3) - ⟨a, 0, 100⟩ - (⟨0, 0, 1⟩ : V3).smul (-100)) = ⟨-a, 0, 0⟩ := by ext <;> simp
  have e' : (⟨-a, 0, 0⟩ : V3).smul F - (⟨0, 0, 1⟩ : V3).smul 100 = ⟨-a * F, 0, -100⟩ := by ext <;> simp
  rw [e, e'] at h7 h8
  set N := V3.norm ⟨-a * F, 0, -100⟩ with hN
  have hN0 : 0 < N := V3.norm_pos (by intro h; have := congrArg V3.z h; simp at this)
  have hN2 : N ^ 2 = 900 * F ^ 2 + 10000 := by
    rw [hN, V3.norm_sq]; simp only [dot]; nlinarith
  have ox : out.x = -a * (F * (3 / 4) / N) := by
    have := congrArg V3.x h7; simpa using this
  have oy : out.y = 0 := by
    have := congrArg V3.y h7; simpa using this
  have oo := V3.norm_eq_one.1 h3
  simp only [dot, oy] at oo
  set s := 45 / 2 * F / N with hs
  have os : out.x = -a / 30 * s := by rw [ox, hs]; ring
  have hs2 : s ^ 2 * (900 * F ^ 2 + 10000) = 2025 / 4 * F ^ 2 := by
    rw [← hN2, hs]; field_simp; norm_num
  have hs0 : 0 ≤ s := by positivity
  have hk : s ^ 2 + (-out.z) ^ 2 = 1 := by
    rw [os] at oo; nlinarith
  have hFF : F ^ 2 ≤ 5.17 := by nlinarith
  have hF1 : 1 ≤ F ^ 2 := by nlinarith
  have hsl : 0.04 ≤ s ^ 2 := by
    by_contra h; push Not at h; nlinarith
  have hsu : s ^ 2 ≤ 0.19 := by
    by_contra h; push Not at h; nlinarith
  refine ⟨t, X, s, -out.z, h1, ?_, ?_, ?_, ?_, hk⟩
  · rw [h2]; congr 2
    ext
    · exact os
    · exact oy
    · simp
  · have ht : t.1 = -4 * a * F / 100 := by
      rw [h8]; simp [collinear, rotationMatrix, M3.c2, M3.c0, dot]; ring
    have hle := abs_le.1 ha.le
    rw [ht, coordUnused]
    intro h
    nlinarith
  · by_contra h; push Not at h; nlinarith
  · by_contra h; push Not at h; nlinarith

/-- `C135_position` is about an actual pair of cameras. -/
example : ∃ t1 t2 D M, flatImageCoord ⟨0, 0, 0⟩ (glassCam 30) emptyLUT ⟨1, 1, [3 / 2], 4 / 3, [6]⟩ = some t1 ∧
    flatImageCoord ⟨0, 0, 0⟩ (glassCam (-30)) emptyLUT ⟨1, 1, [3 / 2], 4 / 3, [6]⟩ = some t2 ∧
    pointPosition [t1, t2] 2 ⟨1, 1, [3 / 2], 4 / 3, [6]⟩ [glassCam 30, glassCam (-30)] = .ok (some (D, M)) ∧
    D ≤ 2 * 0.0013 ∧ (M - ⟨0, 0, 0⟩).norm ≤ 0.0013 * (1 + 2 / 0.36) := by
  have h30 : |(30 : ℝ)| = 30 := by norm_num
  have h30' : |(-30 : ℝ)| = 30 := by norm_num
  obtain ⟨t1, X1, s1, k1, a1, b1, c1, d1, e1, f1⟩ := glassCam_ray h30
  obtain ⟨t2, X2, s2, k2, a2, b2, c2, d2, e2, f2⟩ := glassCam_ray h30'
  have hused : usedCams [t1, t2] 2 = {0, 1} := by
    classical
    ext c
    simp only [usedCams, Finset.mem_filter, Finset.mem_range, IsUsed, Finset.mem_insert, Finset.mem_singleton]
    constructor
    · rintro ⟨hlt, -⟩; omega
    · rintro (rfl | rfl)
      · exact ⟨by norm_num, t1, rfl, c1⟩
      · exact ⟨by norm_num, t2, rfl, c2⟩
  obtain ⟨D, M, g1, -, g2, g3⟩ := C135_position ⟨0, 0, 0⟩ [t1, t2] 2 ⟨1, 1, [3 / 2], 4 / 3, [6]⟩ [glassCam 30, glassCam (-30)]
    6 (3 / 2) 0.0013 0.36 (by simp) glassCam_plate (by norm_num) (by
      intro cam hlt t ht _
      match cam, hlt with
      | 0, _ =>
        simp only [List.getElem?_cons_zero, Option.some.injEq] at ht; subst ht
        exact ⟨_, rfl, glassCam_sees 30, glassCam_error h30, a1⟩
      | 1, _ =>
        simp only [List.getElem?_cons_succ, List.getElem?_cons_zero, Option.some.injEq] at ht; subst ht
        exact ⟨_, rfl, glassCam_sees (-30), glassCam_error h30', a2⟩) (by
      intro i j ti tj ci cj Xi ai Xj aj hij hi hj hti htj hci hcj hri hrj
      rw [hused] at hi hj
      simp only [Finset.mem_insert, Finset.mem_singleton] at hi hj
      rcases hi with rfl | rfl <;> rcases hj with rfl | rfl <;> try omega
      simp only [List.getElem?_cons_succ, List.getElem?_cons_zero, Option.some.injEq] at hti htj hci hcj
      subst hti htj hci hcj
      rw [b1] at hri
      rw [b2] at hrj
      cases hri
      cases hrj
      refine ⟨?_, ?_, ?_⟩
      · intro h; have := congrArg V3.z h; simp at this; linarith
      · intro h; have := congrArg V3.z h; simp at this; linarith
      · rw [V3.norm_sq, V3.norm_sq]
        simp only [dot]
        norm_num
        have g1 : s1 * k2 + k1 * s2 ≥ 0.36 := by nlinarith
        have : (-(s1 * s2) + k1 * k2) ^ 2 + (s1 * k2 + k1 * s2) ^ 2 = 1 := by
          linear_combination (s2 ^ 2 + k2 ^ 2) * f1 + f2
        rw [show s1 * s1 + k1 * k1 = 1 by linarith, show s2 * s2 + k2 * k2 = 1 by linarith]
        nlinarith)
    (by rw [hused]; rfl)
  exact ⟨t1, t2, D, M, a1, a2, g1, g2, g3⟩

end Verif.Geo
