/-
C151: rays through the glass are traced.
-/
import Verif.Spec.RoundedTrace
import Verif.Spec.Ray
import Verif.Proofs.Ray
import Verif.Proofs.Rounded
import Verif.Props.Ray
import Mathlib.Analysis.SpecialFunctions.Trigonometric.Arctan

namespace Verif.Round
open Verif.Geo Verif.Geo.Spec

/-- Exactly computed, the unit vector is that of the exact model. -/
theorem unit_exact (v : V3) : unit id exactLib v = v.unit := by
  by_cases h : v.norm = 0 <;> simp [unit, exactLib, V3.unit, h]

/-- Exactly computed, a refraction has a value unless a ray that comes with the sine `t.norm` is totally reflected. -/
theorem refractDir_exact {g u : V3} {na nb : ℝ} (hg : g.dot g = 1) (hu : u.dot u = 1) (hna : 0 < na) (hb : 0 < nb) :
    refractDir id exactLib g (tangential g u) (u.dot g) na nb =
      if (tangential g u).norm * na ≤ nb then
        some ((Geo.refractDir g (tangential g u) (u.dot g) na nb).1,
          g.smul (Geo.refractDir g (tangential g u) (u.dot g) na nb).2)
      else none := by
  have h1 := tangential_norm_sq hg hu
  have h0 := V3.norm_nonneg (tangential g u)
  have hsq : Real.sqrt (1 - (u.dot g) * (u.dot g)) = (tangential g u).norm := by
    rw [← pow_two, ← h1, Real.sqrt_sq h0]
  have hnn : ¬ (1 - (u.dot g) * (u.dot g) < 0) := by
    rw [← pow_two, ← h1]
    exact not_lt.2 (sq_nonneg _)
  generalize tangential g u = w at *
  have hp0 : 0 ≤ w.norm * na / nb := by positivity
  have hiff : (1 - w.norm * na / nb * (w.norm * na / nb) < 0) ↔ ¬ w.norm * na ≤ nb := by
    rw [← div_le_one hb]
    constructor
    · intro h h'
      nlinarith
    · intro h
      have := not_le.1 h
      nlinarith
  simp only [refractDir, sqrtF, id, hsq, if_neg hnn, Option.bind_eq_bind, Option.bind_some, unit_exact]
  by_cases h : w.norm * na ≤ nb
  · rw [if_pos h, if_neg (by rw [hiff]; exact not_not.2 h)]
    simp only [Option.bind_some, Geo.refractDir, pow_two, hsq]
    rfl
  · rw [if_neg h, if_pos (hiff.2 h)]
    rfl

/-- C151 (exact arithmetic): for a camera with a rotation matrix, tracing the ray of an image point meets no square root of a negative
number, and gives the point and direction of C26, exactly if the ray is not totally reflected at one of the two interfaces; `dir` is the
direction of the ray in space and `g` the normal of the glass. In double precision this is wrong (`C151_perpendicular_refuted`). -/
theorem C151_exact_partial (x y omega phi kappa L : ℝ) (cal : Cam) (d n1 n2 n3 : ℝ) (g dir : V3) (s : ℝ)
    (hdm : cal.dm = Geo.rotationMatrix omega phi kappa)
    (hL : 0 < L) (hg : g.norm = 1) (hglass : cal.glass = g.smul L)
    (hs : 0 < s) (hdir1 : dir.norm = 1) (hdir : cal.dm.mulVec ⟨x, y, -cal.cc⟩ = dir.smul s)
    (h1 : 0 < n1) (h2 : 0 < n2) (h3 : 0 < n3) :
    fastRayTracing id exactLib ⟨x, y, -cal.cc⟩ cal.dm cal.pos cal.glass d n1 n2 n3 =
      if (tangential g dir).norm * n1 ≤ n2 ∧ (tangential g dir).norm * n1 ≤ n3 then
        some (Geo.fastRayTracing ⟨x, y, -cal.cc⟩ cal.dm cal.pos cal.glass d n1 n2 n3)
      else none := by
  have hi : V3.norm ⟨x, y, -cal.cc⟩ = s := by
    have := C25_isometry omega phi kappa ⟨x, y, -cal.cc⟩
    rw [← hdm, hdir, V3.norm_smul, hdir1, abs_of_pos hs, one_mul] at this
    exact this.symm
  have hi0 : (⟨x, y, -cal.cc⟩ : V3) ≠ 0 := fun e => by
    rw [e, V3.norm_eq_zero.2 rfl] at hi; linarith
  have hu : cal.dm.mulVec (V3.unit ⟨x, y, -cal.cc⟩) = dir := by
    rw [V3.unit_of_ne hi0, mulVec_smul, hdir, hi]
    ext <;> simp only [V3.smul_x, V3.smul_y, V3.smul_z] <;> field_simp
  have hgg := V3.norm_eq_one.1 hg
  have hdd := V3.norm_eq_one.1 hdir1
  obtain ⟨hgu, -⟩ := unit_unique hL hg hglass
  have e1 : mulVec exactLib cal.dm (V3.unit ⟨x, y, -cal.cc⟩) = dir := hu
  have e2 : sub id dir (scale id g (dir.dot g)) = tangential g dir := rfl
  have hb : exactLib.dot = V3.dot := rfl
  simp only [fastRayTracing, unit_exact, e1, hgu, hb, e2, refractDir_exact hgg hdd h1 h2]
  by_cases c1 : (tangential g dir).norm * n1 ≤ n2
  · obtain ⟨q1, q2, q3, q4, q5⟩ := refractDir_spec (na := n1) (nb := n2) hgg hdd h2 h1.le c1
    generalize hr : Geo.refractDir g (tangential g dir) (dir.dot g) n1 n2 = a at q1 q2 q3 q4 q5
    have haa := V3.norm_eq_one.1 q1.2.1
    have htn : (tangential g a.1).norm * n2 = (tangential g dir).norm * n1 := by
      rw [q5, V3.norm_smul, abs_of_pos (div_pos h1 h2)]; field_simp
    have e3 : sub id a.1 (g.smul a.2) = tangential g a.1 := by rw [← q2]; rfl
    have e4 : a.1 - g.smul a.2 = tangential g a.1 := by rw [← q2]; rfl
    simp only [if_pos c1, Option.bind_eq_bind, Option.bind_some, e3, refractDir_exact hgg haa h2 h3, htn]
    by_cases c2 : (tangential g dir).norm * n1 ≤ n3
    · have e5 : dir - g.smul (dir.dot g) = tangential g dir := rfl
      have hc : (tangential g dir).norm * n1 ≤ n2 ∧ (tangential g dir).norm * n1 ≤ n3 := ⟨c1, c2⟩
      rw [if_pos c2, if_pos hc]
      simp only [Option.bind_some, Geo.fastRayTracing, hu, hgu, e5, hr, e4, id]
      rfl
    · have hc : ¬ ((tangential g dir).norm * n1 ≤ n2 ∧ (tangential g dir).norm * n1 ≤ n3) := fun h => c2 h.2
      rw [if_neg c2, if_neg hc, Option.bind_none]
  · have hc : ¬ ((tangential g dir).norm * n1 ≤ n2 ∧ (tangential g dir).norm * n1 ≤ n3) := fun h => c1 h.1
    rw [if_neg c1, if_neg hc]
    rfl

/-- A real number rounds to the double precision number that is nearer than half the spacing. -/
theorem nearestDouble_eq {x : ℝ} (k : ℤ) (n : ℤ) (hk : -1022 ≤ k) (h1 : (2 : ℝ) ^ k ≤ |x|) (h2 : |x| < 2 ^ (k + 1))
    (h : |x / 2 ^ (k - 52) - n| < 1 / 2) : nearestDouble x = n * 2 ^ (k - 52) := by
  have h0 : 0 < |x| := lt_of_lt_of_le (by positivity) h1
  have hl : Int.log 2 |x| = k := by
    apply le_antisymm
    · have := (Int.lt_zpow_iff_log_lt (b := 2) (by norm_num) h0).1 (by exact_mod_cast h2)
      omega
    · exact (Int.zpow_le_iff_le_log (b := 2) (by norm_num) h0).1 (by exact_mod_cast h1)
  have hs : spacing x = 2 ^ (k - 52) := by
    rw [spacing, hl, max_eq_left (by omega)]
  rw [nearestDouble, hs]
  congr 2
  rw [round_eq, Int.floor_eq_iff]
  obtain ⟨h3, h4⟩ := abs_lt.1 h
  constructor <;> linarith

theorem nearestDouble_zero : nearestDouble 0 = 0 := by
  simp only [nearestDouble, zero_div, round_zero, Int.cast_zero, zero_mul]

/-- C151 is refuted in double precision: a camera with principal distance 100 mm is turned by the angle with tangent 5/12 about the
vertical axis, the glass (50, 0, 120) likewise, so that the camera looks at it at a right angle. The ray through the middle of the image,
which exact arithmetic traces straight through the glass, is not a number: its cosine is computed as -1.0000000000000002, and the root
is taken of a negative number. This holds wherever the camera is and for every thickness and all refractive indices. -/
theorem C151_perpendicular_refuted (pos : V3) (d n1 n2 n3 : ℝ) :
    fastRayTracing nearestDouble doubleLib ⟨0, 0, -100⟩
      (rotationMatrix nearestDouble (fun t => nearestDouble (Real.sin t)) (fun t => nearestDouble (Real.cos t)) 0 (Real.arctan (5 / 12)) 0)
      pos ⟨50, 0, 120⟩ d n1 n2 n3 = none := by
  have z := nearestDouble_zero
  -- exact numbers
  have v1 : nearestDouble 1 = 1 := by
    rw [nearestDouble_eq 0 (2 ^ 52) (by norm_num) (by norm_num) (by norm_num) (by norm_num)]; norm_num
  have vm1 : nearestDouble (-1) = -1 := by
    rw [nearestDouble_eq 0 (-2 ^ 52) (by norm_num) (by norm_num) (by norm_num) (by norm_num)]; norm_num
  have v100 : nearestDouble 100 = 100 := by
    rw [nearestDouble_eq 6 (100 * 2 ^ 46) (by norm_num) (by norm_num) (by norm_num) (by norm_num)]; norm_num
  have v10000 : nearestDouble 10000 = 10000 := by
    rw [nearestDouble_eq 13 (10000 * 2 ^ 39) (by norm_num) (by norm_num) (by norm_num) (by norm_num)]; norm_num
  have v2500 : nearestDouble 2500 = 2500 := by
    rw [nearestDouble_eq 11 (2500 * 2 ^ 41) (by norm_num) (by norm_num) (by norm_num) (by norm_num)]; norm_num
  have v14400 : nearestDouble 14400 = 14400 := by
    rw [nearestDouble_eq 13 (14400 * 2 ^ 39) (by norm_num) (by norm_num) (by norm_num) (by norm_num)]; norm_num
  have v16900 : nearestDouble 16900 = 16900 := by
    rw [nearestDouble_eq 14 (16900 * 2 ^ 38) (by norm_num) (by norm_num) (by norm_num) (by norm_num)]; norm_num
  have v130 : nearestDouble 130 = 130 := by
    rw [nearestDouble_eq 7 (130 * 2 ^ 45) (by norm_num) (by norm_num) (by norm_num) (by norm_num)]; norm_num
  -- sine and cosine
  have va : nearestDouble (5 / 13) = 6928614811339225 / 2 ^ 54 := by
    rw [nearestDouble_eq (-2) 6928614811339225 (by norm_num) (by norm_num) (by norm_num) (by norm_num)]; norm_num
  have vb : nearestDouble (12 / 13) = 8314337773607070 / 2 ^ 53 := by
    rw [nearestDouble_eq (-1) 8314337773607070 (by norm_num) (by norm_num) (by norm_num) (by norm_num)]; norm_num
  have va' : nearestDouble (-(6928614811339225 / 2 ^ 54)) = -(6928614811339225 / 2 ^ 54) := by
    rw [nearestDouble_eq (-2) (-6928614811339225) (by norm_num) (by norm_num) (by norm_num) (by norm_num)]; norm_num
  have vb' : nearestDouble (-(8314337773607070 / 2 ^ 53)) = -(8314337773607070 / 2 ^ 53) := by
    rw [nearestDouble_eq (-1) (-8314337773607070) (by norm_num) (by norm_num) (by norm_num) (by norm_num)]; norm_num
  have vb'' : nearestDouble (8314337773607070 / 2 ^ 53) = 8314337773607070 / 2 ^ 53 := by
    rw [nearestDouble_eq (-1) 8314337773607070 (by norm_num) (by norm_num) (by norm_num) (by norm_num)]; norm_num
  -- their squares, and the sum
  have vaa : nearestDouble (-(6928614811339225 / 2 ^ 54) * (6928614811339225 / 2 ^ 54)) = -(5329703701030173 / 2 ^ 55) := by
    rw [nearestDouble_eq (-3) (-5329703701030173) (by norm_num) (by norm_num) (by norm_num) (by norm_num [abs_lt])]; norm_num
  have vbb : nearestDouble (-(8314337773607070 / 2 ^ 53) * (8314337773607070 / 2 ^ 53)) = -(7674773329483450 / 2 ^ 53) := by
    rw [nearestDouble_eq (-1) (-7674773329483450) (by norm_num) (by norm_num) (by norm_num) (by norm_num [abs_lt])]; norm_num
  have vs : nearestDouble (-(5329703701030173 / 2 ^ 55) + -(7674773329483450 / 2 ^ 53)) = -(1 + 1 / 2 ^ 52) := by
    rw [nearestDouble_eq 0 (-(2 ^ 52 + 1)) (by norm_num) (by norm_num [le_abs]) (by norm_num [abs_lt]) (by norm_num [abs_lt])]; norm_num
  have vaa' : nearestDouble (-(5329703701030173 / 2 ^ 55)) = -(5329703701030173 / 2 ^ 55) := by
    rw [nearestDouble_eq (-3) (-5329703701030173) (by norm_num) (by norm_num) (by norm_num) (by norm_num [abs_lt])]; norm_num
  have vsq : nearestDouble (-(1 + 1 / 2 ^ 52) * -(1 + 1 / 2 ^ 52)) = 1 + 1 / 2 ^ 51 := by
    rw [nearestDouble_eq 0 (2 ^ 52 + 2) (by norm_num) (by norm_num [le_abs]) (by norm_num [abs_lt]) (by norm_num [abs_lt])]; norm_num
  have vr : nearestDouble (1 - (1 + 1 / 2 ^ 51)) = -(1 / 2 ^ 51) := by
    rw [nearestDouble_eq (-51) (-2 ^ 52) (by norm_num) (by norm_num) (by norm_num) (by norm_num)]; norm_num
  -- the rotation
  have hr : Real.sqrt (1 + (5 / 12) ^ 2) = 13 / 12 := by
    rw [show (1 : ℝ) + (5 / 12) ^ 2 = (13 / 12) ^ 2 by norm_num]
    exact Real.sqrt_sq (by norm_num)
  have hsin : Real.sin (Real.arctan (5 / 12)) = 5 / 13 := by
    rw [Real.sin_arctan, hr]; norm_num
  have hcos : Real.cos (Real.arctan (5 / 12)) = 12 / 13 := by
    rw [Real.cos_arctan, hr]; norm_num
  have s1 : Real.sqrt 10000 = 100 := by
    rw [show (10000 : ℝ) = 100 ^ 2 by norm_num]
    exact Real.sqrt_sq (by norm_num)
  have s2 : Real.sqrt 16900 = 130 := by
    rw [show (16900 : ℝ) = 130 ^ 2 by norm_num]
    exact Real.sqrt_sq (by norm_num)
  -- the direction, the normal, and the cosine
  have hu : unit nearestDouble doubleLib ⟨0, 0, -100⟩ = ⟨0, 0, -1⟩ := by
    have e : doubleLib.vecNorm ⟨0, 0, -100⟩ = 100 := by
      simp only [doubleLib, doubleDot, mul_zero, z, add_zero, zero_add]
      rw [show (-100 : ℝ) * -100 = 10000 by norm_num, v10000, v10000, s1, v100]
    simp only [unit, e]
    rw [if_neg (by norm_num), zero_div, z, show (-100 : ℝ) / 100 = -1 by norm_num, vm1]
  have hg : unit nearestDouble doubleLib ⟨50, 0, 120⟩ = ⟨6928614811339225 / 2 ^ 54, 0, 8314337773607070 / 2 ^ 53⟩ := by
    have e : doubleLib.vecNorm ⟨50, 0, 120⟩ = 130 := by
      simp only [doubleLib, doubleDot, mul_zero, z, add_zero]
      rw [show (50 : ℝ) * 50 = 2500 by norm_num, show (120 : ℝ) * 120 = 14400 by norm_num, v2500, v2500, v14400,
        show (2500 : ℝ) + 14400 = 16900 by norm_num, v16900, s2, v130]
    simp only [unit, e]
    rw [if_neg (by norm_num), zero_div, z, show (50 : ℝ) / 130 = 5 / 13 by norm_num, show (120 : ℝ) / 130 = 12 / 13 by norm_num, va, vb]
  obtain ⟨dm, hdm⟩ : ∃ m, m = rotationMatrix nearestDouble (fun t => nearestDouble (Real.sin t)) (fun t => nearestDouble (Real.cos t)) 0
    (Real.arctan (5 / 12)) 0 := ⟨_, rfl⟩
  have c0 : dm.r0.z = 6928614811339225 / 2 ^ 54 := by
    rw [hdm]
    simp only [rotationMatrix, hsin, va]
  have c1 : dm.r1.z = 0 := by
    rw [hdm]
    simp only [rotationMatrix, Real.sin_zero, z, neg_zero, zero_mul]
  have c2 : dm.r2.z = 8314337773607070 / 2 ^ 53 := by
    rw [hdm]
    simp only [rotationMatrix, Real.cos_zero, v1, hcos, vb, one_mul, vb'']
  have hd : mulVec doubleLib dm ⟨0, 0, -1⟩ = ⟨-(6928614811339225 / 2 ^ 54), 0, -(8314337773607070 / 2 ^ 53)⟩ := by
    simp only [mulVec, doubleLib, doubleDot, c0, c1, c2, mul_zero, z, add_zero, zero_add, mul_neg, mul_one, va', vb', neg_zero]
  have hn : doubleLib.dot ⟨-(6928614811339225 / 2 ^ 54), 0, -(8314337773607070 / 2 ^ 53)⟩
      ⟨6928614811339225 / 2 ^ 54, 0, 8314337773607070 / 2 ^ 53⟩ = -(1 + 1 / 2 ^ 52) := by
    simp only [doubleLib, doubleDot, mul_zero, z, vaa, vbb, add_zero, vaa', vs]
  rw [← hdm]
  simp only [fastRayTracing, hu, hg, hd, hn, refractDir, sqrtF, vsq, vr]
  rw [if_pos (by norm_num)]
  rfl

/-- In exact arithmetic that ray, in air in front of a window of glass and water, is traced. -/
example (pos : V3) : fastRayTracing id exactLib ⟨0, 0, -100⟩ (Geo.rotationMatrix 0 (Real.arctan (5 / 12)) 0) pos ⟨50, 0, 120⟩ 5 1 1.5 1.33 =
    some (Geo.fastRayTracing ⟨0, 0, -100⟩ (Geo.rotationMatrix 0 (Real.arctan (5 / 12)) 0) pos ⟨50, 0, 120⟩ 5 1 1.5 1.33) := by
  have hr : Real.sqrt (1 + (5 / 12) ^ 2) = 13 / 12 := by
    rw [show (1 : ℝ) + (5 / 12) ^ 2 = (13 / 12) ^ 2 by norm_num]
    exact Real.sqrt_sq (by norm_num)
  have hsin : Real.sin (Real.arctan (5 / 12)) = 5 / 13 := by
    rw [Real.sin_arctan, hr]; norm_num
  have hcos : Real.cos (Real.arctan (5 / 12)) = 12 / 13 := by
    rw [Real.cos_arctan, hr]; norm_num
  have hg : (⟨5 / 13, 0, 12 / 13⟩ : V3).norm = 1 := by
    rw [V3.norm]; norm_num
  have hd : (⟨-(5 / 13), 0, -(12 / 13)⟩ : V3).norm = 1 := by
    rw [V3.norm]; norm_num
  have h := C151_exact_partial 0 0 0 (Real.arctan (5 / 12)) 0 130
    ⟨pos, Geo.rotationMatrix 0 (Real.arctan (5 / 12)) 0, 100, 0, 0, ⟨0, 0, 0, 0, 0, 1, 0⟩, ⟨50, 0, 120⟩⟩ 5 1 1.5 1.33
    ⟨5 / 13, 0, 12 / 13⟩ ⟨-(5 / 13), 0, -(12 / 13)⟩ 100 rfl (by norm_num) hg (by ext <;> norm_num [V3.smul]) (by norm_num) hd
    (by
      ext <;> simp only [M3.mulVec, V3.dot, V3.smul, Geo.rotationMatrix, hsin, hcos, Real.sin_zero, Real.cos_zero] <;> norm_num)
    (by norm_num) (by norm_num) (by norm_num)
  have ht : (tangential ⟨5 / 13, 0, 12 / 13⟩ ⟨-(5 / 13), 0, -(12 / 13)⟩).norm = 0 := by
    rw [V3.norm_eq_zero]
    ext <;> norm_num [tangential, V3.dot, V3.smul]
  rw [ht, if_pos (by norm_num)] at h
  exact h

end Verif.Round
