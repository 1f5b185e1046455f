/-
Examples for C136.
-/
import Verif.Props.Measured
import Verif.Props.GlassEx

namespace Verif.Geo
open V3 Spec

/-! The two cameras over the window of C135, now with lenses. The images are measured with an error of half a pixel of 0.01 mm. -/

/-- A camera with a lens over the window. -/
noncomputable def mildCam (a : ℝ) : Cam :=
  ⟨⟨a, 0, 100⟩, rotationMatrix 0 0 0, 4, 0, 0, ⟨0.004, 0, 0, 0, 0, 1, 0⟩, ⟨0, 0, 50⟩⟩

/-- Air, glass and water. -/
noncomputable def waterMM : MM := ⟨1, 1, [3 / 2], 4 / 3, [6]⟩

theorem mildCam_lens (a : ℝ) : MildLens (mildCam a).ap 3 :=
  ⟨rfl, rfl, rfl, rfl, by norm_num [mildCam, abs_of_pos]⟩

theorem mildCam_sees (a : ℝ) : SeesThrough (mildCam a) 6 ⟨0, 0, 0⟩ :=
  have h := glassCam_sees a
  ⟨h.rot, h.glass, h.camera, h.behind, h.front, h.window⟩

theorem mildCam_reach {a : ℝ} (ha : |a| = 30) : 0 ≤ reach (mildCam a) 6 ⟨0, 0, 0⟩ ∧ reach (mildCam a) 6 ⟨0, 0, 0⟩ ≤ 121.04 := by
  have ha2 : a ^ 2 = 900 := by rw [← sq_abs, ha]; norm_num
  simp only [reach, windowAbove, mildCam, glassCam_height, glassCam_norm]
  rw [show (⟨0, 0, 0⟩ : V3) + (⟨0, 0, 50⟩ : V3).smul ((50 + 6 - 0) / 50) - ⟨a, 0, 100⟩ = ⟨-a, 0, -44⟩ by ext <;> norm_num]
  have h1 : (⟨-a, 0, -44⟩ : V3).norm ≤ 53.255 := by
    rw [V3.norm]
    apply Real.sqrt_le_iff.2
    constructor
    · norm_num
    · norm_num; nlinarith
  have h0 := V3.norm_nonneg (⟨-a, 0, -44⟩ : V3)
  constructor
  · have : (0 : ℝ) ≤ (100 - 0) / (100 - 50 - 6) := by norm_num
    positivity
  · linarith

theorem mildCam_object {a ε : ℝ} (ha : |a| = 30) (h0 : 0 ≤ ε) (hε : ε ≤ 0.01006) : objectError (mildCam a) 6 ⟨0, 0, 0⟩ ε ≤ 0.30442 := by
  obtain ⟨h1, h2⟩ := mildCam_reach ha
  rw [objectError, show (mildCam a).cc = 4 from rfl, abs_of_pos (by norm_num)]
  nlinarith

theorem mildCam_within {a ε : ℝ} (ha : |a| = 30) (h0 : 0 ≤ ε) (hε : ε ≤ 0.01006) : SeesWithin (mildCam a) 6 ⟨0, 0, 0⟩ ε 0.75 := by
  obtain ⟨h1, h2⟩ := mildCam_reach ha
  have h3 := mildCam_object ha h0 hε
  have hH : height (mildCam a).glass (mildCam a).pos - height (mildCam a).glass ⟨0, 0, 0⟩ = 100 := by
    simp only [mildCam, glassCam_height]; norm_num
  refine ⟨mildCam_sees a, by rw [hH]; linarith, ?_⟩
  have h4 : sightError (mildCam a) 6 ⟨0, 0, 0⟩ ≤ 0.0013 := glassCam_error ha
  have h5 : 0 ≤ objectError (mildCam a) 6 ⟨0, 0, 0⟩ ε := by rw [objectError]; positivity
  rw [measuredError, hH]
  have h6 : objectError (mildCam a) 6 ⟨0, 0, 0⟩ ε * (2 * reach (mildCam a) 6 ⟨0, 0, 0⟩) / (100 - objectError (mildCam a) 6 ⟨0, 0, 0⟩ ε)
      ≤ 0.748 := by
    rw [div_le_iff₀ (by linarith)]
    nlinarith
  linarith

theorem mildCam_image (a : ℝ) : ∃ u, flatImageCoord ⟨0, 0, 0⟩ (mildCam a) emptyLUT waterMM = some (-a / 30 * u, 0) ∧
    1.2 ≤ u ∧ u ≤ 2.73 := by
  obtain ⟨t, X, out, h1, -, -, -, -, F, h5, h6, -, h8, -, -⟩ := sight_core (mildCam a) waterMM 6 (3 / 2) ⟨0, 0, 0⟩
    glassCam_plate (mildCam_sees a)
  simp only [mildCam, glassCam_height, glassCam_norm, glassCam_unit, tangential] at h6 h8
  norm_num [dot] at h6 h8
  have e : ((⟨0, 0, 0⟩ : V3) - ⟨a, 0, 100⟩ - (⟨0, 0, 1⟩ : V3).smul (-100)) = ⟨-a, 0, 0⟩ := by ext <;> simp
  have e' : (⟨-a, 0, 0⟩ : V3).smul F - (⟨0, 0, 1⟩ : V3).smul 100 = ⟨-a * F, 0, -100⟩ := by ext <;> simp
  rw [e, e'] at h8
  refine ⟨1.2 * F, ?_, by linarith, by linarith⟩
  rw [h1, h8]
  congr 1
  ext
  · simp [collinear, rotationMatrix, M3.c2, M3.c0, dot]; ring
  · simp [collinear, rotationMatrix, M3.c2, M3.c1, dot]

theorem ray_numbers {p y z N s o k : ℝ} (hp1 : 29.69 ≤ p) (hp2 : p ≤ 68.5) (hy : y ^ 2 ≤ 0.30442 ^ 2)
    (hz : -0.30442 ≤ z ∧ z ≤ 0.30442) (hN : N ^ 2 = p ^ 2 + y ^ 2 + (-100 + z) ^ 2) (hs : s ^ 2 * N ^ 2 = 9 / 16 * p ^ 2)
    (ho : o ^ 2 * N ^ 2 = 9 / 16 * y ^ 2) (hk : s ^ 2 + o ^ 2 + k ^ 2 = 1) (hs0 : 0 ≤ s) (hk0 : 0 < k) : 0.2 ≤ s ∧ 0.9 ≤ k := by
  have hz1 : 99.69 ^ 2 ≤ (-100 + z) ^ 2 := by
    have := pow_le_pow_left₀ (by norm_num : (0 : ℝ) ≤ 99.69) (by linarith [hz.2] : 99.69 ≤ 100 - z) 2
    linarith
  have hz2 : (-100 + z) ^ 2 ≤ 100.31 ^ 2 := by
    have := pow_le_pow_left₀ (by linarith [hz.2] : (0 : ℝ) ≤ 100 - z) (by linarith [hz.1] : 100 - z ≤ 100.31) 2
    linarith
  have hpp : 29.69 ^ 2 ≤ p ^ 2 := pow_le_pow_left₀ (by norm_num) hp1 2
  have hpp2 : p ^ 2 ≤ 68.5 ^ 2 := pow_le_pow_left₀ (by linarith) hp2 2
  have hy0 := sq_nonneg y
  generalize p ^ 2 = P at *
  generalize y ^ 2 = Y at *
  generalize (-100 + z) ^ 2 = Z at *
  have hN20 : 9900 ≤ N ^ 2 := by norm_num at *; linarith
  generalize N ^ 2 = M at *
  have hsl : 0.2 ^ 2 ≤ s ^ 2 := by
    by_contra h; push Not at h
    have := mul_lt_mul_of_pos_right h (by linarith : 0 < M)
    norm_num at *; linarith
  have hsu : s ^ 2 ≤ 0.185 := by
    by_contra h; push Not at h
    have := mul_lt_mul_of_pos_right h (by linarith : 0 < M)
    norm_num at *; linarith
  have hyu : o ^ 2 ≤ 0.001 := by
    by_contra h; push Not at h
    have := mul_lt_mul_of_pos_right h (by linarith : 0 < M)
    norm_num at *; linarith
  exact ⟨pow_le_pow_iff_left₀ (by norm_num) hs0 two_ne_zero |>.1 hsl,
    pow_le_pow_iff_left₀ (by norm_num) hk0.le two_ne_zero |>.1 (by norm_num at *; linarith)⟩

/-- The line of sight of a measured image: steep, and inclined to the other camera. -/
theorem mildCam_ray {a ε : ℝ} (ha : |a| = 30) (h0 : 0 ≤ ε) (hε : ε ≤ 0.01006) {f t : ℝ × ℝ}
    (hf : flatImageCoord ⟨0, 0, 0⟩ (mildCam a) emptyLUT waterMM = some f) (ht : imageDist f t ≤ ε) {X out : V3}
    (hr : rayTracing t.1 t.2 (mildCam a) waterMM = some (X, out)) :
    ∃ s y k, out = ⟨-a / 30 * s, y, -k⟩ ∧ 0.2 ≤ s ∧ 0.9 ≤ k ∧ s ^ 2 + y ^ 2 + k ^ 2 = 1 := by
  have hs := mildCam_within ha h0 hε
  obtain ⟨X', out', h2, -, h3, h4, F, v, h5, h6, h7, h8⟩ := sight_measured (mildCam a) waterMM 6 (3 / 2) ⟨0, 0, 0⟩ ε f t
    glassCam_plate hs.through hf ht hs.small
  rw [hr] at h2
  cases h2
  have ha2 : a ^ 2 = 900 := by rw [← sq_abs, ha]; norm_num
  have h7' := h7.trans (mildCam_object ha h0 hε)
  simp only [mildCam, waterMM, glassCam_height, glassCam_norm, glassCam_unit, tangential] at h4 h6 h8
  norm_num [dot] at h4 h6 h8
  have e : ((⟨0, 0, 0⟩ : V3) - ⟨a, 0, 100⟩ - (⟨0, 0, 1⟩ : V3).smul (-100)) = ⟨-a, 0, 0⟩ := by ext <;> simp
  have e' : (⟨-a, 0, 0⟩ : V3).smul F - (⟨0, 0, 1⟩ : V3).smul 100 + v = ⟨-a * F + v.x, v.y, -100 + v.z⟩ := by ext <;> simp
  rw [e, e'] at h8
  have hv : v.x ^ 2 + v.y ^ 2 + v.z ^ 2 ≤ 0.30442 ^ 2 := by
    have := pow_le_pow_left₀ (V3.norm_nonneg v) h7' 2
    rw [V3.norm_sq] at this
    simp only [dot] at this
    nlinarith
  set N := V3.norm ⟨-a * F + v.x, v.y, -100 + v.z⟩ with hN
  have hvz : |v.z| ≤ 0.30442 := abs_le_of_sq_le_sq (by nlinarith [sq_nonneg v.x, sq_nonneg v.y]) (by norm_num)
  have hvx : |v.x| ≤ 0.30442 := abs_le_of_sq_le_sq (by nlinarith [sq_nonneg v.z, sq_nonneg v.y]) (by norm_num)
  have hvy : v.y ^ 2 ≤ 0.30442 ^ 2 := by nlinarith [sq_nonneg v.z, sq_nonneg v.x]
  have hvz' := abs_le.1 hvz
  have hvx' := abs_le.1 hvx
  have hN0 : 0 < N := V3.norm_pos (by intro h; have := congrArg V3.z h; simp at this; linarith)
  have hN2 : N ^ 2 = (-a * F + v.x) ^ 2 + v.y ^ 2 + (-100 + v.z) ^ 2 := by
    rw [hN, V3.norm_sq]; simp only [dot]; ring
  have ox : out.x = (-a * F + v.x) * (3 / 4 / N) := by
    have := congrArg V3.x h8; simpa using this
  have oy : out.y = v.y * (3 / 4 / N) := by
    have := congrArg V3.y h8; simpa using this
  have oo := V3.norm_eq_one.1 h3
  simp only [dot] at oo
  have hb : (-a / 30) * (-a / 30) = 1 := by nlinarith
  have hb1 : |-a / 30| = 1 := by rw [abs_div, abs_neg, ha]; norm_num
  set b := -a / 30 with hbdef
  have hab : -a = 30 * b := by rw [hbdef]; ring
  rw [hab] at ox hN2
  set p := 30 * F + b * v.x with hp
  have hbv : |b * v.x| ≤ 0.30442 := by rw [abs_mul, hb1, one_mul]; exact hvx
  have hbv' := abs_le.1 hbv
  have hp1 : 29.69 ≤ p := by linarith
  have hp2 : p ≤ 68.5 := by linarith
  have hpx : 30 * b * F + v.x = b * p := by rw [hp]; linear_combination -v.x * hb
  rw [hpx] at ox hN2
  have hN2' : N ^ 2 = p ^ 2 + v.y ^ 2 + (-100 + v.z) ^ 2 := by rw [hN2]; linear_combination p ^ 2 * hb
  set s := p * (3 / 4 / N) with hs'
  have hs2 : s ^ 2 * N ^ 2 = 9 / 16 * p ^ 2 := by rw [hs']; field_simp; norm_num
  have hy2 : out.y ^ 2 * N ^ 2 = 9 / 16 * v.y ^ 2 := by rw [oy]; field_simp; ring
  have hs0 : 0 ≤ s := by rw [hs']; have : (0 : ℝ) ≤ p := by linarith
                         positivity
  have hk : s ^ 2 + out.y ^ 2 + (-out.z) ^ 2 = 1 := by
    have : out.x * out.x = s ^ 2 := by rw [ox, hs']; linear_combination (p * (3 / 4 / N)) ^ 2 * hb
    linear_combination oo - this
  have hkey := ray_numbers hp1 hp2 hvy hvz' hN2' hs2 hy2 hk hs0 (by linarith)
  refine ⟨s, out.y, -out.z, ?_, ?_, ?_, hk⟩
  · ext
    · rw [ox, hs']; ring
    · rfl
    · simp
  · exact hkey.1
  · exact hkey.2

/-- The lines of sight of the two cameras cross. -/
theorem mildCam_cross {ε : ℝ} (h0 : 0 ≤ ε) (hε : ε ≤ 0.01006) {f f' t t' : ℝ × ℝ} {Y a Y' a' : V3}
    (hf : flatImageCoord ⟨0, 0, 0⟩ (mildCam 30) emptyLUT waterMM = some f)
    (hf' : flatImageCoord ⟨0, 0, 0⟩ (mildCam (-30)) emptyLUT waterMM = some f')
    (ht : imageDist f t ≤ ε) (ht' : imageDist f' t' ≤ ε)
    (hr : rayTracing t.1 t.2 (mildCam 30) waterMM = some (Y, a))
    (hr' : rayTracing t'.1 t'.2 (mildCam (-30)) waterMM = some (Y', a')) : Crossing a a' 0.36 := by
  obtain ⟨s, y, k, rfl, h1, h2, h3⟩ := mildCam_ray (by norm_num) h0 hε hf ht hr
  obtain ⟨s', y', k', rfl, h1', h2', h3'⟩ := mildCam_ray (by norm_num) h0 hε hf' ht' hr'
  refine ⟨?_, ?_, ?_⟩
  · intro h; have := congrArg V3.z h; simp at this; linarith
  · intro h; have := congrArg V3.z h; simp at this; linarith
  · rw [V3.norm_sq, V3.norm_sq]
    simp only [dot]
    norm_num
    have g1 : s * k' + k * s' ≥ 0.36 := by nlinarith
    have : (-(s * s') + y * y' + k * k') ^ 2 + (s * k' + k * s') ^ 2 + (y * k' - k * y') ^ 2 + (s * y' + y * s') ^ 2 = 1 := by
      linear_combination (s' ^ 2 + y' ^ 2 + k' ^ 2) * h3 + h3'
    rw [show s * s + y * y + k * k = 1 by linarith, show s' * s' + y' * y' + k' * k' = 1 by linarith]
    nlinarith [sq_nonneg (y * k' - k * y'), sq_nonneg (s * y' + y * s')]

theorem imageDist_fst {f t : ℝ × ℝ} {ε : ℝ} (h : imageDist f t ≤ ε) : |f.1 - t.1| ≤ ε := by
  refine le_trans ?_ h
  rw [imageDist, ← Real.sqrt_sq_eq_abs]
  exact Real.sqrt_le_sqrt (by nlinarith [sq_nonneg (f.2 - t.2)])

theorem mildCam_mark {a ε : ℝ} (ha : |a| = 30) (hε : ε ≤ 0.01006) {f t : ℝ × ℝ}
    (hf : flatImageCoord ⟨0, 0, 0⟩ (mildCam a) emptyLUT waterMM = some f) (ht : imageDist f t ≤ ε) : t.1 ≠ coordUnused := by
  obtain ⟨u, h1, h2, h3⟩ := mildCam_image a
  rw [hf] at h1
  cases h1
  have := abs_le.1 ((imageDist_fst ht).trans hε)
  have hb := abs_le.1 ha.le
  intro e
  rw [coordUnused] at e
  simp only at this
  nlinarith

/-- `C136_position`: the images of the origin, measured wherever within 0.01 mm. -/
example (m1 m2 : ℝ × ℝ) : ∃ f1 f2, flatImageCoord ⟨0, 0, 0⟩ (mildCam 30) emptyLUT waterMM = some f1 ∧
    flatImageCoord ⟨0, 0, 0⟩ (mildCam (-30)) emptyLUT waterMM = some f2 ∧ (imageDist f1 m1 ≤ 0.01 → imageDist f2 m2 ≤ 0.01 →
    ∃ D M, pointPosition [m1, m2] 2 waterMM [mildCam 30, mildCam (-30)] = .ok (some (D, M)) ∧
      D ≤ 2 * 0.75 ∧ (M - ⟨0, 0, 0⟩).norm ≤ 0.75 * (1 + 2 / 0.36)) := by
  have h30 : |(30 : ℝ)| = 30 := by norm_num
  have h30' : |(-30 : ℝ)| = 30 := by norm_num
  obtain ⟨u1, a1, -, -⟩ := mildCam_image 30
  obtain ⟨u2, a2, -, -⟩ := mildCam_image (-30)
  refine ⟨_, _, a1, a2, fun d1 d2 => ?_⟩
  have c1 := mildCam_mark h30 (by norm_num) a1 d1
  have c2 := mildCam_mark h30' (by norm_num) a2 d2
  have hused : usedCams [m1, m2] 2 = {0, 1} := by
    classical
    ext c
    simp only [usedCams, Finset.mem_filter, Finset.mem_range, IsUsed, Finset.mem_insert, Finset.mem_singleton]
    constructor
    · rintro ⟨hlt, -⟩; omega
    · rintro (rfl | rfl)
      · exact ⟨by norm_num, m1, rfl, c1⟩
      · exact ⟨by norm_num, m2, rfl, c2⟩
  obtain ⟨D, M, g1, -, g2, g3⟩ := C136_position ⟨0, 0, 0⟩ [m1, m2] 2 waterMM [mildCam 30, mildCam (-30)]
    6 (3 / 2) 0.01 0.75 0.36 (by simp) glassCam_plate (by norm_num) (by
      intro cam hlt t ht _
      match cam, hlt with
      | 0, _ =>
        simp only [List.getElem?_cons_zero, Option.some.injEq] at ht; subst ht
        exact ⟨_, _, rfl, mildCam_within h30 (by norm_num) (by norm_num), a1, d1⟩
      | 1, _ =>
        simp only [List.getElem?_cons_succ, List.getElem?_cons_zero, Option.some.injEq] at ht; subst ht
        exact ⟨_, _, rfl, mildCam_within h30' (by norm_num) (by norm_num), a2, d2⟩) (by
      intro i j ti tj ci cj Xi ai Xj aj hij hi hj hti htj hci hcj hri hrj
      rw [hused] at hi hj
      simp only [Finset.mem_insert, Finset.mem_singleton] at hi hj
      rcases hi with rfl | rfl <;> rcases hj with rfl | rfl <;> try omega
      simp only [List.getElem?_cons_succ, List.getElem?_cons_zero, Option.some.injEq] at hti htj hci hcj
      subst hti htj hci hcj
      exact mildCam_cross (by norm_num) (by norm_num) a1 a2 d1 d2 hri hrj)
    (by rw [hused]; rfl)
  exact ⟨D, M, g1, g2, g3⟩

/-- `C136_lens`: a lens that displaces a point at 3 mm by a tenth of a millimetre. -/
example (m : ℝ × ℝ) (hm : Real.sqrt (m.1 ^ 2 + m.2 ^ 2) ≤ 3) (h : imageDist (flatToDist 1 2 0.1 0 ⟨0.004, 0, 0, 0, 0, 1, 0⟩) m ≤ 0.005) :
    imageDist (1, 2) (distToFlat m.1 m.2 0.1 0 ⟨0.004, 0, 0, 0, 0, 1, 0⟩ 0.00001) ≤ 0.01006 := by
  have := C136_lens ⟨0.004, 0, 0, 0, 0, 1, 0⟩ 0.1 0 0.00001 3 (1, 2) m (mildCam_lens 0) (by norm_num) (by
    apply Real.sqrt_le_iff.2; norm_num) hm
  simp only at this
  linarith


end Verif.Geo

namespace Verif.Track
open Verif.Track.Spec Verif.Geo Verif.Geo.Spec

/-- The two cameras. -/
noncomputable def mildSetup : Setup where
  cals := [(mildCam 30, emptyLUT), (mildCam (-30), emptyLUT)]
  mm := waterMM
  ip := ⟨1280, 1024, 0.01, 0.01⟩
  tol := 0.00001
  vel := ⟨⟨-2, -2, -2⟩, ⟨2, 2, 2⟩⟩
  dacc := 1
  dangle := 100
  add := true
  lmax := 3
  lo := ⟨-50, -50, -50⟩
  hi := ⟨50, 50, 50⟩

theorem mildSetup_error : flatError mildSetup 3 0.5 = 0.01006 := by
  norm_num [flatError, mildSetup]

/-- The cameras see the origin. -/
theorem mildSetup_rig : RigSeesMildly mildSetup ⟨0, 0, 0⟩ 6 (3 / 2) 3 0.5 0.01006 0.75 0.36 := by
  refine ⟨glassCam_plate, by norm_num [mildSetup], ?_, ?_⟩
  · have key : ∀ a : ℝ, |a| = 30 → SeesMildly mildSetup (mildCam a, emptyLUT) ⟨0, 0, 0⟩ 6 3 0.5 0.01006 0.75 := by
      intro a ha
      refine ⟨rfl, Or.inl ⟨mildCam_lens a, by norm_num [mildSetup], mildSetup_error.le⟩, ?_, ?_, ?_⟩
      · exact mildCam_within ha (by norm_num) (by norm_num)
      · intro f hf
        obtain ⟨u, h1, h2, h3⟩ := mildCam_image a
        have hf' : flatImageCoord ⟨0, 0, 0⟩ (mildCam a) emptyLUT waterMM = some f := hf
        rw [h1] at hf'
        cases hf'
        have ha2 : a ^ 2 = 900 := by rw [← sq_abs, ha]; norm_num
        apply Real.sqrt_le_iff.2
        refine ⟨by norm_num, ?_⟩
        simp only [mildCam]
        rw [show (-a / 30 * u + 0) ^ 2 + (0 + 0) ^ 2 = a ^ 2 / 900 * u ^ 2 by ring, ha2]
        nlinarith
      · intro f t hf ht
        exact mildCam_mark ha le_rfl hf ht
    intro c hc
    simp only [mildSetup, List.mem_cons, List.not_mem_nil, or_false] at hc
    rcases hc with rfl | rfl <;> exact key _ (by norm_num)
  · simp only [mildSetup, List.pairwise_cons, List.mem_cons, List.not_mem_nil, or_false, forall_eq, false_imp_iff, implies_true,
      List.Pairwise.nil, and_true]
    intro f f' t t' Y a Y' a' hf hf' ht ht' hr hr'
    exact mildCam_cross (by norm_num) le_rfl hf hf' ht ht' hr hr'

/-- The images of the origin, in pixels. -/
theorem mildSetup_pix (cam : Nat) (h : cam < mildSetup.cals.length) :
    ∃ x, mildSetup.pix cam ⟨0, 0, 0⟩ = .ok (x, 512) ∧ |x - 640| ≤ 282 := by
  have key : ∀ a : ℝ, |a| = 30 → ∃ x, pointToPixel ⟨0, 0, 0⟩ (mildCam a) emptyLUT waterMM ⟨1280, 1024, 0.01, 0.01⟩ = some (x, 512) ∧
      |x - 640| ≤ 282 := by
    intro a ha
    obtain ⟨u, h1, h2, h3⟩ := mildCam_image a
    have hb1 : |-a / 30| = 1 := by rw [abs_div, abs_neg, ha]; norm_num
    set b := -a / 30
    have hb0 : b * u ≠ 0 := by
      rw [← abs_pos, abs_mul, hb1, one_mul, abs_of_pos (by linarith)]; linarith
    have hd : flatToDist (b * u) 0 (mildCam a).xh (mildCam a).yh (mildCam a).ap = (b * u * (1 + 0.004 * u ^ 2), 0) := by
      have hu : Real.sqrt ((b * u + 0) ^ 2 + (0 + 0) ^ 2) = u := by
        rw [show (b * u + 0) ^ 2 + (0 + 0) ^ 2 = (b * u) ^ 2 by ring, Real.sqrt_sq_eq_abs, abs_mul, hb1, one_mul, abs_of_pos (by linarith)]
      simp only [flatToDist, distortBrownAffine, mildCam, hu]
      rw [if_neg (by simp only [add_zero, and_true]; exact hb0)]
      simp only [Real.sin_zero, Real.cos_zero]
      ext <;> simp only [] <;> ring
    refine ⟨b * u * (1 + 0.004 * u ^ 2) / 0.01 + 640, ?_, ?_⟩
    · simp only [pointToPixel, imgCoord, h1, Option.bind_eq_bind, Option.bind_some, hd, Option.map_some, metricToPixel]
      norm_num
    · rw [add_sub_cancel_right, abs_div, abs_mul, abs_mul, hb1, one_mul, abs_of_pos (by linarith : 0 < u),
        abs_of_pos (by positivity : 0 < 1 + 0.004 * u ^ 2), abs_of_pos (by norm_num : (0 : ℝ) < 0.01)]
      have : u ^ 2 ≤ 2.73 ^ 2 := pow_le_pow_left₀ (by linarith) h3 2
      rw [div_le_iff₀ (by norm_num)]
      nlinarith
  have hc : cam = 0 ∨ cam = 1 := by
    have : cam < 2 := h
    omega
  rcases hc with rfl | rfl
  · obtain ⟨x, h1, h2⟩ := key 30 (by norm_num)
    refine ⟨x, ?_, h2⟩
    have : mildSetup.cals[0]? = some (mildCam 30, emptyLUT) := rfl
    simp only [Setup.pix, this]
    rw [show mildSetup.mm = waterMM from rfl, show mildSetup.ip = ⟨1280, 1024, 0.01, 0.01⟩ from rfl, h1]
    rfl
  · obtain ⟨x, h1, h2⟩ := key (-30) (by norm_num)
    refine ⟨x, ?_, h2⟩
    have : mildSetup.cals[1]? = some (mildCam (-30), emptyLUT) := rfl
    simp only [Setup.pix, this]
    rw [show mildSetup.mm = waterMM from rfl, show mildSetup.ip = ⟨1280, 1024, 0.01, 0.01⟩ from rfl, h1]
    rfl

/-- `C136_new_position`: one free target per camera, wherever within 0.2 pixels in x and y of the image. -/
example (dx dy : Fin 2 → ℝ) (hdx : ∀ i, |dx i| ≤ 0.2) (hdy : ∀ i, |dy i| ≤ 0.2) :
    ∃ x0 x1, mildSetup.pix 0 ⟨0, 0, 0⟩ = .ok (x0, 512) ∧ mildSetup.pix 1 ⟨0, 0, 0⟩ = .ok (x1, 512) ∧
      ∃ q ps inds M, assessNew mildSetup.cams ⟨0, 0, 0⟩ [[⟨x0 + dx 0, 512 + dy 0, -1⟩], [⟨x1 + dx 1, 512 + dy 1, -1⟩]] = .ok (q, ps, inds) ∧
        2 ≤ q ∧ mildSetup.position ps = .ok M ∧ (M - ⟨0, 0, 0⟩).norm ≤ 0.75 * (1 + 2 / 0.36) := by
  have hl : mildSetup.cals.length = 2 := rfl
  obtain ⟨x0, e0, b0⟩ := mildSetup_pix 0 (by omega)
  obtain ⟨x1, e1, b1⟩ := mildSetup_pix 1 (by omega)
  refine ⟨x0, x1, e0, e1, ?_⟩
  have hpix : ∀ cam (i : Fin 2), cam = i.1 → mildSetup.pix cam ⟨0, 0, 0⟩ = .ok (![x0, x1] i, 512) ∧ |![x0, x1] i - 640| ≤ 282 ∧
      [[(⟨x0 + dx 0, 512 + dy 0, -1⟩ : Search.Tgt ℝ)], [⟨x1 + dx 1, 512 + dy 1, -1⟩]][cam]? =
        some [⟨![x0, x1] i + dx i, 512 + dy i, -1⟩] := by
    intro cam i hi
    subst hi
    fin_cases i
    · exact ⟨e0, b0, rfl⟩
    · exact ⟨e1, b1, rfl⟩
  have hix : mildSetup.cams.imx = 1280 ∧ mildSetup.cams.imy = 1024 := by simp [Setup.cams, mildSetup]
  have free : ∀ cam (i : Fin 2), cam = i.1 → FreeNear mildSetup.cams
      [[(⟨x0 + dx 0, 512 + dy 0, -1⟩ : Search.Tgt ℝ)], [⟨x1 + dx 1, 512 + dy 1, -1⟩]] (![x0, x1] i, 512) cam 0 := by
    intro cam i hi
    obtain ⟨-, h2, h3⟩ := hpix cam i hi
    have h2' := abs_le.1 h2
    have hx := abs_le.1 (hdx i)
    have hy := abs_le.1 (hdy i)
    rw [FreeNear, hix.1, hix.2]
    refine ⟨⟨by simp only; linarith, by simp only; linarith, by norm_num, by norm_num⟩, _, h3, _, rfl, rfl, ?_, ?_⟩
    · simp only [max_lt_iff, lt_min_iff]
      refine ⟨⟨?_, ?_⟩, ?_, ?_⟩ <;> linarith
    · simp only [max_lt_iff, lt_min_iff]
      refine ⟨⟨?_, ?_⟩, ?_, ?_⟩ <;> linarith
  refine C136_new_position mildSetup ⟨0, 0, 0⟩ ⟨0, 0, 0⟩ _ 6 (3 / 2) 3 0.5 0.01006 0.75 0.36 (by norm_num [mildSetup]) rfl ?_ ?_
    (by norm_num) mildSetup_rig ⟨?_, 0, 1, by omega, by omega, ⟨_, 0, e0, free 0 0 rfl⟩, _, 0, e1, free 1 1 rfl⟩
  · intro ts hts
    simp only [List.mem_cons, List.not_mem_nil, or_false] at hts
    rcases hts with rfl | rfl <;> simp
  · intro cam hc
    obtain ⟨x, h, -⟩ := mildSetup_pix cam hc
    exact ⟨_, h⟩
  · intro cam px i t hpx hn
    have hc : cam < mildSetup.cals.length := by
      by_contra h
      rw [Setup.pix, List.getElem?_eq_none (by omega)] at hpx
      cases hpx
    obtain ⟨g1, g2, g3⟩ := hpix cam ⟨cam, hc⟩ rfl
    set j : Fin 2 := ⟨cam, hc⟩
    refine ⟨_, g1, ?_⟩
    obtain ⟨-, ts, h4, h5, -⟩ := hn
    rw [g3] at h4
    cases h4
    have ht : t = ⟨![x0, x1] j + dx j, 512 + dy j, -1⟩ := by
      match i with
      | 0 => simp at h5; exact h5.symm
      | i + 1 => simp at h5
    subst ht
    generalize ![x0, x1] j = x at *
    have g2' := abs_le.1 g2
    have hx := abs_le.1 (hdx j)
    have hy := abs_le.1 (hdy j)
    constructor
    · rw [imageDist]
      apply Real.sqrt_le_iff.2
      refine ⟨by norm_num, ?_⟩
      simp only
      nlinarith
    · apply Real.sqrt_le_iff.2
      refine ⟨by norm_num, ?_⟩
      simp only [pixelToMetric, mildSetup]
      have k1 : ((x + dx j - ((1280 : ℕ) : ℝ) / 2) * 0.01) ^ 2 ≤ 2.83 ^ 2 := by
        apply sq_le_sq' <;> push_cast <;> linarith
      have k2 : ((((1024 : ℕ) : ℝ) / 2 - (512 + dy j)) * 0.01) ^ 2 ≤ 0.01 ^ 2 := by
        apply sq_le_sq' <;> push_cast <;> linarith
      norm_num at k1 k2 ⊢
      linarith

end Verif.Track
