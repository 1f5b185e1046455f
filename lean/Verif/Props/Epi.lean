/-
C29 (end points of epi_mm), C69: the epipolar segment contains the true image. C70: epipolar_curve.
-/
import Verif.Model.Volume
import Verif.Props.Ray
import Verif.Props.ImgCoord

namespace Verif.Geo
open V3 Spec

/-! ### C29: epi_mm -/

/-- C29: the two image points returned by `epi_mm` are the projections into the second camera of the
points of the first camera's traced ray at the lower and the upper depth limit of the volume. -/
theorem C29_epi_mm (xl yl : ℝ) (cal1 cal2 : Cam) (lut2 : LUT) (mm : MM) (v : VPar) (X a : V3)
    (h : rayTracing xl yl cal1 mm = some (X, a)) (ha : a.z ≠ 0) (p1 p2 : ℝ × ℝ) :
    epiMM xl yl cal1 cal2 lut2 mm v = some (p1, p2) ↔
      ∃ M1 M2, OnLine X a M1 ∧ M1.z = zMinAt v X.x ∧ OnLine X a M2 ∧ M2.z = zMaxAt v X.x ∧
        flatImageCoord M1 cal2 lut2 mm = some p1 ∧ flatImageCoord M2 cal2 lut2 mm = some p2 := by
  obtain ⟨a1, a2, a3, a4⟩ := C29_move_along_ray (zMinAt v X.x) X a ha
  obtain ⟨b1, b2, b3, b4⟩ := C29_move_along_ray (zMaxAt v X.x) X a ha
  simp only [epiMM, h, Option.bind_eq_bind, Option.bind_some, a4, Option.bind_eq_some_iff,
    Option.some.injEq, Prod.mk.injEq]
  constructor
  · rintro ⟨q1, h1, q2, h2, rfl, rfl⟩
    exact ⟨_, _, a1, a2, b1, b2, h1, h2⟩
  · rintro ⟨M1, M2, c1, c2, d1, d2, h1, h2⟩
    exact ⟨p1, by rw [← a3 M1 c1 c2]; exact h1, p2, by rw [← b3 M2 d1 d2]; exact h2, rfl, rfl⟩

/-! ### C69 -/

/-- The rows of a rotation matrix: turning camera coordinates back into object coordinates. -/
theorem rot_forth (omega phi kappa : ℝ) (v : V3) :
    let m := rotationMatrix omega phi kappa
    m.mulVec ⟨m.c0.dot v, m.c1.dot v, m.c2.dot v⟩ = v := by
  intro m
  have ho := Real.sin_sq_add_cos_sq omega
  have hp := Real.sin_sq_add_cos_sq phi
  have hk := Real.sin_sq_add_cos_sq kappa
  simp only [m, M3.c0, M3.c1, M3.c2, dot, rotationMatrix, M3.mulVec]
  generalize Real.sin omega = so at *
  generalize Real.cos omega = co at *
  generalize Real.sin phi = sp at *
  generalize Real.cos phi = cp at *
  generalize Real.sin kappa = sk at *
  generalize Real.cos kappa = ck at *
  have e1 : so ^ 2 = 1 - co ^ 2 := by linarith
  have e2 : sp ^ 2 = 1 - cp ^ 2 := by linarith
  have e3 : sk ^ 2 = 1 - ck ^ 2 := by linarith
  ext <;> simp only <;> ring_nf <;> simp only [e1, e2, e3] <;> ring

/-- A point in front of a camera is on the camera ray of its pinhole image. -/
theorem pinhole_ray {omega phi kappa : ℝ} {cal : Cam} {P : V3}
    (hdm : cal.dm = rotationMatrix omega phi kappa) (hcc : 0 < cal.cc)
    (hdep : dot cal.dm.c2 (P - cal.pos) < 0) :
    cal.dm.mulVec ⟨(pinhole cal.pos cal.dm cal.cc P).1, (pinhole cal.pos cal.dm cal.cc P).2, -cal.cc⟩
      = (P - cal.pos).smul (cal.cc / -dot cal.dm.c2 (P - cal.pos)) := by
  have hr := rot_forth omega phi kappa (P - cal.pos)
  simp only [← hdm] at hr
  set u := cal.dm.c2.dot (P - cal.pos) with hu
  have hx : (pinhole cal.pos cal.dm cal.cc P).1 = cal.dm.c0.dot (P - cal.pos) * (cal.cc / -u) := by
    simp only [pinhole, hu, dot, M3.c0, M3.c2]; rw [div_neg]; ring
  have hy : (pinhole cal.pos cal.dm cal.cc P).2 = cal.dm.c1.dot (P - cal.pos) * (cal.cc / -u) := by
    simp only [pinhole, hu, dot, M3.c1, M3.c2]; rw [div_neg]; ring
  have hz : -cal.cc = u * (cal.cc / -u) := by
    have : u ≠ 0 := hdep.ne
    field_simp
  rw [hx, hy]
  rw [show (⟨cal.dm.c0.dot (P - cal.pos) * (cal.cc / -u), cal.dm.c1.dot (P - cal.pos) * (cal.cc / -u), -cal.cc⟩
      : V3) = (⟨cal.dm.c0.dot (P - cal.pos), cal.dm.c1.dot (P - cal.pos), u⟩ : V3).smul (cal.cc / -u) by
    ext
    · rfl
    · rfl
    · exact hz]
  rw [mulVec_smul, hr]

/-- A perspective image of a segment in front of the camera is the segment of the images. -/
theorem pinhole_segment (C : V3) (dm : M3) (cc s : ℝ) (M1 M2 P : V3) (hs0 : 0 ≤ s) (hs1 : s ≤ 1)
    (hP : P = M1 + (M2 - M1).smul s) (h1 : dot dm.c2 (M1 - C) < 0) (h2 : dot dm.c2 (M2 - C) < 0) :
    ∃ t : ℝ, 0 ≤ t ∧ t ≤ 1 ∧
      (pinhole C dm cc P).1 = (1 - t) * (pinhole C dm cc M1).1 + t * (pinhole C dm cc M2).1 ∧
      (pinhole C dm cc P).2 = (1 - t) * (pinhole C dm cc M1).2 + t * (pinhole C dm cc M2).2 := by
  set w1 := dot dm.c2 (M1 - C) with hw1
  set w2 := dot dm.c2 (M2 - C) with hw2
  have lin : ∀ c : V3, dot c (P - C) = (1 - s) * dot c (M1 - C) + s * dot c (M2 - C) := by
    intro c; rw [hP]; simp only [dot, sub_x, sub_y, sub_z, add_x, add_y, add_z, smul_x, smul_y, smul_z]; ring
  have hw : dot dm.c2 (P - C) = (1 - s) * w1 + s * w2 := lin _
  have hneg : (1 - s) * w1 + s * w2 < 0 := by
    rcases hs0.eq_or_lt with rfl | hs
    · simpa using h1
    · nlinarith
  have pin : ∀ Q : V3, pinhole C dm cc Q
      = (-cc * (dot dm.c0 (Q - C) / dot dm.c2 (Q - C)), -cc * (dot dm.c1 (Q - C) / dot dm.c2 (Q - C))) := by
    intro Q; simp only [pinhole, dot, M3.c0, M3.c1, M3.c2]
  refine ⟨s * w2 / ((1 - s) * w1 + s * w2), ?_, ?_, ?_, ?_⟩
  · exact div_nonneg_of_nonpos (by nlinarith) hneg.le
  · rw [div_le_one_of_neg hneg]; nlinarith
  · rw [pin, pin, pin]
    simp only [hw, lin, ← hw1, ← hw2]
    have := hneg.ne
    have := h1.ne
    have := h2.ne
    field_simp
    ring
  · rw [pin, pin, pin]
    simp only [hw, lin, ← hw1, ← hw2]
    have := hneg.ne
    have := h1.ne
    have := h2.ne
    field_simp
    ring

/-- C69: in air, let `P` be any particle in front of camera 1, `X` the point where camera 1's line of sight
to `P` crosses the glass, `P` within the depth limits of the volume at `X`, and the part of the line of
sight within these limits in front of camera 2. Then for the flat image of `P` in camera 1,
`epi_mm` returns a segment in camera 2 that contains the flat image of `P` in camera 2: the search along
the epipolar line cannot miss the true match. -/
theorem C69_epipolar_segment (omega phi kappa L : ℝ) (cal1 cal2 : Cam) (lut1 lut2 : LUT) (mm : MM) (v : VPar)
    (d : ℝ) (ns : List ℝ) (g P X : V3)
    (hair : mm.n1 = 1 ∧ mm.nlay = 1 ∧ mm.n2 = 1 :: ns ∧ mm.n3 = 1 ∧ mm.d = [d])
    (hdm : cal1.dm = rotationMatrix omega phi kappa) (hcc : 0 < cal1.cc)
    (hL : 0 < L) (hg : g.norm = 1) (hglass : cal1.glass = g.smul L) (hglass2 : cal2.glass ≠ 0)
    (hdep1 : dot cal1.dm.c2 (P - cal1.pos) < 0) (hside : (P - cal1.pos).dot g < 0)
    (hz : P.z ≠ cal1.pos.z)
    (hX : OnLine cal1.pos (P - cal1.pos) X) (hXg : X.dot g = L)
    (hvol : zMinAt v X.x ≤ P.z ∧ P.z ≤ zMaxAt v X.x)
    (hdep2 : ∀ M, OnLine cal1.pos (P - cal1.pos) M → zMinAt v X.x ≤ M.z → M.z ≤ zMaxAt v X.x →
      dot cal2.dm.c2 (M - cal2.pos) < 0) :
    ∃ q1 q2 p1 p2, flatImageCoord P cal1 lut1 mm = some q1 ∧ flatImageCoord P cal2 lut2 mm = some q2 ∧
      epiMM q1.1 q1.2 cal1 cal2 lut2 mm v = some (p1, p2) ∧
      ∃ t : ℝ, 0 ≤ t ∧ t ≤ 1 ∧ q2.1 = (1 - t) * p1.1 + t * p2.1 ∧ q2.2 = (1 - t) * p1.2 + t * p2.2 := by
  obtain ⟨h1, h2, h3, h4, h5⟩ := hair
  have hgl1 : cal1.glass ≠ 0 := by
    intro e
    have := V3.norm_eq_zero.2 e
    rw [hglass, norm_smul, hg, abs_of_pos hL] at this
    linarith
  have proj : ∀ (cal : Cam) (lut : LUT) (Q : V3), cal.glass ≠ 0 → dot cal.dm.c2 (Q - cal.pos) < 0 →
      flatImageCoord Q cal lut mm = some (pinhole cal.pos cal.dm cal.cc Q) := by
    intro cal lut Q hgl hq
    exact C27_no_refraction cal lut mm Q 1 ns (by rw [h5, h2]; simp) (by rw [h5]; simp) one_ne_zero h1 h3 h4
      (Or.inl ⟨rfl, h2⟩) hgl hq.ne
  have hne : P - cal1.pos ≠ 0 := by
    intro e; rw [e] at hside; simp [dot] at hside
  set N := (P - cal1.pos).norm with hN
  have hN0 : 0 < N := lt_of_le_of_ne (norm_nonneg _) (fun e => hne (V3.norm_eq_zero.1 e.symm))
  set dir := (P - cal1.pos).smul (1 / N) with hdirdef
  have hdir1 : dir.norm = 1 := by
    rw [hdirdef, norm_smul, ← hN, abs_of_pos (by positivity)]; field_simp
  set w := dot cal1.dm.c2 (P - cal1.pos) with hw
  have hray := pinhole_ray hdm hcc hdep1
  rw [← hw] at hray
  set q1 := pinhole cal1.pos cal1.dm cal1.cc P with hq1
  have hdir : cal1.dm.mulVec ⟨q1.1, q1.2, -cal1.cc⟩ = dir.smul (N * (cal1.cc / -w)) := by
    rw [hray, hdirdef]; ext <;> simp <;> field_simp
  have hs : 0 < N * (cal1.cc / -w) := mul_pos hN0 (div_pos hcc (by linarith))
  have hnp : dir.dot g < 0 := by
    have : dir.dot g = (P - cal1.pos).dot g * (1 / N) := by
      rw [hdirdef]; simp only [dot, smul_x, smul_y, smul_z]; ring
    rw [this]; exact mul_neg_of_neg_of_pos hside (by positivity)
  obtain ⟨X', e1, ⟨t, e2⟩, e3⟩ := C26_straight q1.1 q1.2 omega phi kappa L cal1 mm d 1 [] ns g dir
    (N * (cal1.cc / -w)) h5 h3 hdm hL hg hglass hs hdir1 hdir hnp (by rw [h1]; norm_num) h1.symm
    (by rw [h4, h1])
  have hXX : X' = X := by
    obtain ⟨u, hu⟩ := hX
    have h1 : cal1.pos.dot g + (P - cal1.pos).dot g * u = L := by
      rw [← hXg, hu]; simp only [dot, add_x, add_y, add_z, smul_x, smul_y, smul_z]; ring
    have h2 : cal1.pos.dot g + (P - cal1.pos).dot g * (t / N) = L := by
      rw [← e3, e2, hdirdef]; simp only [dot, add_x, add_y, add_z, smul_x, smul_y, smul_z]; ring
    have h3 : u = t / N := mul_left_cancel₀ hside.ne (by linarith)
    rw [e2, hu, hdirdef, h3]
    ext <;> simp <;> ring
  subst hXX
  have hline : ∀ M, OnLine X' dir M → OnLine cal1.pos (P - cal1.pos) M := by
    rintro M ⟨u, rfl⟩
    refine ⟨(t + u) / N, ?_⟩
    rw [e2, hdirdef]
    ext <;> simp <;> ring
  have hdz : dir.z ≠ 0 := by
    rw [hdirdef, smul_z, sub_z]
    exact mul_ne_zero (sub_ne_zero.2 hz) (by positivity)
  obtain ⟨a1, a2, -, -⟩ := C29_move_along_ray (zMinAt v X'.x) X' dir hdz
  obtain ⟨b1, b2, -, -⟩ := C29_move_along_ray (zMaxAt v X'.x) X' dir hdz
  set M1 := (moveAlongRay (zMinAt v X'.x) X' dir).1 with hM1
  set M2 := (moveAlongRay (zMaxAt v X'.x) X' dir).1 with hM2
  obtain ⟨hv1, hv2⟩ := hvol
  have hM1d := hdep2 M1 (hline M1 a1) a2.ge (a2.le.trans (hv1.trans hv2))
  have hM2d := hdep2 M2 (hline M2 b1) ((hv1.trans hv2).trans b2.ge) b2.le
  have hPl : OnLine X' dir P := by
    refine ⟨N - t, ?_⟩
    rw [e2, hdirdef]
    ext <;> simp <;> field_simp <;> ring
  have hPd := hdep2 P (hline P hPl) hv1 hv2
  refine ⟨q1, _, _, _, proj cal1 lut1 P hgl1 hdep1, proj cal2 lut2 P hglass2 hPd,
    (C29_epi_mm q1.1 q1.2 cal1 cal2 lut2 mm v X' dir e1 hdz _ _).2
      ⟨M1, M2, a1, a2, b1, b2, proj cal2 lut2 M1 hglass2 hM1d, proj cal2 lut2 M2 hglass2 hM2d⟩, ?_⟩
  -- P between M1 and M2
  obtain ⟨u1, hu1⟩ := a1
  obtain ⟨u2, hu2⟩ := b1
  obtain ⟨u, hu⟩ := hPl
  have z1 : X'.z + dir.z * u1 = zMinAt v X'.x := by rw [← a2, hu1]; rfl
  have z2 : X'.z + dir.z * u2 = zMaxAt v X'.x := by rw [← b2, hu2]; rfl
  have z3 : X'.z + dir.z * u = P.z := (congrArg V3.z hu).symm
  by_cases hzz : u1 = u2
  · have hPu : u = u1 := by
      have : dir.z * u = dir.z * u1 := by rw [hzz] at z1 ⊢; linarith
      exact mul_left_cancel₀ hdz this
    refine ⟨0, le_refl _, zero_le_one, ?_, ?_⟩ <;>
    · rw [show P = M1 by rw [hu, hu1, hPu]]; ring
  · have hd12 : u2 - u1 ≠ 0 := fun e => hzz (by linarith)
    have hb : dir.z * (u2 - u1) = zMaxAt v X'.x - zMinAt v X'.x := by linarith
    have hpos : 0 < zMaxAt v X'.x - zMinAt v X'.x := by
      have : zMaxAt v X'.x - zMinAt v X'.x ≠ 0 := by rw [← hb]; exact mul_ne_zero hdz hd12
      exact lt_of_le_of_ne (by linarith) this.symm
    have hsv : (u - u1) / (u2 - u1) = (P.z - zMinAt v X'.x) / (zMaxAt v X'.x - zMinAt v X'.x) := by
      rw [← hb, ← z3, ← z1]; field_simp; ring
    refine pinhole_segment cal2.pos cal2.dm cal2.cc ((u - u1) / (u2 - u1)) M1 M2 P ?_ ?_ ?_ hM1d hM2d
    · rw [hsv]; exact div_nonneg (by linarith) hpos.le
    · rw [hsv, div_le_one hpos]; linarith
    · conv_lhs => rw [hu]
      rw [hu1, hu2]
      ext <;> simp <;> field_simp <;> ring

/-- The hypotheses of C69 are met by two cameras over a flat window, the second one displaced, and a
particle off both axes. -/
example : ∃ q1 q2 p1 p2 : ℝ × ℝ,
    flatImageCoord ⟨1, 2, -5⟩ ⟨⟨0, 0, 100⟩, rotationMatrix 0 0 0, 50, 0, 0, defaultAddPar, ⟨0, 0, 10⟩⟩ emptyLUT
      ⟨1, 1, [1], 1, [6]⟩ = some q1 ∧
    flatImageCoord ⟨1, 2, -5⟩ ⟨⟨30, 0, 100⟩, rotationMatrix 0 0 0, 50, 0, 0, defaultAddPar, ⟨0, 0, 10⟩⟩ emptyLUT
      ⟨1, 1, [1], 1, [6]⟩ = some q2 ∧
    epiMM q1.1 q1.2 ⟨⟨0, 0, 100⟩, rotationMatrix 0 0 0, 50, 0, 0, defaultAddPar, ⟨0, 0, 10⟩⟩
      ⟨⟨30, 0, 100⟩, rotationMatrix 0 0 0, 50, 0, 0, defaultAddPar, ⟨0, 0, 10⟩⟩ emptyLUT ⟨1, 1, [1], 1, [6]⟩
      ⟨-50, 50, -20, -20, 20, 20⟩ = some (p1, p2) ∧
    ∃ t : ℝ, 0 ≤ t ∧ t ≤ 1 ∧ q2.1 = (1 - t) * p1.1 + t * p2.1 ∧ q2.2 = (1 - t) * p1.2 + t * p2.2 := by
  refine C69_epipolar_segment 0 0 0 10 ⟨⟨0, 0, 100⟩, rotationMatrix 0 0 0, 50, 0, 0, defaultAddPar, ⟨0, 0, 10⟩⟩
    ⟨⟨30, 0, 100⟩, rotationMatrix 0 0 0, 50, 0, 0, defaultAddPar, ⟨0, 0, 10⟩⟩ emptyLUT emptyLUT
    ⟨1, 1, [1], 1, [6]⟩ ⟨-50, 50, -20, -20, 20, 20⟩ 6 [] ⟨0, 0, 1⟩ ⟨1, 2, -5⟩
    ⟨90 / 105, 180 / 105, 10⟩ ⟨rfl, rfl, rfl, rfl, rfl⟩ rfl (by norm_num) (by norm_num)
    (V3.norm_eq_one.2 (by norm_num [dot])) (by ext <;> simp)
    (fun h => by have := congrArg V3.z h; norm_num at this)
    (by norm_num [dot, M3.c2, rotationMatrix]) (by norm_num [dot]) (by norm_num)
    ⟨90 / 105, by ext <;> norm_num⟩ (by norm_num [dot]) (by norm_num [zMinAt, zMaxAt]) ?_
  intro M _ _ h2
  norm_num [zMaxAt] at h2
  norm_num [dot, M3.c2, rotationMatrix]
  linarith

/-! ### C70 -/

theorem linspace_get (a b : ℝ) (n i : ℕ) (hi : i < n) : (linspace a b n)[i]?
    = some (if n = 1 then a else a + i * ((b - a) / (n - 1 : ℝ))) := by
  simp [linspace, hi]

theorem curveLoop_spec {vertex a : V3} (ha : a.z ≠ 0) {cal2 : Cam} {lut2 : LUT} {mm : MM} {ip : ImgPar} :
    ∀ (zs : List ℝ) (pts : List (ℝ × ℝ)), curveLoop vertex cal2 lut2 mm ip zs a = some pts →
      pts.length = zs.length ∧ ∀ (i : ℕ) (z : ℝ), zs[i]? = some z →
        ∃ M p, OnLine vertex a M ∧ M.z = z ∧ imgCoord M cal2 lut2 mm = some p ∧
          pts[i]? = some (metricToPixel p.1 p.2 ip)
  | [], pts, h => by
    simp only [curveLoop, Option.some.injEq] at h
    subst h
    simp
  | z :: zs, pts, h => by
    obtain ⟨a1, a2, -, a4⟩ := C29_move_along_ray z vertex a ha
    simp only [curveLoop, curvePoint, Option.bind_eq_bind, Option.bind_eq_some_iff] at h
    obtain ⟨r, ⟨p, hp, hr⟩, rs, h2, h3⟩ := h
    simp only [Option.some.injEq] at hr h3
    rw [← hr, a4] at h2
    obtain ⟨i1, i2⟩ := curveLoop_spec ha zs rs h2
    subst h3
    refine ⟨by simp [i1], ?_⟩
    intro i w hw
    cases i with
    | zero =>
      simp at hw
      subst hw
      exact ⟨_, p, a1, a2, hp, by simp [← hr]⟩
    | succ i =>
      simp at hw
      simpa using i2 i w hw

theorem curveLoop_total {vertex a : V3} (ha : a.z ≠ 0) {cal2 : Cam} {lut2 : LUT} {mm : MM} {ip : ImgPar} :
    ∀ (zs : List ℝ), (∀ z ∈ zs, ∀ M, OnLine vertex a M → M.z = z → ∃ p, imgCoord M cal2 lut2 mm = some p) →
      ∃ pts, curveLoop vertex cal2 lut2 mm ip zs a = some pts
  | [], _ => ⟨[], rfl⟩
  | z :: zs, h => by
    obtain ⟨a1, a2, -, a4⟩ := C29_move_along_ray z vertex a ha
    obtain ⟨p, hp⟩ := h z (by simp) _ a1 a2
    obtain ⟨pts, hpts⟩ := curveLoop_total ha (ip := ip) zs (fun z' hz' => h z' (by simp [hz']))
    exact ⟨metricToPixel p.1 p.2 ip :: pts, by
      simp only [curveLoop, curvePoint, hp, Option.bind_eq_bind, Option.bind_some, a4, hpts]⟩

/-- C70: when `epipolar_curve` returns, it has `num_points` pixels, and the `i`-th is the image in the
second camera (with its distortion, in pixels) of the point of the first camera's traced ray whose depth
is the `i`-th of `num_points` evenly spaced depths; the first is at the lower, the last at the upper depth
limit. -/
theorem C70_curve (pt : ℝ × ℝ) (cal1 cal2 : Cam) (lut2 : LUT) (n : ℕ) (mm : MM) (ip : ImgPar) (v : VPar)
    (X a : V3) (pts : List (ℝ × ℝ))
    (hr : rayTracing (distToFlat (pixelToMetric pt.1 pt.2 ip).1 (pixelToMetric pt.1 pt.2 ip).2 cal1.xh cal1.yh
      cal1.ap 0.00001).1 (distToFlat (pixelToMetric pt.1 pt.2 ip).1 (pixelToMetric pt.1 pt.2 ip).2 cal1.xh
      cal1.yh cal1.ap 0.00001).2 cal1 mm = some (X, a)) (ha : a.z ≠ 0)
    (h : epipolarCurve pt cal1 cal2 lut2 n mm ip v = some pts) :
    pts.length = n ∧
    (∀ i, i < n → ∃ M p, OnLine X a M ∧
      (2 ≤ n → M.z * (n - 1 : ℝ) = v.zMin0 * ((n - 1 : ℝ) - i) + v.zMax0 * i) ∧
      (i = 0 → M.z = v.zMin0) ∧ (2 ≤ n → i + 1 = n → M.z = v.zMax0) ∧
      imgCoord M cal2 lut2 mm = some p ∧ pts[i]? = some (metricToPixel p.1 p.2 ip)) := by
  simp only [epipolarCurve, hr, Option.bind_eq_bind, Option.bind_some] at h
  obtain ⟨h1, h2⟩ := curveLoop_spec ha _ _ h
  refine ⟨by rw [h1]; simp [linspace], ?_⟩
  intro i hi
  obtain ⟨M, p, m1, m2, m3, m4⟩ := h2 i _ (linspace_get v.zMin0 v.zMax0 n i hi)
  have key : 2 ≤ n → M.z * (n - 1 : ℝ) = v.zMin0 * ((n - 1 : ℝ) - i) + v.zMax0 * i := by
    intro hn
    have hn' : (n : ℝ) - 1 ≠ 0 := by
      have : (2 : ℝ) ≤ n := by exact_mod_cast hn
      linarith
    rw [m2, if_neg (by omega)]
    field_simp
    ring
  refine ⟨M, p, m1, key, ?_, ?_, m3, m4⟩
  · rintro rfl
    rw [m2]; simp
  · intro hn hin
    have hn' : (n : ℝ) - 1 ≠ 0 := by
      have : (2 : ℝ) ≤ n := by exact_mod_cast hn
      linarith
    have := key hn
    have hi' : (i : ℝ) = n - 1 := by rw [← hin]; push_cast; ring
    rw [hi', sub_self, mul_zero, zero_add] at this
    exact mul_right_cancel₀ hn' this

/-- C70, consistency: without refraction and lens distortion (scale, shear and principal point allowed),
the epipolar curve of a pixel in its own camera is that pixel, repeated. -/
theorem C70_own_camera (pt : ℝ × ℝ) (omega phi kappa L : ℝ) (cal : Cam) (lut : LUT) (n : ℕ) (mm : MM)
    (ip : ImgPar) (v : VPar) (d n2 : ℝ) (ds ns : List ℝ) (g dir : V3) (s : ℝ) (f : ℝ × ℝ)
    (hf : f = distToFlat (pixelToMetric pt.1 pt.2 ip).1 (pixelToMetric pt.1 pt.2 ip).2 cal.xh cal.yh cal.ap
      0.00001)
    (hpx : ip.pixX ≠ 0 ∧ ip.pixY ≠ 0)
    (hap : cal.ap.k1 = 0 ∧ cal.ap.k2 = 0 ∧ cal.ap.k3 = 0 ∧ cal.ap.p1 = 0 ∧ cal.ap.p2 = 0)
    (hs0 : cal.ap.scx ≠ 0) (hc0 : Real.cos cal.ap.she ≠ 0)
    (hd : mm.d = d :: ds) (hn2 : mm.n2 = n2 :: ns)
    (hdm : cal.dm = rotationMatrix omega phi kappa) (hcc : cal.cc ≠ 0)
    (hL : 0 < L) (hg : g.norm = 1) (hglass : cal.glass = g.smul L)
    (hs : 0 < s) (hdir1 : dir.norm = 1) (hdir : cal.dm.mulVec ⟨f.1, f.2, -cal.cc⟩ = dir.smul s)
    (hnp : dir.dot g < 0) (hz : dir.z ≠ 0) (h1 : 0 < mm.n1) (h12 : n2 = mm.n1) (h13 : mm.n3 = mm.n1)
    (hl : mm.d.length ≤ mm.nlay) (hcase : (mm.n1 = 1 ∧ mm.nlay = 1) ∨ lut = emptyLUT)
    (hcam : (v.zMin0 < cal.pos.z ∧ v.zMax0 < cal.pos.z) ∨ (cal.pos.z < v.zMin0 ∧ cal.pos.z < v.zMax0))
    : epipolarCurve pt cal cal lut n mm ip v = some (List.replicate n pt) := by
  obtain ⟨X, e1, -⟩ := C26_straight f.1 f.2 omega phi kappa L cal mm d n2 ds ns g dir s hd hn2
    hdm hL hg hglass hs hdir1 hdir hnp h1 h12 h13
  obtain ⟨X', out, e1', hproj⟩ := C59_projection_inverts_tracing f.1 f.2 omega phi kappa L cal lut mm d n2 ds ns
    g dir s hd hn2 hdm hcc hL hg hglass hs hdir1 hdir hnp h1 h12 h13 hl hcase
  rw [e1] at e1'
  cases e1'
  have away : ∀ (i : ℕ) (z : ℝ), i < n → (2 ≤ n → z * (n - 1 : ℝ) = v.zMin0 * ((n - 1 : ℝ) - i) + v.zMax0 * i) →
      (i = 0 → z = v.zMin0) → z ≠ cal.pos.z := by
    intro i z hin m2 m3 hM
    rcases Nat.lt_or_ge n 2 with hn | hn
    · have : i = 0 := by omega
      have := m3 this
      rcases hcam with ⟨c1, c2⟩ | ⟨c1, c2⟩ <;> linarith
    · have := m2 hn
      rw [hM] at this
      have hn' : (0 : ℝ) < n - 1 := by
        have : (2 : ℝ) ≤ n := by exact_mod_cast hn
        linarith
      have hi0 : (0 : ℝ) ≤ i := Nat.cast_nonneg i
      have hi1 : (i : ℝ) ≤ n - 1 := by
        have : (i : ℝ) + 1 ≤ n := by exact_mod_cast (by omega : i + 1 ≤ n)
        linarith
      have e : cal.pos.z * (n - 1 : ℝ) = cal.pos.z * ((n - 1 : ℝ) - i) + cal.pos.z * i := by ring
      rcases hcam with ⟨c1, c2⟩ | ⟨c1, c2⟩
      · rcases hi0.eq_or_lt with hi0 | hi0
        · rw [← hi0] at this; simp at this; rcases this with h | h <;> linarith
        · nlinarith [mul_pos hi0 (sub_pos.2 c2), mul_nonneg (sub_nonneg.2 hi1) (sub_pos.2 c1).le]
      · rcases hi0.eq_or_lt with hi0 | hi0
        · rw [← hi0] at this; simp at this; rcases this with h | h <;> linarith
        · nlinarith [mul_pos hi0 (sub_pos.2 c2), mul_nonneg (sub_nonneg.2 hi1) (sub_pos.2 c1).le]
  have tot : ∃ pts, epipolarCurve pt cal cal lut n mm ip v = some pts := by
    simp only [epipolarCurve, ← hf, e1, Option.bind_eq_bind, Option.bind_some]
    refine curveLoop_total hz _ ?_
    intro z hzm M hM hMz
    obtain ⟨i, hi, rfl⟩ := List.getElem_of_mem hzm
    have hin : i < n := by simpa [linspace] using hi
    have hval := linspace_get v.zMin0 v.zMax0 n i hin
    rw [List.getElem?_eq_getElem hi, Option.some.injEq] at hval
    have hMp : M.z ≠ cal.pos.z := by
      refine away i M.z hin ?_ ?_
      · intro hn
        have hn' : (n : ℝ) - 1 ≠ 0 := by
          have : (2 : ℝ) ≤ n := by exact_mod_cast hn
          linarith
        rw [hMz, hval, if_neg (by omega)]
        field_simp
        ring
      · rintro rfl
        rw [hMz, hval]; simp
    have hfl := hproj M hM (fun e => hMp (by rw [e]))
    rw [← Option.isSome_iff_exists]
    simp only [imgCoord, hfl, Option.bind_eq_bind, Option.bind_some, Option.isSome_some]
  obtain ⟨pts, h⟩ := tot
  obtain ⟨k1, k2⟩ := C70_curve pt cal cal lut n mm ip v X dir pts (by rw [← hf]; exact e1) hz h
  rw [h, Option.some.injEq, List.eq_replicate_iff]
  refine ⟨k1, ?_⟩
  intro p hp
  obtain ⟨i, hi, rfl⟩ := List.getElem_of_mem hp
  obtain ⟨M, q, m1, m2, m3, m4, m5, m6⟩ := k2 i (by omega)
  have hMz : M.z ≠ cal.pos.z := away i M.z (by omega) m2 m3
  have hfl := hproj M m1 (fun e => hMz (by rw [e]))
  have hq : q = pixelToMetric pt.1 pt.2 ip := by
    simp only [imgCoord, hfl, Option.bind_eq_bind, Option.bind_some, Option.some.injEq] at m5
    rw [← m5, hf]
    exact (C24_flat_dist_inverse cal.ap hap.1 hap.2.1 hap.2.2.1 hap.2.2.2.1 hap.2.2.2.2 hs0 hc0 _ _ _ _ _).1
  rw [List.getElem?_eq_getElem hi, Option.some.injEq] at m6
  rw [m6, hq]
  exact (C23_inverse ip hpx.1 hpx.2 pt.1 pt.2).1

/-- The hypotheses of C70 are met: a camera over a flat window and an off-axis pixel; `C70_own_camera`
also gives a case where `epipolar_curve` returns, as `C70_curve` assumes. -/
example : epipolarCurve (3, 2) ⟨⟨0, 0, 100⟩, rotationMatrix 0 0 0, 2, 0, 0, defaultAddPar, ⟨0, 0, 10⟩⟩
    ⟨⟨0, 0, 100⟩, rotationMatrix 0 0 0, 2, 0, 0, defaultAddPar, ⟨0, 0, 10⟩⟩ emptyLUT 7 ⟨1, 1, [1], 1, [6]⟩
    ⟨4, 2, 1, 1⟩ ⟨-50, 50, -20, -20, 20, 20⟩ = some (List.replicate 7 (3, 2)) := by
  have hpm : pixelToMetric 3 2 ⟨4, 2, 1, 1⟩ = (1, -1) := by norm_num [pixelToMetric]
  have hfl : distToFlat (pixelToMetric 3 2 ⟨4, 2, 1, 1⟩).1 (pixelToMetric 3 2 ⟨4, 2, 1, 1⟩).2 0 0 defaultAddPar
      0.00001 = (1, -1) := by
    rw [hpm]
    simp only [distToFlat, sub_zero, (C24_default_identity _ _ _).2]
  have h6 : (0 : ℝ) < Real.sqrt 6 := by positivity
  have h66 : Real.sqrt 6 * Real.sqrt 6 = 6 := Real.mul_self_sqrt (by norm_num)
  refine C70_own_camera (3, 2) 0 0 0 10 _ emptyLUT 7 _ _ _ 6 1 [] [] ⟨0, 0, 1⟩
    ⟨1 / Real.sqrt 6, -1 / Real.sqrt 6, -2 / Real.sqrt 6⟩ (Real.sqrt 6) (1, -1) hfl.symm ⟨one_ne_zero, one_ne_zero⟩
    ⟨rfl, rfl, rfl, rfl, rfl⟩ (by simp [defaultAddPar]) (by simp [defaultAddPar]) rfl rfl rfl (by norm_num) (by norm_num)
    (V3.norm_eq_one.2 (by norm_num [dot])) (by ext <;> simp) h6
    (V3.norm_eq_one.2 (by simp only [dot]; field_simp; nlinarith)) ?_ ?_ ?_ (by norm_num) rfl rfl (by simp) (Or.inr rfl)
    (by norm_num)
  · ext <;> simp [M3.mulVec, rotationMatrix, dot] <;> field_simp
  · have := div_neg_of_neg_of_pos (by norm_num : (-2 : ℝ) < 0) h6
    simp only [dot]; linarith
  · simp only [ne_eq]; exact (div_neg_of_neg_of_pos (by norm_num) h6).ne

end Verif.Geo
