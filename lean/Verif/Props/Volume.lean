/-
C52: volumedimension.
-/
import Verif.Model.Volume
import Verif.Props.Ray

namespace Verif.Geo
open V3 Spec

/-- The bounds contain the point `(X, Y)`. -/
def Spec.Contains (b : Bounds) (X Y : ℝ) : Prop := b.xmin ≤ X ∧ X ≤ b.xmax ∧ b.ymin ≤ Y ∧ Y ≤ b.ymax

/-- `b'` contains everything `b` contains. -/
def Spec.Wider (b b' : Bounds) : Prop :=
  b'.xmin ≤ b.xmin ∧ b.xmax ≤ b'.xmax ∧ b'.ymin ≤ b.ymin ∧ b.ymax ≤ b'.ymax

/-- The four corners of the image, in pixels. -/
def Spec.imageCorners (ip : ImgPar) : List (ℝ × ℝ) :=
  [(0, 0), (0, (ip.imy : ℝ)), ((ip.imx : ℝ), 0), ((ip.imx : ℝ), (ip.imy : ℝ))]

theorem widen_wider (b : Bounds) (X Y : ℝ) : Wider b (widen b X Y) := by
  simp only [Wider, widen]
  refine ⟨?_, ?_, ?_, ?_⟩ <;> split_ifs <;> linarith

theorem widen_contains (b : Bounds) (X Y : ℝ) : Contains (widen b X Y) X Y := by
  simp only [Contains, widen]
  refine ⟨?_, ?_, ?_, ?_⟩ <;> split_ifs <;> linarith

theorem Spec.Wider.trans {a b c : Bounds} (h1 : Wider a b) (h2 : Wider b c) : Wider a c := by
  obtain ⟨a1, a2, a3, a4⟩ := h1
  obtain ⟨b1, b2, b3, b4⟩ := h2
  exact ⟨b1.trans a1, a2.trans b2, b3.trans a3, a4.trans b4⟩

theorem Spec.Contains.mono {b b' : Bounds} {X Y : ℝ} (h : Contains b X Y) (hw : Wider b b') : Contains b' X Y := by
  obtain ⟨a1, a2, a3, a4⟩ := h
  obtain ⟨b1, b2, b3, b4⟩ := hw
  exact ⟨b1.trans a1, a2.trans b2, b3.trans a3, a4.trans b4⟩

/-- What is known about one corner ray once the bounds contain it. -/
def Covered (zMin zMax : ℝ) (pa : V3 × V3) (b : Bounds) : Prop :=
  Contains b (pa.1.x + (zMin + pa.1.z) * pa.2.x / pa.2.z) (pa.1.y + (zMin + pa.1.z) * pa.2.y / pa.2.z) ∧
  Contains b (pa.1.x + (zMax - pa.1.z) * pa.2.x / pa.2.z) (pa.1.y + (zMax - pa.1.z) * pa.2.y / pa.2.z)

theorem volCorner_spec {ip : ImgPar} {mm : MM} {zMin zMax : ℝ} {cal : Cam} {xc yc : ℝ} {b b' : Bounds}
    (h : volCorner ip mm zMin zMax cal xc yc b = some b') :
    ∃ pa, cornerRay ip cal mm xc yc = some pa ∧ Wider b b' ∧ Covered zMin zMax pa b' := by
  simp only [volCorner, Option.map_eq_some_iff] at h
  obtain ⟨pa, h1, h2⟩ := h
  refine ⟨pa, h1, ?_, ?_⟩
  · rw [← h2]; exact (widen_wider _ _ _).trans (widen_wider _ _ _)
  · rw [← h2]; exact ⟨(widen_contains _ _ _).mono (widen_wider _ _ _), widen_contains _ _ _⟩

theorem volCam_spec {ip : ImgPar} {mm : MM} {zMin zMax : ℝ} {cal : Cam} {b b' : Bounds}
    (h : volCam ip mm zMin zMax cal b = some b') :
    Wider b b' ∧ ∀ c ∈ imageCorners ip, ∃ pa, cornerRay ip cal mm c.1 c.2 = some pa ∧
      Covered zMin zMax pa b' := by
  simp only [volCam, Option.bind_eq_bind, Option.bind_eq_some_iff] at h
  obtain ⟨b1, h1, b2, h2, b3, h3, h4⟩ := h
  obtain ⟨p1, r1, w1, c1⟩ := volCorner_spec h1
  obtain ⟨p2, r2, w2, c2⟩ := volCorner_spec h2
  obtain ⟨p3, r3, w3, c3⟩ := volCorner_spec h3
  obtain ⟨p4, r4, w4, c4⟩ := volCorner_spec h4
  refine ⟨w1.trans (w2.trans (w3.trans w4)), ?_⟩
  intro c hc
  simp only [imageCorners, List.mem_cons, List.not_mem_nil, or_false] at hc
  rcases hc with rfl | rfl | rfl | rfl
  · exact ⟨p1, r1, c1.1.mono (w2.trans (w3.trans w4)), c1.2.mono (w2.trans (w3.trans w4))⟩
  · exact ⟨p2, r2, c2.1.mono (w3.trans w4), c2.2.mono (w3.trans w4)⟩
  · exact ⟨p3, r3, c3.1.mono w4, c3.2.mono w4⟩
  · exact ⟨p4, r4, c4⟩

theorem volCams_spec {ip : ImgPar} {mm : MM} {zMin zMax : ℝ} : ∀ (cals : List Cam) (b b' : Bounds),
    volCams ip mm zMin zMax cals b = some b' →
    Wider b b' ∧ ∀ cal ∈ cals, ∀ c ∈ imageCorners ip, ∃ pa, cornerRay ip cal mm c.1 c.2 = some pa ∧
      Covered zMin zMax pa b'
  | [], b, b', h => by
    simp only [volCams, Option.some.injEq] at h
    subst h
    exact ⟨⟨le_refl _, le_refl _, le_refl _, le_refl _⟩, by simp⟩
  | cal :: cals, b, b', h => by
    simp only [volCams, Option.bind_eq_bind, Option.bind_eq_some_iff] at h
    obtain ⟨b1, h1, h2⟩ := h
    obtain ⟨w1, c1⟩ := volCam_spec h1
    obtain ⟨w2, c2⟩ := volCams_spec cals b1 b' h2
    refine ⟨w1.trans w2, ?_⟩
    intro k hk c hc
    rcases List.mem_cons.1 hk with rfl | hk
    · obtain ⟨pa, e1, e2⟩ := c1 c hc
      exact ⟨pa, e1, e2.1.mono w2, e2.2.mono w2⟩
    · exact c2 k hk c hc

/-- C52, the part that holds: `volumedimension` returns the extremes of the volume's z limits; its x and y
bounds include the given ones and, for every camera and image corner, the point where the corner's ray
meets the upper z plane. For the lower plane they include the ray's point at depth `z_min + 2·X.z`, `X`
the ray's crossing of the glass: the right point only if `X.z = 0` (next theorems). -/
theorem C52_bounds_partial (b b' : Bounds) (v : VPar) (ip : ImgPar) (mm : MM) (cals : List Cam)
    (zMax zMin : ℝ) (h : volumeDimension b v ip mm cals = some (b', zMax, zMin)) :
    zMin = min v.zMin0 v.zMin1 ∧ zMax = max v.zMax0 v.zMax1 ∧ Wider b b' ∧
    ∀ cal ∈ cals, ∀ c ∈ imageCorners ip, ∃ X a, cornerRay ip cal mm c.1 c.2 = some (X, a) ∧
      (a.z ≠ 0 → (∀ M, OnLine X a M → M.z = zMax → Contains b' M.x M.y) ∧
        (∀ M, OnLine X a M → M.z = zMin + 2 * X.z → Contains b' M.x M.y)) := by
  simp only [volumeDimension, Option.bind_eq_bind, Option.bind_eq_some_iff, Option.some.injEq,
    Prod.mk.injEq] at h
  obtain ⟨b1, h1, rfl, h2, h3⟩ := h
  have hmin : zMin = min v.zMin0 v.zMin1 := by
    rw [← h3]
    split_ifs with hc
    · rw [min_eq_right hc.le]
    · rw [min_eq_left (not_lt.1 hc)]
  have hmax : zMax = max v.zMax0 v.zMax1 := by
    rw [← h2]
    split_ifs with hc
    · rw [max_eq_right (le_of_lt hc)]
    · rw [max_eq_left (not_lt.1 hc)]
  rw [h2, h3] at h1
  obtain ⟨w, cov⟩ := volCams_spec cals b b1 h1
  refine ⟨hmin, hmax, w, ?_⟩
  intro cal hcal c hc
  obtain ⟨pa, e1, e2, e3⟩ := cov cal hcal c hc
  refine ⟨pa.1, pa.2, e1, fun ha => ⟨?_, ?_⟩⟩
  · rintro M ⟨t, rfl⟩ hM
    have ht : zMax - pa.1.z = pa.2.z * t := by rw [← hM]; simp
    have ex : pa.1.x + (zMax - pa.1.z) * pa.2.x / pa.2.z = (pa.1 + pa.2.smul t).x := by
      rw [ht]; simp; field_simp
    have ey : pa.1.y + (zMax - pa.1.z) * pa.2.y / pa.2.z = (pa.1 + pa.2.smul t).y := by
      rw [ht]; simp; field_simp
    rw [ex, ey] at e3
    exact e3
  · rintro M ⟨t, rfl⟩ hM
    have ht : zMin + pa.1.z = pa.2.z * t := by
      have : pa.1.z + pa.2.z * t = zMin + 2 * pa.1.z := hM
      linarith
    have ex : pa.1.x + (zMin + pa.1.z) * pa.2.x / pa.2.z = (pa.1 + pa.2.smul t).x := by
      rw [ht]; simp; field_simp
    have ey : pa.1.y + (zMin + pa.1.z) * pa.2.y / pa.2.z = (pa.1 + pa.2.smul t).y := by
      rw [ht]; simp; field_simp
    rw [ex, ey] at e2
    exact e2

/-- C52 holds in full for rays that meet the inner glass plane at z = 0. -/
theorem C52_glass_at_zero_partial (b b' : Bounds) (v : VPar) (ip : ImgPar) (mm : MM) (cals : List Cam)
    (zMax zMin : ℝ) (h : volumeDimension b v ip mm cals = some (b', zMax, zMin)) (cal : Cam) (hcal : cal ∈ cals)
    (c : ℝ × ℝ) (hc : c ∈ imageCorners ip) (X a M : V3) (hr : cornerRay ip cal mm c.1 c.2 = some (X, a))
    (hX : X.z = 0) (ha : a.z ≠ 0) (hM : OnLine X a M) (hz : M.z = zMin ∨ M.z = zMax) :
    Contains b' M.x M.y := by
  obtain ⟨-, -, -, hcov⟩ := C52_bounds_partial b b' v ip mm cals zMax zMin h
  obtain ⟨X', a', h1, h2⟩ := hcov cal hcal c hc
  rw [hr] at h1
  cases h1
  obtain ⟨e1, e2⟩ := h2 ha
  rcases hz with hz | hz
  · exact e2 M hM (by rw [hz, hX]; ring)
  · exact e1 M hM hz

/-- For a camera without distortion the corner rays used are those of the corners' corrected
coordinates. -/
theorem C52_corner_rays (ip : ImgPar) (cal : Cam) (mm : MM) (xc yc tol : ℝ) (hap : cal.ap = defaultAddPar) :
    cornerRay ip cal mm xc yc = rayTracing
      (distToFlat (pixelToMetric xc yc ip).1 (pixelToMetric xc yc ip).2 cal.xh cal.yh cal.ap tol).1
      (distToFlat (pixelToMetric xc yc ip).1 (pixelToMetric xc yc ip).2 cal.xh cal.yh cal.ap tol).2 cal mm := by
  simp only [cornerRay, distToFlat, hap, (C24_default_identity _ _ _).2]

/-- The test camera: 10 above the origin, looking down through air, inner glass plane at z = 5. -/
noncomputable def volCal : Cam := ⟨⟨0, 0, 10⟩, rotationMatrix 0 0 0, 4, 0, 0, defaultAddPar, ⟨0, 0, 5⟩⟩

theorem volCal_ray (x s : ℝ) (hs : 0 < s) (hx : x ^ 2 + 4 ^ 2 = s ^ 2) :
    rayTracing x 0 volCal ⟨1, 1, [1], 1, [1]⟩ = some (⟨x * (5 / 4), 0, 5⟩, ⟨x / s, 0, -4 / s⟩) := by
  have hdir1 : V3.norm ⟨x / s, 0, -4 / s⟩ = 1 := V3.norm_eq_one.2 (by simp only [dot]; field_simp; linarith)
  obtain ⟨X, e1, ⟨t, e2⟩, e3⟩ := C26_straight x 0 0 0 0 5 volCal ⟨1, 1, [1], 1, [1]⟩ 1 1 [] [] ⟨0, 0, 1⟩
    ⟨x / s, 0, -4 / s⟩ s rfl rfl rfl (by norm_num) (V3.norm_eq_one.2 (by norm_num [dot]))
    (by ext <;> simp [volCal]) hs hdir1
    (by
      ext
      · simp [volCal, M3.mulVec, rotationMatrix, dot]; field_simp
      · simp [volCal, M3.mulVec, rotationMatrix, dot]
      · simp [volCal, M3.mulVec, rotationMatrix, dot]; field_simp)
    (by simp only [dot]; have : -4 / s < 0 := div_neg_of_neg_of_pos (by norm_num) hs; linarith) (by norm_num)
    rfl rfl
  have hz : 10 + -4 / s * t = 5 := by
    have : X.z = 5 := by simpa [dot] using e3
    rw [← this, e2]; rfl
  have ht : t = s * (5 / 4) := by field_simp at hz; linarith
  rw [e1, e2]
  congr 2
  ext
  · simp [volCal, ht]; field_simp
  · simp [volCal]
  · simp [volCal, ht]; field_simp; norm_num

/-- C52 is false for a glass plane that is not at z = 0: a camera above the origin with the glass at z = 5
and volume limits z = -10 .. 0. The right corner's ray meets the lower plane at x = 15, but the
returned x bound is 7.5. (An image of 6 by 0 pixels of size 1 is enough.) -/
theorem C52_refuted : ∃ b' zMax zMin X a M, volumeDimension ⟨0, 0, 0, 0⟩ ⟨-1, 1, -10, -10, 0, 0⟩ ⟨6, 0, 1, 1⟩
      ⟨1, 1, [1], 1, [1]⟩ [volCal] = some (b', zMax, zMin) ∧
    cornerRay ⟨6, 0, 1, 1⟩ volCal ⟨1, 1, [1], 1, [1]⟩ 6 0 = some (X, a) ∧ OnLine X a M ∧ M.z = zMin ∧
    ¬ Contains b' M.x M.y := by
  have r1 : rayTracing 3 0 volCal ⟨1, 1, [1], 1, [1]⟩ = some (⟨15 / 4, 0, 5⟩, ⟨3 / 5, 0, -4 / 5⟩) := by
    rw [volCal_ray 3 5 (by norm_num) (by norm_num)]; norm_num
  have r2 : rayTracing (-3) 0 volCal ⟨1, 1, [1], 1, [1]⟩ = some (⟨-15 / 4, 0, 5⟩, ⟨-3 / 5, 0, -4 / 5⟩) := by
    rw [volCal_ray (-3) 5 (by norm_num) (by norm_num)]; norm_num
  have c1 : cornerRay ⟨6, 0, 1, 1⟩ volCal ⟨1, 1, [1], 1, [1]⟩ 6 0 = some (⟨15 / 4, 0, 5⟩, ⟨3 / 5, 0, -4 / 5⟩) := by
    have : pixelToMetric 6 0 ⟨6, 0, 1, 1⟩ = (3, 0) := by norm_num [pixelToMetric]
    simp only [cornerRay, this]
    rw [show volCal.ap = defaultAddPar from rfl, (C24_default_identity _ _ _).2]
    simpa [volCal] using r1
  have c2 : cornerRay ⟨6, 0, 1, 1⟩ volCal ⟨1, 1, [1], 1, [1]⟩ 0 0 = some (⟨-15 / 4, 0, 5⟩, ⟨-3 / 5, 0, -4 / 5⟩) := by
    have : pixelToMetric 0 0 ⟨6, 0, 1, 1⟩ = (-3, 0) := by norm_num [pixelToMetric]
    simp only [cornerRay, this]
    rw [show volCal.ap = defaultAddPar from rfl, (C24_default_identity _ _ _).2]
    simpa [volCal] using r2
  refine ⟨⟨15 / 2, -15 / 2, 0, 0⟩, 0, -10, ⟨15 / 4, 0, 5⟩, ⟨3 / 5, 0, -4 / 5⟩, ⟨15, 0, -10⟩, ?_, c1, ⟨75 / 4, ?_⟩,
    rfl, ?_⟩
  · simp only [volumeDimension, volCams, volCam, volCorner, Nat.cast_zero, Nat.cast_ofNat, c1, c2, Option.map_some,
      Option.bind_eq_bind, Option.bind_some]
    norm_num [widen]
  · ext <;> norm_num
  · rintro ⟨-, h, -⟩
    norm_num at h

end Verif.Geo
