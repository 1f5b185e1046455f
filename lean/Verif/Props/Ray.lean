/-
C26, C29: ray tracing through the glass, rays and depths.
-/
import Verif.Proofs.Ray
import Verif.Props.Trafo

namespace Verif.Geo
open V3 Spec

/-! ### C26 -/

/-- C26: `ray_tracing` for a camera with any rotation angles, any non-zero glass vector `L·g`
(`g` a unit vector), positive refractive indices and no total reflection. `dir` is the unit vector of
the camera ray. The ray meets the outer glass plane at `Xb`, is refracted there into `a2`, meets the
inner glass plane at the returned point `X`, and is refracted into the returned unit direction `out`.
Both refractions satisfy Snell's law, and the refracted rays run against the glass normal. If the
camera is in front of the glass and looks at it, `Xb` is in front of the camera and `X` behind `Xb`. -/
theorem C26_snell (x y omega phi kappa L : ℝ) (cal : Cam) (mm : MM) (d n2 : ℝ) (ds ns : List ℝ)
    (g dir : V3) (s : ℝ)
    (hd : mm.d = d :: ds) (hn2 : mm.n2 = n2 :: ns)
    (hdm : cal.dm = rotationMatrix omega phi kappa)
    (hL : 0 < L) (hg : g.norm = 1) (hglass : cal.glass = g.smul L)
    (hs : 0 < s) (hdir1 : dir.norm = 1) (hdir : cal.dm.mulVec ⟨x, y, -cal.cc⟩ = dir.smul s)
    (hnp : dir.dot g ≠ 0) (h1 : 0 < mm.n1) (h2 : 0 < n2) (h3 : 0 < mm.n3)
    (ht2 : (tangential g dir).norm * mm.n1 < n2) (ht3 : (tangential g dir).norm * mm.n1 < mm.n3) :
    ∃ Xb a2 X out, rayTracing x y cal mm = some (X, out) ∧
      OnLine cal.pos dir Xb ∧ Xb.dot g = L + d ∧ Snell g mm.n1 n2 dir a2 ∧ a2.dot g < 0 ∧
      OnLine Xb a2 X ∧ X.dot g = L ∧ Snell g n2 mm.n3 a2 out ∧ out.dot g < 0 ∧
      (dir.dot g < 0 → L + d ≤ cal.pos.dot g → OnRay cal.pos dir Xb) ∧
      (0 ≤ d → OnRay Xb a2 X) := by
  have hi : V3.norm ⟨x, y, -cal.cc⟩ = s := by
    have := C25_isometry omega phi kappa ⟨x, y, -cal.cc⟩
    rw [← hdm, hdir, norm_smul, hdir1, abs_of_pos hs, one_mul] at this
    exact this.symm
  have hi0 : (⟨x, y, -cal.cc⟩ : V3) ≠ 0 := fun e => by
    rw [e, V3.norm_eq_zero.2 rfl] at hi; linarith
  have hu : cal.dm.mulVec (V3.unit ⟨x, y, -cal.cc⟩) = dir := by
    rw [unit_of_ne hi0, mulVec_smul, hdir, hi]
    ext <;> simp only [smul_x, smul_y, smul_z] <;> field_simp
  obtain ⟨Xb, a2, X, out, e1, e2, e3, e4, e5, e6, e7, e8, e9, -, -⟩ :=
    fastRayTracing_spec (pos := cal.pos) (d := d) hL hg hglass hu hdir1 hnp h1 h2 h3 ht2 ht3
  refine ⟨Xb, a2, X, out, ?_, ⟨_, e2⟩, e3, e4, e5, ⟨_, e6⟩, e7, e8, e9, fun ha hb => ⟨_, ?_, e2⟩,
    fun hd0 => ⟨_, ?_, e6⟩⟩
  · simp only [rayTracing, hd, hn2, e1]
  · exact div_nonneg_of_nonpos (by linarith) ha.le
  · exact div_nonneg hd0 (by linarith)

/-- C26: with three equal refractive indices the traced ray is the straight continuation of the
camera ray: the returned direction is the camera ray's and the returned point lies on it, on the
inner glass plane. -/
theorem C26_straight (x y omega phi kappa L : ℝ) (cal : Cam) (mm : MM) (d n2 : ℝ) (ds ns : List ℝ)
    (g dir : V3) (s : ℝ)
    (hd : mm.d = d :: ds) (hn2 : mm.n2 = n2 :: ns)
    (hdm : cal.dm = rotationMatrix omega phi kappa)
    (hL : 0 < L) (hg : g.norm = 1) (hglass : cal.glass = g.smul L)
    (hs : 0 < s) (hdir1 : dir.norm = 1) (hdir : cal.dm.mulVec ⟨x, y, -cal.cc⟩ = dir.smul s)
    (hnp : dir.dot g < 0) (h1 : 0 < mm.n1) (h12 : n2 = mm.n1) (h13 : mm.n3 = mm.n1) :
    ∃ X, rayTracing x y cal mm = some (X, dir) ∧ OnLine cal.pos dir X ∧ X.dot g = L := by
  have hgg := V3.norm_eq_one.1 hg
  have hdd := V3.norm_eq_one.1 hdir1
  have hi : V3.norm ⟨x, y, -cal.cc⟩ = s := by
    have := C25_isometry omega phi kappa ⟨x, y, -cal.cc⟩
    rw [← hdm, hdir, norm_smul, hdir1, abs_of_pos hs, one_mul] at this
    exact this.symm
  have hi0 : (⟨x, y, -cal.cc⟩ : V3) ≠ 0 := fun e => by
    rw [e, V3.norm_eq_zero.2 rfl] at hi; linarith
  have hu : cal.dm.mulVec (V3.unit ⟨x, y, -cal.cc⟩) = dir := by
    rw [unit_of_ne hi0, mulVec_smul, hdir, hi]
    ext <;> simp only [smul_x, smul_y, smul_z] <;> field_simp
  have hlt : (tangential g dir).norm < 1 := by
    have h1 := tangential_norm_sq hgg hdd
    have := norm_nonneg (tangential g dir)
    nlinarith [sq_nonneg (dir.dot g)]
  have hlt' : (tangential g dir).norm * mm.n1 < mm.n1 := by nlinarith
  obtain ⟨Xb, a2, X, out, e1, e2, e3, e4, e5, e6, e7, e8, e9, e10, e11⟩ :=
    fastRayTracing_spec (pos := cal.pos) (d := d) hL hg hglass hu hdir1 hnp.ne h1 h1 h1 hlt' hlt'
  have ha : a2 = dir := by rw [e10]; exact refractDir_same hgg hdd h1 hnp.le
  subst ha
  have ho : out = a2 := by rw [e11]; exact refractDir_same hgg hdd h1 hnp.le
  subst ho
  refine ⟨X, by simp only [rayTracing, hd, hn2, h12, h13, e1], ?_, e7⟩
  rw [e6, e2]
  refine ⟨(L + d - cal.pos.dot g) / out.dot g + d / -out.dot g, ?_⟩
  ext <;> simp <;> ring

/-- A non-trivial setting that meets the hypotheses of `C26_snell`: an oblique ray (3/5, 0, -4/5)
through a glass plate of thickness 6 with indices 1, 3/2, 4/3. -/
example : ∃ Xb a2 X out, rayTracing 3 0 ⟨⟨0, 0, 100⟩, rotationMatrix 0 0 0, 4, 0, 0,
      ⟨0, 0, 0, 0, 0, 1, 0⟩, ⟨0, 0, 50⟩⟩ ⟨1, 1, [3 / 2], 4 / 3, [6]⟩ = some (X, out) ∧
      OnLine ⟨0, 0, 100⟩ ⟨3 / 5, 0, -4 / 5⟩ Xb ∧ Xb.dot ⟨0, 0, 1⟩ = 50 + 6 ∧
      Snell ⟨0, 0, 1⟩ 1 (3 / 2) ⟨3 / 5, 0, -4 / 5⟩ a2 ∧ X.dot ⟨0, 0, 1⟩ = 50 ∧
      Snell ⟨0, 0, 1⟩ (3 / 2) (4 / 3) a2 out := by
  have hn : (tangential ⟨0, 0, 1⟩ ⟨3 / 5, 0, -4 / 5⟩).norm = 3 / 5 := by
    rw [V3.norm, show (tangential ⟨0, 0, 1⟩ ⟨3 / 5, 0, -4 / 5⟩) = ⟨3 / 5, 0, 0⟩ by
      ext <;> norm_num [tangential, dot]]
    rw [show (3 / 5 * (3 / 5) + 0 * 0 + 0 * 0 : ℝ) = (3 / 5) ^ 2 by norm_num,
      Real.sqrt_sq (by norm_num)]
  obtain ⟨Xb, a2, X, out, h1, h2, h3, h4, -, -, h7, h8, -⟩ :=
    C26_snell 3 0 0 0 0 50 ⟨⟨0, 0, 100⟩, rotationMatrix 0 0 0, 4, 0, 0,
      ⟨0, 0, 0, 0, 0, 1, 0⟩, ⟨0, 0, 50⟩⟩ ⟨1, 1, [3 / 2], 4 / 3, [6]⟩ 6 (3 / 2) [] []
      ⟨0, 0, 1⟩ ⟨3 / 5, 0, -4 / 5⟩ 5 rfl rfl rfl (by norm_num)
      (V3.norm_eq_one.2 (by norm_num [dot])) (by ext <;> simp) (by norm_num)
      (V3.norm_eq_one.2 (by norm_num [dot]))
      (by ext <;> norm_num [M3.mulVec, rotationMatrix, dot]) (by norm_num [dot])
      (by norm_num) (by norm_num) (by norm_num) (by rw [hn]; norm_num) (by rw [hn]; norm_num)
  exact ⟨Xb, a2, X, out, h1, h2, h3, h4, h7, h8⟩

/-! ### C29 -/

/-- C29: for a ray that is not parallel to the z planes, `move_along_ray` returns the point of the
ray's line at the requested depth, and there is only one such point; the caller's direction is not
changed. -/
theorem C29_move_along_ray (z : ℝ) (v a : V3) (ha : a.z ≠ 0) :
    OnLine v a (moveAlongRay z v a).1 ∧ (moveAlongRay z v a).1.z = z ∧
    (∀ p, OnLine v a p → p.z = z → p = (moveAlongRay z v a).1) ∧ (moveAlongRay z v a).2 = a := by
  simp only [moveAlongRay, if_neg ha]
  refine ⟨⟨(z - v.z) / a.z, ?_⟩, trivial, ?_, trivial⟩
  · ext <;> simp <;> field_simp
    ring
  · rintro p ⟨t, rfl⟩ hz
    simp at hz
    subst hz
    ext <;> simp <;> field_simp

/-- Outside the property's range: for a ray parallel to the z planes the result is off the ray and the
caller's direction array is changed. -/
theorem C29_parallel_ray : ¬ OnLine ⟨0, 0, 0⟩ ⟨1, 0, 0⟩ (moveAlongRay 1 ⟨0, 0, 0⟩ ⟨1, 0, 0⟩).1 ∧
    (moveAlongRay 1 ⟨0, 0, 0⟩ ⟨1, 0, 0⟩).2 ≠ ⟨1, 0, 0⟩ := by
  constructor
  · rintro ⟨t, ht⟩
    have := congrArg V3.z ht
    simp [moveAlongRay] at this
  · intro h
    have := congrArg V3.z h
    simp [moveAlongRay] at this

/-- C29: `epi_mm_2D` returns the point of the traced ray whose depth is half way between the lower and
the upper z limit at the ray's glass crossing; these limits interpolate linearly between the two
layers given in the volume parameters. -/
theorem C29_epi_mm_2D (xl yl : ℝ) (cal : Cam) (mm : MM) (v : VPar) (X a : V3)
    (h : rayTracing xl yl cal mm = some (X, a)) (ha : a.z ≠ 0) :
    ∃ P, epiMM2D xl yl cal mm v = some P ∧ OnLine X a P ∧
      P.z - zMinAt v X.x = zMaxAt v X.x - P.z := by
  obtain ⟨h1, h2, -, -⟩ := C29_move_along_ray (0.5 * (zMinAt v X.x + zMaxAt v X.x)) X a ha
  refine ⟨_, by simp only [epiMM2D, h, Option.map_some], h1, ?_⟩
  rw [h2]; norm_num; ring

/-- C29: the interpolated depth limits are affine in x and take the given values at the two given
x positions. -/
theorem C29_depth_limits (v : VPar) (hx : v.xLay0 ≠ v.xLay1) :
    zMinAt v v.xLay0 = v.zMin0 ∧ zMinAt v v.xLay1 = v.zMin1 ∧
    zMaxAt v v.xLay0 = v.zMax0 ∧ zMaxAt v v.xLay1 = v.zMax1 ∧
    ∀ x t, zMinAt v ((1 - t) * x + t * v.xLay0) = (1 - t) * zMinAt v x + t * v.zMin0 ∧
      zMaxAt v ((1 - t) * x + t * v.xLay0) = (1 - t) * zMaxAt v x + t * v.zMax0 := by
  have h' : v.xLay1 - v.xLay0 ≠ 0 := sub_ne_zero.2 (Ne.symm hx)
  simp only [zMinAt, zMaxAt]
  refine ⟨?_, ?_, ?_, ?_, fun x t => ⟨?_, ?_⟩⟩ <;> field_simp <;> ring

/-- C26 and C29 together: with equal refractive indices the point returned by `epi_mm_2D` is on the
camera's line of sight. -/
theorem C29_epi_line_of_sight (x y omega phi kappa L : ℝ) (cal : Cam) (mm : MM) (v : VPar) (d n2 : ℝ)
    (ds ns : List ℝ) (g dir : V3) (s : ℝ)
    (hd : mm.d = d :: ds) (hn2 : mm.n2 = n2 :: ns)
    (hdm : cal.dm = rotationMatrix omega phi kappa)
    (hL : 0 < L) (hg : g.norm = 1) (hglass : cal.glass = g.smul L)
    (hs : 0 < s) (hdir1 : dir.norm = 1) (hdir : cal.dm.mulVec ⟨x, y, -cal.cc⟩ = dir.smul s)
    (hnp : dir.dot g < 0) (h1 : 0 < mm.n1) (h12 : n2 = mm.n1) (h13 : mm.n3 = mm.n1)
    (hz : dir.z ≠ 0) :
    ∃ P, epiMM2D x y cal mm v = some P ∧ OnLine cal.pos dir P := by
  obtain ⟨X, e1, ⟨t, e2⟩, -⟩ := C26_straight x y omega phi kappa L cal mm d n2 ds ns g dir s hd hn2
    hdm hL hg hglass hs hdir1 hdir hnp h1 h12 h13
  obtain ⟨P, q1, ⟨u, q2⟩, -⟩ := C29_epi_mm_2D x y cal mm v X dir e1 hz
  refine ⟨P, q1, t + u, ?_⟩
  rw [q2, e2]
  ext <;> simp <;> ring

example : (moveAlongRay 5 ⟨1, 2, 3⟩ ⟨1, 0, 2⟩).1 = ⟨2, 2, 5⟩ := by
  ext <;> norm_num [moveAlongRay]

end Verif.Geo
