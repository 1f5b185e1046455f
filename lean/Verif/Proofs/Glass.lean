/-
Lines of sight through a plate: what the projection computes, and where the line of sight of an image point arrives.
-/
import Verif.Props.Projection
import Verif.Props.Orientation

namespace Verif.Geo
open V3 Spec

/-- The arrival radius grows with the apparent radius, but not faster. -/
theorem rBeta_between {n1 n2 n3 d z0 Z : ℝ} (h1 : 0 ≤ n1) (h12 : n1 ≤ n2) (h13 : n1 ≤ n3)
    (h2 : 0 < n2) (h3 : 0 < n3) (hd : 0 ≤ d) (hZ : Z ≤ 0) (hz0 : d < z0) {a b : ℝ} (hab : a ≤ b) :
    0 ≤ rBeta n1 n2 n3 [d] z0 Z (z0 - Z) b - rBeta n1 n2 n3 [d] z0 Z (z0 - Z) a ∧
    rBeta n1 n2 n3 [d] z0 Z (z0 - Z) b - rBeta n1 n2 n3 [d] z0 Z (z0 - Z) a ≤ b - a := by
  have hzd : 0 < z0 - Z := by linarith
  have hm2 := snellTan_between (m := n1 / n2) (by positivity) (by rw [div_le_one h2]; exact h12)
    (div_le_div_of_nonneg_right hab hzd.le)
  have hm3 := snellTan_between (m := n1 / n3) (by positivity) (by rw [div_le_one h3]; exact h13)
    (div_le_div_of_nonneg_right hab hzd.le)
  rw [rBeta_eq h1 h12 h13 h2 h3, rBeta_eq h1 h12 h13 h2 h3]
  simp only [List.headD_cons, List.sum_cons, List.sum_nil, add_zero]
  set u := a / (z0 - Z)
  set v := b / (z0 - Z)
  have hau : a = u * (z0 - Z) := by simp only [u]; field_simp
  have hbv : b = v * (z0 - Z) := by simp only [v]; field_simp
  have huv : 0 ≤ v - u := by linarith [hm2.1, hm2.2]
  set S2 := snellTan (n1 / n2) v - snellTan (n1 / n2) u with hS2
  set S3 := snellTan (n1 / n3) v - snellTan (n1 / n3) u with hS3
  have hE : (z0 - d) * v - Z * snellTan (n1 / n3) v + d * snellTan (n1 / n2) v
      - ((z0 - d) * u - Z * snellTan (n1 / n3) u + d * snellTan (n1 / n2) u)
      = (z0 - d) * (v - u) + -Z * S3 + d * S2 := by rw [hS2, hS3]; ring
  rw [hE, hau, hbv]
  have k1 := mul_nonneg (neg_nonneg.2 hZ) hm3.1
  have k2 := mul_nonneg hd hm2.1
  have k3 := mul_le_mul_of_nonneg_left hm3.2 (neg_nonneg.2 hZ)
  have k4 := mul_le_mul_of_nonneg_left hm2.2 hd
  constructor
  · have := mul_nonneg (by linarith : (0 : ℝ) ≤ z0 - d) huv
    linarith
  · nlinarith

theorem rBeta_zero {n1 n2 n3 d z0 Z : ℝ} (h1 : 0 ≤ n1) (h12 : n1 ≤ n2) (h13 : n1 ≤ n3) (h2 : 0 < n2) (h3 : 0 < n3) :
    rBeta n1 n2 n3 [d] z0 Z (z0 - Z) 0 = 0 := by
  rw [rBeta_eq h1 h12 h13 h2 h3]; simp [snellTan_zero]

/-- The iteration stays between the radius of the point and that of the window above it. -/
theorem radialLoop_range {n1 n2 n3 d z0 Z r : ℝ} (h1 : 0 ≤ n1) (h12 : n1 ≤ n2) (h13 : n1 ≤ n3)
    (h2 : 0 < n2) (h3 : 0 < n3) (hd : 0 ≤ d) (hZ : Z ≤ 0) (hz0 : d < z0) (hr : 0 ≤ r) (n : ℕ) :
    ∀ rq rdiff, r ≤ rq → rq * (z0 - d) ≤ r * (z0 - Z) →
      r ≤ radialLoop n1 n2 n3 [d] z0 Z (z0 - Z) r n rq rdiff ∧
      radialLoop n1 n2 n3 [d] z0 Z (z0 - Z) r n rq rdiff * (z0 - d) ≤ r * (z0 - Z) := by
  induction n with
  | zero => intro rq rdiff a b; exact ⟨a, b⟩
  | succ n ih =>
    intro rq rdiff a b
    rw [radialLoop]
    split_ifs with hc
    · have hb := rBeta_between h1 h12 h13 h2 h3 hd hZ hz0 (hr.trans a)
      have hcon := rBeta_contract h1 h12 h13 h2 h3 hd hZ hz0 rq 0
      rw [rBeta_zero h1 h12 h13 h2 h3] at hb hcon
      rw [sub_zero, sub_zero, sub_zero, abs_of_nonneg (hr.trans a)] at hcon
      have hcon' := (abs_le.1 hcon).2
      have hzd : 0 < z0 - Z := by linarith
      refine ih _ _ (by linarith [hb.2]) ?_
      have e : (d - Z) / (z0 - Z) * rq * (z0 - Z) = (d - Z) * rq := by field_simp
      have k1 : (rq + (r - rBeta n1 n2 n3 [d] z0 Z (z0 - Z) rq)) * (z0 - Z) ≤ r * (z0 - Z) + (d - Z) * rq := by
        have := mul_le_mul_of_nonneg_right hcon' hzd.le
        rw [e] at this
        nlinarith
      have k2 : (rq + (r - rBeta n1 n2 n3 [d] z0 Z (z0 - Z) rq)) * (z0 - Z) * (z0 - d) ≤ r * (z0 - Z) * (z0 - Z) := by
        have := mul_le_mul_of_nonneg_right k1 (by linarith : (0 : ℝ) ≤ z0 - d)
        have h4 := mul_le_mul_of_nonneg_left b (by linarith : (0 : ℝ) ≤ d - Z)
        nlinarith
      refine le_of_mul_le_mul_right ?_ hzd
      linarith
    · exact ⟨a, b⟩

/-- What `flat_image_coord` images: the point `Q` on the height of `P`, at `F` times the distance from the normal of the camera. -/
theorem flat_through {L : ℝ} {cal : Cam} {mm : MM} {d n2 : ℝ} {g P : V3} (hd : mm.d = [d]) (hn2 : mm.n2 = [n2]) (hl : mm.nlay = 1)
    (hL : 0 < L) (hg : g.norm = 1) (hglass : cal.glass = g.smul L) (hzd : P.dot g < cal.pos.dot g)
    (w : V3) (hw : w = P - g.smul (P.dot g) - (cal.pos - g.smul (cal.pos.dot g))) :
    flatImageCoord P cal emptyLUT mm = some (collinear cal (cal.pos + w.smul
      (w.norm * fastMultimedRNlay 1 mm.n1 n2 mm.n3 [d] 0 0 (cal.pos.dot g - L) ⟨w.norm, 0, P.dot g - L⟩ / w.norm)
        - g.smul (cal.pos.dot g - P.dot g))) := by
  set z0 := cal.pos.dot g - L with hz0
  set Z := P.dot g - L with hZ
  set r := w.norm with hr
  set F := fastMultimedRNlay 1 mm.n1 n2 mm.n3 [d] 0 0 z0 ⟨r, 0, Z⟩ with hF
  have hmm : multimedRNlay (projLUT emptyLUT) 0 0 z0 mm ⟨r, 0, Z⟩ = some F ∨
      (multimedRNlay (projLUT emptyLUT) 0 0 z0 mm ⟨r, 0, Z⟩ = some 1 ∧ F = 1) := by
    by_cases hone : mm.n1 = 1 ∧ mm.nlay = 1 ∧ n2 = 1 ∧ mm.n3 = 1
    · right
      refine ⟨by simp [multimedRNlay, hn2, hone], ?_⟩
      rw [hF, hone.1, hone.2.2.1, hone.2.2.2]
      exact C27_equal_indices 0 0 z0 1 1 [d] ⟨r, 0, Z⟩ one_ne_zero (by simp) (by simp)
        (by simp only; rw [hz0, hZ]; linarith)
    · left
      simp only [multimedRNlay, hn2, projLUT, emptyLUT, hd, hl]
      have hone' : ¬ (mm.n1 = 1 ∧ n2 = 1 ∧ mm.n3 = 1) := fun ⟨a, b, c⟩ => hone ⟨a, hl, b, c⟩
      simp [hF, hone']
  have hmm' : multimedRNlay (projLUT emptyLUT) 0 0 z0 mm ⟨r, 0, Z⟩ = some F := by
    rcases hmm with h | ⟨h, h'⟩
    · exact h
    · rw [h, h']
  simp only [flatImageCoord, hd, transCamPoint_eq hL hg hglass, multimedNlay]
  rw [← hw, ← hr, ← hz0, ← hZ, hmm']
  simp only [Option.bind_eq_bind, Option.bind_some, backTransPoint_eq hL hg hglass]
  congr 2
  have k2 : P - g.smul Z - (cal.pos - g.smul (z0 - d) - g.smul d) = w := by
    rw [hw, hz0, hZ]; ext <;> simp <;> ring
  rw [k2, ← hr]
  ext <;> simp [hz0, hZ] <;> ring

/-- Where the line of sight arrives: at every height behind the plate, at the distance from the normal of the camera whose apparent
radius is that of the straight ray. -/
theorem sight_arrives {x y omega phi kappa L : ℝ} {cal : Cam} {mm : MM} {d n2 : ℝ} {g dir : V3} {s : ℝ}
    (hd : mm.d = [d]) (hn2 : mm.n2 = [n2]) (hdm : cal.dm = rotationMatrix omega phi kappa)
    (hL : 0 < L) (hg : g.norm = 1) (hglass : cal.glass = g.smul L)
    (hs : 0 < s) (hdir1 : dir.norm = 1) (hdir : cal.dm.mulVec ⟨x, y, -cal.cc⟩ = dir.smul s)
    (hnp : dir.dot g < 0) (h1 : 0 < mm.n1) (h12 : mm.n1 ≤ n2) (h13 : mm.n1 ≤ mm.n3)
    (hd0 : 0 ≤ d) (hcam : L + d < cal.pos.dot g) {Z : ℝ} (hZ : Z ≤ 0) :
    ∃ X out P' K, rayTracing x y cal mm = some (X, out) ∧ OnRay X out P' ∧ 0 < K ∧
      (out.norm = 1 ∧ out.dot g < 0 ∧ tangential g out = (tangential g dir).smul (mm.n1 / mm.n3)) ∧
      P' = cal.pos + (tangential g dir).smul K - g.smul (cal.pos.dot g - L - Z) ∧
      ApparentRadius mm.n1 n2 mm.n3 d (cal.pos.dot g - L) Z ((tangential g dir).norm * K)
        ((cal.pos.dot g - L - Z) * ((tangential g dir).norm / -dir.dot g)) := by
  have hgg := V3.norm_eq_one.1 hg
  have hdd := V3.norm_eq_one.1 hdir1
  have hn20 : 0 < n2 := by linarith
  have hn30 : 0 < mm.n3 := by linarith
  have hi : V3.norm ⟨x, y, -cal.cc⟩ = s := by
    have := C25_isometry omega phi kappa ⟨x, y, -cal.cc⟩
    rw [← hdm, hdir, V3.norm_smul, hdir1, abs_of_pos hs, one_mul] at this
    exact this.symm
  have hi0 : (⟨x, y, -cal.cc⟩ : V3) ≠ 0 := fun e => by
    rw [e, V3.norm_eq_zero.2 rfl] at hi; linarith
  have hu : cal.dm.mulVec (V3.unit ⟨x, y, -cal.cc⟩) = dir := by
    rw [unit_of_ne hi0, mulVec_smul, hdir, hi]
    ext <;> simp only [smul_x, smul_y, smul_z] <;> field_simp
  set τ := tangential g dir with hτ
  have hτsq := tangential_norm_sq hgg hdd
  have hτ0 := norm_nonneg τ
  have hlt : τ.norm < 1 := by nlinarith [sq_nonneg (dir.dot g)]
  obtain ⟨Xb, a2, X, out, e1, e2, e3, e4, e5, e6, e7, e8, e9, e10, e11⟩ :=
    fastRayTracing_spec (pos := cal.pos) (d := d) hL hg hglass hu hdir1 hnp.ne h1 hn20 hn30
      (by nlinarith) (by nlinarith)
  have haa := V3.norm_eq_one.1 e4.2.1
  have hoo := V3.norm_eq_one.1 e8.2.1
  have ta : tangential g a2 = τ.smul (mm.n1 / n2) := by
    have := e4.2.2
    have hx := congrArg V3.x this
    have hy := congrArg V3.y this
    have hz := congrArg V3.z this
    simp only [smul_x, smul_y, smul_z] at hx hy hz
    ext <;> simp only [smul_x, smul_y, smul_z] <;> field_simp <;> linarith
  have tout : tangential g out = τ.smul (mm.n1 / mm.n3) := by
    have := e8.2.2
    rw [ta] at this
    have hx := congrArg V3.x this
    have hy := congrArg V3.y this
    have hz := congrArg V3.z this
    simp only [smul_x, smul_y, smul_z] at hx hy hz
    field_simp at hx hy hz
    ext <;> simp only [smul_x, smul_y, smul_z] <;> field_simp <;> linarith
  set c1 := -dir.dot g with hc1
  set c2 := -a2.dot g with hc2
  set c3 := -out.dot g with hc3
  have hc1p : 0 < c1 := by linarith
  have hc2p : 0 < c2 := by linarith
  have hc3p : 0 < c3 := by linarith
  set z0 := cal.pos.dot g - L with hz0
  have hz0d : d < z0 := by rw [hz0]; linarith
  have hzd : 0 < z0 - Z := by linarith
  set t := -Z / c3 with ht
  have ht0 : 0 ≤ t := div_nonneg (by linarith) hc3p.le
  set P := X + out.smul t with hP
  have hPg : P.dot g = L + Z := by
    have : P.dot g = X.dot g + t * out.dot g := by
      rw [hP]; simp only [dot, add_x, add_y, add_z, smul_x, smul_y, smul_z]; ring
    rw [this, e7, show out.dot g = -c3 by rw [hc3]; ring, ht]
    field_simp
  set K := (z0 - d) / c1 + d / c2 * (mm.n1 / n2) + (-Z) / c3 * (mm.n1 / mm.n3) with hK
  have hKp : 0 < K := by
    have a1 : 0 < (z0 - d) / c1 := div_pos (by linarith) hc1p
    have a2 : 0 ≤ d / c2 * (mm.n1 / n2) := by positivity
    have a3 : 0 ≤ (-Z) / c3 * (mm.n1 / mm.n3) :=
      mul_nonneg (div_nonneg (by linarith) hc3p.le) (by positivity)
    rw [hK]; linarith
  have tlin : ∀ (A B : V3) k, tangential g (A + B.smul k)
      = tangential g A + (tangential g B).smul k := by
    intro A B k
    ext <;> simp only [tangential, dot, sub_x, sub_y, sub_z, add_x, add_y, add_z, smul_x, smul_y,
      smul_z] <;> ring
  have hT : tangential g P = tangential g cal.pos + τ.smul K := by
    rw [hP, tlin, e6, tlin, e2, tlin, ta, tout, ← hτ, hK, ht]
    have k1 : (L + d - cal.pos.dot g) / dir.dot g = (z0 - d) / c1 := by
      rw [hz0, hc1, div_neg, ← neg_div]; congr 1; ring
    rw [k1]
    ext <;> simp only [add_x, add_y, add_z, smul_x, smul_y, smul_z] <;> ring
  have sq1 : τ.norm ^ 2 + c1 ^ 2 = 1 := by rw [hτsq, hc1]; ring
  have hta := tangential_norm_sq hgg haa
  rw [ta, V3.norm_smul, abs_of_pos (div_pos h1 hn20)] at hta
  have hto := tangential_norm_sq hgg hoo
  rw [tout, V3.norm_smul, abs_of_pos (div_pos h1 hn30)] at hto
  refine ⟨X, out, P, K, by simp only [rayTracing, hd, hn2, e1], ⟨t, ht0, hP⟩, hKp, ⟨e8.2.1, e9, tout⟩, ?_, ?_⟩
  · have hx := congrArg V3.x hT
    have hy := congrArg V3.y hT
    have hz := congrArg V3.z hT
    simp only [tangential, hPg, sub_x, sub_y, sub_z, add_x, add_y, add_z, smul_x, smul_y, smul_z] at hx hy hz
    ext <;> simp only [sub_x, sub_y, sub_z, add_x, add_y, add_z, smul_x, smul_y, smul_z, hz0] <;> linarith
  · refine ⟨τ.norm / c1, τ.norm * (mm.n1 / n2) / c2, τ.norm * (mm.n1 / mm.n3) / c3, by positivity,
      by positivity, by positivity, ?_, ?_, ?_, rfl⟩
    · rw [sin_of_tan hc1p sq1, sin_of_tan hc2p (by rw [hta, hc2]; ring)]
      field_simp
    · rw [sin_of_tan hc1p sq1, sin_of_tan hc3p (by rw [hto, hc3]; ring)]
      field_simp
    · rw [hK]; ring

end Verif.Geo
