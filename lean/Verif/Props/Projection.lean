/-
C58, C59: accuracy of the refraction iteration; projection inverts ray tracing.
-/
import Verif.Props.Multimed

namespace Verif.Geo
open V3 Spec

/-! ### C58 -/

/-- C58, existence: for a camera in front of the glass and a point behind it, with `n1 ≤ n2, n3`, there
is exactly one apparent radius. -/
theorem C58_apparent_radius_exists (n1 n2 n3 d z0 Z r : ℝ) (h1 : 0 < n1) (h12 : n1 ≤ n2)
    (h13 : n1 ≤ n3) (hd : 0 ≤ d) (hZ : Z ≤ 0) (hz0 : d < z0) (hr : 0 ≤ r) :
    ∃! rs, ApparentRadius n1 n2 n3 d z0 Z r rs :=
  apparent_unique h1 h12 h13 hd hZ hz0 hr

/-- C58: for one plate, the radius returned by the iteration (factor times radius) differs from the
exact apparent radius by at most `(d - Z)/(z0 - d) · max(0.001, q^40·r)`, `q = (d - Z)/(z0 - Z)`. -/
theorem C58_radial_accuracy (n1 n2 n3 d x0 y0 z0 r rs : ℝ) (pos : V3) (h1 : 0 < n1) (h12 : n1 ≤ n2)
    (h13 : n1 ≤ n3) (hd : 0 ≤ d) (hZ : pos.z ≤ 0) (hz0 : d < z0)
    (hr : r = Real.sqrt ((pos.x - x0) ^ 2 + (pos.y - y0) ^ 2))
    (hrs : ApparentRadius n1 n2 n3 d z0 pos.z r rs) :
    |r * fastMultimedRNlay 1 n1 n2 n3 [d] x0 y0 z0 pos - rs|
      ≤ (d - pos.z) / (z0 - d) * max 0.001 (((d - pos.z) / (z0 - pos.z)) ^ 40 * r) := by
  set Z := pos.z with hZdef
  have hr0 : 0 ≤ r := by rw [hr]; exact Real.sqrt_nonneg _
  have hzd : 0 < z0 - Z := by linarith
  have hz1 : 0 < z0 - d := by linarith
  set q := (d - Z) / (z0 - Z) with hq
  have hq1 : q < 1 := by rw [hq, div_lt_one hzd]; linarith
  have hq0 : 0 ≤ q := div_nonneg (by linarith) hzd.le
  have hqq : q / (1 - q) = (d - Z) / (z0 - d) := by
    have : 1 - q = (z0 - d) / (z0 - Z) := by rw [hq]; field_simp; ring
    rw [this, hq]; field_simp
  have hcon := rBeta_contract (n1 := n1) (n2 := n2) (n3 := n3) h1.le h12 h13 (by linarith)
    (by linarith) hd hZ hz0
  obtain ⟨hrs0, hB⟩ := (apparent_iff_rBeta h1 h12 h13 hzd).1 hrs
  have h00 : rBeta n1 n2 n3 [d] z0 Z (z0 - Z) 0 = 0 := by
    rw [rBeta_eq h1.le h12 h13 (by linarith) (by linarith)]; simp [snellTan_zero]
  have hdiff : |rs - r| ≤ q * rs := by
    have := hcon rs 0
    rw [hB, h00, sub_zero, sub_zero, sub_zero, abs_of_nonneg hrs0] at this
    exact this
  have hdiff' : |r - rs| ≤ q / (1 - q) * r := by
    rw [abs_sub_comm]
    have h2 : rs * (1 - q) ≤ r := by linarith [(abs_le.1 hdiff).2]
    have h3 : rs ≤ r / (1 - q) := by rw [le_div_iff₀ (by linarith)]; exact h2
    calc |rs - r| ≤ q * rs := hdiff
      _ ≤ q * (r / (1 - q)) := mul_le_mul_of_nonneg_left h3 hq0
      _ = _ := by ring
  have hnorm : norm2 (pos.x - x0) (pos.y - y0) = r := by
    rw [hr, norm2]; congr 1; ring
  have hval : r * fastMultimedRNlay 1 n1 n2 n3 [d] x0 y0 z0 pos
      = if r = 0 then 0 else radialLoop n1 n2 n3 [d] z0 Z (z0 - Z) r 40 r 0.1 := by
    simp only [fastMultimedRNlay, hnorm, ← hZdef, if_neg hzd.ne', List.tail_cons, List.take_nil,
      List.sum_nil, add_zero]
    split_ifs with h0
    · rw [h0]; ring
    · field_simp
  rw [hval, ← hqq]
  have hk : 0 ≤ q / (1 - q) := div_nonneg hq0 (by linarith)
  split_ifs with h0
  · have : rs = 0 := by
      have := (abs_le.1 hdiff).2
      rw [h0] at this
      nlinarith
    rw [this, sub_zero, abs_zero]
    positivity
  · rcases radialLoop_error (n1 := n1) (n2 := n2) (n3 := n3) hq0 hq1 hcon hB 40 r 0.1
      (fun h => by norm_num at h) with h | h
    · refine h.trans ?_
      rw [mul_comm]
      exact mul_le_mul_of_nonneg_left (le_max_left _ _) hk
    · refine h.trans ?_
      calc q ^ 40 * |r - rs| ≤ q ^ 40 * (q / (1 - q) * r) :=
            mul_le_mul_of_nonneg_left hdiff' (by positivity)
        _ = q / (1 - q) * (q ^ 40 * r) := by ring
        _ ≤ _ := mul_le_mul_of_nonneg_left (le_max_right _ _) hk

/-- Typical values: camera 400 mm from a 6 mm window into water, a point 40 mm deep and 50 mm off axis:
the error of the apparent radius is below 0.00012 mm. -/
example (rs : ℝ) (h : ApparentRadius 1 1.46 1.33 6 400 (-40) 50 rs) :
    |50 * fastMultimedRNlay 1 1 1.46 1.33 [6] 0 0 400 ⟨50, 0, -40⟩ - rs| ≤ 0.00012 := by
  have := C58_radial_accuracy 1 1.46 1.33 6 0 0 400 50 rs ⟨50, 0, -40⟩ (by norm_num) (by norm_num)
    (by norm_num) (by norm_num) (by norm_num) (by norm_num)
    (by norm_num; rw [show (2500 : ℝ) = 50 ^ 2 by norm_num, Real.sqrt_sq (by norm_num)]) h
  refine this.trans ?_
  have : max (0.001 : ℝ) (((6 - -40) / (400 - -40)) ^ 40 * 50) = 0.001 := by
    apply max_eq_left
    norm_num
  simp only [this]
  norm_num

/-! ### C59 -/

theorem rot_cols (omega phi kappa : ℝ) :
    let m := rotationMatrix omega phi kappa
    m.c0.dot m.c0 = 1 ∧ m.c1.dot m.c1 = 1 ∧ m.c2.dot m.c2 = 1 ∧
    m.c0.dot m.c1 = 0 ∧ m.c0.dot m.c2 = 0 ∧ m.c1.dot m.c2 = 0 := by
  intro m
  have ho := Real.sin_sq_add_cos_sq omega
  have hp := Real.sin_sq_add_cos_sq phi
  have hk := Real.sin_sq_add_cos_sq kappa
  simp only [m, M3.c0, M3.c1, M3.c2, dot, rotationMatrix]
  generalize Real.sin omega = so at *
  generalize Real.cos omega = co at *
  generalize Real.sin phi = sp at *
  generalize Real.cos phi = cp at *
  generalize Real.sin kappa = sk at *
  generalize Real.cos kappa = ck at *
  have e1 : so ^ 2 = 1 - co ^ 2 := by linarith
  have e2 : sp ^ 2 = 1 - cp ^ 2 := by linarith
  have e3 : sk ^ 2 = 1 - ck ^ 2 := by linarith
  refine ⟨?_, ?_, ?_, ?_, ?_, ?_⟩ <;> (ring_nf; simp only [e1, e2, e3]; ring)

/-- Rotating back: the components of `dm @ u` along the columns of `dm` are those of `u`. -/
theorem rot_back (omega phi kappa : ℝ) (u : V3) :
    let m := rotationMatrix omega phi kappa
    m.c0.dot (m.mulVec u) = u.x ∧ m.c1.dot (m.mulVec u) = u.y ∧ m.c2.dot (m.mulVec u) = u.z := by
  intro m
  obtain ⟨a, b, c, e, f, h⟩ := rot_cols omega phi kappa
  have hm : m = rotationMatrix omega phi kappa := rfl
  rw [← hm] at a b c e f h
  clear_value m
  simp only [M3.c0, M3.c1, M3.c2, dot, M3.mulVec] at *
  refine ⟨?_, ?_, ?_⟩
  · linear_combination u.x * a + u.y * e + u.z * f
  · linear_combination u.x * e + u.y * b + u.z * h
  · linear_combination u.x * f + u.y * h + u.z * c

/-- The pinhole image of every point on the camera ray of the image point `(x, y)` is `(x, y)`. -/
theorem pinhole_on_ray {x y omega phi kappa s t : ℝ} {cal : Cam} {dir P : V3}
    (hdm : cal.dm = rotationMatrix omega phi kappa) (hcc : cal.cc ≠ 0) (hs : s ≠ 0) (ht : t ≠ 0)
    (hdir : cal.dm.mulVec ⟨x, y, -cal.cc⟩ = dir.smul s) (hP : P = cal.pos + dir.smul t) :
    pinhole cal.pos cal.dm cal.cc P = (x, y) ∧ dot cal.dm.c2 (P - cal.pos) ≠ 0 := by
  have hPv : P - cal.pos = (cal.dm.mulVec ⟨x, y, -cal.cc⟩).smul (t / s) := by
    rw [hdir, hP]; ext <;> simp <;> field_simp
  obtain ⟨a, b, c⟩ := rot_back omega phi kappa ⟨x, y, -cal.cc⟩
  rw [← hdm] at a b c
  have sm : ∀ (p q : V3) k, p.dot (q.smul k) = p.dot q * k := by
    intro p q k; simp only [dot, smul_x, smul_y, smul_z]; ring
  have a' : cal.dm.c0.dot (P - cal.pos) = x * (t / s) := by rw [hPv, sm, a]
  have b' : cal.dm.c1.dot (P - cal.pos) = y * (t / s) := by rw [hPv, sm, b]
  have c' : cal.dm.c2.dot (P - cal.pos) = -cal.cc * (t / s) := by rw [hPv, sm, c]
  refine ⟨?_, ?_⟩
  · simp only [dot, M3.c0, M3.c1, M3.c2] at a' b' c'
    simp only [pinhole, a', b', c']
    ext <;> simp only <;> field_simp
  · rw [c']
    have : t / s ≠ 0 := div_ne_zero ht hs
    simp [hcc, this]

/-- C59, no refraction: every point of the ray traced from the image point `(x, y)` (other than the
camera's own position) is projected by `flat_image_coord` exactly to `(x, y)`. -/
theorem C59_projection_inverts_tracing (x y omega phi kappa L : ℝ) (cal : Cam) (lut : LUT) (mm : MM)
    (d n2 : ℝ) (ds ns : List ℝ) (g dir : V3) (s : ℝ)
    (hd : mm.d = d :: ds) (hn2 : mm.n2 = n2 :: ns)
    (hdm : cal.dm = rotationMatrix omega phi kappa) (hcc : cal.cc ≠ 0)
    (hL : 0 < L) (hg : g.norm = 1) (hglass : cal.glass = g.smul L)
    (hs : 0 < s) (hdir1 : dir.norm = 1) (hdir : cal.dm.mulVec ⟨x, y, -cal.cc⟩ = dir.smul s)
    (hnp : dir.dot g < 0) (h1 : 0 < mm.n1) (h12 : n2 = mm.n1) (h13 : mm.n3 = mm.n1)
    (hl : mm.d.length ≤ mm.nlay)
    (hcase : (mm.n1 = 1 ∧ mm.nlay = 1) ∨ lut = emptyLUT) :
    ∃ X out, rayTracing x y cal mm = some (X, out) ∧
      ∀ P, OnLine X out P → P ≠ cal.pos → flatImageCoord P cal lut mm = some (x, y) := by
  obtain ⟨X, e1, ⟨t, e2⟩, -⟩ := C26_straight x y omega phi kappa L cal mm d n2 ds ns g dir s hd hn2
    hdm hL hg hglass hs hdir1 hdir hnp h1 h12 h13
  refine ⟨X, dir, e1, ?_⟩
  rintro P ⟨u, hu⟩ hPC
  have hP : P = cal.pos + dir.smul (t + u) := by
    rw [hu, e2]; ext <;> simp <;> ring
  have htu : t + u ≠ 0 := fun h => hPC (by rw [hP, h]; ext <;> simp)
  obtain ⟨q1, q2⟩ := pinhole_on_ray hdm hcc hs.ne' htu hdir hP
  have hgl0 : cal.glass ≠ 0 := fun e => by
    obtain ⟨-, hn⟩ := unit_unique hL hg hglass
    rw [e, V3.norm_eq_zero.2 rfl] at hn; linarith
  rw [C27_no_refraction cal lut mm P mm.n1 ns hl (by simp [hd]) h1.ne' rfl (by rw [hn2, h12]) h13 ?_
    hgl0 q2, q1]
  rcases hcase with h | h
  · exact Or.inl h
  · refine Or.inr ⟨h, ?_⟩
    have : (P - cal.pos).dot cal.glass = (t + u) * L * dir.dot g := by
      rw [hP, hglass]; simp only [dot, sub_x, sub_y, sub_z, add_x, add_y, add_z, smul_x, smul_y, smul_z]
      ring
    rw [this]
    exact mul_ne_zero (mul_ne_zero htu hL.ne') hnp.ne

/-- A tangent from sine and cosine: its sine. -/
theorem sin_of_tan {a c : ℝ} (hc : 0 < c) (h : a ^ 2 + c ^ 2 = 1) :
    a / c / Real.sqrt (1 + (a / c) ^ 2) = a := by
  have e : 1 + (a / c) ^ 2 = (1 / c) ^ 2 := by
    field_simp; linarith
  rw [e, Real.sqrt_sq (by positivity)]
  field_simp

/-- C59, with refraction (one plate, `n1 ≤ n2, n3`, camera in front of the glass looking at it, no
look-up table): for every point `P` of the traced ray behind the glass, `flat_image_coord P` is the
pinhole image of a point `Q` that is within `(d - Z)/(z0 - d) · max(0.001, q^40·r)` of a point `Qs` on
the camera ray, and the pinhole image of `Qs` is the image point `(x, y)` the ray was traced from.
(`Z` and `z0` are the heights of the point and of the camera over the inner glass plane, `r` the distance of
the point from the camera's glass normal.) -/
theorem C59_refraction (x y omega phi kappa L : ℝ) (cal : Cam) (mm : MM)
    (d n2 : ℝ) (g dir : V3) (s : ℝ)
    (hd : mm.d = [d]) (hn2 : mm.n2 = [n2]) (hl : mm.nlay = 1)
    (hdm : cal.dm = rotationMatrix omega phi kappa) (hcc : cal.cc ≠ 0)
    (hL : 0 < L) (hg : g.norm = 1) (hglass : cal.glass = g.smul L)
    (hs : 0 < s) (hdir1 : dir.norm = 1) (hdir : cal.dm.mulVec ⟨x, y, -cal.cc⟩ = dir.smul s)
    (hnp : dir.dot g < 0) (h1 : 0 < mm.n1) (h12 : mm.n1 ≤ n2) (h13 : mm.n1 ≤ mm.n3)
    (hd0 : 0 ≤ d) (hcam : L + d < cal.pos.dot g) :
    ∃ X out, rayTracing x y cal mm = some (X, out) ∧
      ∀ P, OnRay X out P → ∃ Q Qs r,
        flatImageCoord P cal emptyLUT mm = some (collinear cal Q) ∧
        OnRay cal.pos dir Qs ∧ Qs.dot g = P.dot g ∧ pinhole cal.pos cal.dm cal.cc Qs = (x, y) ∧
        DistToLine cal.pos g P r ∧
        (Q - Qs).norm ≤ (L + d - P.dot g) / (cal.pos.dot g - L - d)
          * max 0.001 (((L + d - P.dot g) / (cal.pos.dot g - P.dot g)) ^ 40 * r) := by
  have hgg := V3.norm_eq_one.1 hg
  have hdd := V3.norm_eq_one.1 hdir1
  have hn20 : 0 < n2 := by linarith
  have hn30 : 0 < mm.n3 := by linarith
  have hi : V3.norm ⟨x, y, -cal.cc⟩ = s := by
    have := C25_isometry omega phi kappa ⟨x, y, -cal.cc⟩
    rw [← hdm, hdir, V3.norm_smul, hdir1, abs_of_pos hs, one_mul] at this
    exact this.symm
  have hi0 : (⟨x, y, -cal.cc⟩ : V3) ≠ 0 := fun e => by
    rw [e, V3.norm_eq_zero.2 rfl] at hi; linarith
  have hu : cal.dm.mulVec (V3.unit ⟨x, y, -cal.cc⟩) = dir := by
    rw [unit_of_ne hi0, mulVec_smul, hdir, hi]
    ext <;> simp only [smul_x, smul_y, smul_z] <;> field_simp
  set τ := tangential g dir with hτ
  have hτsq := tangential_norm_sq hgg hdd
  have hτ0 := norm_nonneg τ
  have hlt : τ.norm < 1 := by nlinarith [sq_nonneg (dir.dot g)]
  obtain ⟨Xb, a2, X, out, e1, e2, e3, e4, e5, e6, e7, e8, e9, e10, e11⟩ :=
    fastRayTracing_spec (pos := cal.pos) (d := d) hL hg hglass hu hdir1 hnp.ne h1 hn20 hn30
      (by nlinarith) (by nlinarith)
  have haa := V3.norm_eq_one.1 e4.2.1
  have hoo := V3.norm_eq_one.1 e8.2.1
  refine ⟨X, out, by simp only [rayTracing, hd, hn2, e1], ?_⟩
  rintro P ⟨t, ht, hP⟩
  -- tangential parts
  have ta : tangential g a2 = τ.smul (mm.n1 / n2) := by
    have := e4.2.2
    have hx := congrArg V3.x this
    have hy := congrArg V3.y this
    have hz := congrArg V3.z this
    simp only [smul_x, smul_y, smul_z] at hx hy hz
    ext <;> simp only [smul_x, smul_y, smul_z] <;> field_simp <;> linarith
  have tout : tangential g out = τ.smul (mm.n1 / mm.n3) := by
    have := e8.2.2
    rw [ta] at this
    have hx := congrArg V3.x this
    have hy := congrArg V3.y this
    have hz := congrArg V3.z this
    simp only [smul_x, smul_y, smul_z] at hx hy hz
    field_simp at hx hy hz
    ext <;> simp only [smul_x, smul_y, smul_z] <;> field_simp <;> linarith
  set c1 := -dir.dot g with hc1
  set c2 := -a2.dot g with hc2
  set c3 := -out.dot g with hc3
  have hc1p : 0 < c1 := by linarith
  have hc2p : 0 < c2 := by linarith
  have hc3p : 0 < c3 := by linarith
  set z0 := cal.pos.dot g - L with hz0
  set Z := P.dot g - L with hZ
  have hZt : Z = -(t * c3) := by
    rw [hZ, hP, hc3]
    have : (X + out.smul t).dot g = X.dot g + t * out.dot g := by
      simp only [dot, add_x, add_y, add_z, smul_x, smul_y, smul_z]; ring
    rw [this, e7]; ring
  have hZ0 : Z ≤ 0 := by rw [hZt]; nlinarith
  have hz0d : d < z0 := by rw [hz0]; linarith
  have hzd : 0 < z0 - Z := by linarith
  set K := (z0 - d) / c1 + d / c2 * (mm.n1 / n2) + (-Z) / c3 * (mm.n1 / mm.n3) with hK
  have hKp : 0 < K := by
    have a1 : 0 < (z0 - d) / c1 := div_pos (by linarith) hc1p
    have a2 : 0 ≤ d / c2 * (mm.n1 / n2) := by positivity
    have a3 : 0 ≤ (-Z) / c3 * (mm.n1 / mm.n3) :=
      mul_nonneg (div_nonneg (by linarith) hc3p.le) (by positivity)
    rw [hK]; linarith
  -- the foot of P relative to the foot of the camera
  have tlin : ∀ (A B : V3) k, tangential g (A + B.smul k)
      = tangential g A + (tangential g B).smul k := by
    intro A B k
    ext <;> simp only [tangential, dot, sub_x, sub_y, sub_z, add_x, add_y, add_z, smul_x, smul_y,
      smul_z] <;> ring
  have hw : P - g.smul (P.dot g) - (cal.pos - g.smul (cal.pos.dot g)) = τ.smul K := by
    have : tangential g P = tangential g cal.pos + τ.smul K := by
      rw [hP, tlin, e6, tlin, e2, tlin, ta, tout, ← hτ, hK, hZt]
      have k1 : (L + d - cal.pos.dot g) / dir.dot g = (z0 - d) / c1 := by
        rw [hz0, hc1, div_neg, ← neg_div]; congr 1; ring
      rw [k1]
      ext <;> simp only [add_x, add_y, add_z, smul_x, smul_y, smul_z] <;> field_simp <;> ring
    show tangential g P - tangential g cal.pos = _
    rw [this]; ext <;> simp
  set r := τ.norm * K with hrdef
  have hwn : (τ.smul K).norm = r := by rw [V3.norm_smul, abs_of_pos hKp]
  have hr0 : 0 ≤ r := mul_nonneg hτ0 hKp.le
  -- the exact apparent radius
  have sq1 : τ.norm ^ 2 + c1 ^ 2 = 1 := by rw [hτsq, hc1]; ring
  have hta := tangential_norm_sq hgg haa
  rw [ta, V3.norm_smul, abs_of_pos (div_pos h1 hn20)] at hta
  have hto := tangential_norm_sq hgg hoo
  rw [tout, V3.norm_smul, abs_of_pos (div_pos h1 hn30)] at hto
  set rs := (z0 - Z) * (τ.norm / c1) with hrs
  have happ : ApparentRadius mm.n1 n2 mm.n3 d z0 Z r rs := by
    refine ⟨τ.norm / c1, τ.norm * (mm.n1 / n2) / c2, τ.norm * (mm.n1 / mm.n3) / c3, by positivity,
      by positivity, by positivity, ?_, ?_, ?_, rfl⟩
    · rw [sin_of_tan hc1p sq1, sin_of_tan hc2p (by rw [hta, hc2]; ring)]
      field_simp
    · rw [sin_of_tan hc1p sq1, sin_of_tan hc3p (by rw [hto, hc3]; ring)]
      field_simp
    · rw [hrdef, hK]; ring
  -- the code's point
  set F := fastMultimedRNlay 1 mm.n1 n2 mm.n3 [d] 0 0 z0 ⟨r, 0, Z⟩ with hF
  set Cf := cal.pos - g.smul z0 with hCf
  set Q := Cf + g.smul Z + (τ.smul K).smul (r * F / r) with hQ
  set Qs := cal.pos + dir.smul ((z0 - Z) / c1) with hQs
  have hlam : 0 < (z0 - Z) / c1 := div_pos hzd hc1p
  have hacc : |r * F - rs| ≤ (d - Z) / (z0 - d) * max 0.001 (((d - Z) / (z0 - Z)) ^ 40 * r) := by
    have := C58_radial_accuracy mm.n1 n2 mm.n3 d 0 0 z0 r rs ⟨r, 0, Z⟩ h1 h12 h13 hd0 hZ0 hz0d
      (by simp [Real.sqrt_sq hr0]) happ
    exact this
  refine ⟨Q, Qs, r, ?_, ⟨_, hlam.le, hQs⟩, ?_,
    (pinhole_on_ray hdm hcc hs.ne' hlam.ne' hdir hQs).1, ?_, ?_⟩
  · have hmm : multimedRNlay (projLUT emptyLUT) 0 0 z0 mm ⟨r, 0, Z⟩ = some F ∨
        (multimedRNlay (projLUT emptyLUT) 0 0 z0 mm ⟨r, 0, Z⟩ = some 1 ∧ F = 1) := by
      by_cases hone : mm.n1 = 1 ∧ mm.nlay = 1 ∧ n2 = 1 ∧ mm.n3 = 1
      · right
        refine ⟨by simp [multimedRNlay, hn2, hone], ?_⟩
        rw [hF, hone.1, hone.2.2.1, hone.2.2.2]
        exact C27_equal_indices 0 0 z0 1 1 [d] ⟨r, 0, Z⟩ one_ne_zero (by simp) (by simp)
          (by simp only; linarith)
      · left
        simp only [multimedRNlay, hn2, if_neg hone, projLUT, emptyLUT, hd, hl]
        have hone' : ¬ (mm.n1 = 1 ∧ n2 = 1 ∧ mm.n3 = 1) := fun ⟨a, b, c⟩ => hone ⟨a, hl, b, c⟩
        simp [hF, hone']
    have hmm' : multimedRNlay (projLUT emptyLUT) 0 0 z0 mm ⟨r, 0, Z⟩ = some F := by
      rcases hmm with h | ⟨h, h'⟩
      · exact h
      · rw [h, h']
    simp only [flatImageCoord, hd, transCamPoint_eq hL hg hglass, multimedNlay]
    rw [hw, hwn, ← hz0, ← hZ, hmm']
    simp only [Option.bind_eq_bind, Option.bind_some, backTransPoint_eq hL hg hglass]
    congr 2
    have k1 : cal.pos - g.smul (z0 - d) - g.smul d = Cf := by
      rw [hCf]; ext <;> simp <;> ring
    rw [k1]
    have k2 : P - g.smul Z - Cf = τ.smul K := by
      rw [← hw, hCf, hz0, hZ]; ext <;> simp <;> ring
    rw [k2, hwn, hQ]
    simp
  · rw [hQs]
    have : (cal.pos + dir.smul ((z0 - Z) / c1)).dot g
        = cal.pos.dot g + (z0 - Z) / c1 * dir.dot g := by
      simp only [dot, add_x, add_y, add_z, smul_x, smul_y, smul_z]; ring
    rw [this, show dir.dot g = -c1 by rw [hc1]; ring]
    field_simp
    rw [hz0, hZ]; ring
  · have := (C28_frame cal.pos cal.glass P g d L hL hg hglass).1
    rw [transCamPoint_eq hL hg hglass] at this
    simp only [hw, hwn] at this
    exact this
  · have hD : Q - Qs = τ.smul (K * (r * F / r) - (z0 - Z) / c1) := by
      have hdirτ : dir = τ + g.smul (-c1) := by
        rw [hτ, hc1]; ext <;> simp [tangential]
      have ed : ∀ v : V3, v = τ + g.smul (-c1) → Cf + g.smul Z + (τ.smul K).smul (r * F / r)
          - (cal.pos + v.smul ((z0 - Z) / c1))
          = τ.smul (K * (r * F / r) - (z0 - Z) / c1) := by
        rintro v rfl
        rw [hCf]
        ext <;> simp <;> field_simp <;> ring
      rw [hQ, hQs]
      exact ed dir hdirτ
    have hnorm : (Q - Qs).norm = |r * F - rs| := by
      rw [hD, V3.norm_smul]
      by_cases hr : r = 0
      · have hτz : τ.norm = 0 := by
          rcases mul_eq_zero.1 hr with h | h
          · exact h
          · exact absurd h hKp.ne'
        rw [hrs, hτz, hr]; simp
      · rw [← abs_of_nonneg hτ0, ← abs_mul, hrs]
        congr 1
        rw [mul_div_assoc, mul_comm r, div_mul_cancel₀ _ hr]
        rw [hrdef]; ring
    rw [hnorm]
    have k1 : L + d - P.dot g = d - Z := by rw [hZ]; ring
    have k2 : cal.pos.dot g - L - d = z0 - d := by rw [hz0]
    have k3 : cal.pos.dot g - P.dot g = z0 - Z := by rw [hz0, hZ]; ring
    rw [k1, k2, k3]
    exact hacc

example : ∃ X out, rayTracing 3 0 ⟨⟨0, 0, 100⟩, rotationMatrix 0 0 0, 4, 0, 0,
      ⟨0, 0, 0, 0, 0, 1, 0⟩, ⟨0, 0, 50⟩⟩ ⟨1, 1, [3 / 2], 4 / 3, [6]⟩ = some (X, out) ∧
      ∀ P, OnRay X out P → ∃ Q Qs r,
        flatImageCoord P ⟨⟨0, 0, 100⟩, rotationMatrix 0 0 0, 4, 0, 0,
          ⟨0, 0, 0, 0, 0, 1, 0⟩, ⟨0, 0, 50⟩⟩ emptyLUT ⟨1, 1, [3 / 2], 4 / 3, [6]⟩
          = some (collinear ⟨⟨0, 0, 100⟩, rotationMatrix 0 0 0, 4, 0, 0,
          ⟨0, 0, 0, 0, 0, 1, 0⟩, ⟨0, 0, 50⟩⟩ Q) ∧
        DistToLine ⟨0, 0, 100⟩ ⟨0, 0, 1⟩ P r ∧
        (Q - Qs).norm ≤ (56 - P.z) / 44 * max 0.001 (((56 - P.z) / (100 - P.z)) ^ 40 * r) := by
  obtain ⟨X, out, h, H⟩ := C59_refraction 3 0 0 0 0 50 ⟨⟨0, 0, 100⟩, rotationMatrix 0 0 0, 4, 0, 0,
      ⟨0, 0, 0, 0, 0, 1, 0⟩, ⟨0, 0, 50⟩⟩ ⟨1, 1, [3 / 2], 4 / 3, [6]⟩ 6 (3 / 2)
      ⟨0, 0, 1⟩ ⟨3 / 5, 0, -4 / 5⟩ 5 rfl rfl rfl rfl (by norm_num) (by norm_num)
      (V3.norm_eq_one.2 (by norm_num [dot])) (by ext <;> simp) (by norm_num)
      (V3.norm_eq_one.2 (by norm_num [dot]))
      (by ext <;> norm_num [rotationMatrix, M3.mulVec, dot]) (by norm_num [dot]) (by norm_num)
      (by norm_num) (by norm_num) (by norm_num) (by norm_num [dot])
  refine ⟨X, out, h, fun P hP => ?_⟩
  obtain ⟨Q, Qs, r, a, -, -, -, e, f⟩ := H P hP
  refine ⟨Q, Qs, r, a, e, ?_⟩
  have e1 : P.dot ⟨0, 0, 1⟩ = P.z := by simp [dot]
  have e2 : (⟨0, 0, 100⟩ : V3).dot ⟨0, 0, 1⟩ = 100 := by simp [dot]
  simp only [e1, e2] at f
  norm_num at f ⊢
  exact f

end Verif.Geo
