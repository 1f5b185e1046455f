/-
Lines of sight of measured image points.
-/
import Verif.Props.Glass
import Verif.Spec.Measured

namespace Verif.Geo
open V3 Spec
open Verif.Track (norm_sub_le' norm_add_le' v3_norm_comm)

/-- Moving points towards the origin along their rays, by an amount that depends on the distance only and keeps differences of
distances small, brings points nearer to each other. -/
theorem radial_lipschitz {a b : V3} {k l : ℝ} (hk : 0 ≤ k) (hk1 : k ≤ 1) (hl1 : l ≤ 1)
    (h : |k * a.norm - l * b.norm| ≤ |a.norm - b.norm|) : (a.smul k - b.smul l).norm ≤ (a - b).norm := by
  have ha := V3.norm_nonneg a
  have hb := V3.norm_nonneg b
  have ha2 := V3.norm_sq a
  have hb2 := V3.norm_sq b
  have hcs : a.dot b ≤ a.norm * b.norm := by
    by_contra hlt
    push Not at hlt
    have hl : (a.norm * b.norm) ^ 2 < (a.dot b) ^ 2 := by
      apply pow_lt_pow_left₀ hlt (by positivity) (by norm_num)
    rw [mul_pow, ha2, hb2] at hl
    simp only [dot] at hl
    nlinarith [sq_nonneg (a.x * b.y - a.y * b.x), sq_nonneg (a.x * b.z - a.z * b.x), sq_nonneg (a.y * b.z - a.z * b.y)]
  have e1 : (a.smul k - b.smul l).norm ^ 2 = (k * a.norm - l * b.norm) ^ 2 + 2 * (k * l) * (a.norm * b.norm - a.dot b) := by
    have : (a.smul k - b.smul l).norm ^ 2 = k ^ 2 * a.norm ^ 2 + l ^ 2 * b.norm ^ 2 - 2 * (k * l) * a.dot b := by
      rw [V3.norm_sq, V3.norm_sq, V3.norm_sq]
      simp only [dot, sub_x, sub_y, sub_z, smul_x, smul_y, smul_z]; ring
    rw [this]; ring
  have e2 : (a - b).norm ^ 2 = (a.norm - b.norm) ^ 2 + 2 * (a.norm * b.norm - a.dot b) := by
    have : (a - b).norm ^ 2 = a.norm ^ 2 + b.norm ^ 2 - 2 * a.dot b := by
      rw [V3.norm_sq, V3.norm_sq, V3.norm_sq]
      simp only [dot, sub_x, sub_y, sub_z]; ring
    rw [this]; ring
  have hkl : k * l ≤ 1 := by nlinarith
  have hsq := sq_le_sq.2 h
  have : (a.smul k - b.smul l).norm ^ 2 ≤ (a - b).norm ^ 2 := by
    rw [e1, e2]
    have := mul_le_mul_of_nonneg_right hkl (by linarith : (0 : ℝ) ≤ a.norm * b.norm - a.dot b)
    linarith
  exact le_of_sq_le_sq this (V3.norm_nonneg _)

/-- The factor by which the plate draws an apparent place towards the normal of the camera. -/
theorem draw_factor {n1 n2 n3 d z0 Z b : ℝ} (h1 : 0 < n1) (h12 : n1 ≤ n2) (h13 : n1 ≤ n3) (hd : 0 ≤ d) (hZ : Z ≤ 0) (hz0 : d < z0)
    (hb : 0 ≤ b) : ∃ k, 0 ≤ k ∧ k ≤ 1 ∧ k * b = rBeta n1 n2 n3 [d] z0 Z (z0 - Z) b := by
  have h := rBeta_between h1.le h12 h13 (by linarith) (by linarith) hd hZ hz0 hb
  rw [rBeta_zero h1.le h12 h13 (by linarith) (by linarith)] at h
  by_cases h0 : b = 0
  · refine ⟨1, by norm_num, le_rfl, ?_⟩
    rw [h0, rBeta_zero h1.le h12 h13 (by linarith) (by linarith)]; ring
  · have hp : 0 < b := lt_of_le_of_ne hb (Ne.symm h0)
    refine ⟨rBeta n1 n2 n3 [d] z0 Z (z0 - Z) b / b, div_nonneg (by linarith [h.1]) hb, ?_, by field_simp⟩
    rw [div_le_one hp]; linarith [h.2]

/-- The line of sight of the direction `v`: where it arrives at a height behind the plate. -/
theorem sight_radial {x y s : ℝ} {c : Cam} {mm : MM} {d n2 : ℝ} {v : V3} (hmm : OnePlate mm d n2)
    (hrot : ∃ omega phi kappa, c.dm = rotationMatrix omega phi kappa) (hgl : c.glass ≠ 0)
    (hcam : c.glass.norm + d < c.pos.dot c.glass.unit) (hs : 0 < s) (hdir : c.dm.mulVec ⟨x, y, -c.cc⟩ = v.smul s)
    (hv : v.dot c.glass.unit < 0) {Z : ℝ} (hZ : Z ≤ 0) :
    ∃ X out k, rayTracing x y c mm = some (X, out) ∧ 0 ≤ k ∧ k ≤ 1 ∧
      OnLine X out (c.pos + ((tangential c.glass.unit v).smul ((c.pos.dot c.glass.unit - c.glass.norm - Z) / -v.dot c.glass.unit)).smul k
        - c.glass.unit.smul (c.pos.dot c.glass.unit - c.glass.norm - Z)) ∧
      k * ((tangential c.glass.unit v).smul ((c.pos.dot c.glass.unit - c.glass.norm - Z) / -v.dot c.glass.unit)).norm
        = rBeta mm.n1 n2 mm.n3 [d] (c.pos.dot c.glass.unit - c.glass.norm) Z (c.pos.dot c.glass.unit - c.glass.norm - Z)
          ((tangential c.glass.unit v).smul ((c.pos.dot c.glass.unit - c.glass.norm - Z) / -v.dot c.glass.unit)).norm ∧
      out.norm = 1 ∧ out.dot c.glass.unit < 0 ∧
      tangential c.glass.unit out = (tangential c.glass.unit v).smul (mm.n1 / mm.n3 / v.norm) := by
  obtain ⟨omega, phi, kappa, hdm⟩ := hrot
  have hgp := V3.norm_pos hgl
  set g := c.glass.unit with hgdef
  set L := c.glass.norm with hL
  have hg : g.norm = 1 := V3.norm_unit hgl
  have hglass : c.glass = g.smul L := by
    rw [hgdef, unit_of_ne hgl, ← hL]; ext <;> simp only [smul_x, smul_y, smul_z] <;> field_simp
  set z0 := c.pos.dot g - L with hz0
  have hd0 := hmm.thick
  have hz0d : d < z0 := by rw [hz0]; linarith
  have hH : 0 < z0 - Z := by linarith
  have hv0 : v ≠ 0 := fun e => by rw [e] at hv; simp [dot] at hv
  have hN := V3.norm_pos hv0
  set N := v.norm with hNd
  have hud : v.unit.dot g = v.dot g / N := by
    rw [unit_of_ne hv0, ← hNd]; simp only [dot, smul_x, smul_y, smul_z]; ring
  have hτ : tangential g v.unit = (tangential g v).smul (1 / N) := by
    rw [tangential, hud, unit_of_ne hv0, ← hNd, tangential]
    ext <;> simp only [sub_x, sub_y, sub_z, smul_x, smul_y, smul_z] <;> ring
  obtain ⟨X, out, P', K, e1, ⟨u, -, e2⟩, hK, ⟨o1, o2, o3⟩, e3, e4⟩ := sight_arrives hmm.thickness hmm.index hdm hgp hg hglass
    (mul_pos hN hs) (V3.norm_unit hv0) (by rw [hdir, unit_of_ne hv0, ← hNd]; ext <;> simp only [smul_x, smul_y, smul_z] <;> field_simp)
    (by rw [hud]; exact div_neg_of_neg_of_pos hv hN) hmm.pos hmm.plate hmm.behind hd0 hcam hZ
  have hB := ((apparent_iff_rBeta hmm.pos hmm.plate hmm.behind hH).1 e4).2
  set w := tangential g v with hw
  have hp : 0 < -v.dot g := by linarith
  have hun : (w.smul ((z0 - Z) / -v.dot g)).norm = (z0 - Z) * ((tangential g v.unit).norm / -v.unit.dot g) := by
    rw [hτ, hud, V3.norm_smul, V3.norm_smul, abs_of_pos (div_pos hH hp), abs_of_pos (by positivity : (0 : ℝ) < 1 / N)]
    field_simp
  obtain ⟨k, k0, k1, k2⟩ := draw_factor (b := (w.smul ((z0 - Z) / -v.dot g)).norm) hmm.pos hmm.plate hmm.behind hd0 hZ hz0d (V3.norm_nonneg _)
  refine ⟨X, out, k, e1, k0, k1, ⟨u, ?_⟩, k2, o1, o2, ?_⟩
  rotate_left
  · rw [o3, hτ]
    ext <;> simp only [smul_x, smul_y, smul_z] <;> ring
  rw [← e2, e3]
  -- the same place
  have hsame : (tangential g v.unit).smul K = (w.smul ((z0 - Z) / -v.dot g)).smul k := by
    rw [hun, hB] at k2
    rw [hτ, V3.norm_smul, abs_of_pos (by positivity : (0 : ℝ) < 1 / N)] at k2
    by_cases hw0 : w.norm = 0
    · have : w = 0 := V3.norm_eq_zero.1 hw0
      rw [hτ, this]; ext <;> simp
    · have hwp : 0 < w.norm := lt_of_le_of_ne (V3.norm_nonneg _) (Ne.symm hw0)
      have hkk : k * ((z0 - Z) / -v.dot g) = 1 / N * K := by
        have : w.norm * (k * ((z0 - Z) / -v.dot g)) = w.norm * (1 / N * K) := by
          rw [hud] at k2
          rw [show w.norm * (1 / N * K) = w.norm * (1 / N) * K by ring, ← k2]
          field_simp
        exact mul_left_cancel₀ hw0 this
      rw [hτ]
      ext <;> simp only [smul_x, smul_y, smul_z]
      · linear_combination (-w.x) * hkk
      · linear_combination (-w.y) * hkk
      · linear_combination (-w.z) * hkk
  rw [hsame]

/-- The direction of a displaced image point. -/
theorem shifted_dir {c : Cam} {V : V3} (hrot : ∃ omega phi kappa, c.dm = rotationMatrix omega phi kappa)
    (hf : c.cc * dot c.dm.c2 V < 0) (t' : ℝ × ℝ) :
    ∃ e : V3, ∃ s, 0 < s ∧ c.dm.mulVec ⟨t'.1, t'.2, -c.cc⟩ = (V + e).smul s ∧
      e.norm ≤ V.norm / |c.cc| * imageDist (collinear c (c.pos + V)) t' := by
  obtain ⟨omega, phi, kappa, hdm⟩ := hrot
  have hcc : c.cc ≠ 0 := fun h => by rw [h, zero_mul] at hf; exact lt_irrefl _ hf
  set z := dot c.dm.c2 V with hz
  have hz0 : z ≠ 0 := fun h => by rw [h, mul_zero] at hf; exact lt_irrefl _ hf
  have hV : c.pos + V - c.pos = V := by ext <;> simp
  set t := collinear c (c.pos + V) with ht
  set κ := -z / c.cc with hκ
  have hκ0 : 0 < κ := by
    rw [hκ]
    rcases lt_or_gt_of_ne hcc with h | h
    · exact div_pos_of_neg_of_neg (by nlinarith) h
    · exact div_pos (by nlinarith) h
  have hfo := rot_forth omega phi kappa V
  rw [← hdm] at hfo
  have hdirt : c.dm.mulVec ⟨t.1, t.2, -c.cc⟩ = V.smul (1 / κ) := by
    have e : (⟨t.1, t.2, -c.cc⟩ : V3) = (⟨c.dm.c0.dot V, c.dm.c1.dot V, c.dm.c2.dot V⟩ : V3).smul (1 / κ) := by
      simp only [ht, collinear, hV, ← hz, if_neg hz0]
      ext <;> simp only [smul_x, smul_y, smul_z, hκ] <;> field_simp
    rw [e, mulVec_smul, hfo]
  set δv : V3 := ⟨(t'.1 - t.1) * κ, (t'.2 - t.2) * κ, 0⟩ with hδ
  refine ⟨c.dm.mulVec δv, 1 / κ, by positivity, ?_, ?_⟩
  · have e : (⟨t'.1, t'.2, -c.cc⟩ : V3) = ⟨t.1, t.2, -c.cc⟩ + δv.smul (1 / κ) := by
      ext <;> simp [hδ] <;> field_simp <;> ring
    have hadd : ∀ (m : M3) (a b : V3), m.mulVec (a + b) = m.mulVec a + m.mulVec b := by
      intro m a b
      ext <;> simp only [M3.mulVec, dot, add_x, add_y, add_z] <;> ring
    rw [e, hadd, hdirt, mulVec_smul]
    ext <;> simp <;> ring
  · have hiso := C25_isometry omega phi kappa δv
    rw [← hdm] at hiso
    rw [hiso]
    have hn : δv.norm = κ * imageDist t t' := by
      have h1 : δv.norm ^ 2 = (κ * imageDist t t') ^ 2 := by
        rw [V3.norm_sq, mul_pow, imageDist, Real.sq_sqrt (by positivity)]
        simp only [dot, hδ]; ring
      have h2 : 0 ≤ κ * imageDist t t' := mul_nonneg hκ0.le (Real.sqrt_nonneg _)
      nlinarith [V3.norm_nonneg δv, abs_of_nonneg h2, (sq_eq_sq₀ (V3.norm_nonneg δv) h2).1 h1]
    rw [hn]
    refine mul_le_mul_of_nonneg_right ?_ (Real.sqrt_nonneg _)
    have hzle : |z| ≤ V.norm := by
      have h2 := congrArg V3.norm hfo
      have hi := C25_isometry omega phi kappa ⟨c.dm.c0.dot V, c.dm.c1.dot V, c.dm.c2.dot V⟩
      rw [← hdm] at hi
      rw [hi] at h2
      rw [← h2]
      exact (comp_le_norm ⟨c.dm.c0.dot V, c.dm.c1.dot V, c.dm.c2.dot V⟩).2.2
    rw [← abs_of_pos hκ0, hκ, abs_div, abs_neg]
    exact div_le_div_of_nonneg_right hzle (abs_nonneg _)

theorem tangential_norm_le {g v : V3} (hg : g.norm = 1) : (tangential g v).norm ≤ v.norm := by
  have hgg := V3.norm_eq_one.1 hg
  refine le_of_sq_le_sq ?_ (V3.norm_nonneg _)
  rw [V3.norm_sq, V3.norm_sq]
  have : (tangential g v).dot (tangential g v) = v.dot v - (v.dot g) ^ 2 := by
    simp only [tangential, dot, sub_x, sub_y, sub_z, smul_x, smul_y, smul_z] at hgg ⊢
    linear_combination (v.x * g.x + v.y * g.y + v.z * g.z) ^ 2 * hgg
  rw [this]; nlinarith [sq_nonneg (v.dot g)]

theorem dot_unit_le {g v : V3} (hg : g.norm = 1) : |v.dot g| ≤ v.norm := by
  have hgg := V3.norm_eq_one.1 hg
  refine abs_le_of_sq_le_sq ?_ (V3.norm_nonneg _)
  have h : (tangential g v).dot (tangential g v) = v.dot v - (v.dot g) ^ 2 := by
    simp only [tangential, dot, sub_x, sub_y, sub_z, smul_x, smul_y, smul_z] at hgg ⊢
    linear_combination (v.x * g.x + v.y * g.y + v.z * g.z) ^ 2 * hgg
  rw [V3.norm_sq]
  have := V3.norm_sq (tangential g v)
  nlinarith [sq_nonneg (tangential g v).norm]

/-- How far the apparent place moves when the direction changes by `e`. -/
theorem apparent_moves {g V e : V3} {H m : ℝ} (hg : g.norm = 1) (hH : V.dot g = -H) (he : e.norm ≤ m) (hm : m < H) :
    (V + e).dot g < 0 ∧ (tangential g V - (tangential g (V + e)).smul (H / -(V + e).dot g)).norm ≤ m * (H + V.norm) / (H - m) := by
  have hd := abs_le.1 ((dot_unit_le hg).trans he)
  have hsum : (V + e).dot g = -H + e.dot g := by
    rw [← hH]; simp only [dot, add_x, add_y, add_z]; ring
  have hneg : (V + e).dot g < 0 := by rw [hsum]; linarith
  refine ⟨hneg, ?_⟩
  set h' := -(V + e).dot g with hh'
  have hp : 0 < h' := by linarith
  have hge : H - m ≤ h' := by rw [hh', hsum]; linarith [hd.2]
  have hHm : 0 < H - m := by linarith
  have hm0 : 0 ≤ m := (V3.norm_nonneg e).trans he
  have heq : tangential g V - (tangential g (V + e)).smul (H / h')
      = ((tangential g V).smul (-(e.dot g) / h')) - (tangential g e).smul (H / h') := by
    have hlin : tangential g (V + e) = tangential g V + tangential g e := by
      ext <;> simp only [tangential, dot, sub_x, sub_y, sub_z, add_x, add_y, add_z, smul_x, smul_y, smul_z] <;> ring
    have hk : 1 - H / h' = -(e.dot g) / h' := by
      rw [eq_div_iff hp.ne', sub_mul, div_mul_cancel₀ _ hp.ne', hh', hsum]; ring
    rw [hlin]
    ext <;> simp only [sub_x, sub_y, sub_z, add_x, add_y, add_z, smul_x, smul_y, smul_z]
    · linear_combination (tangential g V).x * hk
    · linear_combination (tangential g V).y * hk
    · linear_combination (tangential g V).z * hk
  rw [heq]
  refine (norm_sub_le' _ _).trans ?_
  rw [V3.norm_smul, V3.norm_smul, abs_div, abs_neg, abs_of_pos hp, abs_of_pos (div_pos (by linarith) hp)]
  have a1 : (tangential g V).norm * (|e.dot g| / h') ≤ V.norm * (m / (H - m)) := by
    apply mul_le_mul (tangential_norm_le hg) _ (by positivity) (V3.norm_nonneg _)
    exact div_le_div₀ hm0 ((dot_unit_le hg).trans he) hHm hge
  have a2 : (tangential g e).norm * (H / h') ≤ m * (H / (H - m)) := by
    apply mul_le_mul ((tangential_norm_le hg).trans he) _ (div_nonneg (by linarith) hp.le) hm0
    exact div_le_div_of_nonneg_left (by linarith) hHm hge
  have : m * (H + V.norm) / (H - m) = V.norm * (m / (H - m)) + m * (H / (H - m)) := by ring
  rw [this]; linarith

/-- The line of sight of an image point near the computed image. -/
theorem sight_measured (c : Cam) (mm : MM) (d n2 : ℝ) (P : V3) (ε : ℝ) (t t' : ℝ × ℝ) (hmm : OnePlate mm d n2) (h : SeesThrough c d P)
    (ht : flatImageCoord P c emptyLUT mm = some t) (hε : imageDist t t' ≤ ε)
    (hm : objectError c d P ε < height c.glass c.pos - height c.glass P) :
    ∃ X out, rayTracing t'.1 t'.2 c mm = some (X, out) ∧ NearLine X out P (measuredError c d P ε) ∧
      out.norm = 1 ∧ out.dot c.glass.unit < 0 ∧ ∃ F, ∃ e : V3, 1 ≤ F ∧
        F * (height c.glass c.pos - c.glass.norm - d) ≤ height c.glass c.pos - height c.glass P ∧
        e.norm ≤ objectError c d P ε ∧
        tangential c.glass.unit out = (tangential c.glass.unit ((tangential c.glass.unit (P - c.pos)).smul F
            - c.glass.unit.smul (height c.glass c.pos - height c.glass P) + e)).smul (mm.n1 / mm.n3 /
          ((tangential c.glass.unit (P - c.pos)).smul F
            - c.glass.unit.smul (height c.glass c.pos - height c.glass P) + e).norm) := by
  obtain ⟨t0, -, -, h1, -, -, -, -, F, hF1, hF2, -, h8, hf, hB⟩ := sight_core c mm d n2 P hmm h
  rw [ht] at h1
  obtain rfl := Option.some.inj h1
  have hgp := V3.norm_pos h.glass
  have hg : c.glass.unit.norm = 1 := V3.norm_unit h.glass
  have hgg := V3.norm_eq_one.1 hg
  have hh : ∀ Q, height c.glass Q = Q.dot c.glass.unit := by
    intro Q
    rw [unit_of_ne h.glass, height]
    simp only [dot, smul_x, smul_y, smul_z]; field_simp
  have hcam := h.camera
  have hbeh := h.behind
  have hd0 := hmm.thick
  rw [hh] at hcam hbeh
  have hofd : offNormal c P = (tangential c.glass.unit (P - c.pos)).norm := by
    rw [offNormal, hh, hh, tangential]
    congr 1
    rw [unit_of_ne h.glass]
    ext <;> simp only [dot, sub_x, sub_y, sub_z, smul_x, smul_y, smul_z] <;> field_simp <;> ring
  have hwin : windowAbove c.glass d P - c.pos = tangential c.glass.unit (P - c.pos)
      - c.glass.unit.smul (c.pos.dot c.glass.unit - c.glass.norm - d) := by
    have e : windowAbove c.glass d P = P + c.glass.unit.smul (c.glass.norm + d - P.dot c.glass.unit) := by
      rw [windowAbove, hh]
      generalize c.glass.norm + d - P.dot c.glass.unit = k
      rw [unit_of_ne h.glass]
      ext <;> simp only [add_x, add_y, add_z, smul_x, smul_y, smul_z] <;> ring
    rw [e, tangential]
    ext <;> simp only [dot, sub_x, sub_y, sub_z, add_x, add_y, add_z, smul_x, smul_y, smul_z] <;> ring
  rw [measuredError]
  unfold objectError at hm ⊢
  unfold reach at hm ⊢
  rw [hh, hh] at hF2 h8 hf hB hm
  simp only [hh, hwin]
  rw [hwin] at hm
  rw [hofd] at hB
  set g := c.glass.unit with hgdef
  set L := c.glass.norm with hL
  set w := tangential g (P - c.pos) with hw
  set z0 := c.pos.dot g - L with hz0
  set Z := P.dot g - L with hZ
  have hHeq : c.pos.dot g - P.dot g = z0 - Z := by rw [hz0, hZ]; ring
  rw [hHeq] at hF2 h8 hf hm ⊢
  set H := z0 - Z with hH
  have hZ0 : Z ≤ 0 := by rw [hZ]; linarith
  have hz0d : d < z0 := by rw [hz0]; linarith
  have hHp : 0 < H := by rw [hH]; linarith
  have hz0d' : 0 < z0 - d := by linarith
  have hF0 : 0 ≤ F := by linarith
  have hwg : w.dot g = 0 := by
    rw [hw]
    simp only [tangential, dot, sub_x, sub_y, sub_z, smul_x, smul_y, smul_z] at hgg ⊢
    linear_combination (-((P.x - c.pos.x) * g.x + (P.y - c.pos.y) * g.y + (P.z - c.pos.z) * g.z)) * hgg
  set V := w.smul F - g.smul H with hV
  set R := H / (z0 - d) * (w - g.smul (z0 - d)).norm with hR
  -- the apparent distance
  have hsq : ∀ a b : ℝ, (w.smul a - g.smul b).norm ^ 2 = a ^ 2 * w.norm ^ 2 + b ^ 2 := by
    intro a b
    rw [V3.norm_sq, V3.norm_sq]
    have : (w.smul a - g.smul b).dot (w.smul a - g.smul b) = a ^ 2 * w.dot w + b ^ 2 * g.dot g - 2 * a * b * w.dot g := by
      simp only [dot, sub_x, sub_y, sub_z, smul_x, smul_y, smul_z]; ring
    rw [this, hwg, hgg]; ring
  have hlam : F ≤ H / (z0 - d) := by rw [le_div_iff₀ hz0d']; exact hF2
  have hVR : V.norm ≤ R := by
    refine le_of_sq_le_sq ?_ (mul_nonneg (div_nonneg hHp.le hz0d'.le) (V3.norm_nonneg _))
    have h1 := hsq 1 (z0 - d)
    have e1 : w.smul 1 = w := by ext <;> simp
    rw [e1] at h1
    rw [hR, mul_pow, h1, hV, hsq]
    have : F ^ 2 ≤ (H / (z0 - d)) ^ 2 := pow_le_pow_left₀ hF0 hlam 2
    have e2 : (H / (z0 - d)) ^ 2 * (z0 - d) ^ 2 = H ^ 2 := by field_simp
    have := mul_le_mul_of_nonneg_right this (sq_nonneg w.norm)
    nlinarith
  have hHV : H ≤ V.norm := by
    refine le_of_sq_le_sq ?_ (V3.norm_nonneg _)
    rw [hV, hsq]; nlinarith [mul_nonneg (sq_nonneg F) (sq_nonneg w.norm)]
  have hVg : V.dot g = -H := by
    have : V.dot g = F * w.dot g - H * g.dot g := by
      rw [hV]; simp only [dot, sub_x, sub_y, sub_z, smul_x, smul_y, smul_z]; ring
    rw [this, hwg, hgg]; ring
  have hTV : tangential g V = w.smul F := by
    rw [tangential, hVg, hV]; ext <;> simp
  obtain ⟨e, s, hs, hdir, hen⟩ := shifted_dir h.rot hf t'
  rw [← h8] at hen
  set m := R / |c.cc| * ε with hmd
  have hcc : 0 < |c.cc| := abs_pos.2 fun h0 => by rw [h0, zero_mul] at hf; exact lt_irrefl _ hf
  have hd00 : 0 ≤ imageDist t t' := Real.sqrt_nonneg _
  have hem : e.norm ≤ m := by
    refine hen.trans ?_
    rw [hmd]
    exact mul_le_mul (div_le_div_of_nonneg_right hVR hcc.le) hε hd00 (div_nonneg ((V3.norm_nonneg _).trans hVR) hcc.le)
  obtain ⟨hneg, hmove⟩ := apparent_moves hg hVg hem hm
  obtain ⟨X, out, k', r1, r2, r3, r4, r5, o1, o2, o3⟩ := sight_radial hmm h.rot h.glass hcam hs hdir hneg hZ0
  rw [← hgdef, ← hL, ← hz0, ← hH] at r4 r5
  refine ⟨X, out, r1, ⟨_, r4, ?_⟩, o1, o2, F, e, hF1, hF2, hem, o3⟩
  set u' := (tangential g (V + e)).smul (H / -(V + e).dot g) with hu'
  obtain ⟨k, k0, k1, k2⟩ := draw_factor (b := (w.smul F).norm) hmm.pos hmm.plate hmm.behind hd0 hZ0 hz0d (V3.norm_nonneg _)
  have hwF : (w.smul F).norm = w.norm * F := by rw [V3.norm_smul, abs_of_nonneg hF0]
  have hclose : ((w.smul F).smul k - u'.smul k').norm ≤ m * (H + V.norm) / (H - m) := by
    refine (radial_lipschitz k0 k1 r3 ?_).trans (by rw [← hTV]; exact hmove)
    rw [k2, r5]
    rcases le_total (w.smul F).norm u'.norm with hle | hle
    · have := rBeta_between hmm.pos.le hmm.plate hmm.behind (by linarith [hmm.pos, hmm.plate]) (by linarith [hmm.pos, hmm.behind]) hd0 hZ0 hz0d hle
      rw [abs_of_nonpos (by linarith [this.1]), abs_of_nonpos (by linarith)]
      linarith [this.2]
    · have := rBeta_between hmm.pos.le hmm.plate hmm.behind (by linarith [hmm.pos, hmm.plate]) (by linarith [hmm.pos, hmm.behind]) hd0 hZ0 hz0d hle
      rw [abs_of_nonneg (by linarith [this.1]), abs_of_nonneg (by linarith)]
      linarith [this.2]
  have hfirst : (w - (w.smul F).smul k).norm ≤ sightError c d P := by
    refine le_trans (le_of_eq ?_) hB
    rw [← hwF, ← k2, hwF]
    have e1 : w - (w.smul F).smul k = w.smul (1 - F * k) := by ext <;> simp <;> ring
    rw [e1, V3.norm_smul]
    conv_lhs => rw [← abs_of_nonneg (V3.norm_nonneg w)]
    rw [← abs_mul]; congr 1; ring
  have hP : P - (c.pos + u'.smul k' - g.smul H) = (w - (w.smul F).smul k) + ((w.smul F).smul k - u'.smul k') := by
    have : P = c.pos + w - g.smul H := by
      rw [← hHeq, hw, tangential]
      ext <;> simp only [dot, sub_x, sub_y, sub_z, add_x, add_y, add_z, smul_x, smul_y, smul_z] <;> ring
    conv_lhs => rw [this]
    ext <;> simp
  rw [hP]
  refine (norm_add_le' _ _).trans ?_
  have hlast : m * (H + V.norm) / (H - m) ≤ m * (2 * R) / (H - m) := by
    refine div_le_div_of_nonneg_right ?_ (by linarith)
    exact mul_le_mul_of_nonneg_left (by linarith) ((V3.norm_nonneg e).trans hem)
  linarith

end Verif.Geo
