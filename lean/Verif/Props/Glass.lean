/-
C135: triangulation through a window.
-/
import Verif.Proofs.Glass
import Verif.Spec.Glass
import Verif.Props.Precision

namespace Verif.Geo
open V3 Spec

set_option maxHeartbeats 2000000 in
/-- The line of sight of the computed image: how near it passes the point, and its direction behind the glass. `F` is the factor by
which the offset from the camera's normal is stretched. -/
theorem sight_core (c : Cam) (mm : MM) (d n2 : ℝ) (P : V3) (hmm : OnePlate mm d n2) (h : SeesThrough c d P) :
    ∃ t X out, flatImageCoord P c emptyLUT mm = some t ∧ rayTracing t.1 t.2 c mm = some (X, out) ∧
      NearLine X out P (sightError c d P) ∧
      out.norm = 1 ∧ out.dot c.glass.unit < 0 ∧ ∃ F, 1 ≤ F ∧
        F * (height c.glass c.pos - c.glass.norm - d) ≤ height c.glass c.pos - height c.glass P ∧
        tangential c.glass.unit out = (tangential c.glass.unit (P - c.pos)).smul (F * (mm.n1 / mm.n3) /
          ((tangential c.glass.unit (P - c.pos)).smul F
            - c.glass.unit.smul (height c.glass c.pos - height c.glass P)).norm) ∧
        t = collinear c (c.pos + ((tangential c.glass.unit (P - c.pos)).smul F
            - c.glass.unit.smul (height c.glass c.pos - height c.glass P))) ∧
        c.cc * dot c.dm.c2 ((tangential c.glass.unit (P - c.pos)).smul F
            - c.glass.unit.smul (height c.glass c.pos - height c.glass P)) < 0 ∧
        |offNormal c P - rBeta mm.n1 n2 mm.n3 [d] (height c.glass c.pos - c.glass.norm) (height c.glass P - c.glass.norm)
          (height c.glass c.pos - c.glass.norm - (height c.glass P - c.glass.norm)) (offNormal c P * F)| ≤ sightError c d P := by
  obtain ⟨omega, phi, kappa, hdm⟩ := h.rot
  have hgp := V3.norm_pos h.glass
  set g := c.glass.unit with hgdef
  set L := c.glass.norm with hL
  have hg : g.norm = 1 := V3.norm_unit h.glass
  have hglass : c.glass = g.smul L := by
    rw [hgdef, unit_of_ne h.glass, ← hL]; ext <;> simp only [smul_x, smul_y, smul_z] <;> field_simp
  have hgg := V3.norm_eq_one.1 hg
  have hh : ∀ Q, height c.glass Q = Q.dot g := by
    intro Q
    have : Q.x * c.glass.x + Q.y * c.glass.y + Q.z * c.glass.z = Q.dot c.glass := rfl
    rw [height, this, ← hL]
    conv_lhs => rw [hglass]
    simp only [dot, smul_x, smul_y, smul_z]; field_simp
  have hsm : ∀ k, c.glass.smul (k / L) = g.smul k := by
    intro k
    conv_lhs => rw [hglass]
    ext <;> simp only [smul_x, smul_y, smul_z] <;> field_simp
  have hcam := h.camera
  have hbeh := h.behind
  rw [hh, ← hL] at hcam hbeh
  have hd0 := hmm.thick
  set z0 := c.pos.dot g - L with hz0
  set Z := P.dot g - L with hZ
  have hZ0 : Z ≤ 0 := by rw [hZ]; linarith
  have hz0d : d < z0 := by rw [hz0]; linarith
  have hzd : 0 < z0 - Z := by linarith
  have h12 := hmm.plate
  have h13 := hmm.behind
  have h1 := hmm.pos
  have hn2 : 0 < n2 := by linarith
  have hn3 : 0 < mm.n3 := by linarith
  set w := P - g.smul (P.dot g) - (c.pos - g.smul (c.pos.dot g)) with hw
  set r := w.norm with hr
  have hr0 : 0 ≤ r := V3.norm_nonneg _
  have hw0 : r = 0 → w = 0 := fun e => V3.norm_eq_zero.1 e
  have hwg : w.dot g = 0 := by
    rw [hw]
    simp only [dot, sub_x, sub_y, sub_z, smul_x, smul_y, smul_z] at hgg ⊢
    linear_combination (-(P.x * g.x + P.y * g.y + P.z * g.z) + (c.pos.x * g.x + c.pos.y * g.y + c.pos.z * g.z)) * hgg
  set F := fastMultimedRNlay 1 mm.n1 n2 mm.n3 [d] 0 0 z0 ⟨r, 0, Z⟩ with hF
  -- the factor
  have hr1 : norm2 r 0 = r := by rw [norm2, mul_zero, add_zero, Real.sqrt_mul_self hr0]
  have hFr : r ≤ r * F ∧ r * F * (z0 - d) ≤ r * (z0 - Z) ∧ (r = 0 → F = 1) := by
    have hv : F = if r = 0 then 1 else radialLoop mm.n1 n2 mm.n3 [d] z0 Z (z0 - Z) r 40 r 0.1 / r := by
      simp only [hF, fastMultimedRNlay, sub_zero, hr1, if_neg hzd.ne', List.tail_cons, List.take_nil, List.sum_nil, add_zero]
    by_cases hrz : r = 0
    · rw [if_pos hrz] at hv
      rw [hrz]; simp [hv]
    · rw [if_neg hrz] at hv
      have := radialLoop_range h1.le h12 h13 hn2 hn3 hd0 hZ0 hz0d hr0 40 r 0.1 le_rfl
        (mul_le_mul_of_nonneg_left (by linarith) hr0)
      have e : r * F = radialLoop mm.n1 n2 mm.n3 [d] z0 Z (z0 - Z) r 40 r 0.1 := by rw [hv]; field_simp
      rw [e]
      exact ⟨this.1, this.2, fun h => absurd h hrz⟩
  obtain ⟨hF1, hF2, hF0⟩ := hFr
  -- the factor by which the code stretches the offset
  set F' := r * F / r with hF'
  have hwF : w.smul F' = w.smul F := by
    by_cases hrz : r = 0
    · rw [hw0 hrz]; ext <;> simp
    · rw [hF', mul_div_assoc, mul_comm, div_mul_cancel₀ _ hrz]
  set v := w.smul F - g.smul (z0 - Z) with hv
  have hflat : flatImageCoord P c emptyLUT mm = some (collinear c (c.pos + v)) := by
    rw [flat_through hmm.thickness hmm.index hmm.one hgp hg hglass (by linarith [hzd]) w hw, ← hr, ← hz0, ← hZ, ← hF, ← hF', hwF, hv]
    congr 2
    rw [show c.pos.dot g - P.dot g = z0 - Z by rw [hz0, hZ]; ring]
    ext <;> simp <;> ring
  -- the stretched point is in view
  have hvP : r = 0 ∨ d = Z → v = P - c.pos := by
    intro hc
    have hFw : w.smul F = w := by
      rcases hc with hc | hc
      · rw [hw0 hc]; ext <;> simp
      · by_cases hrz : r = 0
        · rw [hw0 hrz]; ext <;> simp
        · have hrp : 0 < r := lt_of_le_of_ne hr0 (Ne.symm hrz)
          have a1 : 1 ≤ F := by nlinarith
          have a2 : F ≤ 1 := by
            rw [← hc] at hF2
            have : 0 < r * (z0 - d) := mul_pos hrp (by linarith)
            nlinarith
          rw [le_antisymm a2 a1]; ext <;> simp
    rw [hv, hFw, hw, hz0, hZ]
    ext <;> simp <;> ring
  have hfront : c.cc * dot c.dm.c2 v < 0 := by
    by_cases hc : r = 0 ∨ d = Z
    · rw [hvP hc]; exact h.front
    · push Not at hc
      have hrp : 0 < r := lt_of_le_of_ne hr0 (Ne.symm hc.1)
      have hdZ : 0 < d - Z := by
        have : Z ≤ d := by linarith
        have := lt_of_le_of_ne this (Ne.symm hc.2)
        linarith
      have a1 : 0 ≤ F - 1 := by nlinarith
      have a2 : 0 ≤ (z0 - Z) - F * (z0 - d) := by
        by_contra hlt
        push Not at hlt
        have := mul_neg_of_pos_of_neg hrp hlt
        nlinarith
      have hW : windowAbove c.glass d P - c.pos = w - g.smul (z0 - d) := by
        rw [windowAbove, hh, ← hL, hsm, hw, hz0]
        ext <;> simp <;> ring
      have hP : P - c.pos = w - g.smul (z0 - Z) := by
        rw [hw, hz0, hZ]; ext <;> simp <;> ring
      have f1 := h.front
      have f2 := h.window
      rw [hP] at f1
      rw [hW] at f2
      have e : (d - Z) * (c.cc * dot c.dm.c2 v) = ((z0 - Z) - F * (z0 - d)) * (c.cc * dot c.dm.c2 (w - g.smul (z0 - Z)))
          + (F - 1) * (z0 - Z) * (c.cc * dot c.dm.c2 (w - g.smul (z0 - d))) := by
        rw [hv]; simp only [dot, sub_x, sub_y, sub_z, smul_x, smul_y, smul_z]; ring
      have hneg : (d - Z) * (c.cc * dot c.dm.c2 v) < 0 := by
        rw [e]
        have hB : 0 ≤ (F - 1) * (z0 - Z) := mul_nonneg a1 hzd.le
        rcases eq_or_lt_of_le a2 with h0 | h0
        · rw [← h0]
          have : 0 < F - 1 := by
            rcases eq_or_lt_of_le a1 with h' | h'
            · exfalso
              have : F = 1 := by linarith
              rw [this] at h0; linarith
            · exact h'
          have := mul_neg_of_pos_of_neg (mul_pos this hzd) f2
          linarith
        · have k1 := mul_neg_of_pos_of_neg h0 f1
          have k2 := mul_nonpos_of_nonneg_of_nonpos hB f2.le
          linarith
      by_contra hge
      push Not at hge
      have := mul_nonneg hdZ.le hge
      linarith
  have hden : dot c.dm.c2 v ≠ 0 := fun e => by rw [e, mul_zero] at hfront; exact lt_irrefl _ hfront
  have hv0 : v ≠ 0 := fun e => hden (by rw [e]; simp [dot])
  have hvp := V3.norm_pos hv0
  set N := v.norm with hN
  have hratio : 0 < -c.cc / dot c.dm.c2 v := by
    rcases lt_or_gt_of_ne hden with hl | hl
    · apply div_pos_of_neg_of_neg _ hl
      nlinarith
    · apply div_pos _ hl
      nlinarith
  have hpv : c.pos + v - c.pos = v := by ext <;> simp
  set t := collinear c (c.pos + v) with ht
  have hdir : c.dm.mulVec ⟨t.1, t.2, -c.cc⟩ = v.unit.smul (N * (-c.cc / dot c.dm.c2 v)) := by
    have hf := rot_forth omega phi kappa v
    rw [← hdm] at hf
    have e : (⟨t.1, t.2, -c.cc⟩ : V3)
        = (⟨c.dm.c0.dot v, c.dm.c1.dot v, c.dm.c2.dot v⟩ : V3).smul (-c.cc / dot c.dm.c2 v) := by
      simp only [ht, collinear, hpv, if_neg hden]
      ext <;> simp only [smul_x, smul_y, smul_z] <;> field_simp
    rw [e, mulVec_smul, hf, unit_of_ne hv0, ← hN]
    ext <;> simp only [smul_x, smul_y, smul_z] <;> field_simp
  have hdot : v.dot g = -(z0 - Z) := by
    have : v.dot g = F * w.dot g - (z0 - Z) * g.dot g := by
      rw [hv]; simp only [dot, sub_x, sub_y, sub_z, smul_x, smul_y, smul_z]; ring
    rw [this, hwg, hgg]; ring
  have hud : v.unit.dot g = -((z0 - Z) / N) := by
    rw [unit_of_ne hv0, ← hN]
    have : (v.smul (1 / N)).dot g = v.dot g / N := by
      simp only [dot, smul_x, smul_y, smul_z]; ring
    rw [this, hdot]; ring
  have hneg : v.unit.dot g < 0 := by rw [hud]; exact neg_neg_of_pos (div_pos hzd hvp)
  have hτ : tangential g v.unit = w.smul (F / N) := by
    rw [tangential, hud, unit_of_ne hv0, ← hN, hv]
    ext <;> simp <;> ring
  obtain ⟨X, out, P', K, e1, ⟨u, -, e2⟩, hK, ⟨o1, o2, o3⟩, e3, e4⟩ := sight_arrives hmm.thickness hmm.index hdm hgp hg hglass
    (mul_pos hvp hratio) (V3.norm_unit hv0) hdir hneg h1 h12 h13 hd0 hcam hZ0
  have hF0' : 0 ≤ F := by
    by_cases hrz : r = 0
    · rw [hF0 hrz]; norm_num
    · have hrp : 0 < r := lt_of_le_of_ne hr0 (Ne.symm hrz)
      nlinarith
  have hτn : (tangential g v.unit).norm = r * F / N := by
    rw [hτ, V3.norm_smul, abs_of_nonneg (div_nonneg hF0' hvp.le)]; ring
  rw [hτn, hud, neg_neg, ← hz0] at e4
  have hrs : (z0 - Z) * (r * F / N / ((z0 - Z) / N)) = r * F := by field_simp
  rw [hrs] at e4
  obtain ⟨rs, happ, -⟩ := apparent_unique h1 h12 h13 hd0 hZ0 hz0d hr0
  have hacc : |r * F - rs| ≤ (d - Z) / (z0 - d) * max 0.001 (((d - Z) / (z0 - Z)) ^ 40 * r) := by
    have := C58_radial_accuracy mm.n1 n2 mm.n3 d 0 0 z0 r rs ⟨r, 0, Z⟩ h1 h12 h13 hd0 hZ0 hz0d
      (by simp [Real.sqrt_sq hr0]) happ
    exact this
  have hB1 := ((apparent_iff_rBeta h1 h12 h13 hzd).1 e4).2
  have hB2 := ((apparent_iff_rBeta h1 h12 h13 hzd).1 happ).2
  have hlip : |r - r * F / N * K| ≤ |r * F - rs| := by
    rcases le_total (r * F) rs with hle | hle
    · have := rBeta_between h1.le h12 h13 hn2 hn3 hd0 hZ0 hz0d hle
      rw [hB1, hB2] at this
      rw [abs_of_nonneg this.1, abs_of_nonpos (by linarith)]
      linarith [this.2]
    · have := rBeta_between h1.le h12 h13 hn2 hn3 hd0 hZ0 hz0d hle
      rw [hB1, hB2] at this
      rw [abs_of_nonpos (by linarith [this.1]), abs_of_nonneg (by linarith)]
      linarith [this.2]
  have hF1' : 1 ≤ F := by
    by_cases hrz : r = 0
    · rw [hF0 hrz]
    · have hrp : 0 < r := lt_of_le_of_ne hr0 (Ne.symm hrz)
      nlinarith
  have hF2' : F * (z0 - d) ≤ z0 - Z := by
    by_cases hrz : r = 0
    · rw [hF0 hrz]; linarith
    · have hrp : 0 < r := lt_of_le_of_ne hr0 (Ne.symm hrz)
      refine le_of_mul_le_mul_left ?_ hrp
      linarith
  have hwt : tangential g (P - c.pos) = w := by
    rw [hw, tangential]
    ext <;> simp [dot] <;> ring
  have hoff : offNormal c P = r := by
    rw [offNormal, hh, hh, ← hL, hsm, hr, hw]
    congr 1
    ext <;> simp <;> ring
  have hse : |r - r * F / N * K| ≤ sightError c d P := by
    rw [sightError, hh, hh, ← hL, hoff, show L + d - P.dot g = d - Z by rw [hZ]; ring,
    show c.pos.dot g - L - d = z0 - d by rw [hz0], show c.pos.dot g - P.dot g = z0 - Z by rw [hz0, hZ]; ring]
    exact hlip.trans hacc
  refine ⟨t, X, out, hflat, e1, ⟨P', ⟨u, e2⟩, ?_⟩, o1, o2, F, hF1', ?_, ?_, ?_, ?_, ?_⟩
  rotate_left
  · rw [hh, hh, ← hz0, show c.pos.dot g - P.dot g = z0 - Z by rw [hz0, hZ]; ring]
    exact hF2'
  · rw [hh, hh, hwt, o3, hτ, show c.pos.dot g - P.dot g = z0 - Z by rw [hz0, hZ]; ring, ← hv, ← hN]
    ext <;> simp <;> ring
  · rw [hh, hh, hwt, show c.pos.dot g - P.dot g = z0 - Z by rw [hz0, hZ]; ring]
  · rw [hh, hh, hwt, show c.pos.dot g - P.dot g = z0 - Z by rw [hz0, hZ]; ring]
    exact hfront
  · rw [hh, hh, hoff, ← hz0, ← hZ, hB1]
    exact hse
  have hPP : P - P' = w.smul (1 - F / N * K) := by
    have hP : P = c.pos + w - g.smul (z0 - Z) := by
      rw [hw, hz0, hZ]; ext <;> simp <;> ring
    rw [e3, hτ, ← hz0]
    conv_lhs => rw [hP]
    ext <;> simp <;> ring
  have hnorm : (P - P').norm = |r - r * F / N * K| := by
    rw [hPP, V3.norm_smul, ← hr]
    conv_lhs => rw [← abs_of_nonneg hr0]
    rw [← abs_mul]; congr 1; ring
  rw [hnorm]
  exact hse

/-- C135, one camera: the line of sight of the image that `flat_image_coord` computes for a point passes the point at a distance of
at most `sightError`. -/
theorem C135_sight (c : Cam) (mm : MM) (d n2 : ℝ) (P : V3) (hmm : OnePlate mm d n2) (h : SeesThrough c d P) :
    ∃ t X out, flatImageCoord P c emptyLUT mm = some t ∧ rayTracing t.1 t.2 c mm = some (X, out) ∧
      NearLine X out P (sightError c d P) := by
  obtain ⟨t, X, out, h1, h2, h3, -⟩ := sight_core c mm d n2 P hmm h
  exact ⟨t, X, out, h1, h2, h3⟩

/-- C135: a point that cameras see through their windows, triangulated from its computed images (at least two cameras): the position is
within `δ (1 + 2/σ)` of the point and the reported ray distance at most `2 δ`, if every camera's `sightError` is at most `δ` and
any two of the lines of sight behind the glass cross with an angle of sine at least `σ`. -/
theorem C135_position (P : V3) (targets : List (ℝ × ℝ)) (numCams : ℕ) (mm : MM) (cals : List Cam) (d n2 δ σ : ℝ)
    (hlen : numCams ≤ targets.length) (hmm : OnePlate mm d n2) (hσ : 0 < σ)
    (hproj : ∀ cam < numCams, ∀ t, targets[cam]? = some t → t.1 ≠ coordUnused →
      ∃ c, cals[cam]? = some c ∧ SeesThrough c d P ∧ sightError c d P ≤ δ ∧ flatImageCoord P c emptyLUT mm = some t)
    (hcross : ∀ i j ti tj ci cj Xi ai Xj aj, i < j → i ∈ usedCams targets numCams → j ∈ usedCams targets numCams →
      targets[i]? = some ti → targets[j]? = some tj → cals[i]? = some ci → cals[j]? = some cj →
      rayTracing ti.1 ti.2 ci mm = some (Xi, ai) → rayTracing tj.1 tj.2 cj mm = some (Xj, aj) → Crossing ai aj σ)
    (htwo : 2 ≤ (usedCams targets numCams).card) :
    ∃ D M, pointPosition targets numCams mm cals = .ok (some (D, M)) ∧ 0 ≤ D ∧ D ≤ 2 * δ ∧
      (M - P).norm ≤ δ * (1 + 2 / σ) := by
  classical
  have key : ∀ cam, ∃ ray : Ray, cam ∈ usedCams targets numCams →
      ∃ t c, targets[cam]? = some t ∧ cals[cam]? = some c ∧ rayTracing t.1 t.2 c mm = some ray ∧ NearLine ray.1 ray.2 P δ := by
    intro cam
    by_cases hu : cam ∈ usedCams targets numCams
    · have hu' := hu
      simp only [usedCams, Finset.mem_filter, Finset.mem_range] at hu'
      obtain ⟨hlt, t, ht, hne⟩ := hu'
      obtain ⟨c, hc, hs, he, hf⟩ := hproj cam hlt t ht hne
      obtain ⟨t', X, out, h1, h2, q, h3, h4⟩ := C135_sight c mm d n2 P hmm hs
      rw [hf] at h1
      obtain rfl := Option.some.inj h1
      exact ⟨(X, out), fun _ => ⟨t, c, ht, hc, h2, q, h3, h4.trans he⟩⟩
    · exact ⟨(0, 0), fun h => absurd h hu⟩
  choose ray hray using key
  refine C128_position_error targets numCams mm cals ray hlen ?_ P δ σ hσ ?_ ?_ htwo
  · intro cam hlt t ht hne
    obtain ⟨t', c, a, b, e, -⟩ := hray cam (by
      simp only [usedCams, Finset.mem_filter, Finset.mem_range]
      exact ⟨hlt, t, ht, hne⟩)
    rw [ht] at a
    obtain rfl := Option.some.inj a
    exact ⟨c, b, e⟩
  · intro cam hc
    obtain ⟨-, -, -, -, -, hn⟩ := hray cam hc
    exact hn
  · intro p hp
    simp only [pairsOf, Finset.mem_filter, Finset.mem_product] at hp
    obtain ⟨ti, ci, a1, b1, e1, -⟩ := hray _ hp.1.1
    obtain ⟨tj, cj, a2, b2, e2, -⟩ := hray _ hp.1.2
    exact hcross p.1 p.2 ti tj ci cj _ _ _ _ hp.2 hp.1.1 hp.1.2 a1 a2 b1 b2 e1 e2

end Verif.Geo
