/-
C27, C28, C58, C59: glass frame, radial shift, projection.
-/
import Verif.Proofs.Multimed
import Verif.Proofs.Radial
import Verif.Props.Ray

namespace Verif.Geo
open V3 Spec

/-! ### C28 -/

theorem exists_unit {v : V3} (h : v ≠ 0) : ∃ g : V3, ∃ L : ℝ, 0 < L ∧ g.norm = 1 ∧ v = g.smul L := by
  have hp := norm_pos h
  refine ⟨v.unit, v.norm, hp, norm_unit h, ?_⟩
  rw [unit_of_ne h]; ext <;> simp <;> field_simp

/-- C28: for every non-zero glass vector, camera position, glass thickness and point (also points on
the camera's glass normal), `back_trans_point` applied to the result of `trans_cam_point` returns the
point. -/
theorem C28_roundtrip (C glass P : V3) (d : ℝ) (hglass : glass ≠ 0) :
    backTransPoint glass d (transCamPoint C d glass P).2.2.1 (transCamPoint C d glass P).2.1
      (transCamPoint C d glass P).1 = P := by
  obtain ⟨g, L, hL, hg, hgl⟩ := exists_unit hglass
  rw [transCamPoint_eq hL hg hgl, backTransPoint_eq hL hg hgl]
  have e : P - g.smul (P.dot g - L) - (C - g.smul (C.dot g - L - d) - g.smul d)
      = P - g.smul (P.dot g) - (C - g.smul (C.dot g)) := by ext <;> simp <;> ring
  rw [e]
  set w := P - g.smul (P.dot g) - (C - g.smul (C.dot g)) with hw
  have hww : w.smul (w.norm / w.norm) = w := by
    by_cases h : w.norm = 0
    · rw [V3.norm_eq_zero.1 h]; ext <;> simp
    · rw [div_self h]; ext <;> simp
  rw [hww, hw]
  ext <;> simp <;> ring

/-- C28: what the transform computes. `L·g` is the glass vector with unit normal `g`. The first
coordinate is the distance of the point from the camera's glass normal, the third its height over the
inner glass plane, `z0` the camera's height over that plane. -/
theorem C28_frame (C glass P g : V3) (d L : ℝ) (hL : 0 < L) (hg : g.norm = 1)
    (hglass : glass = g.smul L) :
    let t := transCamPoint C d glass P
    DistToLine C g P t.1.x ∧ t.1.y = 0 ∧ t.1.z = P.dot g - L ∧ t.2.2.2 = C.dot g - L := by
  intro t
  have ht : t = _ := transCamPoint_eq hL hg hglass
  rw [ht]
  have hgg := V3.norm_eq_one.1 hg
  have key : ∀ u : ℝ, (P - (C + g.smul u)).norm ^ 2
      = (P - g.smul (P.dot g) - (C - g.smul (C.dot g))).norm ^ 2
        + (P.dot g - C.dot g - u) ^ 2 := by
    intro u
    rw [norm_sq, norm_sq]
    simp only [dot, sub_x, sub_y, sub_z, add_x, add_y, add_z, smul_x, smul_y, smul_z] at hgg ⊢
    linear_combination
      (u ^ 2 - (P.x * g.x + P.y * g.y + P.z * g.z - (C.x * g.x + C.y * g.y + C.z * g.z)) ^ 2) * hgg
  refine ⟨⟨⟨P.dot g - C.dot g, ?_⟩, fun u => ?_⟩, rfl, rfl, rfl⟩
  · have := key (P.dot g - C.dot g)
    rw [sub_self, zero_pow (by norm_num), add_zero] at this
    exact (pow_left_inj₀ (norm_nonneg _) (norm_nonneg _) (by norm_num)).1 this
  · have := key u
    exact le_of_sq_le_sq (by rw [this]; nlinarith [sq_nonneg (P.dot g - C.dot g - u)])
      (norm_nonneg _)

/-- C28, other direction: going back from frame coordinates `(R, 0, Z)` with `R ≥ 0` to a point `Q`, in
the half plane of a point `P` that is not on the camera's normal, and transforming `Q` again, returns
`(R, 0, Z)`. -/
theorem C28_back_then_forth (C glass P : V3) (d R Z : ℝ) (hglass : glass ≠ 0) (hR : 0 ≤ R)
    (hP : (transCamPoint C d glass P).1.x ≠ 0) :
    (transCamPoint C d glass (backTransPoint glass d (transCamPoint C d glass P).2.2.1
      (transCamPoint C d glass P).2.1 ⟨R, 0, Z⟩)).1 = ⟨R, 0, Z⟩ := by
  obtain ⟨g, L, hL, hg, hgl⟩ := exists_unit hglass
  have hgg := V3.norm_eq_one.1 hg
  rw [transCamPoint_eq hL hg hgl] at hP
  rw [transCamPoint_eq (P := P) hL hg hgl, backTransPoint_eq hL hg hgl, transCamPoint_eq hL hg hgl]
  have e : P - g.smul (P.dot g - L) - (C - g.smul (C.dot g - L - d) - g.smul d)
      = P - g.smul (P.dot g) - (C - g.smul (C.dot g)) := by ext <;> simp <;> ring
  simp only at hP ⊢
  rw [e]
  set w := P - g.smul (P.dot g) - (C - g.smul (C.dot g)) with hw
  have hwg : w.dot g = 0 := by
    simp only [hw, dot, sub_x, sub_y, sub_z, smul_x, smul_y, smul_z] at hgg ⊢
    linear_combination (C.x * g.x + C.y * g.y + C.z * g.z
      - (P.x * g.x + P.y * g.y + P.z * g.z)) * hgg
  set Q := C - g.smul (C.dot g - L - d) - g.smul d + g.smul Z + w.smul (R / w.norm) with hQ
  have hQg : Q.dot g = L + Z := by
    simp only [hQ, dot, sub_x, sub_y, sub_z, add_x, add_y, add_z, smul_x, smul_y, smul_z] at hgg hwg ⊢
    linear_combination (R / w.norm) * hwg + (Z - (C.x * g.x + C.y * g.y + C.z * g.z) + L) * hgg
  have hQ2 : Q - g.smul (Q.dot g) - (C - g.smul (C.dot g)) = w.smul (R / w.norm) := by
    rw [hQg, hQ]; ext <;> simp <;> ring
  rw [hQ2, hQg, norm_smul, abs_of_nonneg (div_nonneg hR (norm_nonneg _)),
    mul_div_cancel₀ _ hP]
  ext <;> simp

/-- A non-trivial instance: a tilted glass plane. -/
example : backTransPoint ⟨3, 0, 4⟩ 2 (transCamPoint ⟨10, 20, 80⟩ 2 ⟨3, 0, 4⟩ ⟨1, 2, 3⟩).2.2.1
    (transCamPoint ⟨10, 20, 80⟩ 2 ⟨3, 0, 4⟩ ⟨1, 2, 3⟩).2.1
    (transCamPoint ⟨10, 20, 80⟩ 2 ⟨3, 0, 4⟩ ⟨1, 2, 3⟩).1 = ⟨1, 2, 3⟩ :=
  C28_roundtrip _ _ _ _ (fun h => by have := congrArg V3.x h; norm_num at this)

/-! ### C27 -/

/-- C27: in air only (`n1 = n2 = n3 = 1`, one layer) the radial factor is exactly 1, for every point,
camera, glass thickness and look-up table. -/
theorem C27_air (lut : LUT) (x0 y0 z0 : ℝ) (mm : MM) (pos : V3) (ns : List ℝ) (h1 : mm.n1 = 1)
    (h2 : mm.n2 = 1 :: ns) (h3 : mm.n3 = 1) (hl : mm.nlay = 1) :
    multimedRNlay lut x0 y0 z0 mm pos = some 1 := by
  simp [multimedRNlay, h1, h2, h3, hl]

/-- C27: with any equal refractive indices the radial factor computed by the iteration is exactly 1,
for every number and thickness of layers and every point whose depth differs from the camera's. -/
theorem C27_equal_indices (x0 y0 z0 n : ℝ) (nlay : ℕ) (d : List ℝ) (pos : V3) (hn : n ≠ 0)
    (hd : d ≠ []) (hl : d.length ≤ nlay) (hz : z0 ≠ pos.z) :
    fastMultimedRNlay nlay n n n d x0 y0 z0 pos = 1 := by
  obtain ⟨d0, ds, rfl⟩ := List.exists_cons_of_ne_nil hd
  have hz' : z0 - pos.z ≠ 0 := sub_ne_zero.2 hz
  simp only [fastMultimedRNlay, if_neg hz']
  split_ifs with hr
  · rfl
  · rw [radialLoop_same hn _ hz', div_self hr]
    have : (d0 :: ds).tail.take (nlay - 1) = ds := by
      simp only [List.tail_cons]
      exact List.take_of_length_le (by simp at hl; omega)
    rw [this]
    simp; ring

/-- C27: a point on the camera's normal has factor 1, whatever the media. -/
theorem C27_on_axis (x0 y0 z0 n1 n2 n3 : ℝ) (nlay : ℕ) (d : List ℝ) (z : ℝ) :
    fastMultimedRNlay nlay n1 n2 n3 d x0 y0 z0 ⟨x0, y0, z⟩ = 1 := by
  simp [fastMultimedRNlay, norm2]

theorem collinear_eq_pinhole (cal : Cam) (P : V3) (h : dot cal.dm.c2 (P - cal.pos) ≠ 0) :
    collinear cal P = pinhole cal.pos cal.dm cal.cc P := by
  simp only [collinear, if_neg h, pinhole]
  simp only [dot, M3.c0, M3.c1, M3.c2]
  ext <;> simp only <;> ring

/-- C27: when the radial factor is 1, `flat_image_coord` is the pinhole projection of the point itself
(for a point not in the camera's principal plane). -/
theorem C27_pinhole (cal : Cam) (lut : LUT) (mm : MM) (P : V3) (d : ℝ) (ds : List ℝ)
    (hd : mm.d = d :: ds) (hglass : cal.glass ≠ 0)
    (hdeno : dot cal.dm.c2 (P - cal.pos) ≠ 0)
    (hf : multimedRNlay (projLUT lut) 0 0 (transCamPoint cal.pos d cal.glass P).2.2.2 mm
      (transCamPoint cal.pos d cal.glass P).1 = some 1) :
    flatImageCoord P cal lut mm = some (pinhole cal.pos cal.dm cal.cc P) := by
  simp only [flatImageCoord, hd, multimedNlay, hf]
  have : (⟨0 + ((transCamPoint cal.pos d cal.glass P).1.x - 0) * 1,
      0 + ((transCamPoint cal.pos d cal.glass P).1.y - 0) * 1,
      (transCamPoint cal.pos d cal.glass P).1.z⟩ : V3) = (transCamPoint cal.pos d cal.glass P).1 := by
    ext <;> simp
  simp only [Option.bind_eq_bind, Option.bind_some, this,
    C28_roundtrip cal.pos cal.glass P d hglass, collinear_eq_pinhole cal P hdeno]

/-- C27: `flat_image_coord` is the pinhole projection whenever all media are air (any table), and
whenever the indices are equal and no look-up table has been initialised, for every glass vector and
every point not at the camera's own height over the glass. -/
theorem C27_no_refraction (cal : Cam) (lut : LUT) (mm : MM) (P : V3) (n : ℝ) (ns : List ℝ)
    (hl : mm.d.length ≤ mm.nlay) (hd : mm.d ≠ []) (hn : n ≠ 0)
    (h1 : mm.n1 = n) (h2 : mm.n2 = n :: ns) (h3 : mm.n3 = n)
    (hcase : (n = 1 ∧ mm.nlay = 1) ∨ (lut = emptyLUT ∧ dot (P - cal.pos) cal.glass ≠ 0))
    (hglass : cal.glass ≠ 0) (hdeno : dot cal.dm.c2 (P - cal.pos) ≠ 0) :
    flatImageCoord P cal lut mm = some (pinhole cal.pos cal.dm cal.cc P) := by
  obtain ⟨d0, ds, hdd⟩ := List.exists_cons_of_ne_nil hd
  refine C27_pinhole cal lut mm P d0 ds hdd hglass hdeno ?_
  rcases hcase with ⟨hn1, hl1⟩ | ⟨hlut, hz⟩
  · subst hn1; exact C27_air _ _ _ _ _ _ _ h1 h2 h3 hl1
  · by_cases hone : mm.n1 = 1 ∧ mm.nlay = 1 ∧ n = 1 ∧ mm.n3 = 1
    · simp [multimedRNlay, h2, hone]
    · simp only [multimedRNlay, h2, if_neg hone, hlut, projLUT, emptyLUT]
      simp only [not_true_eq_false, if_false, and_self]
      rw [h1, h3, C27_equal_indices 0 0 _ n mm.nlay mm.d _ hn hd hl]
      obtain ⟨g, L, hL, hg, hgl⟩ := exists_unit hglass
      rw [transCamPoint_eq hL hg hgl]
      simp only
      intro he
      apply hz
      rw [hgl]
      simp only [dot, sub_x, sub_y, sub_z, smul_x, smul_y, smul_z] at he ⊢
      linear_combination -L * he

/-- A non-trivial case: air, tilted glass, a point off the axis. -/
example : flatImageCoord ⟨1, 2, 3⟩ ⟨⟨0, 0, 103⟩, rotationMatrix 0 0 0, 50, 0, 0,
      ⟨0, 0, 0, 0, 0, 1, 0⟩, ⟨3, 0, 4⟩⟩ emptyLUT ⟨1, 1, [1], 1, [6]⟩
    = some (1 / 2, 1) := by
  rw [C27_no_refraction _ _ _ _ 1 [] (by simp) (by simp) one_ne_zero rfl rfl rfl (Or.inl ⟨rfl, rfl⟩)
    (fun h => by have := congrArg V3.x h; norm_num at this)
    (by norm_num [dot, M3.c2, rotationMatrix])]
  norm_num [pinhole, rotationMatrix]

end Verif.Geo
