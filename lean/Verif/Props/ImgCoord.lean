/-
C27 with look-up tables, C66: `img_coord`.
-/
import Verif.Props.Projection
import Verif.Spec.Image

namespace Verif.Geo
open V3 Spec

/-! ### C27: look-up tables -/

theorem getZ_zeros {n : ℕ} {i : ℤ} {a : ℝ} (h : getZ (List.replicate n 0) i = some a) : a = 0 := by
  unfold getZ at h
  split_ifs at h
  rw [List.getElem?_replicate] at h
  split_ifs at h
  simpa using h.symm

/-- In a table filled with zeros every interpolated value is 0. -/
theorem getMmf_zeros {t : LUT} {n : ℕ} (ht : t.data = List.replicate n 0) {pos : V3} {m : ℝ}
    (h : getMmf t pos = some m) : m = 0 := by
  simp only [getMmf] at h
  split_ifs at h
  · simpa using h.symm
  · simpa using h.symm
  · simpa using h.symm
  · simp only [Option.bind_eq_bind, Option.bind_eq_some_iff, Option.some.injEq, ht] at h
    obtain ⟨a, ha, b, hb, c, hc, e, he, h⟩ := h
    rw [← h, getZ_zeros ha, getZ_zeros hb, getZ_zeros hc, getZ_zeros he]
    ring

/-- C27: `flat_image_coord` never uses the values of a look-up table: if it returns an image point for a
camera with any table, it returns the same point for the camera without a table. (With a table it can
instead raise IndexError: C53.) -/
theorem C27_table_ignored (P : V3) (cal : Cam) (lut : LUT) (mm : MM) (p : ℝ × ℝ)
    (h : flatImageCoord P cal lut mm = some p) : flatImageCoord P cal emptyLUT mm = some p := by
  cases hd : mm.d with
  | nil => simp [flatImageCoord, hd] at h
  | cons d ds =>
    simp only [flatImageCoord, hd, Option.bind_eq_bind, Option.bind_eq_some_iff] at h ⊢
    obtain ⟨xy, h1, h2⟩ := h
    refine ⟨xy, ?_, h2⟩
    simp only [multimedNlay, Option.bind_eq_bind, Option.bind_eq_some_iff] at h1 ⊢
    obtain ⟨s, h3, h4⟩ := h1
    refine ⟨s, ?_, h4⟩
    cases hn : mm.n2 with
    | nil => simp [multimedRNlay, hn] at h3
    | cons n ns =>
      simp only [multimedRNlay, hn] at h3 ⊢
      by_cases c1 : mm.n1 = 1 ∧ mm.nlay = 1 ∧ n = 1 ∧ mm.n3 = 1
      · rw [if_pos c1] at h3 ⊢
        exact h3
      · rw [if_neg c1] at h3 ⊢
        rw [if_neg (not_not.2 (show (projLUT emptyLUT).rows = 0 ∧ (projLUT emptyLUT).cols = 0 from ⟨rfl, rfl⟩))]
        split_ifs at h3 with c2
        · exact h3
        · simp only [Option.bind_eq_bind, Option.bind_eq_some_iff] at h3
          obtain ⟨m, hm, h3⟩ := h3
          have := getMmf_zeros (t := projLUT lut) (n := lut.nr * lut.nz) rfl hm
          rw [this, if_neg (lt_irrefl _)] at h3
          exact h3

/-- A camera with a non-trivial table header, in water: outside the table's range the projection goes
through. -/
example : ∃ p, flatImageCoord ⟨0, 0, 0⟩ ⟨⟨0, 0, 100⟩, rotationMatrix 0 0 0, 50, 0, 0, defaultAddPar, ⟨0, 0, 50⟩⟩
    ⟨⟨0, 0, 1000⟩, 3, 3, 2, 3, 3, List.replicate 9 1.1⟩ ⟨1, 1, [3 / 2], 4 / 3, [6]⟩ = some p := by
  have hz : (transCamPoint ⟨0, 0, 100⟩ 6 ⟨0, 0, 50⟩ ⟨0, 0, 0⟩).1.z = -50 := by
    have := transCamPoint_eq (C := ⟨0, 0, 100⟩) (d := 6) (glass := ⟨0, 0, 50⟩) (P := ⟨0, 0, 0⟩) (g := ⟨0, 0, 1⟩)
      (L := 50) (by norm_num) (V3.norm_eq_one.2 (by norm_num [dot])) (by ext <;> simp)
    rw [this]; norm_num [dot]
  have hm : getMmf (projLUT ⟨⟨0, 0, 1000⟩, 3, 3, 2, 3, 3, List.replicate 9 1.1⟩)
      (transCamPoint ⟨0, 0, 100⟩ 6 ⟨0, 0, 50⟩ ⟨0, 0, 0⟩).1 = some 0 := by
    have ht : truncZ (((transCamPoint ⟨0, 0, 100⟩ 6 ⟨0, 0, 50⟩ ⟨0, 0, 0⟩).1.z - 1000) / ((2 : ℤ) : ℝ)) < 0 := by
      rw [hz, truncZ, if_neg (by norm_num), Int.ceil_lt_iff]
      norm_num
    simp only [getMmf, projLUT, sub_z, ht, true_or, if_true]
    split_ifs <;> rfl
  rw [← Option.isSome_iff_exists]
  simp only [flatImageCoord, multimedNlay, multimedRNlay]
  rw [if_neg (by norm_num), if_pos (by simp [projLUT]), hm]
  simp only [Option.bind_eq_bind, Option.bind_some, lt_irrefl, if_false, gt_iff_lt]
  rfl

/-! ### C66 -/

/-- C66: whenever the camera has no `p1` term, `img_coord` is the flat projection moved to the principal
point, distorted by Brown's model and then by scale and shear; for every look-up table and all media.
Missing (and false, next theorem): `p1 ≠ 0`. -/
theorem C66_img_coord_partial (P : V3) (cal : Cam) (lut : LUT) (mm : MM) (f : ℝ × ℝ)
    (hf : flatImageCoord P cal lut mm = some f) (hp : cal.ap.p1 = 0) :
    imgCoord P cal lut mm = some (affine cal.ap.scx cal.ap.she
      (brown cal.ap.k1 cal.ap.k2 cal.ap.k3 cal.ap.p1 cal.ap.p2 (f.1 + cal.xh) (f.2 + cal.yh))) := by
  simp only [imgCoord, hf, Option.bind_eq_bind, Option.bind_some, Option.some.injEq, flatToDist,
    distortBrownAffine]
  split_ifs with h
  · simp [affine, brown, h.1, h.2]
  · have hsq : Real.sqrt ((f.1 + cal.xh) ^ 2 + (f.2 + cal.yh) ^ 2) ^ 2
        = (f.1 + cal.xh) ^ 2 + (f.2 + cal.yh) ^ 2 := Real.sq_sqrt (by positivity)
    set r := Real.sqrt ((f.1 + cal.xh) ^ 2 + (f.2 + cal.yh) ^ 2) with hr
    simp only [affine, brown, hp, ← hsq]
    ext <;> simp only <;> ring

/-- C66 in air: `img_coord` is the pinhole projection, moved to the principal point, distorted by Brown's
model, scale and shear (`p1 = 0`). -/
theorem C66_air_partial (P : V3) (cal : Cam) (lut : LUT) (mm : MM) (ns : List ℝ) (hp : cal.ap.p1 = 0)
    (hl : mm.nlay = 1) (hd : mm.d.length = 1) (h1 : mm.n1 = 1) (h2 : mm.n2 = 1 :: ns) (h3 : mm.n3 = 1)
    (hglass : cal.glass ≠ 0) (hdeno : dot cal.dm.c2 (P - cal.pos) ≠ 0) :
    imgCoord P cal lut mm = some (affine cal.ap.scx cal.ap.she
      (brown cal.ap.k1 cal.ap.k2 cal.ap.k3 0 cal.ap.p2
        ((pinhole cal.pos cal.dm cal.cc P).1 + cal.xh) ((pinhole cal.pos cal.dm cal.cc P).2 + cal.yh))) := by
  have hf := C27_no_refraction cal lut mm P 1 ns (by rw [hd, hl]) (fun e => by rw [e] at hd; simp at hd)
    one_ne_zero h1 h2 h3 (Or.inl ⟨rfl, hl⟩) hglass hdeno
  rw [C66_img_coord_partial P cal lut mm _ hf hp, hp]

/-- C66 with decentering `p1` is false: the y coordinate is computed from the already distorted x. -/
theorem C66_decentering_refuted :
    distortBrownAffine 1 1 ⟨0, 0, 0, 1, 0, 1, 0⟩ = (5, 11) ∧ affine 1 0 (brown 0 0 0 1 0 1 1) = (5, 3) := by
  have hsq : Real.sqrt (1 + 1) ^ 2 = (1 + 1 : ℝ) := Real.sq_sqrt (by norm_num)
  constructor
  · simp only [distortBrownAffine]
    rw [if_neg (by norm_num)]
    norm_num at hsq
    norm_num [hsq]
  · norm_num [affine, brown]

/-- C66, the way back: for a camera without lens distortion (scale and shear allowed) correcting the image
point with `dist_to_flat` gives the flat projection exactly, for every tolerance. -/
theorem C66_corrected (P : V3) (cal : Cam) (lut : LUT) (mm : MM) (tol : ℝ) (q : ℝ × ℝ)
    (h1 : cal.ap.k1 = 0) (h2 : cal.ap.k2 = 0) (h3 : cal.ap.k3 = 0)
    (h4 : cal.ap.p1 = 0) (h5 : cal.ap.p2 = 0) (hs : cal.ap.scx ≠ 0) (hc : Real.cos cal.ap.she ≠ 0)
    (hq : imgCoord P cal lut mm = some q) :
    flatImageCoord P cal lut mm = some (distToFlat q.1 q.2 cal.xh cal.yh cal.ap tol) := by
  cases hf : flatImageCoord P cal lut mm with
  | none => simp [imgCoord, hf] at hq
  | some f =>
    simp only [imgCoord, hf, Option.bind_eq_bind, Option.bind_some, Option.some.injEq] at hq
    rw [← hq, (C24_flat_dist_inverse cal.ap h1 h2 h3 h4 h5 hs hc tol f.1 f.2 cal.xh cal.yh).2]

/-- Principal point (0.1, 0.2), `k1 = 1/100`, scale 2: the pinhole image (1/2, 1) of the point. -/
example : imgCoord ⟨1, 2, 3⟩ ⟨⟨0, 0, 103⟩, rotationMatrix 0 0 0, 50, 0.1, 0.2,
      ⟨0.01, 0, 0, 0, 0, 2, 0⟩, ⟨3, 0, 4⟩⟩ emptyLUT ⟨1, 1, [1], 1, [6]⟩
    = some (2 * (0.6 + 0.6 * 0.01 * 1.8), 1.2 + 1.2 * 0.01 * 1.8) := by
  rw [C66_air_partial _ _ _ _ [] rfl rfl rfl rfl rfl rfl
    (fun h => by have := congrArg V3.x h; norm_num at this) (by norm_num [dot, M3.c2, rotationMatrix])]
  norm_num [pinhole, rotationMatrix, affine, brown]

end Verif.Geo
