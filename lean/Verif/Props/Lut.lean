/-
C53: look-up table interpolation. C68: init_mmlut.
-/
import Verif.Model.Volume
import Verif.Props.Volume
import Verif.Props.ImgCoord
import Mathlib.Tactic.IntervalCases

namespace Verif.Geo
open V3 Spec

/-! ### C53 -/

theorem truncZ_nat (n : ℕ) (a : ℝ) (h0 : 0 ≤ a) (h1 : a < 1) : truncZ (n + a) = n := by
  rw [truncZ, if_pos (by positivity)]
  rw [show ((n : ℝ) + a) = ((n : ℤ) : ℝ) + a by norm_cast, Int.floor_intCast_add]
  rw [Int.floor_eq_zero_iff.2 ⟨h0, h1⟩, add_zero]

theorem truncZ_of_nonneg {x : ℝ} (h : 0 ≤ x) : truncZ x = ⌊x⌋ := by rw [truncZ, if_pos h]

/-- The table has the values `tab i j` at its raster points. -/
def Spec.HasValues (t : LUT) (tab : ℕ → ℕ → ℝ) : Prop :=
  ∀ i j, i < t.nr → j < t.nz → t.data[i * t.nz + j]? = some (tab i j)

theorem getZ_nat {l : List ℝ} {n : ℕ} {k : ℤ} (h : k = (n : ℤ)) : getZ l k = l[n]? := by
  subst h
  simp [getZ]

/-- C53, inside the table: for a point in the raster cell `(i, j)`, at radius `(i + a)·rw` and height
`(j + b)·rw` over the origin, the result is the bilinear interpolation of the four values at the corners
of the cell; in particular no index is out of range. -/
theorem C53_bilinear_partial (t : LUT) (tab : ℕ → ℕ → ℝ) (ht : HasValues t tab) (hrw : 0 < t.rw) (pos : V3)
    (i j : ℕ) (a b : ℝ) (ha0 : 0 ≤ a) (ha1 : a < 1) (hb0 : 0 ≤ b) (hb1 : b < 1)
    (hi : i + 1 < t.nr) (hj : j + 1 < t.nz)
    (hR : Real.sqrt ((pos.x - t.origin.x) ^ 2 + (pos.y - t.origin.y) ^ 2) = (i + a) * t.rw)
    (hz : pos.z - t.origin.z = (j + b) * t.rw) :
    getMmf t pos = some ((1 - a) * ((1 - b) * tab i j + b * tab i (j + 1))
      + a * ((1 - b) * tab (i + 1) j + b * tab (i + 1) (j + 1))) := by
  have hrw' : (0 : ℝ) < t.rw := by exact_mod_cast hrw
  have e1 : (pos - t.origin).z / (t.rw : ℝ) = j + b := by rw [sub_z, hz]; field_simp
  have e2 : V3.norm ⟨(pos - t.origin).x, (pos - t.origin).y, 0⟩ / (t.rw : ℝ) = i + a := by
    rw [V3.norm, show (pos - t.origin).x * (pos - t.origin).x + (pos - t.origin).y * (pos - t.origin).y + 0 * 0
      = (pos.x - t.origin.x) ^ 2 + (pos.y - t.origin.y) ^ 2 by simp; ring, hR]
    field_simp
  have n1 : (i + 1) * t.nz ≤ (t.nr - 1) * t.nz := Nat.mul_le_mul_right _ (by omega)
  have n2 : (t.nr - 1) * t.nz + t.nz = t.nr * t.nz := by
    obtain ⟨m, hm⟩ : ∃ m, t.nr = m + 1 := ⟨t.nr - 1, by omega⟩
    rw [hm]; simp; ring
  have n3 : (i + 1) * t.nz = i * t.nz + t.nz := by ring
  simp only [getMmf, e1, e2, truncZ_nat j b hb0 hb1, truncZ_nat i a ha0 ha1]
  rw [if_neg (by omega), if_neg (by omega)]
  have v0 : ((i : ℤ) * t.nz + j) = ((i * t.nz + j : ℕ) : ℤ) := by push_cast; ring
  have v1 : ((i : ℤ) * t.nz + (j + 1)) = ((i * t.nz + (j + 1) : ℕ) : ℤ) := by push_cast; ring
  have v2 : (((i : ℤ) + 1) * t.nz + j) = (((i + 1) * t.nz + j : ℕ) : ℤ) := by push_cast; ring
  have v3 : (((i : ℤ) + 1) * t.nz + (j + 1)) = (((i + 1) * t.nz + (j + 1) : ℕ) : ℤ) := by push_cast; ring
  have hp : ((t.nr : ℤ) * t.nz) = ((t.nr * t.nz : ℕ) : ℤ) := by push_cast; ring
  rw [v0, v1, v2, v3, hp]
  rw [if_neg]
  · rw [getZ_nat rfl, getZ_nat rfl, getZ_nat rfl, getZ_nat rfl, ht i j (by omega) (by omega),
      ht i (j + 1) (by omega) hj, ht (i + 1) j hi (by omega), ht (i + 1) (j + 1) hi hj]
    simp only [Option.bind_eq_bind, Option.bind_some, Option.some.injEq]
    push_cast
    ring
  · simp only [List.any_cons, List.any_nil, Bool.or_false, Bool.or_eq_true, decide_eq_true_eq]
    omega

/-- C53: inside the table the result lies between the smallest and the largest of the four values. -/
theorem C53_between_partial (t : LUT) (tab : ℕ → ℕ → ℝ) (ht : HasValues t tab) (hrw : 0 < t.rw) (pos : V3)
    (i j : ℕ) (a b lo hi : ℝ) (ha0 : 0 ≤ a) (ha1 : a < 1) (hb0 : 0 ≤ b) (hb1 : b < 1)
    (hi' : i + 1 < t.nr) (hj : j + 1 < t.nz)
    (hR : Real.sqrt ((pos.x - t.origin.x) ^ 2 + (pos.y - t.origin.y) ^ 2) = (i + a) * t.rw)
    (hz : pos.z - t.origin.z = (j + b) * t.rw)
    (h : ∀ k l, k ≤ 1 → l ≤ 1 → lo ≤ tab (i + k) (j + l) ∧ tab (i + k) (j + l) ≤ hi) :
    ∃ m, getMmf t pos = some m ∧ lo ≤ m ∧ m ≤ hi := by
  refine ⟨_, C53_bilinear_partial t tab ht hrw pos i j a b ha0 ha1 hb0 hb1 hi' hj hR hz, ?_⟩
  have h00 := h 0 0 (by omega) (by omega)
  have h01 := h 0 1 (by omega) (by omega)
  have h10 := h 1 0 (by omega) (by omega)
  have h11 := h 1 1 (by omega) (by omega)
  simp only [Nat.add_zero] at h00 h01 h10 h11
  have mix : ∀ s x y : ℝ, 0 ≤ s → s < 1 → lo ≤ x ∧ x ≤ hi → lo ≤ y ∧ y ≤ hi →
      lo ≤ (1 - s) * x + s * y ∧ (1 - s) * x + s * y ≤ hi := by
    intro s x y h0 h1 hx hy
    constructor
    · nlinarith [mul_nonneg (sub_nonneg.2 h1.le) (sub_nonneg.2 hx.1), mul_nonneg h0 (sub_nonneg.2 hy.1)]
    · nlinarith [mul_nonneg (sub_nonneg.2 h1.le) (sub_nonneg.2 hx.2), mul_nonneg h0 (sub_nonneg.2 hy.2)]
  exact mix a _ _ ha0 ha1 (mix b _ _ hb0 hb1 h00 h01) (mix b _ _ hb0 hb1 h10 h11)

/-- C53, outside: beyond the last radial raster line by a cell or more, or below the origin by a cell or
more, the result is 0. -/
theorem C53_outside (t : LUT) (hrw : 0 < t.rw) (pos : V3)
    (h : (t.nr + 1) * (t.rw : ℝ) ≤ Real.sqrt ((pos.x - t.origin.x) ^ 2 + (pos.y - t.origin.y) ^ 2) ∨
      pos.z - t.origin.z ≤ -t.rw) :
    getMmf t pos = some 0 := by
  have hrw' : (0 : ℝ) < t.rw := by exact_mod_cast hrw
  have eR : V3.norm ⟨(pos - t.origin).x, (pos - t.origin).y, 0⟩
      = Real.sqrt ((pos.x - t.origin.x) ^ 2 + (pos.y - t.origin.y) ^ 2) := by
    rw [V3.norm, show (pos - t.origin).x * (pos - t.origin).x + (pos - t.origin).y * (pos - t.origin).y + 0 * 0
      = (pos.x - t.origin.x) ^ 2 + (pos.y - t.origin.y) ^ 2 by simp; ring]
  simp only [getMmf, eR, sub_z]
  set R := Real.sqrt ((pos.x - t.origin.x) ^ 2 + (pos.y - t.origin.y) ^ 2) with hRd
  have hR0 : 0 ≤ R := Real.sqrt_nonneg _
  rcases h with h | h
  · rw [if_pos]
    rw [truncZ_of_nonneg (div_nonneg hR0 hrw'.le)]
    have : ((t.nr : ℤ) + 1 : ℤ) ≤ ⌊R / t.rw⌋ := by
      rw [Int.le_floor, le_div_iff₀ hrw']; push_cast; exact h
    omega
  · have hneg : truncZ ((pos.z - t.origin.z) / t.rw) < 0 := by
      have h1 : (pos.z - t.origin.z) / t.rw ≤ -1 := by rw [div_le_iff₀ hrw']; linarith
      rw [truncZ, if_neg (by linarith)]
      have : ⌈(pos.z - t.origin.z) / t.rw⌉ ≤ -1 := by rw [Int.ceil_le]; push_cast; exact h1
      omega
    rw [if_pos (Or.inl hneg)]
    split_ifs <;> rfl

/-- C53, first failure: at the top of the table a point in the outermost radial cell raises IndexError
(the check allows an index equal to the table's size). -/
theorem C53_index_refuted : getMmf ⟨⟨0, 0, 0⟩, 2, 2, 1, 2, 2, [1, 1, 1, 1]⟩ ⟨0, 0, 1⟩ = none := by
  have h1 : truncZ 1 = 1 := by simpa using truncZ_nat 1 0 (le_refl _) one_pos
  have h0 : truncZ 0 = 0 := by simpa using truncZ_nat 0 0 (le_refl _) one_pos
  have hn : V3.norm ⟨0, 0, 0⟩ = 0 := by simp [V3.norm]
  simp only [getMmf, sub_x, sub_y, sub_z, sub_zero, hn, Int.cast_one, div_one, h1, h0]
  norm_num [getZ]

/-- C53, second failure: just below the origin the value is extrapolated: the table has only the values
1 and 2, but the result is 1/2. -/
theorem C53_extrapolation_refuted :
    getMmf ⟨⟨0, 0, 0⟩, 3, 2, 1, 3, 2, [1, 2, 1, 2, 1, 2]⟩ ⟨0, 0, -1 / 2⟩ = some (1 / 2) := by
  have h1 : truncZ (-1 / 2) = 0 := by
    rw [truncZ, if_neg (by norm_num), Int.ceil_eq_zero_iff]; norm_num
  have h0 : truncZ 0 = 0 := by simpa using truncZ_nat 0 0 (le_refl _) one_pos
  have hn : V3.norm ⟨0, 0, 0⟩ = 0 := by simp [V3.norm]
  simp only [getMmf, sub_x, sub_y, sub_z, sub_zero, hn, Int.cast_one, div_one, h1, h0]
  norm_num [getZ]

/-- C53, third failure: in the topmost layer the next radial line is used as the neighbour: the values at
the top of the first line are 1, but the result is 11/2. -/
theorem C53_wrap_refuted :
    getMmf ⟨⟨0, 0, 0⟩, 3, 2, 1, 3, 2, [1, 1, 10, 10, 10, 10]⟩ ⟨0, 0, 3 / 2⟩ = some (11 / 2) := by
  have h1 : truncZ (3 / 2) = 1 := by
    have := truncZ_nat 1 (1 / 2) (by norm_num) (by norm_num)
    rw [show (3 / 2 : ℝ) = ((1 : ℕ) : ℝ) + 1 / 2 by norm_num, this]; rfl
  have h0 : truncZ 0 = 0 := by simpa using truncZ_nat 0 0 (le_refl _) one_pos
  have hn : V3.norm ⟨0, 0, 0⟩ = 0 := by simp [V3.norm]
  simp only [getMmf, sub_x, sub_y, sub_z, sub_zero, hn, Int.cast_one, div_one, h1, h0]
  norm_num [getZ, show Int.toNat 2 = 2 from rfl]

/-- A point in the middle of cell (0, 1) of a 3 × 3 table with raster width 2. -/
example : getMmf ⟨⟨0, 0, 0⟩, 3, 3, 2, 3, 3, [1, 2, 3, 4, 5, 6, 7, 8, 9]⟩ ⟨1, 0, 3⟩ = some 4 := by
  have h : HasValues ⟨⟨0, 0, 0⟩, 3, 3, 2, 3, 3, [1, 2, 3, 4, 5, 6, 7, 8, 9]⟩ (fun i j => 3 * i + j + 1) := by
    intro i j hi hj
    simp only at hi hj
    interval_cases i <;> interval_cases j <;> norm_num
  have := C53_bilinear_partial _ _ h (by norm_num) ⟨1, 0, 3⟩ 0 1 (1 / 2) (1 / 2) (by norm_num) (by norm_num)
    (by norm_num) (by norm_num) (by norm_num) (by norm_num) (by norm_num) (by norm_num)
  rw [this]; norm_num

/-! ### C68 -/

theorem nodes_get {β : Type} (f : ℕ → ℕ → β) (nz : ℕ) : ∀ (nr i j : ℕ), i < nr → j < nz →
    ((List.range nr).flatMap fun i : ℕ => (List.range nz).map fun j : ℕ => f i j)[i * nz + j]? = some (f i j)
  | 0, i, j, hi, _ => absurd hi (by omega)
  | nr + 1, i, j, hi, hj => by
    have hlen : ((List.range nr).flatMap fun i : ℕ => (List.range nz).map fun j : ℕ => f i j).length = nr * nz := by
      simp [List.length_flatMap]
    rw [List.range_succ, List.flatMap_append]
    rcases Nat.lt_or_ge i nr with h | h
    · have : (i + 1) * nz ≤ nr * nz := Nat.mul_le_mul_right _ (by omega)
      have h2 : (i + 1) * nz = i * nz + nz := by ring
      rw [List.getElem?_append_left (by rw [hlen]; omega)]
      exact nodes_get f nz nr i j h hj
    · have : i = nr := by omega
      subst this
      rw [List.getElem?_append_right (by rw [hlen]; omega), hlen]
      simp [hj]

theorem mapM_get {α β : Type} (f : α → Option β) : ∀ (l : List α) (r : List β), l.mapM f = some r →
    ∀ (k : ℕ) (a : α), l[k]? = some a → ∃ b, f a = some b ∧ r[k]? = some b
  | [], r, h, k, a, ha => by simp at ha
  | x :: l, r, h, k, a, ha => by
    simp only [List.mapM_cons, Option.bind_eq_bind, Option.bind_eq_some_iff, Option.pure_def,
      Option.some.injEq] at h
    obtain ⟨b, hb, bs, hbs, rfl⟩ := h
    cases k with
    | zero => simp at ha; subst ha; exact ⟨b, hb, rfl⟩
    | succ k => simpa using mapM_get f l bs hbs k a (by simpa using ha)

/-- The camera's height over the inner glass plane, as `init_mmlut` stores it, does not depend on the
corner. -/
theorem lutCorners_z0 {ip : ImgPar} {mm : MM} {d zMin zMax L : ℝ} {cal : Cam} {g : V3} {s s' : LutRange}
    (hL : 0 < L) (hg : g.norm = 1) (hglass : cal.glass = g.smul L)
    (h : lutCorners ip mm d zMin zMax cal s = some s') : s'.z0 = cal.pos.dot g - L := by
  simp only [lutCorners, Option.bind_eq_bind, Option.bind_eq_some_iff] at h
  obtain ⟨s1, -, s2, -, s3, -, h⟩ := h
  simp only [lutCorner, Option.map_eq_some_iff] at h
  obtain ⟨pa, -, h⟩ := h
  rw [← h]
  simp only [lutWiden]
  rw [transCamPoint_eq hL hg hglass]

/-- What a freshly initialised table looks like. -/
theorem initMmlut_fresh {v : VPar} {ip : ImgPar} {mm : MM} {cal : Cam} {t : LUT}
    (h : initMmlut v ip mm cal emptyLUT = some t) :
    ∃ d ds s, mm.d = d :: ds ∧
      lutCorners ip mm d (lutZMin v) (lutZMax v) cal ⟨lutZMin v, lutZMax v, 0, 0⟩ = some s ∧
      t.origin = ⟨0, 0, s.zMin⟩ ∧ t.nr = lutNr s ∧ t.nz = lutNz s ∧ t.rw = 2 ∧
      lutValues emptyLUT mm s t.nr t.nz = some t.data := by
  cases hd : mm.d with
  | nil => simp [initMmlut, hd] at h
  | cons d ds =>
    simp only [initMmlut, hd, Option.bind_eq_bind, Option.bind_eq_some_iff] at h
    obtain ⟨s, hs, h⟩ := h
    rw [if_pos ⟨rfl, rfl⟩] at h
    simp only [Option.bind_eq_some_iff, Option.some.injEq] at h
    obtain ⟨data, h1, h2⟩ := h
    refine ⟨d, ds, s, rfl, hs, ?_⟩
    subst h2
    exact ⟨rfl, rfl, rfl, rfl, h1⟩

/-- C68: a freshly initialised table holds at each raster point the radial factor that the iteration
computes for that radius and height, for the camera's height over the glass. -/
theorem C68_values (v : VPar) (ip : ImgPar) (mm : MM) (cal : Cam) (t : LUT) (g : V3) (L : ℝ)
    (hL : 0 < L) (hg : g.norm = 1) (hglass : cal.glass = g.smul L)
    (h : initMmlut v ip mm cal emptyLUT = some t) :
    ∃ tab, HasValues t tab ∧ ∀ i j, i < t.nr → j < t.nz →
      multimedRNlay emptyLUT 0 0 (cal.pos.dot g - L) mm ⟨2 * i, 0, t.origin.z + 2 * j⟩ = some (tab i j) := by
  obtain ⟨d, ds, s, hd, hs, ho, hnr, hnz, -, hv⟩ := initMmlut_fresh h
  have hz0 := lutCorners_z0 hL hg hglass hs
  have key : ∀ i j, i < t.nr → j < t.nz → ∃ b,
      multimedRNlay emptyLUT 0 0 (cal.pos.dot g - L) mm ⟨2 * i, 0, t.origin.z + 2 * j⟩ = some b ∧
      t.data[i * t.nz + j]? = some b := by
    intro i j hi hj
    obtain ⟨b, h1, h2⟩ := mapM_get _ _ _ hv (i * t.nz + j) ((i : ℝ), (j : ℝ))
      (nodes_get (fun i j : ℕ => ((i : ℝ), (j : ℝ))) t.nz t.nr i j hi hj)
    refine ⟨b, ?_, h2⟩
    rw [← h1, hz0, ho]
    show multimedRNlay (projLUT emptyLUT) 0 0 _ mm _ = _
    congr 1
    ext <;> simp only <;> ring
  refine ⟨fun i j => (t.data[i * t.nz + j]?).getD 0, ?_, ?_⟩
  · intro i j hi hj
    obtain ⟨b, -, h2⟩ := key i j hi hj
    simp [h2]
  · intro i j hi hj
    obtain ⟨b, h1, h2⟩ := key i j hi hj
    rw [h1]
    simp [h2]

/-- C68: looking up a raster point (not on the last lines) in a freshly initialised table gives exactly
the factor the iteration computes without a table. -/
theorem C68_lookup_partial (v : VPar) (ip : ImgPar) (mm : MM) (cal : Cam) (t : LUT) (g : V3) (L : ℝ)
    (hL : 0 < L) (hg : g.norm = 1) (hglass : cal.glass = g.smul L)
    (h : initMmlut v ip mm cal emptyLUT = some t) (i j : ℕ) (hi : i + 1 < t.nr) (hj : j + 1 < t.nz) :
    getMmf t ⟨2 * i, 0, t.origin.z + 2 * j⟩
      = multimedRNlay emptyLUT 0 0 (cal.pos.dot g - L) mm ⟨2 * i, 0, t.origin.z + 2 * j⟩ := by
  obtain ⟨tab, h1, h2⟩ := C68_values v ip mm cal t g L hL hg hglass h
  obtain ⟨d, ds, s, hd, hs, ho, hnr, hnz, hrw, hv⟩ := initMmlut_fresh h
  rw [h2 i j (by omega) (by omega)]
  rw [C53_bilinear_partial t tab h1 (by rw [hrw]; norm_num) _ i j 0 0 (le_refl _) one_pos (le_refl _) one_pos hi hj]
  · simp
  · rw [ho, hrw]
    simp only [sub_zero]
    rw [show ((2 : ℝ) * i) ^ 2 + 0 ^ 2 = (2 * i) ^ 2 by ring, Real.sqrt_sq (by positivity)]
    push_cast; ring
  · rw [hrw]; push_cast; ring

/-! Radial range -/

theorem lutNr_eq {s : LutRange} (h : 0 ≤ s.rMax) : (lutNr s : ℤ) = ⌊s.rMax / 2⌋ + 2 := by
  have h0 : 0 ≤ s.rMax / 2 := by positivity
  have hf : (0 : ℤ) ≤ ⌊s.rMax / 2⌋ := Int.floor_nonneg.2 h0
  have e : (s.rMax + (2 - fmod s.rMax 2)) / 2 + 1 = ((⌊s.rMax / 2⌋ + 2 : ℤ) : ℝ) := by
    rw [fmod, truncZ_of_nonneg h0]; push_cast; ring
  rw [lutNr, e, truncZ_of_nonneg (by exact_mod_cast (by omega : (0 : ℤ) ≤ ⌊s.rMax / 2⌋ + 2)), Int.floor_intCast]
  omega

/-- The radius and the height of `M` in the camera's glass frame are within `s`. -/
def InRange (cal : Cam) (d : ℝ) (M : V3) (s : LutRange) : Prop :=
  s.zMin ≤ (transCamPoint cal.pos d cal.glass M).1.z ∧ (transCamPoint cal.pos d cal.glass M).1.z ≤ s.zMax ∧
  (transCamPoint cal.pos d cal.glass M).1.x ≤ s.rMax

def RWider (s s' : LutRange) : Prop := s'.zMin ≤ s.zMin ∧ s.zMax ≤ s'.zMax ∧ s.rMax ≤ s'.rMax

theorem RWider.trans {a b c : LutRange} (h1 : RWider a b) (h2 : RWider b c) : RWider a c :=
  ⟨h2.1.trans h1.1, h1.2.1.trans h2.2.1, h1.2.2.trans h2.2.2⟩

theorem InRange.mono {cal : Cam} {d : ℝ} {M : V3} {s s' : LutRange} (h : InRange cal d M s) (w : RWider s s') :
    InRange cal d M s' := ⟨w.1.trans h.1, h.2.1.trans w.2.1, h.2.2.trans w.2.2⟩

theorem lutWiden_spec (cal : Cam) (d z : ℝ) (pos a : V3) (s : LutRange) :
    RWider s (lutWiden cal d z pos a s).1 ∧ InRange cal d (moveAlongRay z pos a).1 (lutWiden cal d z pos a s).1 := by
  have hn : (transCamPoint cal.pos d cal.glass (moveAlongRay z pos a).1).1.x
      ≤ V3.norm ⟨(transCamPoint cal.pos d cal.glass (moveAlongRay z pos a).1).1.x - 0,
        (transCamPoint cal.pos d cal.glass (moveAlongRay z pos a).1).1.y - 0, 0⟩ := by
    set q := (transCamPoint cal.pos d cal.glass (moveAlongRay z pos a).1).1
    rw [V3.norm]
    exact Real.le_sqrt_of_sq_le (by simp only [sub_zero]; nlinarith [mul_self_nonneg q.y])
  simp only [lutWiden, RWider, InRange]
  refine ⟨⟨?_, ?_, ?_⟩, ?_, ?_, ?_⟩ <;> split_ifs <;> linarith

theorem lutCorner_spec {ip : ImgPar} {mm : MM} {d zMin zMax : ℝ} {cal : Cam} {xc yc : ℝ} {s s' : LutRange}
    (h : lutCorner ip mm d zMin zMax cal xc yc s = some s') :
    RWider s s' ∧ ∀ X a M, cornerRay ip cal mm xc yc = some (X, a) → a.z ≠ 0 → OnLine X a M →
      (M.z = zMin ∨ M.z = zMax) → InRange cal d M s' := by
  simp only [lutCorner, Option.map_eq_some_iff] at h
  obtain ⟨pa, h1, h2⟩ := h
  obtain ⟨w1, c1⟩ := lutWiden_spec cal d zMin pa.1 pa.2 s
  obtain ⟨w2, c2⟩ := lutWiden_spec cal d zMax pa.1 (lutWiden cal d zMin pa.1 pa.2 s).2
    (lutWiden cal d zMin pa.1 pa.2 s).1
  rw [h2] at w2 c2
  refine ⟨w1.trans w2, ?_⟩
  intro X a M hr ha hM hz
  rw [h1] at hr
  cases hr
  have e2 : (lutWiden cal d zMin X a s).2 = a := (C29_move_along_ray zMin X a ha).2.2.2
  simp only [e2] at c2
  rcases hz with hz | hz
  · have := (C29_move_along_ray zMin X a ha).2.2.1 M hM hz
    rw [this]; exact c1.mono w2
  · have := (C29_move_along_ray zMax X a ha).2.2.1 M hM hz
    rw [this]; exact c2

theorem lutCorners_spec {ip : ImgPar} {mm : MM} {d zMin zMax : ℝ} {cal : Cam} {s s' : LutRange}
    (h : lutCorners ip mm d zMin zMax cal s = some s') :
    RWider s s' ∧ ∀ c ∈ imageCorners ip, ∀ X a M, cornerRay ip cal mm c.1 c.2 = some (X, a) → a.z ≠ 0 →
      OnLine X a M → (M.z = zMin ∨ M.z = zMax) → InRange cal d M s' := by
  simp only [lutCorners, Option.bind_eq_bind, Option.bind_eq_some_iff] at h
  obtain ⟨b1, h1, b2, h2, b3, h3, h4⟩ := h
  obtain ⟨w1, c1⟩ := lutCorner_spec h1
  obtain ⟨w2, c2⟩ := lutCorner_spec h2
  obtain ⟨w3, c3⟩ := lutCorner_spec h3
  obtain ⟨w4, c4⟩ := lutCorner_spec h4
  refine ⟨w1.trans (w2.trans (w3.trans w4)), ?_⟩
  intro c hc X a M hr ha hM hz
  simp only [imageCorners, List.mem_cons, List.not_mem_nil, or_false] at hc
  rcases hc with rfl | rfl | rfl | rfl
  · exact (c1 X a M hr ha hM hz).mono (w2.trans (w3.trans w4))
  · exact (c2 X a M hr ha hM hz).mono (w3.trans w4)
  · exact (c3 X a M hr ha hM hz).mono w4
  · exact c4 X a M hr ha hM hz

/-- C68, range: the table covers the corner rays between its rounded depths: where a corner ray of the
image has the rounded lower or upper depth, its radius (distance from the camera's normal) is inside the
last but one radial raster line, and its height over the inner glass plane is not below the table's
origin and at most one cell above the last raster line. Missing: the topmost cell (C53), and the volume's
own lower limit (next theorem). -/
theorem C68_range_partial (v : VPar) (ip : ImgPar) (mm : MM) (cal : Cam) (t : LUT)
    (h : initMmlut v ip mm cal emptyLUT = some t) (d : ℝ) (hd : mm.d.head? = some d) (c : ℝ × ℝ) (hc : c ∈ imageCorners ip) (X a M : V3)
    (hr : cornerRay ip cal mm c.1 c.2 = some (X, a)) (ha : a.z ≠ 0) (hM : OnLine X a M)
    (hz : M.z = lutZMin v ∨ M.z = lutZMax v) :
    (transCamPoint cal.pos d cal.glass M).1.x < 2 * ((t.nr : ℝ) - 1) ∧
    t.origin.z ≤ (transCamPoint cal.pos d cal.glass M).1.z ∧
    (transCamPoint cal.pos d cal.glass M).1.z < t.origin.z + 2 * t.nz := by
  obtain ⟨d', ds, s, hd', hs, ho, hnr, hnz, hrw, hv⟩ := initMmlut_fresh h
  rw [hd'] at hd
  simp at hd
  subst hd
  obtain ⟨w, cov⟩ := lutCorners_spec hs
  obtain ⟨r1, r2, r3⟩ := cov c hc X a M hr ha hM hz
  have hr0 : 0 ≤ s.rMax := w.2.2
  have hn := lutNr_eq hr0
  rw [← hnr] at hn
  refine ⟨?_, ?_, ?_⟩
  · have h1 : s.rMax / 2 < ⌊s.rMax / 2⌋ + 1 := Int.lt_floor_add_one _
    have h2 : (t.nr : ℝ) = ⌊s.rMax / 2⌋ + 2 := by exact_mod_cast hn
    rw [h2]
    linarith
  · rw [ho]; exact r1
  · have hzz : 0 ≤ (s.zMax - s.zMin) / 2 + 1 := by linarith
    have hnz' : (t.nz : ℤ) = ⌊(s.zMax - s.zMin) / 2 + 1⌋ := by
      rw [hnz, lutNz, truncZ_of_nonneg hzz]
      have := Int.floor_nonneg.2 hzz
      omega
    have h1 := Int.lt_floor_add_one ((s.zMax - s.zMin) / 2 + 1)
    have h2 : (t.nz : ℝ) = (⌊(s.zMax - s.zMin) / 2 + 1⌋ : ℤ) := by exact_mod_cast hnz'
    rw [ho, h2]
    simp only
    linarith

/-- `r` is the even number next to `z`, between `z` and zero. -/
def EvenTowardsZero (z r : ℝ) : Prop := (∃ k : ℤ, r = 2 * k) ∧ |r| ≤ |z| ∧ |z - r| < 2 ∧ 0 ≤ z * r

theorem evenTowardsZero_trunc (z : ℝ) : EvenTowardsZero z (z - fmod z 2) := by
  have e : z - fmod z 2 = 2 * (truncZ (z / 2) : ℝ) := by
    simp only [fmod]
    ring
  rw [e]
  refine ⟨⟨_, rfl⟩, ?_⟩
  unfold truncZ
  by_cases hz : 0 ≤ z
  · have hz2 : 0 ≤ z / 2 := by linarith
    rw [if_pos hz2]
    have h1 := Int.floor_le (z / 2)
    have h2 := Int.lt_floor_add_one (z / 2)
    have h3 : (0 : ℝ) ≤ (⌊z / 2⌋ : ℝ) := by exact_mod_cast Int.floor_nonneg.2 hz2
    refine ⟨?_, ?_, by positivity⟩
    · rw [abs_of_nonneg hz, abs_of_nonneg (by linarith)]
      linarith
    · rw [abs_lt]
      constructor <;> linarith
  · have hz2 : ¬ 0 ≤ z / 2 := by intro h; apply hz; linarith
    rw [if_neg hz2]
    have h1 := Int.le_ceil (z / 2)
    have h2 := Int.ceil_lt_add_one (z / 2)
    have h3 : (⌈z / 2⌉ : ℝ) ≤ 0 := by exact_mod_cast Int.ceil_le.2 (by push_cast; linarith)
    refine ⟨?_, ?_, mul_nonneg_of_nonpos_of_nonpos (by linarith) (by linarith)⟩
    · rw [abs_of_nonpos (show (2 * (⌈z / 2⌉ : ℝ)) ≤ 0 by linarith), abs_of_neg (not_le.1 hz)]
      linarith
    · rw [abs_lt]
      constructor <;> linarith

/-- C68, depths: the depths between which the table is made. The lower one is the lowest lower limit of the volume, rounded towards
zero to an even number; the upper one is two more than the highest upper limit, rounded towards zero to an even number, and so lies
above both upper limits. -/
theorem C68_depths_partial (v : VPar) :
    EvenTowardsZero (min v.zMin0 v.zMin1) (lutZMin v) ∧ EvenTowardsZero (max v.zMax0 v.zMax1) (lutZMax v - 2) ∧
    v.zMax0 < lutZMax v ∧ v.zMax1 < lutZMax v ∧ (0 ≤ v.zMin0 → 0 ≤ v.zMin1 → lutZMin v ≤ v.zMin0 ∧ lutZMin v ≤ v.zMin1) := by
  have h1 := evenTowardsZero_trunc (min v.zMin0 v.zMin1)
  have h2 := evenTowardsZero_trunc (max v.zMax0 v.zMax1)
  have e : lutZMax v - 2 = max v.zMax0 v.zMax1 - fmod (max v.zMax0 v.zMax1) 2 := by
    unfold lutZMax
    ring
  refine ⟨h1, by rw [e]; exact h2, ?_, ?_, ?_⟩
  · have := (abs_lt.1 h2.2.2.1).2
    rw [← e] at this
    linarith [le_max_left v.zMax0 v.zMax1]
  · have := (abs_lt.1 h2.2.2.1).2
    rw [← e] at this
    linarith [le_max_right v.zMax0 v.zMax1]
  · intro a b
    have hm : 0 ≤ min v.zMin0 v.zMin1 := le_min a b
    have h3 : lutZMin v ≤ min v.zMin0 v.zMin1 := by
      have := h1.2.1
      rw [abs_of_nonneg hm] at this
      exact (le_abs_self _).trans this
    exact ⟨h3.trans (min_le_left _ _), h3.trans (min_le_right _ _)⟩

/-- The rounding of a negative lower limit goes the wrong way: a volume from z = -5 up gives a table from
the plane z = -4. -/
theorem C68_lower_limit_refuted (zMax : ℝ) : lutZMin ⟨0, 1, -5, -5, zMax, zMax⟩ = -4 := by
  have : truncZ (-5 / 2) = -2 := by
    rw [truncZ, if_neg (by norm_num), Int.ceil_eq_iff]; norm_num
  simp only [lutZMin, min_self, fmod, this]
  norm_num

/-- C68, stale data: a second `init_mmlut` (after the camera or the volume changed) replaces the header
but keeps the old values. -/
theorem C68_stale_refuted (v : VPar) (ip : ImgPar) (mm : MM) (cal : Cam) (old t : LUT)
    (hold : ¬ (old.rows = 0 ∧ old.cols = 0)) (h : initMmlut v ip mm cal old = some t) : t.data = old.data := by
  cases hd : mm.d with
  | nil => simp [initMmlut, hd] at h
  | cons d ds =>
    simp only [initMmlut, hd, Option.bind_eq_bind, Option.bind_eq_some_iff] at h
    obtain ⟨s, hs, h⟩ := h
    rw [if_neg hold, Option.some.injEq] at h
    rw [← h]

theorem lutValues_total (mm : MM) (s : LutRange) (n : ℝ) (ns : List ℝ) (hn : mm.n2 = n :: ns) (nr nz : ℕ) :
    ∃ r, lutValues emptyLUT mm s nr nz = some r := by
  have : ∀ (f : ℝ × ℝ → Option ℝ), (∀ x, ∃ y, f x = some y) → ∀ l, ∃ r, List.mapM f l = some r := by
    intro f hf l
    induction l with
    | nil => exact ⟨[], rfl⟩
    | cons x l ih =>
      obtain ⟨y, hy⟩ := hf x
      obtain ⟨r, hr⟩ := ih
      exact ⟨y :: r, by simp [List.mapM_cons, hy, hr]⟩
  apply this
  intro x
  simp only [multimedRNlay, hn]
  split_ifs with h1 h2
  · exact ⟨_, rfl⟩
  · exact ⟨_, rfl⟩
  · exact absurd ⟨rfl, rfl⟩ h2

/-- Not vacuous: for the camera of C52 a table is made. -/
example : ∃ t, initMmlut ⟨-1, 1, -10, -10, 0, 0⟩ ⟨6, 0, 1, 1⟩ ⟨1, 1, [1], 1, [1]⟩ volCal emptyLUT = some t := by
  have r : ∀ x y : ℝ, ∃ p, cornerRay ⟨6, 0, 1, 1⟩ volCal ⟨1, 1, [1], 1, [1]⟩ x y = some p := by
    intro x y; exact ⟨_, rfl⟩
  have lc : ∀ d a b x y s, ∃ s', lutCorner ⟨6, 0, 1, 1⟩ ⟨1, 1, [1], 1, [1]⟩ d a b volCal x y s = some s' := by
    intro d a b x y s
    obtain ⟨p, hp⟩ := r x y
    exact ⟨_, by simp only [lutCorner, hp, Option.map_some]; rfl⟩
  have lcs : ∀ d a b s, ∃ s', lutCorners ⟨6, 0, 1, 1⟩ ⟨1, 1, [1], 1, [1]⟩ d a b volCal s = some s' := by
    intro d a b s
    obtain ⟨s1, h1⟩ := lc d a b 0 0 s
    obtain ⟨s2, h2⟩ := lc d a b 0 ((0 : ℕ) : ℝ) s1
    obtain ⟨s3, h3⟩ := lc d a b ((6 : ℕ) : ℝ) 0 s2
    obtain ⟨s4, h4⟩ := lc d a b ((6 : ℕ) : ℝ) ((0 : ℕ) : ℝ) s3
    exact ⟨s4, by simp only [lutCorners, h1, h2, h3, h4, Option.bind_eq_bind, Option.bind_some]⟩
  obtain ⟨s, hs⟩ := lcs 1 (lutZMin ⟨-1, 1, -10, -10, 0, 0⟩) (lutZMax ⟨-1, 1, -10, -10, 0, 0⟩)
    ⟨lutZMin ⟨-1, 1, -10, -10, 0, 0⟩, lutZMax ⟨-1, 1, -10, -10, 0, 0⟩, 0, 0⟩
  obtain ⟨data, hdata⟩ := lutValues_total ⟨1, 1, [1], 1, [1]⟩ s 1 [] rfl (lutNr s) (lutNz s)
  rw [← Option.isSome_iff_exists]
  simp only [initMmlut, hs, Option.bind_eq_bind, Option.bind_some]
  rw [if_pos ⟨rfl, rfl⟩, hdata]
  rfl

end Verif.Geo
