/-
Model of openptv_python/vec_utils.py: 3-vectors of reals.
Floating point is idealised to ℝ.
-/
import Mathlib.Analysis.SpecialFunctions.Pow.Real
import Mathlib.Analysis.Real.Sqrt
import Mathlib.Tactic.Ring
import Mathlib.Tactic.FieldSimp
import Mathlib.Tactic.Linarith
import Mathlib.Tactic.Positivity

namespace Verif.Geo

/-- A length-3 float array. -/
@[ext] structure V3 where
  x : ℝ
  y : ℝ
  z : ℝ

namespace V3

/-- numpy `+` on length-3 arrays; vec_utils.py:41-43 `vec_add`. -/
instance : Add V3 := ⟨fun a b => ⟨a.x + b.x, a.y + b.y, a.z + b.z⟩⟩
/-- numpy `-`; vec_utils.py:35-37 `vec_subt`. -/
instance : Sub V3 := ⟨fun a b => ⟨a.x - b.x, a.y - b.y, a.z - b.z⟩⟩
/-- numpy zero array; vec_utils.py:96-99 `vec_init`. -/
instance : Zero V3 := ⟨⟨0, 0, 0⟩⟩

/-- `vec * scalar`; vec_utils.py:47-49 `vec_scalar_mul`. -/
def smul (a : V3) (s : ℝ) : V3 := ⟨a.x * s, a.y * s, a.z * s⟩

/-- `np.dot` on two length-3 arrays; vec_utils.py:60-63 `vec_dot`. -/
def dot (a b : V3) : ℝ := a.x * b.x + a.y * b.y + a.z * b.z

/-- vec_utils.py:67-76 `vec_cross`. -/
def cross (a b : V3) : V3 :=
  ⟨a.y * b.z - a.z * b.y, a.z * b.x - a.x * b.z, a.x * b.y - a.y * b.x⟩

/-- vec_utils.py:12-14 `vec_norm`, and `np.linalg.norm`. -/
noncomputable def norm (a : V3) : ℝ := Real.sqrt (a.x * a.x + a.y * a.y + a.z * a.z)

/-- vec_utils.py:53-56 `vec_diff_norm`. -/
noncomputable def diffNorm (a b : V3) : ℝ :=
  Real.sqrt ((a.x - b.x) ^ 2 + (a.y - b.y) ^ 2 + (a.z - b.z) ^ 2)

/-- vec_utils.py:85-91 `unit_vector`: the zero vector is returned unchanged. -/
noncomputable def unit (a : V3) : V3 :=
  if a.norm = 0 then a else ⟨a.x / a.norm, a.y / a.norm, a.z / a.norm⟩

@[simp] theorem add_x (a b : V3) : (a + b).x = a.x + b.x := rfl
@[simp] theorem add_y (a b : V3) : (a + b).y = a.y + b.y := rfl
@[simp] theorem add_z (a b : V3) : (a + b).z = a.z + b.z := rfl
@[simp] theorem sub_x (a b : V3) : (a - b).x = a.x - b.x := rfl
@[simp] theorem sub_y (a b : V3) : (a - b).y = a.y - b.y := rfl
@[simp] theorem sub_z (a b : V3) : (a - b).z = a.z - b.z := rfl
@[simp] theorem zero_x : (0 : V3).x = 0 := rfl
@[simp] theorem zero_y : (0 : V3).y = 0 := rfl
@[simp] theorem zero_z : (0 : V3).z = 0 := rfl
@[simp] theorem smul_x (a : V3) (s : ℝ) : (a.smul s).x = a.x * s := rfl
@[simp] theorem smul_y (a : V3) (s : ℝ) : (a.smul s).y = a.y * s := rfl
@[simp] theorem smul_z (a : V3) (s : ℝ) : (a.smul s).z = a.z * s := rfl

theorem norm_nonneg (a : V3) : 0 ≤ a.norm := Real.sqrt_nonneg _

theorem norm_mul_self (a : V3) : a.norm * a.norm = a.x * a.x + a.y * a.y + a.z * a.z :=
  Real.mul_self_sqrt (by nlinarith [mul_self_nonneg a.x, mul_self_nonneg a.y, mul_self_nonneg a.z])

theorem norm_sq (a : V3) : a.norm ^ 2 = dot a a := by
  rw [pow_two, norm_mul_self, dot]

theorem norm_eq_zero {a : V3} : a.norm = 0 ↔ a = 0 := by
  constructor
  · intro h
    have h2 := norm_mul_self a
    rw [h] at h2
    ext
    · show a.x = 0
      nlinarith [mul_self_nonneg a.x, mul_self_nonneg a.y, mul_self_nonneg a.z]
    · show a.y = 0
      nlinarith [mul_self_nonneg a.x, mul_self_nonneg a.y, mul_self_nonneg a.z]
    · show a.z = 0
      nlinarith [mul_self_nonneg a.x, mul_self_nonneg a.y, mul_self_nonneg a.z]
  · rintro rfl; simp [norm]

theorem norm_pos {a : V3} (h : a ≠ 0) : 0 < a.norm :=
  lt_of_le_of_ne (norm_nonneg a) (fun e => h (norm_eq_zero.1 e.symm))

theorem unit_of_ne {a : V3} (h : a ≠ 0) : a.unit = a.smul (1 / a.norm) := by
  have : a.norm ≠ 0 := fun e => h (norm_eq_zero.1 e)
  rw [unit, if_neg this]; ext <;> simp [div_eq_mul_inv]

theorem unit_zero : (0 : V3).unit = 0 := by
  rw [unit, if_pos (norm_eq_zero.2 rfl)]

theorem norm_smul (a : V3) (s : ℝ) : (a.smul s).norm = a.norm * |s| := by
  rw [norm, norm, ← Real.sqrt_sq_eq_abs, ← Real.sqrt_mul
    (by nlinarith [mul_self_nonneg a.x, mul_self_nonneg a.y, mul_self_nonneg a.z])]
  congr 1; simp; ring

theorem norm_unit {a : V3} (h : a ≠ 0) : a.unit.norm = 1 := by
  have hp := norm_pos h
  rw [unit_of_ne h, norm_smul, abs_of_pos (by positivity)]
  field_simp

theorem diffNorm_eq (a b : V3) : diffNorm a b = (a - b).norm := by
  simp only [diffNorm, norm, sub_x, sub_y, sub_z, pow_two]

theorem dot_comm (a b : V3) : dot a b = dot b a := by simp only [dot]; ring

theorem dot_self_nonneg (a : V3) : 0 ≤ dot a a := by
  rw [← norm_sq]; positivity

theorem dot_self_eq_zero {a : V3} : dot a a = 0 ↔ a = 0 := by
  rw [← norm_sq, pow_eq_zero_iff (by norm_num), norm_eq_zero]

theorem unit_unit_dot {a : V3} (h : a ≠ 0) : dot a.unit a.unit = 1 := by
  rw [← norm_sq, norm_unit h]; norm_num

end V3

/-- A 3×3 float array, by rows. -/
@[ext] structure M3 where
  r0 : V3
  r1 : V3
  r2 : V3

namespace M3
/-- `m @ v`. -/
def mulVec (m : M3) (v : V3) : V3 := ⟨m.r0.dot v, m.r1.dot v, m.r2.dot v⟩
/-- `m[:, 0]`. -/
def c0 (m : M3) : V3 := ⟨m.r0.x, m.r1.x, m.r2.x⟩
/-- `m[:, 1]`. -/
def c1 (m : M3) : V3 := ⟨m.r0.y, m.r1.y, m.r2.y⟩
/-- `m[:, 2]`. -/
def c2 (m : M3) : V3 := ⟨m.r0.z, m.r1.z, m.r2.z⟩
end M3

end Verif.Geo
