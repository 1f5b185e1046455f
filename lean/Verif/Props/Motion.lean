/-
C47: angle and acceleration. C48: prediction and velocity gates. C64: search window in the images.
-/
import Verif.Model.Motion
import Verif.Spec.Motion
import Verif.Props.Multimed
import Verif.Props.Trafo

namespace Verif.Geo
open V3 Spec

/-! ### C48 -/

/-- C48: for a particle in uniform motion both predictors give its exact next position (the 2D one in
any two image coordinates), at every time. -/
theorem C48_prediction_exact (p u : V3) (n : ℤ) :
    searchVolumeCenterMoving (uniform p u (n - 1)) (uniform p u n) = uniform p u (n + 1) ∧
    predict ((uniform p u (n - 1)).x, (uniform p u (n - 1)).y) ((uniform p u n).x, (uniform p u n).y)
      = ((uniform p u (n + 1)).x, (uniform p u (n + 1)).y) := by
  constructor
  · ext <;> simp [searchVolumeCenterMoving, uniform] <;> ring
  · ext <;> simp [predict, uniform] <;> ring

/-- C48: for any motion, the prediction error is the second difference of the positions. -/
theorem C48_prediction_error (x0 x1 x2 : V3) :
    x2 - searchVolumeCenterMoving x0 x1 = (x2 - x1) - (x1 - x0) := by
  ext <;> simp [searchVolumeCenterMoving] <;> ring

/-- C48: the gate accepts exactly the displacements strictly between the limits in every component; in
particular none when a lower limit is not below its upper limit, and every accepted displacement puts the
new position in the box around the old one. -/
theorem C48_gate (p q : V3) (v : Vel) :
    (Pos3dInBounds (q - p) v ↔ InOpenBox p v.lo v.hi q) ∧
    (v.hi.x ≤ v.lo.x ∨ v.hi.y ≤ v.lo.y ∨ v.hi.z ≤ v.lo.z → ¬ Pos3dInBounds (q - p) v) ∧
    (Pos3dInBounds (q - p) v → InBox p v.lo v.hi q) := by
  simp only [Pos3dInBounds, InBox, InOpenBox, sub_x, sub_y, sub_z]
  refine ⟨⟨?_, ?_⟩, ?_, ?_⟩
  · rintro ⟨⟨a, b⟩, ⟨c, d⟩, e, f⟩
    exact ⟨⟨by linarith, by linarith⟩, ⟨by linarith, by linarith⟩, by linarith, by linarith⟩
  · rintro ⟨⟨a, b⟩, ⟨c, d⟩, e, f⟩
    exact ⟨⟨by linarith, by linarith⟩, ⟨by linarith, by linarith⟩, by linarith, by linarith⟩
  · rintro h ⟨⟨a, b⟩, ⟨c, d⟩, e, f⟩
    rcases h with h | h | h <;> linarith
  · rintro ⟨⟨a, b⟩, ⟨c, d⟩, e, f⟩
    exact ⟨⟨by linarith, by linarith⟩, ⟨by linarith, by linarith⟩, by linarith, by linarith⟩

example : Pos3dInBounds (⟨2, 3, 4⟩ - ⟨1, 3, 5⟩) ⟨⟨-2, -2, -2⟩, ⟨2, 2, 2⟩⟩ := by
  norm_num [Pos3dInBounds]

/-! ### C47 -/

theorem dot_sq_le (a b : V3) : (dot a b) ^ 2 ≤ (a.norm * b.norm) ^ 2 := by
  rw [mul_pow, norm_sq, norm_sq]
  simp only [dot]
  nlinarith [sq_nonneg (a.x * b.y - a.y * b.x), sq_nonneg (a.y * b.z - a.z * b.y),
    sq_nonneg (a.x * b.z - a.z * b.x)]

theorem abs_dot_le (a b : V3) : |dot a b| ≤ a.norm * b.norm := by
  have h := dot_sq_le a b
  have hn : 0 ≤ a.norm * b.norm := mul_nonneg (norm_nonneg _) (norm_nonneg _)
  exact abs_le_of_sq_le_sq h hn

theorem norm_sub_comm (a b : V3) : (a - b).norm = (b - a).norm := by
  simp only [V3.norm, sub_x, sub_y, sub_z]; congr 1; ring

theorem norm_smul_pos {a : V3} {r : ℝ} (h : 0 ≤ r) : (a.smul r).norm = a.norm * r := by
  rw [norm_smul, abs_of_nonneg h]

/-- Equality in the Cauchy inequality. -/
theorem dot_eq_iff {a b : V3} (ha : a ≠ 0) (hb : b ≠ 0) :
    dot a b = a.norm * b.norm ↔ SameDirection a b := by
  have pa := norm_pos ha
  have pb := norm_pos hb
  have na := norm_sq a
  have nb := norm_sq b
  constructor
  · intro h
    refine ⟨b.norm / a.norm, div_pos pb pa, ?_⟩
    have hz : (b.smul a.norm - a.smul b.norm) = 0 := by
      rw [← dot_self_eq_zero]
      have : dot (b.smul a.norm - a.smul b.norm) (b.smul a.norm - a.smul b.norm)
          = dot b b * a.norm ^ 2 + dot a a * b.norm ^ 2 - 2 * (a.norm * b.norm) * dot a b := by
        simp only [dot, sub_x, sub_y, sub_z, smul_x, smul_y, smul_z]; ring
      rw [this, h, ← na, ← nb]; ring
    have hx := congrArg V3.x hz
    have hy := congrArg V3.y hz
    have hw := congrArg V3.z hz
    simp only [sub_x, sub_y, sub_z, smul_x, smul_y, smul_z, zero_x, zero_y, zero_z] at hx hy hw
    ext
    · simp only [smul_x]; field_simp; linarith
    · simp only [smul_y]; field_simp; linarith
    · simp only [smul_z]; field_simp; linarith
  · rintro ⟨r, hr, rfl⟩
    rw [norm_smul_pos hr.le]
    have : dot a (a.smul r) = dot a a * r := by simp only [dot, smul_x, smul_y, smul_z]; ring
    rw [this, ← na]; ring

theorem dot_eq_neg_iff {a b : V3} (ha : a ≠ 0) (hb : b ≠ 0) :
    dot a b = -(a.norm * b.norm) ↔ Opposite a b := by
  have hn : (neg b).norm = b.norm := by simp [V3.norm, neg]
  have hnb : neg b ≠ 0 := by
    intro h; apply hb; rw [← V3.norm_eq_zero, ← hn, h, V3.norm_eq_zero]
  have h := dot_eq_iff ha hnb
  rw [hn] at h
  have hd : dot a (neg b) = - dot a b := by simp only [dot, neg]; ring
  rw [hd] at h
  constructor
  · intro e
    obtain ⟨r, hr, e'⟩ := h.1 (by rw [e]; ring)
    refine ⟨r, hr, ?_⟩
    have hx := congrArg V3.x e'
    have hy := congrArg V3.y e'
    have hw := congrArg V3.z e'
    simp only [neg, smul_x, smul_y, smul_z] at hx hy hw
    ext
    · simp only [smul_x]; linarith
    · simp only [smul_y]; linarith
    · simp only [smul_z]; linarith
  · rintro ⟨r, hr, rfl⟩
    have := h.2 ⟨r, hr, by ext <;> simp [neg]⟩
    linarith

/-- C47, acceleration: whenever `angle_acc` returns, the second value is the distance between predicted
and actual position, i.e. the norm of the second difference if the prediction was linear. -/
theorem C47_acceleration (start pred cand : V3) (angle acc : ℝ)
    (h : angleAcc start pred cand = .ok (angle, acc)) : acc = norm (cand - pred) := by
  have he : norm (pred - start - (cand - start)) = norm (cand - pred) := by
    rw [norm_sub_comm]
    congr 1
    ext <;> simp
  simp only [angleAcc] at h
  split_ifs at h <;> simp only [Except.ok.injEq, Prod.mk.injEq] at h <;> rw [← h.2, he]

theorem C47_second_difference (x0 x1 x2 : V3) (angle acc : ℝ)
    (h : angleAcc x1 (searchVolumeCenterMoving x0 x1) x2 = .ok (angle, acc)) :
    acc = norm ((x2 - x1) - (x1 - x0)) := by
  rw [C47_acceleration _ _ _ _ _ h, C48_prediction_error]

/-- C47, what holds: if the particle was predicted to move and the candidate has moved, the call returns
an angle in [0, 200] gon whose cosine is the normalised scalar product; it is 0 iff the direction of
motion is as predicted, and 200 iff it is opposite. Missing: a zero velocity, see the next theorems. -/
theorem C47_angle_partial (start pred cand : V3) (hp : pred - start ≠ 0) (hc : cand - start ≠ 0) :
    ∃ angle acc, angleAcc start pred cand = .ok (angle, acc) ∧ 0 ≤ angle ∧ angle ≤ 200 ∧
      Real.cos (angle * (Real.pi / 200)) * ((pred - start).norm * (cand - start).norm)
        = dot (pred - start) (cand - start) ∧
      (angle = 0 ↔ SameDirection (pred - start) (cand - start)) ∧
      (angle = 200 ↔ Opposite (pred - start) (cand - start)) := by
  set v0 := pred - start with hv0
  set v1 := cand - start with hv1
  have pa := norm_pos hp
  have pb := norm_pos hc
  have hpi := Real.pi_pos
  have hpos : 0 < v0.norm * v1.norm := mul_pos pa pb
  have hE := abs_le.1 (abs_dot_le v0 v1)
  have key : ∃ angle acc, angleAcc start pred cand = .ok (angle, acc) ∧
      angle = (200 / Real.pi) * Real.arccos (dot v0 v1 / (v0.norm * v1.norm)) := by
    have e1 : norm (start - pred) = v0.norm := norm_sub_comm _ _
    have e2 : norm (start - cand) = v1.norm := norm_sub_comm _ _
    simp only [angleAcc, ← hv0, ← hv1, e1, e2]
    split_ifs with h1 h2 h3
    · refine ⟨_, _, rfl, ?_⟩
      have : dot v0 v1 = -(v0.norm * v1.norm) := (dot_eq_neg_iff hp hc).2
        ⟨1, one_pos, by rw [h1]; ext <;> simp [neg]⟩
      rw [this, neg_div, div_self hpos.ne', Real.arccos_neg_one]
      field_simp
    · refine ⟨_, _, rfl, ?_⟩
      have : dot v0 v1 = v0.norm * v1.norm := (dot_eq_iff hp hc).2
        ⟨1, one_pos, by rw [h2]; ext <;> simp⟩
      rw [this, div_self hpos.ne', Real.arccos_one]
      ring
    · exact absurd h3 hpos.ne'
    · exact ⟨_, _, rfl, rfl⟩
  obtain ⟨angle, acc, h, hang⟩ := key
  set q := dot v0 v1 / (v0.norm * v1.norm) with hq
  have hq1 : -1 ≤ q := by rw [hq, le_div_iff₀ hpos]; linarith [hE.1]
  have hq2 : q ≤ 1 := by rw [hq, div_le_one hpos]; exact hE.2
  refine ⟨angle, acc, h, ?_, ?_, ?_, ?_, ?_⟩
  · rw [hang]; exact mul_nonneg (by positivity) (Real.arccos_nonneg _)
  · rw [hang]
    calc 200 / Real.pi * Real.arccos q ≤ 200 / Real.pi * Real.pi :=
          mul_le_mul_of_nonneg_left (Real.arccos_le_pi _) (by positivity)
      _ = 200 := by field_simp
  · have : angle * (Real.pi / 200) = Real.arccos q := by rw [hang]; field_simp
    rw [this, Real.cos_arccos hq1 hq2, hq, div_mul_cancel₀ _ hpos.ne']
  · rw [← dot_eq_iff hp hc, hang]
    constructor
    · intro e
      have : Real.arccos q = 0 := by
        rcases mul_eq_zero.1 e with e | e
        · exact absurd e (by positivity)
        · exact e
      have := Real.arccos_eq_zero.1 this
      have hq' : q = 1 := le_antisymm hq2 this
      rw [hq, div_eq_one_iff_eq hpos.ne'] at hq'
      exact hq'
    · intro e
      rw [hq, e, div_self hpos.ne', Real.arccos_one, mul_zero]
  · rw [← dot_eq_neg_iff hp hc, hang]
    constructor
    · intro e
      have : Real.arccos q = Real.pi := by field_simp at e; linarith
      have := Real.arccos_eq_pi.1 this
      have hq' : q = -1 := le_antisymm this hq1
      rw [hq, div_eq_iff hpos.ne'] at hq'
      linarith
    · intro e
      rw [hq, e, neg_div, div_self hpos.ne', Real.arccos_neg_one]
      field_simp

example : (⟨1, 0, 0⟩ : V3) - ⟨0, 0, 0⟩ ≠ 0 ∧ (⟨0, 2, 0⟩ : V3) - ⟨0, 0, 0⟩ ≠ 0 := by
  constructor <;> intro h
  · simpa using congrArg V3.x h
  · simpa using congrArg V3.y h

/-- C47 is false for a resting particle: predicted to rest and resting, it gets the angle 200 of a
complete reversal (with acceleration 0). -/
theorem C47_rest_refuted (p : V3) : angleAcc p p p = .ok (200, 0) := by
  have h0 : p - p = 0 := by ext <;> simp
  have h1 : (0 : V3) = neg 0 := by ext <;> simp [neg]
  have h2 : ((0 : V3) - 0).norm = 0 := norm_eq_zero.2 (by ext <;> simp)
  rw [angleAcc]
  simp only []
  rw [if_pos (by rw [h0]; exact h1), h0, h2]

/-- C47 is false when exactly one of the two velocities is zero (a particle that starts or stops moving):
the call raises ZeroDivisionError. -/
theorem C47_start_stop_refuted (p c : V3) (h : c ≠ p) :
    angleAcc p p c = .error .zeroDivision ∧ angleAcc p c p = .error .zeroDivision := by
  have h0 : p - p = 0 := by ext <;> simp
  have hz : ∀ v : V3, c - p = v → v = 0 → False := by
    intro v e1 e2
    rw [e2] at e1
    apply h
    have hx := congrArg V3.x e1
    have hy := congrArg V3.y e1
    have hw := congrArg V3.z e1
    simp only [sub_x, sub_y, sub_z, zero_x, zero_y, zero_z] at hx hy hw
    ext <;> linarith
  have hneg : ∀ v : V3, (0 : V3) = neg v → v = 0 := by
    intro v e
    have hx := congrArg V3.x e
    have hy := congrArg V3.y e
    have hw := congrArg V3.z e
    simp only [neg, zero_x, zero_y, zero_z] at hx hy hw
    ext <;> simp only [zero_x, zero_y, zero_z] <;> linarith
  have hn0 : neg 0 = (0 : V3) := by ext <;> simp [neg]
  have hnorm : (0 : V3).norm = 0 := norm_eq_zero.2 rfl
  constructor
  · rw [angleAcc]
    simp only []
    rw [if_neg (fun e => hz _ rfl (hneg _ (h0 ▸ e))), if_neg (fun e => hz _ rfl (h0 ▸ e.symm)), h0,
      hnorm, zero_mul, if_pos rfl]
  · rw [angleAcc]
    simp only []
    rw [if_neg (fun e => hz _ rfl (by rw [e, h0, hn0])), if_neg (fun e => hz _ rfl (by rw [e, h0])), h0,
      hnorm, mul_zero, if_pos rfl]

/-! ### C64 -/

theorem extend_le (a : Area) (c : ℝ × ℝ) :
    (a.extend c).xl ≤ a.xl ∧ a.xr ≤ (a.extend c).xr ∧ (a.extend c).yu ≤ a.yu ∧ a.yd ≤ (a.extend c).yd ∧
    (a.extend c).xl ≤ c.1 ∧ c.1 ≤ (a.extend c).xr ∧ (a.extend c).yu ≤ c.2 ∧ c.2 ≤ (a.extend c).yd := by
  simp only [Area.extend]
  refine ⟨?_, ?_, ?_, ?_, ?_, ?_, ?_, ?_⟩ <;> split_ifs <;> linarith

theorem areaLoop_covers {proj : V3 → Option (ℝ × ℝ)} {point : V3} {v : Vel} :
    ∀ (pts : List ℕ) (a b : Area), areaLoop proj point v pts a = some b →
    (b.xl ≤ a.xl ∧ a.xr ≤ b.xr ∧ b.yu ≤ a.yu ∧ a.yd ≤ b.yd) ∧
    ∀ pt ∈ pts, ∃ c, proj (quader point v pt) = some c ∧
      b.xl ≤ c.1 ∧ c.1 ≤ b.xr ∧ b.yu ≤ c.2 ∧ c.2 ≤ b.yd
  | [], a, b, h => by
    simp only [areaLoop, Option.some.injEq] at h
    subst h
    exact ⟨⟨le_refl _, le_refl _, le_refl _, le_refl _⟩, by simp⟩
  | pt :: pts, a, b, h => by
    simp only [areaLoop, Option.bind_eq_bind, Option.bind_eq_some_iff] at h
    obtain ⟨c, hc, h⟩ := h
    obtain ⟨⟨i1, i2, i3, i4⟩, ih⟩ := areaLoop_covers pts _ b h
    obtain ⟨e1, e2, e3, e4, e5, e6, e7, e8⟩ := extend_le a c
    refine ⟨⟨by linarith, by linarith, by linarith, by linarith⟩, ?_⟩
    intro q hq
    rcases List.mem_cons.1 hq with rfl | hq
    · exact ⟨c, hc, by linarith, by linarith, by linarith, by linarith⟩
    · exact ih q hq

/-- The corner of the velocity box with the upper limit chosen in the given components. -/
noncomputable def Spec.boxCorner (p : V3) (v : Vel) (bx b_y bz : Bool) : V3 :=
  ⟨p.x + (if bx then v.hi.x else v.lo.x), p.y + (if b_y then v.hi.y else v.lo.y),
   p.z + (if bz then v.hi.z else v.lo.z)⟩

theorem corner_is_quader (p : V3) (v : Vel) (bx b_y bz : Bool) :
    ∃ pt ∈ List.range 8, quader p v pt = boxCorner p v bx b_y bz := by
  cases bx <;> cases b_y <;> cases bz
  · exact ⟨0, by simp, rfl⟩
  · exact ⟨4, by simp, rfl⟩
  · exact ⟨2, by simp, rfl⟩
  · exact ⟨6, by simp, rfl⟩
  · exact ⟨1, by simp, rfl⟩
  · exact ⟨5, by simp, rfl⟩
  · exact ⟨3, by simp, rfl⟩
  · exact ⟨7, by simp, rfl⟩

theorem quader_is_corner (p : V3) (v : Vel) (pt : ℕ) :
    ∃ bx b_y bz, quader p v pt = boxCorner p v bx b_y bz := ⟨_, _, _, rfl⟩

/-- What the returned distances mean: limits `l ≤ c.1 ≤ r`, `u ≤ c.2 ≤ d` of all corners, clipped. -/
theorem searchQuader_open {proj : V3 → Option (ℝ × ℝ)} {imx imy : ℕ} {point : V3} {v : Vel} {a : Area}
    {center : ℝ × ℝ} (hc : proj point = some center) (h : searchQuader proj imx imy point v = some a) :
    (0 ≤ center.1 - a.xl ∧ center.1 + a.xr ≤ imx ∧ 0 ≤ center.2 - a.yu ∧ center.2 + a.yd ≤ imy) ∧
    ∃ l r u d, (∀ bx b_y bz, ∃ c, proj (boxCorner point v bx b_y bz) = some c ∧
        l ≤ c.1 ∧ c.1 ≤ r ∧ u ≤ c.2 ∧ c.2 ≤ d) ∧
      ∀ c, InImage imx imy c → l ≤ c.1 → c.1 ≤ r → u ≤ c.2 → c.2 ≤ d →
        InWindow center a.xl a.xr a.yu a.yd c := by
  simp only [searchQuader, hc, Option.bind_eq_bind, Option.bind_some, Option.bind_eq_some_iff] at h
  obtain ⟨b, hb, h⟩ := h
  rw [Option.some.injEq] at h
  subst h
  obtain ⟨⟨i1, i2, i3, i4⟩, ih⟩ := areaLoop_covers _ _ _ hb
  simp only at i1 i2 i3 i4
  have p1 : (0 : ℝ) ≤ imx := Nat.cast_nonneg _
  have p2 : (0 : ℝ) ≤ imy := Nat.cast_nonneg _
  refine ⟨?_, b.xl, b.xr, b.yu, b.yd, ?_, ?_⟩
  · simp only [Area.clip]
    refine ⟨?_, ?_, ?_, ?_⟩
    · split_ifs <;> linarith
    · split_ifs <;> linarith
    · split_ifs <;> linarith
    · split_ifs <;> linarith
  · intro bx b_y bz
    obtain ⟨pt, hpt, e⟩ := corner_is_quader point v bx b_y bz
    rw [← e]
    exact ih pt hpt
  · rintro c ⟨c1, c2, c3, c4⟩ h1 h2 h3 h4
    simp only [InWindow, Area.clip]
    refine ⟨?_, ?_, ?_, ?_⟩ <;> split_ifs <;> linarith

/-- C64, for every projection (refraction and distortion included): the search window is inside the image
and contains the image of every corner of the velocity box that is visible in the image. -/
theorem C64_corners (proj : V3 → Option (ℝ × ℝ)) (imx imy : ℕ) (point : V3) (v : Vel) (a : Area)
    (center : ℝ × ℝ) (hc : proj point = some center)
    (h : searchQuader proj imx imy point v = some a) :
    (0 ≤ center.1 - a.xl ∧ center.1 + a.xr ≤ imx ∧ 0 ≤ center.2 - a.yu ∧ center.2 + a.yd ≤ imy) ∧
    ∀ bx b_y bz, ∃ c, proj (boxCorner point v bx b_y bz) = some c ∧
      (InImage imx imy c → InWindow center a.xl a.xr a.yu a.yd c) := by
  obtain ⟨h1, l, r, u, d, h2, h3⟩ := searchQuader_open hc h
  refine ⟨h1, fun bx b_y bz => ?_⟩
  obtain ⟨c, e, c1, c2, c3, c4⟩ := h2 bx b_y bz
  exact ⟨c, e, fun hi => h3 c hi c1 c2 c3 c4⟩

/-- An affine function of one variable is non-positive between two points where it is. -/
theorem aff1 {a b l u x : ℝ} (hl : a * l + b ≤ 0) (hu : a * u + b ≤ 0) (h1 : l ≤ x) (h2 : x ≤ u) :
    a * x + b ≤ 0 := by
  rcases le_total 0 a with h | h
  · nlinarith [mul_le_mul_of_nonneg_left h2 h]
  · nlinarith [mul_le_mul_of_nonpos_left h1 h]

/-- An affine function that is non-positive at the corners of a box is non-positive in the box. -/
theorem affine_box {a b c d : ℝ} {p q : V3} {v : Vel}
    (hcor : ∀ bx b_y bz, a * (boxCorner p v bx b_y bz).x + b * (boxCorner p v bx b_y bz).y
      + c * (boxCorner p v bx b_y bz).z + d ≤ 0) (hq : InBox p v.lo v.hi q) :
    a * q.x + b * q.y + c * q.z + d ≤ 0 := by
  obtain ⟨⟨x1, x2⟩, ⟨y1, y2⟩, z1, z2⟩ := hq
  have hz : ∀ bx b_y, a * (boxCorner p v bx b_y true).x + b * (boxCorner p v bx b_y true).y
      + c * q.z + d ≤ 0 := by
    intro bx b_y
    have h0 := hcor bx b_y false
    have h1 := hcor bx b_y true
    have : c * q.z + (a * (boxCorner p v bx b_y true).x + b * (boxCorner p v bx b_y true).y + d) ≤ 0 :=
      aff1 (l := p.z + v.lo.z) (u := p.z + v.hi.z)
        (by simp only [boxCorner] at h0 ⊢; simp at h0 ⊢; linarith)
        (by simp only [boxCorner] at h1 ⊢; simp at h1 ⊢; linarith) z1 z2
    linarith
  have hy : ∀ bx, a * (boxCorner p v bx true true).x + b * q.y + c * q.z + d ≤ 0 := by
    intro bx
    have h0 := hz bx false
    have h1 := hz bx true
    have : b * q.y + (a * (boxCorner p v bx true true).x + c * q.z + d) ≤ 0 :=
      aff1 (l := p.y + v.lo.y) (u := p.y + v.hi.y)
        (by simp only [boxCorner] at h0 ⊢; simp at h0 ⊢; linarith)
        (by simp only [boxCorner] at h1 ⊢; simp at h1 ⊢; linarith) y1 y2
    linarith
  have h0 := hy false
  have h1 := hy true
  have : a * q.x + (b * q.y + c * q.z + d) ≤ 0 :=
    aff1 (l := p.x + v.lo.x) (u := p.x + v.hi.x)
      (by simp only [boxCorner] at h0 ⊢; simp at h0 ⊢; linarith)
      (by simp only [boxCorner] at h1 ⊢; simp at h1 ⊢; linarith) x1 x2
  linarith

/-- The depth of `P` in front of a camera: minus its third camera coordinate. -/
noncomputable def Spec.depth (cal : Cam) (P : V3) : ℝ :=
  -(cal.dm.r0.z * (P.x - cal.pos.x) + cal.dm.r1.z * (P.y - cal.pos.y) + cal.dm.r2.z * (P.z - cal.pos.z))

theorem pointToPixel_pinhole {cal : Cam} {lut : LUT} {mm : MM} {ip : ImgPar} {P : V3}
    (hair : mm.n1 = 1 ∧ mm.nlay = 1 ∧ (∃ ns, mm.n2 = 1 :: ns) ∧ mm.n3 = 1 ∧ mm.d.length = 1)
    (hap : cal.ap = defaultAddPar) (hg : cal.glass ≠ 0) (hd : 0 < depth cal P) :
    pointToPixel P cal lut mm ip = some (metricToPixel ((pinhole cal.pos cal.dm cal.cc P).1 + cal.xh)
      ((pinhole cal.pos cal.dm cal.cc P).2 + cal.yh) ip) := by
  obtain ⟨h1, h2, ⟨ns, h3⟩, h4, h5⟩ := hair
  have hf := C27_no_refraction cal lut mm P 1 ns (by rw [h5, h2]) (fun e => by rw [e] at h5; simp at h5)
    one_ne_zero h1 h3 h4 (Or.inl ⟨rfl, h2⟩) hg (by
      intro e
      simp only [depth] at hd
      simp only [dot, M3.c2, sub_x, sub_y, sub_z] at e
      linarith)
  simp only [pointToPixel, imgCoord, hf, Option.bind_eq_bind, Option.bind_some, Option.map_some,
    flatToDist, hap, (C24_default_identity 0 _ _).1]

/-- C64, the whole box: for a camera without distortion looking through air, with the velocity box in
front of it, the search window contains the image of *every* point of the box that is visible in the image
(so no particle within the velocity limits is missed by the window). -/
theorem C64_box (cal : Cam) (lut : LUT) (mm : MM) (ip : ImgPar) (point q : V3) (v : Vel) (a : Area)
    (center c : ℝ × ℝ)
    (hair : mm.n1 = 1 ∧ mm.nlay = 1 ∧ (∃ ns, mm.n2 = 1 :: ns) ∧ mm.n3 = 1 ∧ mm.d.length = 1)
    (hap : cal.ap = defaultAddPar) (hg : cal.glass ≠ 0)
    (hdep : ∀ bx b_y bz, 0 < depth cal (boxCorner point v bx b_y bz))
    (hc : pointToPixel point cal lut mm ip = some center)
    (h : searchQuader (fun P => pointToPixel P cal lut mm ip) ip.imx ip.imy point v = some a)
    (hq : InBox point v.lo v.hi q) (hqc : pointToPixel q cal lut mm ip = some c)
    (hi : InImage ip.imx ip.imy c) : InWindow center a.xl a.xr a.yu a.yd c := by
  obtain ⟨-, l, r, u, d, h2, h3⟩ := searchQuader_open hc h
  have hdq : 0 < depth cal q := by
    -- the smallest depth at a corner bounds the depth in the box
    by_contra hneg
    have hmin : ∃ m : ℝ, 0 < m ∧ ∀ bx b_y bz, m ≤ depth cal (boxCorner point v bx b_y bz) := by
      have : ∃ m : ℝ, 0 < m ∧ ∀ t : Bool × Bool × Bool,
          m ≤ depth cal (boxCorner point v t.1 t.2.1 t.2.2) := by
        obtain ⟨t, ht⟩ := Finite.exists_min
          (fun t : Bool × Bool × Bool => depth cal (boxCorner point v t.1 t.2.1 t.2.2))
        exact ⟨_, hdep _ _ _, ht⟩
      obtain ⟨m, hm, hm2⟩ := this
      exact ⟨m, hm, fun bx b_y bz => hm2 (bx, b_y, bz)⟩
    obtain ⟨m, hm, hm2⟩ := hmin
    have := affine_box (a := cal.dm.r0.z) (b := cal.dm.r1.z) (c := cal.dm.r2.z)
      (d := m - cal.dm.r0.z * cal.pos.x - cal.dm.r1.z * cal.pos.y - cal.dm.r2.z * cal.pos.z)
      (p := point) (q := q) (v := v) (by
        intro bx b_y bz
        have := hm2 bx b_y bz
        simp only [depth] at this
        linarith) hq
    apply hneg
    simp only [depth]
    linarith
  rw [pointToPixel_pinhole hair hap hg hdq, Option.some.injEq] at hqc
  have hcor : ∀ P, (∃ bx b_y bz, P = boxCorner point v bx b_y bz) →
      l ≤ (metricToPixel ((pinhole cal.pos cal.dm cal.cc P).1 + cal.xh)
        ((pinhole cal.pos cal.dm cal.cc P).2 + cal.yh) ip).1 ∧
      (metricToPixel ((pinhole cal.pos cal.dm cal.cc P).1 + cal.xh)
        ((pinhole cal.pos cal.dm cal.cc P).2 + cal.yh) ip).1 ≤ r ∧
      u ≤ (metricToPixel ((pinhole cal.pos cal.dm cal.cc P).1 + cal.xh)
        ((pinhole cal.pos cal.dm cal.cc P).2 + cal.yh) ip).2 ∧
      (metricToPixel ((pinhole cal.pos cal.dm cal.cc P).1 + cal.xh)
        ((pinhole cal.pos cal.dm cal.cc P).2 + cal.yh) ip).2 ≤ d := by
    rintro P ⟨bx, b_y, bz, rfl⟩
    obtain ⟨e, he, h⟩ := h2 bx b_y bz
    simp only [pointToPixel_pinhole hair hap hg (hdep bx b_y bz), Option.some.injEq] at he
    rw [he]
    exact h
  -- a pixel coordinate is (constant) + k * N / depth with N affine: clear the depth
  have gen : ∀ (n0 n1 n2 k t s : ℝ),
      (∀ P, (∃ bx b_y bz, P = boxCorner point v bx b_y bz) →
        t + k * ((n0 * (P.x - cal.pos.x) + n1 * (P.y - cal.pos.y) + n2 * (P.z - cal.pos.z))
          / depth cal P) ≤ s) →
      t + k * ((n0 * (q.x - cal.pos.x) + n1 * (q.y - cal.pos.y) + n2 * (q.z - cal.pos.z))
          / depth cal q) ≤ s := by
    intro n0 n1 n2 k t s hh
    have clear : ∀ P : V3, 0 < depth cal P →
        (t + k * ((n0 * (P.x - cal.pos.x) + n1 * (P.y - cal.pos.y) + n2 * (P.z - cal.pos.z))
          / depth cal P) ≤ s ↔
        (k * n0 - (t - s) * cal.dm.r0.z) * P.x + (k * n1 - (t - s) * cal.dm.r1.z) * P.y
          + (k * n2 - (t - s) * cal.dm.r2.z) * P.z
          + (-(k * n0 - (t - s) * cal.dm.r0.z) * cal.pos.x
            - (k * n1 - (t - s) * cal.dm.r1.z) * cal.pos.y
            - (k * n2 - (t - s) * cal.dm.r2.z) * cal.pos.z) ≤ 0) := by
      intro P hP
      have e : t + k * ((n0 * (P.x - cal.pos.x) + n1 * (P.y - cal.pos.y) + n2 * (P.z - cal.pos.z))
          / depth cal P) - s
          = ((k * n0 - (t - s) * cal.dm.r0.z) * P.x + (k * n1 - (t - s) * cal.dm.r1.z) * P.y
          + (k * n2 - (t - s) * cal.dm.r2.z) * P.z
          + (-(k * n0 - (t - s) * cal.dm.r0.z) * cal.pos.x
            - (k * n1 - (t - s) * cal.dm.r1.z) * cal.pos.y
            - (k * n2 - (t - s) * cal.dm.r2.z) * cal.pos.z)) / depth cal P := by
        rw [eq_div_iff hP.ne']
        have : t + k * ((n0 * (P.x - cal.pos.x) + n1 * (P.y - cal.pos.y) + n2 * (P.z - cal.pos.z))
          / depth cal P) - s = (t - s) + k * ((n0 * (P.x - cal.pos.x) + n1 * (P.y - cal.pos.y)
            + n2 * (P.z - cal.pos.z)) / depth cal P) := by ring
        rw [this, add_mul, mul_assoc, div_mul_cancel₀ _ hP.ne']
        simp only [depth]
        ring
      constructor
      · intro h
        have h' : t + k * ((n0 * (P.x - cal.pos.x) + n1 * (P.y - cal.pos.y)
          + n2 * (P.z - cal.pos.z)) / depth cal P) - s ≤ 0 := by linarith
        rw [e, div_le_iff₀ hP] at h'
        linarith
      · intro h
        have h' := div_nonpos_of_nonpos_of_nonneg h hP.le
        rw [← e] at h'
        linarith
    rw [clear q hdq]
    exact affine_box (fun bx b_y bz => (clear _ (hdep bx b_y bz)).1 (hh _ ⟨bx, b_y, bz, rfl⟩)) hq
  have px : ∀ P, (metricToPixel ((pinhole cal.pos cal.dm cal.cc P).1 + cal.xh)
        ((pinhole cal.pos cal.dm cal.cc P).2 + cal.yh) ip).1
      = (cal.xh / ip.pixX + ip.imx / 2) + (cal.cc / ip.pixX) * ((cal.dm.r0.x * (P.x - cal.pos.x)
        + cal.dm.r1.x * (P.y - cal.pos.y) + cal.dm.r2.x * (P.z - cal.pos.z)) / depth cal P) := by
    intro P
    simp only [metricToPixel, pinhole, depth, sub_x, sub_y, sub_z, div_neg]
    ring
  have py : ∀ P, (metricToPixel ((pinhole cal.pos cal.dm cal.cc P).1 + cal.xh)
        ((pinhole cal.pos cal.dm cal.cc P).2 + cal.yh) ip).2
      = (ip.imy / 2 - cal.yh / ip.pixY) + (-cal.cc / ip.pixY) * ((cal.dm.r0.y * (P.x - cal.pos.x)
        + cal.dm.r1.y * (P.y - cal.pos.y) + cal.dm.r2.y * (P.z - cal.pos.z)) / depth cal P) := by
    intro P
    simp only [metricToPixel, pinhole, depth, sub_x, sub_y, sub_z, div_neg]
    ring
  apply h3 c hi
  · have := gen cal.dm.r0.x cal.dm.r1.x cal.dm.r2.x (-(cal.cc / ip.pixX))
      (-(cal.xh / ip.pixX + ip.imx / 2)) (-l) (by
        intro P hP
        have := (hcor P hP).1
        rw [px] at this
        linarith)
    rw [← hqc, px]
    linarith
  · have := gen cal.dm.r0.x cal.dm.r1.x cal.dm.r2.x (cal.cc / ip.pixX)
      (cal.xh / ip.pixX + ip.imx / 2) r (by
        intro P hP
        have := (hcor P hP).2.1
        rw [px] at this
        linarith)
    rw [← hqc, px]
    linarith
  · have := gen cal.dm.r0.y cal.dm.r1.y cal.dm.r2.y (-(-cal.cc / ip.pixY))
      (-(ip.imy / 2 - cal.yh / ip.pixY)) (-u) (by
        intro P hP
        have := (hcor P hP).2.2.1
        rw [py] at this
        linarith)
    rw [← hqc, py]
    linarith
  · have := gen cal.dm.r0.y cal.dm.r1.y cal.dm.r2.y (-cal.cc / ip.pixY)
      (ip.imy / 2 - cal.yh / ip.pixY) d (by
        intro P hP
        have := (hcor P hP).2.2.2
        rw [py] at this
        linarith)
    rw [← hqc, py]
    linarith

/-- Non-vacuity: the camera at height 10 looking down, a velocity box of half width 1 around (1, 0, 0),
and a point of the box that is not a corner. -/
example : let cal : Cam := ⟨⟨0, 0, 10⟩, rotationMatrix 0 0 0, 5, 0, 0, defaultAddPar, ⟨0, 0, 1⟩⟩
    let mm : MM := ⟨1, 1, [1], 1, [2]⟩
    let ip : ImgPar := ⟨100, 100, 0.1, 0.1⟩
    let v : Vel := ⟨⟨-1, -1, -1⟩, ⟨1, 1, 1⟩⟩
    (∀ bx b_y bz, 0 < depth cal (boxCorner ⟨1, 0, 0⟩ v bx b_y bz)) ∧
    InBox ⟨1, 0, 0⟩ v.lo v.hi ⟨1.5, 0.25, 0⟩ ∧
    ∃ c, pointToPixel ⟨1.5, 0.25, 0⟩ cal emptyLUT mm ip = some c ∧ InImage ip.imx ip.imy c := by
  intro cal mm ip v
  refine ⟨?_, ?_, ?_⟩
  · intro bx b_y bz
    cases bz <;> norm_num [depth, boxCorner, cal, v, rotationMatrix]
  · norm_num [InBox, v]
  · refine ⟨_, pointToPixel_pinhole ⟨rfl, rfl, ⟨[], rfl⟩, rfl, rfl⟩ rfl
      (fun e => by have := congrArg V3.z e; simp [cal] at this)
      (by norm_num [depth, cal, rotationMatrix]), ?_⟩
    norm_num [InImage, metricToPixel, pinhole, cal, ip, rotationMatrix]

end Verif.Geo
