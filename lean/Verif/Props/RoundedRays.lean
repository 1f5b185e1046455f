/-
C150: rounding errors of the triangulation of two rays (orientation.py `skew_midpoint`).
-/
import Verif.Model.Rounded
import Verif.Proofs.Rounded
import Mathlib.Tactic.FieldSimp
import Mathlib.Tactic.LinearCombination

namespace Verif.Round
open Verif.Geo

theorem small51 : (2⁻¹ : ℝ) ^ 51 ≤ 4448 / 10 ^ 19 := by norm_num
theorem small50 : (2⁻¹ : ℝ) ^ 50 ≤ 8896 / 10 ^ 19 := by norm_num
theorem tiny1070 : (2⁻¹ : ℝ) ^ 1070 ≤ 1 / 10 ^ 60 :=
  (pow_le_pow_of_le_one (by norm_num) (by norm_num) (show 200 ≤ 1070 by norm_num)).trans (by norm_num)
theorem tiny500 : (2⁻¹ : ℝ) ^ 500 ≤ 1 / 10 ^ 60 :=
  (pow_le_pow_of_le_one (by norm_num) (by norm_num) (show 200 ≤ 500 by norm_num)).trans (by norm_num)

/-- Near in every coordinate. -/
def Near3 (v w : V3) (e : ℝ) : Prop := |v.x - w.x| ≤ e ∧ |v.y - w.y| ≤ e ∧ |v.z - w.z| ≤ e

/-- Every coordinate is at most so large. -/
def Box (v : V3) (b : ℝ) : Prop := |v.x| ≤ b ∧ |v.y| ≤ b ∧ |v.z| ≤ b

theorem minor_near {r : ℝ → ℝ} (h : Doubles r) {a c x z y w α A : ℝ} (ha : |a - x| ≤ α) (hc : |c - z| ≤ α) (hx : |x| ≤ A) (hz : |z| ≤ A)
    (hy : |y| ≤ 1) (hw : |w| ≤ 1) (hA : A ≤ 10 ^ 6) (hα : α ≤ 1) :
    |r (r (a * y) - r (c * w)) - (x * y - z * w)| ≤ 2 * α + 5 * (1112 / 10 ^ 19) * (A + 2 * α) + 1 / 10 ^ 50 ∧ |x * y - z * w| ≤ 2 * A := by
  have hα0 := (abs_nonneg _).trans ha
  have hA0 := (abs_nonneg _).trans hx
  have hxy : |x * y| ≤ A := by
    rw [abs_mul]
    exact (mul_le_mul hx hy (abs_nonneg _) hA0).trans (by linarith)
  have hzw : |z * w| ≤ A := by
    rw [abs_mul]
    exact (mul_le_mul hz hw (abs_nonneg _) hA0).trans (by linarith)
  have p1 := h.near (mul_near ha (show |y - y| ≤ 0 by simp) hx hy) hxy (by nlinarith)
  have p2 := h.near (mul_near hc (show |w - w| ≤ 0 by simp) hz hw) hzw (by nlinarith)
  have hd : |x * y - z * w| ≤ 2 * A := (abs_sub _ _).trans (by linarith)
  refine ⟨(h.near (sub_near p1 p2) hd (by nlinarith)).trans ?_, hd⟩
  norm_num
  linarith

theorem cross_near {r : ℝ → ℝ} (h : Doubles r) {a a' b : V3} {α A : ℝ} (ha : Near3 a a' α) (hA : Box a' A) (hb : Box b 1) (hA6 : A ≤ 10 ^ 6)
    (hα : α ≤ 1) : Near3 (cross r a b) (V3.cross a' b) (2 * α + 5 * (1112 / 10 ^ 19) * (A + 2 * α) + 1 / 10 ^ 50) ∧
      Box (V3.cross a' b) (2 * A) := by
  obtain ⟨a1, a2, a3⟩ := ha
  obtain ⟨b1, b2, b3⟩ := hA
  obtain ⟨c1, c2, c3⟩ := hb
  have m1 := minor_near h a2 a3 b2 b3 c3 c2 hA6 hα
  have m2 := minor_near h a3 a1 b3 b1 c1 c3 hA6 hα
  have m3 := minor_near h a1 a2 b1 b2 c2 c1 hA6 hα
  exact ⟨⟨m1.1, m2.1, m3.1⟩, m1.2, m2.2, m3.2⟩

theorem Near3.box {v w : V3} {e b : ℝ} (h : Near3 v w e) (hb : Box w b) : Box v (b + e) := by
  have key : ∀ {a x : ℝ}, |a - x| ≤ e → |x| ≤ b → |a| ≤ b + e := by
    intro a x h1 h2
    have := abs_add_le (a - x) x
    rw [sub_add_cancel] at this
    linarith
  exact ⟨key h.1 hb.1, key h.2.1 hb.2.1, key h.2.2 hb.2.2⟩

theorem dot_near {f : V3 → V3 → ℝ} (hf : DotDouble f) {a a' b b' : V3} {α β A B : ℝ} (ha : Near3 a a' α) (hA : Box a' A) (hb : Near3 b b' β)
    (hB : Box b' B) (hA6 : A + α ≤ 10 ^ 6) (hB6 : B + β ≤ 10 ^ 6) :
    |f a b - V3.dot a' b'| ≤ 3 * (α * B + A * β + α * β) + 4448 / 10 ^ 19 * (3 * ((A + α) * (B + β))) + 1 / 10 ^ 60 := by
  have ba := ha.box hA
  have bb := hb.box hB
  have hA0 := (abs_nonneg _).trans ba.1
  have h1 := hf a b ⟨ba.1.trans hA6, ba.2.1.trans hA6, ba.2.2.trans hA6⟩ ⟨bb.1.trans hB6, bb.2.1.trans hB6, bb.2.2.trans hB6⟩
  have pr : ∀ {x y : ℝ}, |x| ≤ A + α → |y| ≤ B + β → |x * y| ≤ (A + α) * (B + β) := by
    intro x y hx hy
    rw [abs_mul]
    exact mul_le_mul hx hy (abs_nonneg _) hA0
  have q1 := pr ba.1 bb.1
  have q2 := pr ba.2.1 bb.2.1
  have q3 := pr ba.2.2 bb.2.2
  have e1 := add_near (add_near (mul_near ha.1 hb.1 hA.1 hB.1) (mul_near ha.2.1 hb.2.1 hA.2.1 hB.2.1)) (mul_near ha.2.2 hb.2.2 hA.2.2 hB.2.2)
  have h2 : (2⁻¹ : ℝ) ^ 51 * (|a.x * b.x| + |a.y * b.y| + |a.z * b.z|) ≤ 4448 / 10 ^ 19 * (3 * ((A + α) * (B + β))) :=
    mul_le_mul small51 (by linarith) (by positivity) (by norm_num)
  have h3 := tiny1070
  have h4 := abs_sub_le (f a b) (V3.dot a b) (V3.dot a' b')
  change |V3.dot a b - V3.dot a' b'| ≤ _ at e1
  generalize (2⁻¹ : ℝ) ^ 1070 = t at h1 h3
  generalize (2⁻¹ : ℝ) ^ 51 * (|a.x * b.x| + |a.y * b.y| + |a.z * b.z|) = t' at h1 h2
  linarith

theorem div_near {a b x y α β Q y0 : ℝ} (ha : |a - x| ≤ α) (hb : |b - y| ≤ β) (hy : y0 ≤ y) (h0 : 0 < y0 - β) (hQ : |x / y| ≤ Q) :
    |a / b - x / y| ≤ (α + Q * β) / (y0 - β) := by
  have hbp : y0 - β ≤ b := by
    have := (abs_le.1 hb).1
    linarith
  have hβ := (abs_nonneg _).trans hb
  have hα := (abs_nonneg _).trans ha
  have hQ0 := (abs_nonneg _).trans hQ
  have hb0 : 0 < b := lt_of_lt_of_le h0 hbp
  have hy0 : 0 < y := by linarith
  have e : a / b - x / y = ((a - x) - x / y * (b - y)) / b := by
    field_simp
    ring
  rw [e, abs_div, abs_of_pos hb0]
  refine div_le_div₀ (by positivity) ?_ h0 hbp
  refine (abs_sub _ _).trans ?_
  rw [abs_mul]
  have := mul_le_mul hQ hb (abs_nonneg _) hQ0
  linarith

/-- The parameters of the nearest points. -/
theorem nearest_reach {v1 d1 v2 d2 : V3} (h : WellPosed v1 d1 v2 d2) :
    1 / 100 ≤ V3.dot (V3.cross d1 d2) (V3.cross d1 d2) ∧
    |V3.dot (V3.cross d1 d2) (V3.cross (v2 - v1) d2) / V3.dot (V3.cross d1 d2) (V3.cross d1 d2)| ≤ 10 ^ 4 ∧
    |V3.dot (V3.cross d1 d2) (V3.cross (v2 - v1) d1) / V3.dot (V3.cross d1 d2) (V3.cross d1 d2)| ≤ 10 ^ 4 := by
  have h1 : 1 / 100 ≤ V3.dot (V3.cross d1 d2) (V3.cross d1 d2) := by
    rw [← V3.norm_sq]
    have := h.crossing
    nlinarith
  have hs : V3.dot (V3.cross d1 d2) (V3.cross d1 d2) ≠ 0 := by linarith
  obtain ⟨t1, ht1⟩ : ∃ t, t = V3.dot (V3.cross d1 d2) (V3.cross (v2 - v1) d2) / V3.dot (V3.cross d1 d2) (V3.cross d1 d2) := ⟨_, rfl⟩
  obtain ⟨t2, ht2⟩ : ∃ t, t = V3.dot (V3.cross d1 d2) (V3.cross (v2 - v1) d1) / V3.dot (V3.cross d1 d2) (V3.cross d1 d2) := ⟨_, rfl⟩
  have g1 : t1 * V3.dot (V3.cross d1 d2) (V3.cross d1 d2) = V3.dot (V3.cross d1 d2) (V3.cross (v2 - v1) d2) := by
    rw [ht1, div_mul_cancel₀ _ hs]
  have g2 : t2 * V3.dot (V3.cross d1 d2) (V3.cross d1 d2) = V3.dot (V3.cross d1 d2) (V3.cross (v2 - v1) d1) := by
    rw [ht2, div_mul_cancel₀ _ hs]
  rw [← ht1, ← ht2]
  refine ⟨h1, h.reach _ _ ?_ ?_⟩
  · refine mul_right_cancel₀ hs ?_
    simp only [V3.dot, V3.cross, V3.sub_x, V3.sub_y, V3.sub_z, V3.add_x, V3.add_y, V3.add_z, V3.smul_x, V3.smul_y, V3.smul_z] at g1 g2 ⊢
    linear_combination (d1.x * d1.x + d1.y * d1.y + d1.z * d1.z) * g1 - (d2.x * d1.x + d2.y * d1.y + d2.z * d1.z) * g2
  · refine mul_right_cancel₀ hs ?_
    simp only [V3.dot, V3.cross, V3.sub_x, V3.sub_y, V3.sub_z, V3.add_x, V3.add_y, V3.add_z, V3.smul_x, V3.smul_y, V3.smul_z] at g1 g2 ⊢
    linear_combination (d1.x * d2.x + d1.y * d2.y + d1.z * d2.z) * g1 - (d2.x * d2.x + d2.y * d2.y + d2.z * d2.z) * g2

theorem coord_near {r : ℝ → ℝ} (h : Doubles r) {v d q q' s s' : ℝ} (hv : |v| ≤ 10 ^ 4) (hd : |d| ≤ 1) (hq : |q - q'| ≤ 3 / 10 ^ 10)
    (hs : |s - s'| ≤ 13 / 10 ^ 15) (h0 : 1 / 100 ≤ s') (h12 : s' ≤ 12) (hQ : |q' / s'| ≤ 10 ^ 4) :
    |r (v + r (r (d * q) / s)) - (v + d * q' * (1 / s'))| ≤ 5 / 10 ^ 8 ∧ |v + d * q' * (1 / s')| ≤ 2 * 10 ^ 4 := by
  have hs0 : 0 < s' := by linarith
  have hq' : |q'| ≤ 12 * 10 ^ 4 := by
    rw [abs_div, abs_of_pos hs0, div_le_iff₀ hs0] at hQ
    nlinarith
  have e1 := mul_near (show |d - d| ≤ 0 by simp) hq hd hq'
  have b1 : |d * q'| ≤ 12 * 10 ^ 4 := by
    rw [abs_mul]
    nlinarith [abs_nonneg d, abs_nonneg q']
  have e2 := h.near e1 b1 (by norm_num)
  have e2' : |r (d * q) - d * q'| ≤ 33 / 10 ^ 11 := e2.trans (by norm_num)
  have b2 : |d * q' / s'| ≤ 10 ^ 4 := by
    rw [mul_div_assoc, abs_mul]
    nlinarith [abs_nonneg d, abs_nonneg (q' / s')]
  have e3 := div_near e2' hs h0 (by norm_num) b2
  have e3' : |r (d * q) / s - d * q' / s'| ≤ 48 / 10 ^ 9 := e3.trans (by norm_num)
  have e4 := h.near e3' b2 (by norm_num)
  have e4' : |r (r (d * q) / s) - d * q' / s'| ≤ 49 / 10 ^ 9 := e4.trans (by norm_num)
  have b3 : |v + d * q' / s'| ≤ 2 * 10 ^ 4 := (abs_add_le _ _).trans (by linarith)
  have e5 := h.near (add_near (show |v - v| ≤ 0 by simp) e4') b3 (by norm_num)
  rw [mul_one_div]
  exact ⟨e5.trans (by norm_num), b3⟩

theorem norm_near {v w : V3} {e : ℝ} (h : Near3 v w e) : |v.norm - w.norm| ≤ 2 * e := by
  have he := (abs_nonneg _).trans h.1
  have key : ∀ {a b : V3}, Near3 a b e → a.norm ≤ b.norm + 2 * e := by
    intro a b h
    have hb := V3.norm_nonneg b
    have h2 := V3.norm_mul_self b
    obtain ⟨x1, x2⟩ := abs_le.1 h.1
    obtain ⟨y1, y2⟩ := abs_le.1 h.2.1
    obtain ⟨z1, z2⟩ := abs_le.1 h.2.2
    have hsum : |b.x| * e + |b.y| * e + |b.z| * e ≤ 2 * (b.norm * e) := by
      have h3 : (|b.x| + |b.y| + |b.z|) ^ 2 ≤ (2 * b.norm) ^ 2 := by
        have e1 := sq_abs b.x
        have e2 := sq_abs b.y
        have e3 := sq_abs b.z
        nlinarith [sq_nonneg (|b.x| - |b.y|), sq_nonneg (|b.x| - |b.z|), sq_nonneg (|b.y| - |b.z|)]
      have h4 := abs_le_of_sq_le_sq h3 (by linarith)
      have h5 := (abs_le.1 h4).2
      nlinarith
    rw [V3.norm, Real.sqrt_le_left (by linarith)]
    have c : ∀ {p q : ℝ}, -e ≤ p - q → p - q ≤ e → p * p ≤ q * q + 2 * (|q| * e) + e * e := by
      intro p q h1 h2
      have h5 : |p| ≤ |q| + e := by
        have := abs_add_le (p - q) q
        rw [sub_add_cancel] at this
        have := abs_le.2 ⟨h1, h2⟩
        linarith
      have h6 : |p| * |p| ≤ (|q| + e) * (|q| + e) := mul_self_le_mul_self (abs_nonneg _) h5
      have h7 := abs_mul_abs_self p
      have h8 := abs_mul_abs_self q
      nlinarith
    have c1 := c x1 x2
    have c2 := c y1 y2
    have c3 := c z1 z2
    nlinarith
  have h' : Near3 w v e := ⟨by rw [abs_sub_comm]; exact h.1, by rw [abs_sub_comm]; exact h.2.1, by rw [abs_sub_comm]; exact h.2.2⟩
  rw [abs_le]
  have k1 := key h
  have k2 := key h'
  constructor <;> linarith

/-- C150: in double precision, `skew_midpoint` of two well-posed rays is right up to a tenth of a nanometre (1e-7 mm) in every
coordinate of the midpoint, and three times that in the distance. -/
theorem C150_skew_midpoint (r : ℝ → ℝ) (fdot : V3 → V3 → ℝ) (fnorm : V3 → ℝ) (hr : Doubles r) (hdot : DotDouble fdot)
    (hnorm : NormDouble fnorm) (v1 d1 v2 d2 : V3) (h : WellPosed v1 d1 v2 d2) :
    ∃ D M D' M', Geo.skewMidpoint (v1, d1) (v2, d2) = some (D, M) ∧ Round.skewMidpoint r fdot fnorm (v1, d1) (v2, d2) = some (D', M') ∧
      |M'.x - M.x| ≤ 1 / 10 ^ 7 ∧ |M'.y - M.y| ≤ 1 / 10 ^ 7 ∧ |M'.z - M.z| ≤ 1 / 10 ^ 7 ∧ |D' - D| ≤ 3 / 10 ^ 7 := by
  obtain ⟨hs, ht1, ht2⟩ := nearest_reach h
  have d1b : Box d1 1 := h.direct1
  have d2b : Box d2 1 := h.direct2
  have self : ∀ v : V3, Near3 v v 0 := fun v => ⟨by simp, by simp, by simp⟩
  -- the perpendicular
  obtain ⟨p1, p2⟩ := cross_near hr (self d1) d1b d2b (by norm_num) (by norm_num)
  have p1 : Near3 (cross r d1 d2) (V3.cross d1 d2) (6 / 10 ^ 16) :=
    ⟨p1.1.trans (by norm_num), p1.2.1.trans (by norm_num), p1.2.2.trans (by norm_num)⟩
  have p2 : Box (V3.cross d1 d2) 2 := ⟨p2.1.trans (by norm_num), p2.2.1.trans (by norm_num), p2.2.2.trans (by norm_num)⟩
  -- the scale
  have s1 := dot_near hdot p1 p2 p1 p2 (by norm_num) (by norm_num)
  have s1 : |fdot (cross r d1 d2) (cross r d1 d2) - V3.dot (V3.cross d1 d2) (V3.cross d1 d2)| ≤ 13 / 10 ^ 15 := s1.trans (by norm_num)
  have s12 : V3.dot (V3.cross d1 d2) (V3.cross d1 d2) ≤ 12 := by
    have sq : ∀ {a : ℝ}, |a| ≤ 2 → a * a ≤ 4 := by
      intro a ha
      have := abs_mul_abs_self a
      nlinarith [abs_nonneg a]
    have a1 := sq p2.1
    have a2 := sq p2.2.1
    have a3 := sq p2.2.2
    simp only [V3.dot]
    linarith
  -- the difference of the beginnings
  have df : ∀ {a b : ℝ}, |a| ≤ 10 ^ 4 → |b| ≤ 10 ^ 4 → |r (a - b) - (a - b)| ≤ 3 / 10 ^ 12 ∧ |a - b| ≤ 2 * 10 ^ 4 := by
    intro a b ha hb
    have e : |a - b| ≤ 2 * 10 ^ 4 := (abs_sub _ _).trans (by linarith)
    exact ⟨(hr.near (show |a - b - (a - b)| ≤ 0 by simp) e (by norm_num)).trans (by norm_num), e⟩
  have x1 := df h.place2.1 h.place1.1
  have x2 := df h.place2.2.1 h.place1.2.1
  have x3 := df h.place2.2.2 h.place1.2.2
  have sp : Near3 ⟨r (v2.x - v1.x), r (v2.y - v1.y), r (v2.z - v1.z)⟩ (v2 - v1) (3 / 10 ^ 12) := ⟨x1.1, x2.1, x3.1⟩
  have spb : Box (v2 - v1) (2 * 10 ^ 4) := ⟨x1.2, x2.2, x3.2⟩
  have dd : ∀ d : V3, Box d 1 → |fdot (cross r d1 d2) (cross r ⟨r (v2.x - v1.x), r (v2.y - v1.y), r (v2.z - v1.z)⟩ d) -
      V3.dot (V3.cross d1 d2) (V3.cross (v2 - v1) d)| ≤ 3 / 10 ^ 10 := by
    intro d hd
    obtain ⟨c1, c2⟩ := cross_near hr sp spb hd (by norm_num) (by norm_num)
    have c1 : Near3 (cross r ⟨r (v2.x - v1.x), r (v2.y - v1.y), r (v2.z - v1.z)⟩ d) (V3.cross (v2 - v1) d) (18 / 10 ^ 12) :=
      ⟨c1.1.trans (by norm_num), c1.2.1.trans (by norm_num), c1.2.2.trans (by norm_num)⟩
    exact (dot_near hdot p1 p2 c1 c2 (by norm_num) (by norm_num)).trans (by norm_num)
  have q1 := dd d2 d2b
  have q2 := dd d1 d1b
  have hne : fdot (cross r d1 d2) (cross r d1 d2) ≠ 0 := by
    intro e
    rw [e] at s1
    have := (abs_le.1 s1).1
    linarith
  have hne' : V3.dot (V3.cross d1 d2) (V3.cross d1 d2) ≠ 0 := by linarith
  have hG : Geo.skewMidpoint (v1, d1) (v2, d2) = some
      (((v1 + (d1.smul (V3.dot (V3.cross d1 d2) (V3.cross (v2 - v1) d2))).smul (1 / V3.dot (V3.cross d1 d2) (V3.cross d1 d2))) -
        (v2 + (d2.smul (V3.dot (V3.cross d1 d2) (V3.cross (v2 - v1) d1))).smul (1 / V3.dot (V3.cross d1 d2) (V3.cross d1 d2)))).norm,
       ((v1 + (d1.smul (V3.dot (V3.cross d1 d2) (V3.cross (v2 - v1) d2))).smul (1 / V3.dot (V3.cross d1 d2) (V3.cross d1 d2))) +
        (v2 + (d2.smul (V3.dot (V3.cross d1 d2) (V3.cross (v2 - v1) d1))).smul (1 / V3.dot (V3.cross d1 d2) (V3.cross d1 d2)))).smul 0.5) := by
    simp only [Geo.skewMidpoint, if_neg hne']
  obtain ⟨o1, ho1⟩ : ∃ v, v = onRay r v1 d1 (fdot (cross r d1 d2) (cross r ⟨r (v2.x - v1.x), r (v2.y - v1.y), r (v2.z - v1.z)⟩ d2))
      (fdot (cross r d1 d2) (cross r d1 d2)) := ⟨_, rfl⟩
  obtain ⟨o2, ho2⟩ : ∃ v, v = onRay r v2 d2 (fdot (cross r d1 d2) (cross r ⟨r (v2.x - v1.x), r (v2.y - v1.y), r (v2.z - v1.z)⟩ d1))
      (fdot (cross r d1 d2) (cross r d1 d2)) := ⟨_, rfl⟩
  have hR : Round.skewMidpoint r fdot fnorm (v1, d1) (v2, d2) = some
      (fnorm ⟨r (o1.x - o2.x), r (o1.y - o2.y), r (o1.z - o2.z)⟩,
       ⟨r (r (o1.x + o2.x) * 0.5), r (r (o1.y + o2.y) * 0.5), r (r (o1.z + o2.z) * 0.5)⟩) := by
    simp only [Round.skewMidpoint, if_neg hne, ho1, ho2]
  refine ⟨_, _, _, _, hG, hR, ?_⟩
  subst ho1 ho2
  clear hG hR
  generalize fdot (cross r d1 d2) (cross r d1 d2) = s at s1
  generalize fdot (cross r d1 d2) (cross r ⟨r (v2.x - v1.x), r (v2.y - v1.y), r (v2.z - v1.z)⟩ d2) = a at q1
  generalize fdot (cross r d1 d2) (cross r ⟨r (v2.x - v1.x), r (v2.y - v1.y), r (v2.z - v1.z)⟩ d1) = b at q2
  generalize V3.dot (V3.cross d1 d2) (V3.cross d1 d2) = s' at s1 hs s12 ht1 ht2
  generalize V3.dot (V3.cross d1 d2) (V3.cross (v2 - v1) d2) = a' at q1 ht1
  generalize V3.dot (V3.cross d1 d2) (V3.cross (v2 - v1) d1) = b' at q2 ht2
  obtain ⟨u1, w1⟩ := coord_near hr h.place1.1 d1b.1 q1 s1 hs s12 ht1
  obtain ⟨u2, w2⟩ := coord_near hr h.place1.2.1 d1b.2.1 q1 s1 hs s12 ht1
  obtain ⟨u3, w3⟩ := coord_near hr h.place1.2.2 d1b.2.2 q1 s1 hs s12 ht1
  obtain ⟨u4, w4⟩ := coord_near hr h.place2.1 d2b.1 q2 s1 hs s12 ht2
  obtain ⟨u5, w5⟩ := coord_near hr h.place2.2.1 d2b.2.1 q2 s1 hs s12 ht2
  obtain ⟨u6, w6⟩ := coord_near hr h.place2.2.2 d2b.2.2 q2 s1 hs s12 ht2
  have mid : ∀ {a b x y : ℝ}, |a - x| ≤ 5 / 10 ^ 8 → |b - y| ≤ 5 / 10 ^ 8 → |x| ≤ 2 * 10 ^ 4 → |y| ≤ 2 * 10 ^ 4 →
      |r (r (a + b) * 0.5) - (x + y) * 0.5| ≤ 1 / 10 ^ 7 ∧ |r (a - b) - (x - y)| ≤ 12 / 10 ^ 8 ∧ |x - y| ≤ 4 * 10 ^ 4 := by
    intro a b x y ha hb hx hy
    have b1 : |x + y| ≤ 4 * 10 ^ 4 := (abs_add_le _ _).trans (by linarith)
    have b2 : |x - y| ≤ 4 * 10 ^ 4 := (abs_sub _ _).trans (by linarith)
    have e1 := (hr.near (add_near ha hb) b1 (by norm_num)).trans (show _ ≤ (11 : ℝ) / 10 ^ 8 by norm_num)
    have e2 := mul_near e1 (show |(0.5 : ℝ) - 0.5| ≤ 0 by simp) b1 (show |(0.5 : ℝ)| ≤ 0.5 by norm_num)
    have b3 : |(x + y) * 0.5| ≤ 2 * 10 ^ 4 := by
      rw [abs_mul, show |(0.5 : ℝ)| = 0.5 by norm_num]
      linarith
    exact ⟨(hr.near e2 b3 (by norm_num)).trans (by norm_num), (hr.near (sub_near ha hb) b2 (by norm_num)).trans (by norm_num), b2⟩
  obtain ⟨m1, n1, o1⟩ := mid u1 u4 w1 w4
  obtain ⟨m2, n2, o2⟩ := mid u2 u5 w2 w5
  obtain ⟨m3, n3, o3⟩ := mid u3 u6 w3 w6
  refine ⟨m1, m2, m3, ?_⟩
  obtain ⟨on1, e1⟩ : ∃ v, v = v1 + (d1.smul a').smul (1 / s') := ⟨_, rfl⟩
  obtain ⟨on2, e2⟩ : ∃ v, v = v2 + (d2.smul b').smul (1 / s') := ⟨_, rfl⟩
  have hn3 : Near3 ⟨r ((onRay r v1 d1 a s).x - (onRay r v2 d2 b s).x), r ((onRay r v1 d1 a s).y - (onRay r v2 d2 b s).y),
      r ((onRay r v1 d1 a s).z - (onRay r v2 d2 b s).z)⟩ (on1 - on2) (12 / 10 ^ 8) := by
    rw [e1, e2]
    exact ⟨n1, n2, n3⟩
  have hbx : Box (on1 - on2) (4 * 10 ^ 4) := by
    rw [e1, e2]
    exact ⟨o1, o2, o3⟩
  rw [← e1, ← e2]
  have hb2 := hn3.box hbx
  generalize (⟨r ((onRay r v1 d1 a s).x - (onRay r v2 d2 b s).x), r ((onRay r v1 d1 a s).y - (onRay r v2 d2 b s).y),
      r ((onRay r v1 d1 a s).z - (onRay r v2 d2 b s).z)⟩ : V3) = w at hn3 hb2
  have k1 := hnorm w ⟨hb2.1.trans (by norm_num), hb2.2.1.trans (by norm_num), hb2.2.2.trans (by norm_num)⟩
  have k2 := norm_near hn3
  have k3 : w.norm ≤ 10 ^ 5 := by
    rw [V3.norm, Real.sqrt_le_left (by norm_num)]
    have sq : ∀ {c : ℝ}, |c| ≤ 4 * 10 ^ 4 + 12 / 10 ^ 8 → c * c ≤ 17 * 10 ^ 8 := by
      intro c hc
      have := abs_mul_abs_self c
      nlinarith [abs_nonneg c]
    have a1 := sq hb2.1
    have a2 := sq hb2.2.1
    have a3 := sq hb2.2.2
    linarith
  have k4 : (2⁻¹ : ℝ) ^ 50 * w.norm ≤ 8896 / 10 ^ 19 * 10 ^ 5 := mul_le_mul small50 k3 (V3.norm_nonneg _) (by norm_num)
  have k5 := tiny500
  have k6 := abs_sub_le (fnorm w) w.norm (on1 - on2).norm
  generalize (2⁻¹ : ℝ) ^ 500 = t at k1 k5
  generalize (2⁻¹ : ℝ) ^ 50 * w.norm = t' at k1 k4
  have k7 : t' + t + 2 * (12 / 10 ^ 8) ≤ 3 / 10 ^ 7 := by
    have : (8896 : ℝ) / 10 ^ 19 * 10 ^ 5 + 1 / 10 ^ 60 + 2 * (12 / 10 ^ 8) ≤ 3 / 10 ^ 7 := by norm_num
    linarith
  linarith

/-! ### Examples -/

/-- The products summed from left to right, with a rounding after every operation, are such a dot product. -/
theorem seqDot_double {r : ℝ → ℝ} (h : Doubles r) :
    DotDouble fun a b => r (r (r (a.x * b.x) + r (a.y * b.y)) + r (a.z * b.z)) := by
  intro a b ha hb
  have pr : ∀ {x y : ℝ}, |x| ≤ 10 ^ 6 → |y| ≤ 10 ^ 6 → |x * y| ≤ 10 ^ 12 := by
    intro x y hx hy
    rw [abs_mul]
    exact (mul_le_mul hx hy (abs_nonneg _) (by norm_num)).trans (by norm_num)
  have q1 := pr ha.1 hb.1
  have q2 := pr ha.2.1 hb.2.1
  have q3 := pr ha.2.2 hb.2.2
  simp only [V3.dot]
  generalize a.x * b.x = x at *
  generalize a.y * b.y = y at *
  generalize a.z * b.z = z at *
  have big : (10 : ℝ) ^ 14 ≤ 2 ^ 1023 :=
    le_trans (by norm_num : (10 : ℝ) ^ 14 ≤ 2 ^ 100) (pow_le_pow_right₀ (by norm_num) (by norm_num))
  have e : (2⁻¹ : ℝ) ^ 1070 = 32 * 2⁻¹ ^ 1075 := by
    rw [show 1075 = 1070 + 5 from rfl, pow_add]
    generalize (2⁻¹ : ℝ) ^ 1070 = t
    norm_num
    ring
  have e51 : (2⁻¹ : ℝ) ^ 51 = 4 * 2⁻¹ ^ 53 := by norm_num
  rw [e, e51]
  have hu := unit_up
  have ht := tiny
  have hu0 : (0 : ℝ) ≤ 2⁻¹ ^ 53 := by positivity
  have ht0 : (0 : ℝ) ≤ 2⁻¹ ^ 1075 := pow_nonneg (by norm_num) _
  have big2 : (10 : ℝ) ^ 12 ≤ 2 ^ 1023 := le_trans (by norm_num) big
  have r1 := h x (q1.trans big2)
  have r2 := h y (q2.trans big2)
  have r3 := h z (q3.trans big2)
  have n1 := abs_nonneg x
  have n2 := abs_nonneg y
  have n3 := abs_nonneg z
  have hr : ∀ w : ℝ, |w| ≤ 10 ^ 14 → |r w - w| ≤ 2⁻¹ ^ 53 * |w| + 2⁻¹ ^ 1075 := fun w hw => h w (hw.trans big)
  clear big big2
  generalize (2⁻¹ : ℝ) ^ 1075 = t at *
  generalize (2⁻¹ : ℝ) ^ 53 = u at *
  have t6 : t ≤ 1 := ht.trans (by norm_num)
  have u6 : u ≤ 1 / 10 ^ 6 := hu.trans (by norm_num)
  have ab : ∀ {p q c : ℝ}, |p - q| ≤ c → |p| ≤ |q| + c := by
    intro p q c hc
    have := abs_add_le (p - q) q
    rw [sub_add_cancel] at this
    linarith
  have m1 := ab r1
  have m2 := ab r2
  have m3 := ab r3
  have ux : u * |x| ≤ 1 / 10 ^ 6 * |x| := mul_le_mul_of_nonneg_right u6 n1
  have uy : u * |y| ≤ 1 / 10 ^ 6 * |y| := mul_le_mul_of_nonneg_right u6 n2
  have uz : u * |z| ≤ 1 / 10 ^ 6 * |z| := mul_le_mul_of_nonneg_right u6 n3
  have s0 : |r x + r y| ≤ |r x| + |r y| := abs_add_le _ _
  have s1 := hr (r x + r y) (by norm_num at *; linarith)
  have m4 := ab s1
  have s2 := abs_add_le (r (r x + r y)) (r z)
  have us : u * |r x + r y| ≤ u * (1001 / 1000 * (|x| + |y|) + 2 * t) := mul_le_mul_of_nonneg_left (by linarith) hu0
  have us' : u * (1001 / 1000 * (|x| + |y|) + 2 * t) ≤ 1 / 10 ^ 6 * (1001 / 1000 * (|x| + |y|) + 2 * t) :=
    mul_le_mul_of_nonneg_right u6 (by linarith)
  have s3 := hr (r (r x + r y) + r z) (by norm_num at *; linarith)
  have uw : u * |r (r x + r y) + r z| ≤ u * (1002 / 1000 * (|x| + |y| + |z|) + 5 * t) := mul_le_mul_of_nonneg_left (by linarith) hu0
  have ut : u * t ≤ t := by nlinarith
  have f1 := add_near (add_near r1 r2) r3
  have f2 := abs_sub_le (r (r (r x + r y) + r z)) (r (r x + r y) + r z) (x + y + z)
  have f3 : |r (r x + r y) + r z - (x + y + z)| ≤ |r (r x + r y) - (r x + r y)| + |r x + r y + r z - (x + y + z)| := by
    have e : r (r x + r y) + r z - (x + y + z) = (r (r x + r y) - (r x + r y)) + (r x + r y + r z - (x + y + z)) := by ring
    rw [e]
    exact abs_add_le _ _
  have p1 : 0 ≤ u * |x| := by positivity
  have p2 : 0 ≤ u * |y| := by positivity
  have p3 : 0 ≤ u * |z| := by positivity
  nlinarith

/-- The hypotheses are met: two rays at right angles, ten centimetres apart from the point where they cross, in double precision. -/
example : ∃ D' M', Round.skewMidpoint nearestDouble
    (fun a b => nearestDouble (nearestDouble (nearestDouble (a.x * b.x) + nearestDouble (a.y * b.y)) + nearestDouble (a.z * b.z)))
    (fun v => nearestDouble v.norm) (⟨-100, 0, 0⟩, ⟨1, 0, 0⟩) (⟨0, -100, 0⟩, ⟨0, 1, 0⟩) = some (D', M') ∧ |M'.x - 0| ≤ 1 / 10 ^ 7 := by
  obtain ⟨D, M, D', M', h1, h2, h3, -⟩ := C150_skew_midpoint nearestDouble _ (fun v => nearestDouble v.norm) nearestDouble_doubles
    (seqDot_double nearestDouble_doubles) (by
      intro v hv
      have hn : v.norm ≤ 10 ^ 7 := by
        rw [V3.norm, Real.sqrt_le_left (by norm_num)]
        have sq : ∀ {c : ℝ}, |c| ≤ 10 ^ 6 → c * c ≤ 10 ^ 12 := by
          intro c hc
          have := abs_mul_abs_self c
          nlinarith [abs_nonneg c]
        have a1 := sq hv.1
        have a2 := sq hv.2.1
        have a3 := sq hv.2.2
        linarith
      have h0 := V3.norm_nonneg v
      have h1 := nearestDouble_doubles v.norm (by
        rw [abs_of_nonneg h0]
        exact hn.trans ((by norm_num : (10 : ℝ) ^ 7 ≤ 10 ^ 12).trans huge))
      rw [abs_of_nonneg h0] at h1
      refine h1.trans (add_le_add (mul_le_mul_of_nonneg_right ?_ h0) ?_)
      · norm_num
      · exact pow_le_pow_of_le_one (by norm_num) (by norm_num) (by norm_num))
    ⟨-100, 0, 0⟩ ⟨1, 0, 0⟩ ⟨0, -100, 0⟩ ⟨0, 1, 0⟩
    ⟨by norm_num, by norm_num, by norm_num, by norm_num, by norm_num [V3.cross, V3.norm], by
      intro t1 t2 e1 e2
      simp only [V3.dot, V3.smul, V3.add_x, V3.add_y, V3.add_z, V3.sub_x, V3.sub_y, V3.sub_z] at e1 e2
      constructor
      · rw [show t1 = 100 by linarith]; norm_num
      · rw [show t2 = 100 by linarith]; norm_num⟩
  refine ⟨D', M', h2, ?_⟩
  have hM : M.x = 0 := by
    rw [Geo.skewMidpoint] at h1
    norm_num [V3.cross, V3.dot] at h1
    rw [← h1.2]
    norm_num
  rw [hM] at h3
  exact h3

end Verif.Round
