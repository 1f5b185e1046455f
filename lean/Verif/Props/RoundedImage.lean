/-
C150: rounding errors of the collinearity equations.
-/
import Verif.Model.RoundedImage
import Verif.Props.RoundedOblique
import Verif.Props.Rounded

namespace Verif.Round
open Verif.Geo

/-- Division by a number of either sign. -/
theorem div_near_abs {a b x y α β Q y0 : ℝ} (ha : |a - x| ≤ α) (hb : |b - y| ≤ β) (hy : y0 ≤ |y|) (h0 : 0 < y0 - β) (hQ : |x / y| ≤ Q) :
    |a / b - x / y| ≤ (α + Q * β) / (y0 - β) := by
  rcases le_total 0 y with h | h
  · exact div_near ha hb (by rwa [abs_of_nonneg h] at hy) h0 hQ
  · rw [abs_of_nonpos h] at hy
    have := div_near (neg_near ha) (neg_near hb) hy h0 (show |-x / -y| ≤ Q by rw [neg_div_neg_eq]; exact hQ)
    rwa [neg_div_neg_eq, neg_div_neg_eq] at this

theorem image_near {r : ℝ → ℝ} (hr : Doubles r) {cc N n d' d : ℝ} (hcc : |cc| ≤ 10 ^ 3) (hN : |n - N| ≤ 7 / 10 ^ 10) (hNb : |N| ≤ 6 * 10 ^ 4)
    (hd : |d' - d| ≤ 7 / 10 ^ 10) (hdb : 10 ≤ |d|) (hQ : |N / d| ≤ 2) :
    |r (r (-cc * n) / d') - -cc * N / d| ≤ 3 / 10 ^ 7 := by
  have hcc' : |-cc| ≤ 10 ^ 3 := by rwa [abs_neg]
  have e1 := mul_near (show |-cc - -cc| ≤ 0 by simp) hN hcc' hNb
  have b1 : |-cc * N| ≤ 6 * 10 ^ 7 := by
    rw [abs_mul]
    exact (mul_le_mul hcc' hNb (abs_nonneg _) (by norm_num)).trans (by norm_num)
  have e2 := hr.near e1 b1 (by norm_num)
  have e2' : |r (-cc * n) - -cc * N| ≤ 71 / 10 ^ 8 := e2.trans (by norm_num)
  have b2 : |-cc * N / d| ≤ 2 * 10 ^ 3 := by
    rw [mul_div_assoc, abs_mul]
    exact (mul_le_mul hcc' hQ (abs_nonneg _) (by norm_num)).trans (by norm_num)
  have e3 := div_near_abs e2' hd hdb (by norm_num) b2
  have e3' : |r (-cc * n) / d' - -cc * N / d| ≤ 22 / 10 ^ 8 := e3.trans (by norm_num)
  exact (hr.near e3' b2 (by norm_num)).trans (by norm_num)

theorem dot_box {a b : V3} {B : ℝ} (ha : Box a 1) (hb : Box b B) : |V3.dot a b| ≤ 3 * B := by
  have pr : ∀ {x y : ℝ}, |x| ≤ 1 → |y| ≤ B → |x * y| ≤ B := by
    intro x y hx hy
    rw [abs_mul]
    have := mul_le_mul hx hy (abs_nonneg _) zero_le_one
    linarith
  rw [V3.dot]
  have h1 := pr ha.1 hb.1
  have h2 := pr ha.2.1 hb.2.1
  have h3 := pr ha.2.2 hb.2.2
  refine (abs_add_le _ _).trans ?_
  have := abs_add_le (a.x * b.x) (a.y * b.y)
  linarith

/-- C150: the collinearity equations in double precision. For a camera with a principal distance of at most a metre, whose matrix has
been computed from its angles in double precision (with sines and cosines correct to the last place or so), a point within ten metres of the origin, at least a centimetre away from the
plane through the camera parallel to the picture, and in a field of view of at most 63 degrees to either side, the position in the picture is
computed with an error of at most 3e-7 mm. -/
theorem C150_image (r : ℝ → ℝ) (fdot : V3 → V3 → ℝ) (fs fc : ℝ → ℝ) (hr : Doubles r) (hdot : DotDouble fdot) (hs : Faithful fs Real.sin)
    (hc : Faithful fc Real.cos) (cal : Cam) (omega phi kappa : ℝ) (pos : V3) (hcal : cal.dm = Geo.rotationMatrix omega phi kappa) (hcc : |cal.cc| ≤ 10 ^ 3)
    (ho : |cal.pos.x| ≤ 10 ^ 4 ∧ |cal.pos.y| ≤ 10 ^ 4 ∧ |cal.pos.z| ≤ 10 ^ 4) (hp : |pos.x| ≤ 10 ^ 4 ∧ |pos.y| ≤ 10 ^ 4 ∧ |pos.z| ≤ 10 ^ 4)
    (hdepth : 10 ≤ |V3.dot cal.dm.c2 (pos - cal.pos)|)
    (hx : |V3.dot cal.dm.c0 (pos - cal.pos)| ≤ 2 * |V3.dot cal.dm.c2 (pos - cal.pos)|)
    (hy : |V3.dot cal.dm.c1 (pos - cal.pos)| ≤ 2 * |V3.dot cal.dm.c2 (pos - cal.pos)|) :
    |(Round.collinear r fdot cal.cc (rotationMatrix r fs fc omega phi kappa) cal.pos pos).1 - (Geo.collinear cal pos).1| ≤ 3 / 10 ^ 7 ∧
    |(Round.collinear r fdot cal.cc (rotationMatrix r fs fc omega phi kappa) cal.pos pos).2 - (Geo.collinear cal pos).2| ≤ 3 / 10 ^ 7 := by
  obtain ⟨m0, m1, m2⟩ := rotation_box omega phi kappa
  rw [← hcal] at m0 m1 m2
  obtain ⟨q0, q1, q2⟩ : NearMatrix (Round.rotationMatrix r fs fc omega phi kappa) cal.dm (1 / 10 ^ 14) := by
    have h := fun i j => (rotation_near r fs fc hr hs hc omega phi kappa i j).trans (show (2 : ℝ) / 10 ^ 15 ≤ 1 / 10 ^ 14 by norm_num)
    rw [hcal]
    exact ⟨⟨h 0 0, h 0 1, h 0 2⟩, ⟨h 1 0, h 1 1, h 1 2⟩, ⟨h 2 0, h 2 1, h 2 2⟩⟩
  set dm := Round.rotationMatrix r fs fc omega phi kappa
  have vb1 : ∀ {a b : ℝ}, |a| ≤ 10 ^ 4 → |b| ≤ 10 ^ 4 → |a - b| ≤ 2 * 10 ^ 4 := fun ha hb => (abs_sub _ _).trans (by linarith)
  have vn1 : ∀ {a b : ℝ}, |a| ≤ 10 ^ 4 → |b| ≤ 10 ^ 4 → |r (a - b) - (a - b)| ≤ 3 / 10 ^ 12 := fun ha hb =>
    (hr.near (show |_ - _| ≤ 0 by rw [sub_self, abs_zero]) (vb1 ha hb) (by norm_num)).trans (by norm_num)
  have vb : Box (pos - cal.pos) (2 * 10 ^ 4) := ⟨vb1 hp.1 ho.1, vb1 hp.2.1 ho.2.1, vb1 hp.2.2 ho.2.2⟩
  have vn : Near3 (sub r pos cal.pos) (pos - cal.pos) (3 / 10 ^ 12) := ⟨vn1 hp.1 ho.1, vn1 hp.2.1 ho.2.1, vn1 hp.2.2 ho.2.2⟩
  have dn : ∀ {c c' : V3}, Near3 c c' (1 / 10 ^ 14) → Box c' 1 → |fdot c (sub r pos cal.pos) - V3.dot c' (pos - cal.pos)| ≤ 7 / 10 ^ 10 :=
    fun h1 h2 => (dot_near hdot h1 h2 vn vb (by norm_num) (by norm_num)).trans (by norm_num)
  have b0 : Box cal.dm.c0 1 := ⟨m0.1, m1.1, m2.1⟩
  have b1 : Box cal.dm.c1 1 := ⟨m0.2.1, m1.2.1, m2.2.1⟩
  have b2 : Box cal.dm.c2 1 := ⟨m0.2.2, m1.2.2, m2.2.2⟩
  have d0 := dn (show Near3 dm.c0 cal.dm.c0 _ from ⟨q0.1, q1.1, q2.1⟩) b0
  have d1 := dn (show Near3 dm.c1 cal.dm.c1 _ from ⟨q0.2.1, q1.2.1, q2.2.1⟩) b1
  have d2 := dn (show Near3 dm.c2 cal.dm.c2 _ from ⟨q0.2.2, q1.2.2, q2.2.2⟩) b2
  have n0 := dot_box b0 vb
  have n1 := dot_box b1 vb
  have ne : V3.dot cal.dm.c2 (pos - cal.pos) ≠ 0 := by
    intro h
    rw [h, abs_zero] at hdepth
    norm_num at hdepth
  have ne' : fdot dm.c2 (sub r pos cal.pos) ≠ 0 := by
    intro h
    rw [h, zero_sub, abs_neg] at d2
    have := hdepth.trans d2
    norm_num at this
  have quot : ∀ {N : ℝ}, |N| ≤ 2 * |V3.dot cal.dm.c2 (pos - cal.pos)| → |N / V3.dot cal.dm.c2 (pos - cal.pos)| ≤ 2 := by
    intro N h
    rw [abs_div, div_le_iff₀ (abs_pos.2 ne)]
    exact h
  simp only [Round.collinear, Geo.collinear, if_neg ne, if_neg ne']
  exact ⟨image_near hr hcc d0 (n0.trans (by norm_num)) d2 hdepth (quot hx), image_near hr hcc d1 (n1.trans (by norm_num)) d2 hdepth (quot hy)⟩

/-- Rounded sines and cosines are such. -/
theorem faithful_rounded {g : ℝ → ℝ} (hg : ∀ x, |g x| ≤ 1) : Faithful (fun t => nearestDouble (g t)) g := by
  intro x
  have big : (1 : ℝ) ≤ 2 ^ 1023 := one_le_pow₀ (by norm_num)
  have h := nearestDouble_doubles (g x) ((hg x).trans big)
  have ht := tiny
  have : (2⁻¹ : ℝ) ^ 53 * |g x| ≤ 2⁻¹ ^ 53 * 1 := mul_le_mul_of_nonneg_left (hg x) (by positivity)
  generalize (2⁻¹ : ℝ) ^ 1075 = t at h ht
  refine h.trans ((add_le_add this ht).trans (by norm_num))

/-- The hypotheses are met: a camera turned by any angle about its axis, one metre in front of a point. -/
example (cal : Cam) (k : ℝ) (h1 : cal.dm = Geo.rotationMatrix 0 0 k) (h2 : cal.pos = ⟨0, 0, 1000⟩) (h3 : cal.cc = 80) :
    |(Round.collinear nearestDouble doubleDot cal.cc (rotationMatrix nearestDouble (fun t => nearestDouble (Real.sin t))
      (fun t => nearestDouble (Real.cos t)) 0 0 k) cal.pos ⟨30, 40, 0⟩).1 - (Geo.collinear cal ⟨30, 40, 0⟩).1| ≤ 3 / 10 ^ 7 := by
  have hc := abs_le.1 (Real.abs_cos_le_one k)
  have hs := abs_le.1 (Real.abs_sin_le_one k)
  have e2 : V3.dot cal.dm.c2 (⟨30, 40, 0⟩ - cal.pos) = -1000 := by
    rw [h1, h2]; simp [Geo.rotationMatrix, M3.c2, V3.dot]
  have e0 : V3.dot cal.dm.c0 (⟨30, 40, 0⟩ - cal.pos) = Real.cos k * 30 + Real.sin k * 40 := by
    rw [h1, h2]; simp [Geo.rotationMatrix, M3.c0, V3.dot]
  have e1 : V3.dot cal.dm.c1 (⟨30, 40, 0⟩ - cal.pos) = -Real.sin k * 30 + Real.cos k * 40 := by
    rw [h1, h2]; simp [Geo.rotationMatrix, M3.c1, V3.dot]
  refine (C150_image nearestDouble doubleDot _ _ nearestDouble_doubles doubleDot_double (faithful_rounded Real.abs_sin_le_one)
    (faithful_rounded Real.abs_cos_le_one) cal 0 0 k _ h1 (by rw [h3]; norm_num) (by rw [h2]; norm_num) (by norm_num) ?_ ?_ ?_).1
  · rw [e2]; norm_num
  · rw [e0, e2, abs_le]; norm_num; constructor <;> linarith
  · rw [e1, e2, abs_le]; norm_num; constructor <;> linarith

end Verif.Round
