/-
C150: rounding errors of the conversions and of the rotation matrix (trafo.py, calibration.py).
-/
import Verif.Model.Rounded
import Verif.Proofs.Rounded
import Verif.Props.Trafo

namespace Verif.Round
open Verif.Geo Verif.Geo.Spec

/-! ### Pixels and millimetres -/

theorem half_near {r : ℝ → ℝ} (h : Doubles r) {s : ℝ} (h0 : 0 ≤ s) (h1 : s ≤ 10 ^ 5) : |r (s / 2) - s / 2| ≤ 6 / 10 ^ 12 := by
  have := h.near (a := s / 2) (x := s / 2) (X := 5 * 10 ^ 4) (e := 0) (by simp) (by rw [abs_of_nonneg (by linarith)]; linarith) (by norm_num)
  refine this.trans ?_
  norm_num

theorem scale_near {r : ℝ → ℝ} (h : Doubles r) {a z p : ℝ} (hp : 1 / 10 ^ 6 ≤ p ∧ p ≤ 1) (ha : |a - z| ≤ 6 / 10 ^ 12)
    (hz : |z| ≤ 105 / 100 * 10 ^ 6) : |r (r a * p) - z * p| ≤ 1 / 10 ^ 9 * p := by
  have hp0 : 0 < p := lt_of_lt_of_le (by norm_num) hp.1
  have h1 := h.near ha hz (by norm_num)
  have h2 : |r a - z| ≤ 2 / 10 ^ 10 := h1.trans (by norm_num)
  have h3 : |r a * p - z * p| ≤ 2 / 10 ^ 10 * p := by
    rw [← sub_mul, abs_mul, abs_of_pos hp0]
    exact mul_le_mul_of_nonneg_right h2 hp0.le
  have h4 : |z * p| ≤ 105 / 100 * 10 ^ 6 * p := by
    rw [abs_mul, abs_of_pos hp0]
    exact mul_le_mul_of_nonneg_right hz hp0.le
  have h5 := h.near h3 h4 (by nlinarith [hp.2])
  have h6 : (1 : ℝ) / 10 ^ 60 ≤ 1 / 10 ^ 50 * p := by
    have := mul_le_mul_of_nonneg_left hp.1 (show (0 : ℝ) ≤ 1 / 10 ^ 50 by norm_num)
    refine le_trans ?_ this
    norm_num
  refine h5.trans ?_
  nlinarith

theorem unscale_near {r : ℝ → ℝ} (h : Doubles r) {m p : ℝ} (hp : 0 < p) (hm : |m| ≤ 11 / 10 * 10 ^ 6 * p) :
    |r (m / p) - m / p| ≤ 2 / 10 ^ 10 ∧ |m / p| ≤ 11 / 10 * 10 ^ 6 := by
  have h1 : |m / p| ≤ 11 / 10 * 10 ^ 6 := by
    rw [abs_div, abs_of_pos hp, div_le_iff₀ hp]
    exact hm
  refine ⟨(h.near (a := m / p) (x := m / p) (e := 0) (by simp) h1 (by norm_num)).trans (by norm_num), h1⟩

/-- C150: in double precision, `pixel_to_metric` of positions up to a million pixels from the corner is right up to a billionth of
a pixel, for images up to 100 000 pixels wide and pixels between a nanometre and a millimetre. -/
theorem C150_pixel_to_metric (r : ℝ → ℝ) (hr : Doubles r) (c : ImgPar) (hi : c.imx ≤ 10 ^ 5 ∧ c.imy ≤ 10 ^ 5)
    (hx : 1 / 10 ^ 6 ≤ c.pixX ∧ c.pixX ≤ 1) (hy : 1 / 10 ^ 6 ≤ c.pixY ∧ c.pixY ≤ 1) (a b : ℝ) (ha : |a| ≤ 10 ^ 6) (hb : |b| ≤ 10 ^ 6) :
    |(Round.pixelToMetric r a b c).1 - (Geo.pixelToMetric a b c).1| ≤ 1 / 10 ^ 9 * c.pixX ∧
    |(Round.pixelToMetric r a b c).2 - (Geo.pixelToMetric a b c).2| ≤ 1 / 10 ^ 9 * c.pixY := by
  have h1 : (c.imx : ℝ) ≤ 10 ^ 5 := by exact_mod_cast hi.1
  have h2 : (c.imy : ℝ) ≤ 10 ^ 5 := by exact_mod_cast hi.2
  have n1 : (0 : ℝ) ≤ c.imx := Nat.cast_nonneg _
  have n2 : (0 : ℝ) ≤ c.imy := Nat.cast_nonneg _
  have k1 := half_near hr n1 h1
  have k2 := half_near hr n2 h2
  rw [abs_le] at ha hb
  constructor
  · refine scale_near hr hx ?_ ?_
    · refine (sub_near (α := 0) (by simp) k1).trans (by norm_num)
    · rw [abs_le]
      constructor <;> linarith
  · refine scale_near hr hy ?_ ?_
    · refine (sub_near (β := 0) k2 (by simp)).trans (by norm_num)
    · rw [abs_le]
      constructor <;> linarith

/-- C150: in double precision, `metric_to_pixel` of positions up to 1.1 million pixels from the centre is right up to a billionth of a
pixel. -/
theorem C150_metric_to_pixel (r : ℝ → ℝ) (hr : Doubles r) (c : ImgPar) (hi : c.imx ≤ 10 ^ 5 ∧ c.imy ≤ 10 ^ 5)
    (hx : 0 < c.pixX) (hy : 0 < c.pixY) (a b : ℝ) (ha : |a| ≤ 11 / 10 * 10 ^ 6 * c.pixX) (hb : |b| ≤ 11 / 10 * 10 ^ 6 * c.pixY) :
    |(Round.metricToPixel r a b c).1 - (Geo.metricToPixel a b c).1| ≤ 1 / 10 ^ 9 ∧
    |(Round.metricToPixel r a b c).2 - (Geo.metricToPixel a b c).2| ≤ 1 / 10 ^ 9 := by
  have h1 : (c.imx : ℝ) ≤ 10 ^ 5 := by exact_mod_cast hi.1
  have h2 : (c.imy : ℝ) ≤ 10 ^ 5 := by exact_mod_cast hi.2
  have n1 : (0 : ℝ) ≤ c.imx := Nat.cast_nonneg _
  have n2 : (0 : ℝ) ≤ c.imy := Nat.cast_nonneg _
  have k1 := half_near hr n1 h1
  have k2 := half_near hr n2 h2
  obtain ⟨g1, g2⟩ := unscale_near hr hx ha
  obtain ⟨g3, g4⟩ := unscale_near hr hy hb
  rw [abs_le] at g2 g4
  constructor
  · refine (hr.near (X := 12 / 10 * 10 ^ 6) (add_near g1 k1) ?_ (by norm_num)).trans (by norm_num)
    rw [abs_le]
    constructor <;> linarith
  · refine (hr.near (X := 12 / 10 * 10 ^ 6) (sub_near k2 g3) ?_ (by norm_num)).trans (by norm_num)
    rw [abs_le]
    constructor <;> linarith

/-- C150: in double precision, `metric_to_pixel` leads back from `pixel_to_metric` up to two billionths of a pixel. -/
theorem C150_round_trip (r : ℝ → ℝ) (hr : Doubles r) (c : ImgPar) (hi : c.imx ≤ 10 ^ 5 ∧ c.imy ≤ 10 ^ 5)
    (hx : 1 / 10 ^ 6 ≤ c.pixX ∧ c.pixX ≤ 1) (hy : 1 / 10 ^ 6 ≤ c.pixY ∧ c.pixY ≤ 1) (a b : ℝ) (ha : |a| ≤ 10 ^ 6) (hb : |b| ≤ 10 ^ 6) :
    |(Round.metricToPixel r (Round.pixelToMetric r a b c).1 (Round.pixelToMetric r a b c).2 c).1 - a| ≤ 2 / 10 ^ 9 ∧
    |(Round.metricToPixel r (Round.pixelToMetric r a b c).1 (Round.pixelToMetric r a b c).2 c).2 - b| ≤ 2 / 10 ^ 9 := by
  have h1 : (c.imx : ℝ) ≤ 10 ^ 5 := by exact_mod_cast hi.1
  have h2 : (c.imy : ℝ) ≤ 10 ^ 5 := by exact_mod_cast hi.2
  have n1 : (0 : ℝ) ≤ c.imx := Nat.cast_nonneg _
  have n2 : (0 : ℝ) ≤ c.imy := Nat.cast_nonneg _
  have px : 0 < c.pixX := lt_of_lt_of_le (by norm_num) hx.1
  have py : 0 < c.pixY := lt_of_lt_of_le (by norm_num) hy.1
  obtain ⟨e1, e2⟩ := C150_pixel_to_metric r hr c hi hx hy a b ha hb
  obtain ⟨f1, f2⟩ := abs_le.1 ha
  obtain ⟨f3, f4⟩ := abs_le.1 hb
  generalize Round.pixelToMetric r a b c = m at e1 e2
  simp only [Geo.pixelToMetric] at e1 e2
  have b1 : |m.1| ≤ 11 / 10 * 10 ^ 6 * c.pixX := by
    rw [abs_le] at e1 ⊢
    constructor <;> nlinarith
  have b2 : |m.2| ≤ 11 / 10 * 10 ^ 6 * c.pixY := by
    rw [abs_le] at e2 ⊢
    constructor <;> nlinarith
  obtain ⟨d1, d2⟩ := C150_metric_to_pixel r hr c hi px py m.1 m.2 b1 b2
  have c1 : |(Geo.metricToPixel m.1 m.2 c).1 - a| ≤ 1 / 10 ^ 9 := by
    have e : (Geo.metricToPixel m.1 m.2 c).1 - a = (m.1 - (a - (c.imx : ℝ) / 2) * c.pixX) / c.pixX := by
      simp only [Geo.metricToPixel]
      field_simp
      ring
    rw [e, abs_div, abs_of_pos px, div_le_iff₀ px]
    exact e1
  have c2 : |(Geo.metricToPixel m.1 m.2 c).2 - b| ≤ 1 / 10 ^ 9 := by
    have e : (Geo.metricToPixel m.1 m.2 c).2 - b = -((m.2 - ((c.imy : ℝ) / 2 - b) * c.pixY) / c.pixY) := by
      simp only [Geo.metricToPixel]
      field_simp
      ring
    rw [e, abs_neg, abs_div, abs_of_pos py, div_le_iff₀ py]
    exact e2
  have t1 := abs_sub_le (Round.metricToPixel r m.1 m.2 c).1 (Geo.metricToPixel m.1 m.2 c).1 a
  have t2 := abs_sub_le (Round.metricToPixel r m.1 m.2 c).2 (Geo.metricToPixel m.1 m.2 c).2 b
  exact ⟨by linarith, by linarith⟩

/-- The hypotheses are met: rounding to the nearest double precision number, a usual camera, any position on its image. -/
example (a b : ℝ) (ha : |a| ≤ 1280) (hb : |b| ≤ 1024) :
    |(Round.metricToPixel nearestDouble (Round.pixelToMetric nearestDouble a b ⟨1280, 1024, 0.012, 0.012⟩).1
      (Round.pixelToMetric nearestDouble a b ⟨1280, 1024, 0.012, 0.012⟩).2 ⟨1280, 1024, 0.012, 0.012⟩).1 - a| ≤ 2 / 10 ^ 9 :=
  (C150_round_trip nearestDouble nearestDouble_doubles ⟨1280, 1024, 0.012, 0.012⟩ (by norm_num) (by norm_num) (by norm_num) a b
    (ha.trans (by norm_num)) (hb.trans (by norm_num))).1

/-! ### The rotation matrix -/

theorem two_near {r : ℝ → ℝ} (h : Doubles r) {a b x y : ℝ} (ha : |a - x| ≤ 2⁻¹ ^ 52) (hb : |b - y| ≤ 2⁻¹ ^ 52) (hx : |x| ≤ 1)
    (hy : |y| ≤ 1) : |r (a * b) - x * y| ≤ 6 / 10 ^ 16 ∧ |x * y| ≤ 1 := by
  have hxy : |x * y| ≤ 1 := by
    rw [abs_mul]
    exact mul_le_one₀ hx (abs_nonneg _) hy
  exact ⟨(h.near (mul_near (ha.trans unit2_up) (hb.trans unit2_up) hx hy) hxy (by norm_num)).trans (by norm_num), hxy⟩

theorem three_near {r : ℝ → ℝ} (h : Doubles r) {a b x y : ℝ} (ha : |a - x| ≤ 6 / 10 ^ 16) (hb : |b - y| ≤ 2⁻¹ ^ 52) (hx : |x| ≤ 1)
    (hy : |y| ≤ 1) : |r (a * b) - x * y| ≤ 10 / 10 ^ 16 ∧ |x * y| ≤ 1 := by
  have hxy : |x * y| ≤ 1 := by
    rw [abs_mul]
    exact mul_le_one₀ hx (abs_nonneg _) hy
  exact ⟨(h.near (mul_near ha (hb.trans unit2_up) hx hy) hxy (by norm_num)).trans (by norm_num), hxy⟩

theorem sum_near {r : ℝ → ℝ} (h : Doubles r) {a b x y : ℝ} (ha : |a - x| ≤ 6 / 10 ^ 16) (hb : |b - y| ≤ 10 / 10 ^ 16) (hx : |x| ≤ 1)
    (hy : |y| ≤ 1) : |r (a + b) - (x + y)| ≤ 2 / 10 ^ 15 ∧ |r (a - b) - (x - y)| ≤ 2 / 10 ^ 15 := by
  constructor
  · exact (h.near (X := 2) (add_near ha hb) ((abs_add_le _ _).trans (by linarith)) (by norm_num)).trans (by norm_num)
  · exact (h.near (X := 2) (sub_near ha hb) ((abs_sub _ _).trans (by linarith)) (by norm_num)).trans (by norm_num)

theorem neg_near {a x e : ℝ} (h : |a - x| ≤ e) : |-a - -x| ≤ e := by
  rw [← abs_neg]
  convert h using 2
  ring

theorem rotation_near (r fs fc : ℝ → ℝ) (hr : Doubles r) (hs : Faithful fs Real.sin) (hc : Faithful fc Real.cos) (o p k : ℝ) (i j : Fin 3) :
    |toMatrix (Round.rotationMatrix r fs fc o p k) i j - toMatrix (Geo.rotationMatrix o p k) i j| ≤ 2 / 10 ^ 15 := by
  have so := hs o
  have sp := hs p
  have sk := hs k
  have co := hc o
  have cp := hc p
  have ck := hc k
  have bso := Real.abs_sin_le_one o
  have bsp := Real.abs_sin_le_one p
  have bsk := Real.abs_sin_le_one k
  have bco := Real.abs_cos_le_one o
  have bcp := Real.abs_cos_le_one p
  have bck := Real.abs_cos_le_one k
  have up : (6 : ℝ) / 10 ^ 16 ≤ 2 / 10 ^ 15 := by norm_num
  have up' : (2⁻¹ : ℝ) ^ 52 ≤ 2 / 10 ^ 15 := by norm_num
  have nb : ∀ {x : ℝ}, |x| ≤ 1 → |-x| ≤ 1 := fun h => by rwa [abs_neg]
  fin_cases i <;> fin_cases j
  · exact (two_near hr cp ck bcp bck).1.trans up
  · exact (two_near hr (neg_near cp) sk (nb bcp) bsk).1.trans up
  · exact sp.trans up'
  · have h1 := two_near hr co sk bco bsk
    have h2 := two_near hr so sp bso bsp
    have h3 := three_near hr h2.1 ck h2.2 bck
    exact (sum_near hr h1.1 h3.1 h1.2 h3.2).1
  · have h1 := two_near hr co ck bco bck
    have h2 := two_near hr so sp bso bsp
    have h3 := three_near hr h2.1 sk h2.2 bsk
    exact (sum_near hr h1.1 h3.1 h1.2 h3.2).2
  · exact (two_near hr (neg_near so) cp (nb bso) bcp).1.trans up
  · have h1 := two_near hr so sk bso bsk
    have h2 := two_near hr co sp bco bsp
    have h3 := three_near hr h2.1 ck h2.2 bck
    exact (sum_near hr h1.1 h3.1 h1.2 h3.2).2
  · have h1 := two_near hr so ck bso bck
    have h2 := two_near hr co sp bco bsp
    have h3 := three_near hr h2.1 sk h2.2 bsk
    exact (sum_near hr h1.1 h3.1 h1.2 h3.2).1
  · exact (two_near hr co cp bco bcp).1.trans up

/-- C150: in double precision, with a library whose sines and cosines are right to one unit in the last place, the matrix that
`rotation_matrix` computes is the rotation by the three angles up to 2e-15 in every entry, and orthonormal up to 2e-14. -/
theorem C150_rotation (r fs fc : ℝ → ℝ) (hr : Doubles r) (hs : Faithful fs Real.sin) (hc : Faithful fc Real.cos) (o p k : ℝ) (i j : Fin 3) :
    |toMatrix (Round.rotationMatrix r fs fc o p k) i j - (rotX o * rotY p * rotZ k) i j| ≤ 2 / 10 ^ 15 ∧
    |(toMatrix (Round.rotationMatrix r fs fc o p k) * (toMatrix (Round.rotationMatrix r fs fc o p k)).transpose) i j -
      (1 : Matrix (Fin 3) (Fin 3) ℝ) i j| ≤ 2 / 10 ^ 14 := by
  obtain ⟨e, hrot⟩ := C25_rotation o p k
  have hnear := rotation_near r fs fc hr hs hc o p k
  rw [← e]
  refine ⟨hnear i j, ?_⟩
  generalize toMatrix (Geo.rotationMatrix o p k) = M at hrot hnear
  generalize toMatrix (Round.rotationMatrix r fs fc o p k) = N at hnear
  have horth : M * M.transpose = 1 := (Matrix.mem_orthogonalGroup_iff (Fin 3) ℝ).1 (Matrix.mem_specialOrthogonalGroup_iff.1 hrot).1
  have hb : ∀ a b, |M a b| ≤ 1 := by
    intro a b
    have := congrFun (congrFun horth a) a
    simp only [Matrix.mul_apply, Fin.sum_univ_three, Matrix.transpose_apply, Matrix.one_apply_eq] at this
    rw [abs_le_one_iff_mul_self_le_one]
    fin_cases b <;> simp only [Fin.zero_eta, Fin.mk_one, Fin.reduceFinMk] <;>
      nlinarith [mul_self_nonneg (M a 0), mul_self_nonneg (M a 1), mul_self_nonneg (M a 2)]
  rw [← horth]
  simp only [Matrix.mul_apply, Fin.sum_univ_three, Matrix.transpose_apply]
  have t : ∀ l, |N i l * N j l - M i l * M j l| ≤ 5 / 10 ^ 15 := fun l =>
    (mul_near (hnear i l) (hnear j l) (hb i l) (hb j l)).trans (by norm_num)
  refine (add_near (add_near (t 0) (t 1)) (t 2)).trans (by norm_num)

/-- The hypotheses are met: exact sines and cosines, rounded to the nearest double precision number, and any angles. -/
example (o p k : ℝ) : |toMatrix (Round.rotationMatrix nearestDouble (fun x => nearestDouble (Real.sin x))
    (fun x => nearestDouble (Real.cos x)) o p k) 1 0 - (rotX o * rotY p * rotZ k) 1 0| ≤ 2 / 10 ^ 15 := by
  have key : ∀ y : ℝ, |y| ≤ 1 → |nearestDouble y - y| ≤ 2⁻¹ ^ 52 := by
    intro y hy
    refine (nearestDouble_doubles.near (a := y) (x := y) (e := 0) (by simp) hy (by norm_num)).trans (by norm_num)
  exact (C150_rotation nearestDouble _ _ nearestDouble_doubles (fun x => key _ (Real.abs_sin_le_one x))
    (fun x => key _ (Real.abs_cos_le_one x)) o p k 1 0).1

end Verif.Round
