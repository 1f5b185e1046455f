import Verif.Model.Multimed
import Verif.Spec.Multimed
import Mathlib.Topology.MetricSpace.Contracting
import Mathlib.Analysis.SpecialFunctions.Sqrt
import Mathlib.Analysis.Calculus.MeanValue
import Mathlib.Analysis.Calculus.Deriv.MeanValue
import Mathlib.Analysis.Calculus.Deriv.Inv
import Mathlib.Analysis.SpecialFunctions.Trigonometric.Inverse
import Mathlib.Tactic.NormNum
import Mathlib.Tactic.LinearCombination

namespace Verif.Geo

/-- Tangent of the refracted angle as a function of the tangent `t` of the incidence angle, for the
index ratio `m`. -/
noncomputable def snellTan (m t : ℝ) : ℝ := m * t / Real.sqrt (1 + (1 - m ^ 2) * t ^ 2)

theorem tan_refracted {m t : ℝ} (hm : m ^ 2 ≤ 1) :
    Real.tan (Real.arcsin (Real.sin (Real.arctan t) * m)) = snellTan m t := by
  have h1 : 0 < 1 + t ^ 2 := by positivity
  have h2 : 0 < 1 + (1 - m ^ 2) * t ^ 2 := by nlinarith [sq_nonneg t]
  have h3 := Real.sqrt_pos.2 h1
  have h4 := Real.sqrt_pos.2 h2
  rw [Real.tan_arcsin, Real.sin_arctan, snellTan]
  have e : 1 - (t / Real.sqrt (1 + t ^ 2) * m) ^ 2
      = (1 + (1 - m ^ 2) * t ^ 2) / (1 + t ^ 2) := by
    rw [mul_pow, div_pow, Real.sq_sqrt h1.le]; field_simp; ring
  rw [e, Real.sqrt_div h2.le]
  field_simp

theorem snellTan_hasDeriv {m : ℝ} (hm : m ^ 2 ≤ 1) (t : ℝ) :
    HasDerivAt (snellTan m)
      (m / ((1 + (1 - m ^ 2) * t ^ 2) * Real.sqrt (1 + (1 - m ^ 2) * t ^ 2))) t := by
  set c := 1 - m ^ 2
  have hc : 0 ≤ c := by simp only [c]; linarith
  have h2 : 0 < 1 + c * t ^ 2 := by positivity
  have h4 := Real.sqrt_pos.2 h2
  have hq : HasDerivAt (fun x : ℝ => 1 + c * x ^ 2) (c * (2 * t)) t := by
    have := ((hasDerivAt_pow 2 t).const_mul c).const_add 1
    simpa using this
  have hs := hq.sqrt h2.ne'
  have hn : HasDerivAt (fun x : ℝ => m * x) m t := by
    simpa using (hasDerivAt_id t).const_mul m
  have hd := hn.div hs h4.ne'
  refine hd.congr_deriv ?_
  have hsq := Real.sq_sqrt h2.le
  set q := Real.sqrt (1 + c * t ^ 2)
  rw [← hsq]
  field_simp
  linear_combination m * hsq

theorem snellTan_deriv_bounds {m t : ℝ} (h0 : 0 ≤ m) (h1 : m ≤ 1) :
    0 ≤ m / ((1 + (1 - m ^ 2) * t ^ 2) * Real.sqrt (1 + (1 - m ^ 2) * t ^ 2)) ∧
    m / ((1 + (1 - m ^ 2) * t ^ 2) * Real.sqrt (1 + (1 - m ^ 2) * t ^ 2)) ≤ 1 := by
  have hc : 0 ≤ 1 - m ^ 2 := by nlinarith
  have h2 : 1 ≤ 1 + (1 - m ^ 2) * t ^ 2 := by nlinarith [sq_nonneg t, mul_nonneg hc (sq_nonneg t)]
  have h3 : 1 ≤ Real.sqrt (1 + (1 - m ^ 2) * t ^ 2) := Real.one_le_sqrt.2 h2
  have h4 : 1 ≤ (1 + (1 - m ^ 2) * t ^ 2) * Real.sqrt (1 + (1 - m ^ 2) * t ^ 2) := by nlinarith
  constructor
  · positivity
  · rw [div_le_one (by linarith)]; linarith

/-- A refracted tangent grows with the incidence tangent, but not faster. -/
theorem snellTan_between {m a b : ℝ} (h0 : 0 ≤ m) (h1 : m ≤ 1) (hab : a ≤ b) :
    0 ≤ snellTan m b - snellTan m a ∧ snellTan m b - snellTan m a ≤ b - a := by
  have hm : m ^ 2 ≤ 1 := by nlinarith
  have hd : Differentiable ℝ (snellTan m) := fun t => (snellTan_hasDeriv hm t).differentiableAt
  have hder : ∀ t, deriv (snellTan m) t
      = m / ((1 + (1 - m ^ 2) * t ^ 2) * Real.sqrt (1 + (1 - m ^ 2) * t ^ 2)) :=
    fun t => (snellTan_hasDeriv hm t).deriv
  constructor
  · have : Monotone (snellTan m) := monotone_of_deriv_nonneg hd
      (fun t => by rw [hder]; exact (snellTan_deriv_bounds h0 h1).1)
    linarith [this hab]
  · have := image_sub_le_mul_sub_of_deriv_le hd (C := 1)
      (fun t => by rw [hder]; exact (snellTan_deriv_bounds h0 h1).2) hab
    linarith

theorem snellTan_one (t : ℝ) : snellTan 1 t = t := by simp [snellTan]

theorem snellTan_zero (m : ℝ) : snellTan m 0 = 0 := by simp [snellTan]

theorem sum_map_mul (l : List ℝ) (c : ℝ) : (l.map (· * c)).sum = l.sum * c := by
  induction l with
  | nil => simp
  | cons a l ih => simp [ih]; ring

/-- Closed form of the arrival radius. -/
theorem rBeta_eq {n1 n2 n3 : ℝ} (h1 : 0 ≤ n1) (h12 : n1 ≤ n2) (h13 : n1 ≤ n3) (h2 : 0 < n2)
    (h3 : 0 < n3) (d : List ℝ) (z0 zout zdiff rq : ℝ) :
    rBeta n1 n2 n3 d z0 zout zdiff rq = (z0 - d.headD 0) * (rq / zdiff)
      - zout * snellTan (n1 / n3) (rq / zdiff) + d.sum * snellTan (n1 / n2) (rq / zdiff) := by
  have hm2 : (n1 / n2) ^ 2 ≤ 1 := by
    have : 0 ≤ n1 / n2 := by positivity
    have : n1 / n2 ≤ 1 := by rw [div_le_one h2]; exact h12
    nlinarith
  have hm3 : (n1 / n3) ^ 2 ≤ 1 := by
    have : 0 ≤ n1 / n3 := by positivity
    have : n1 / n3 ≤ 1 := by rw [div_le_one h3]; exact h13
    nlinarith
  simp only [rBeta]
  rw [mul_div_assoc, mul_div_assoc, tan_refracted hm2, tan_refracted hm3, Real.tan_arctan,
    sum_map_mul]

/-- With equal indices the arrival radius is the geometric one. -/
theorem rBeta_same {n : ℝ} (hn : n ≠ 0) (d : List ℝ) (z0 zout zdiff rq : ℝ) :
    rBeta n n n d z0 zout zdiff rq = (z0 - d.headD 0 - zout + d.sum) * (rq / zdiff) := by
  have : ∀ b : ℝ, Real.sin b * n / n = Real.sin b * 1 := by intro b; field_simp
  simp only [rBeta, this]
  rw [tan_refracted (by norm_num), Real.tan_arctan, sum_map_mul, snellTan_one]
  ring

/-- For non-decreasing functions with slope at most `q`, distances shrink by `q`. -/
theorem rBeta_contract {n1 n2 n3 d z0 Z : ℝ} (h1 : 0 ≤ n1) (h12 : n1 ≤ n2) (h13 : n1 ≤ n3)
    (h2 : 0 < n2) (h3 : 0 < n3) (hd : 0 ≤ d) (hZ : Z ≤ 0) (hz0 : d < z0) (a b : ℝ) :
    |(a - rBeta n1 n2 n3 [d] z0 Z (z0 - Z) a) - (b - rBeta n1 n2 n3 [d] z0 Z (z0 - Z) b)|
      ≤ (d - Z) / (z0 - Z) * |a - b| := by
  have hzd : 0 < z0 - Z := by linarith
  wlog hab : a ≤ b generalizing a b
  · rw [abs_sub_comm, abs_sub_comm a b]
    exact this b a (by linarith)
  have key : ∀ t, t - rBeta n1 n2 n3 [d] z0 Z (z0 - Z) t
      = t - (z0 - d) * (t / (z0 - Z)) + Z * snellTan (n1 / n3) (t / (z0 - Z))
        - d * snellTan (n1 / n2) (t / (z0 - Z)) := by
    intro t; rw [rBeta_eq h1 h12 h13 h2 h3]; simp; ring
  have hm2 := snellTan_between (m := n1 / n2) (by positivity) (by rw [div_le_one h2]; exact h12)
    (div_le_div_of_nonneg_right hab hzd.le)
  have hm3 := snellTan_between (m := n1 / n3) (by positivity) (by rw [div_le_one h3]; exact h13)
    (div_le_div_of_nonneg_right hab hzd.le)
  rw [key, key]
  set u := a / (z0 - Z)
  set v := b / (z0 - Z)
  have hau : a = u * (z0 - Z) := by simp only [u]; field_simp
  have hbv : b = v * (z0 - Z) := by simp only [v]; field_simp
  have e1 : (d - Z) / (z0 - Z) * |a - b| = (d - Z) * (v - u) := by
    rw [abs_of_nonpos (by linarith), hau, hbv]; field_simp; ring
  rw [e1, abs_le]
  set S2 := snellTan (n1 / n2) v - snellTan (n1 / n2) u with hS2
  set S3 := snellTan (n1 / n3) v - snellTan (n1 / n3) u with hS3
  have huv : 0 ≤ v - u := by linarith [hm2.1, hm2.2]
  have hE : (a - (z0 - d) * u + Z * snellTan (n1 / n3) u - d * snellTan (n1 / n2) u)
      - (b - (z0 - d) * v + Z * snellTan (n1 / n3) v - d * snellTan (n1 / n2) v)
      = -(d - Z) * (v - u) + -Z * S3 + d * S2 := by
    rw [hau, hbv, hS2, hS3]; ring
  rw [hE]
  constructor
  · nlinarith [mul_nonneg (neg_nonneg.2 hZ) hm3.1, mul_nonneg hd hm2.1]
  · nlinarith [mul_le_mul_of_nonneg_left hm3.2 (neg_nonneg.2 hZ), mul_le_mul_of_nonneg_left hm2.2 hd]

end Verif.Geo

namespace Verif.Geo
open Spec

/-- Snell's law for tangents determines the refracted tangent. -/
theorem snellTan_spec {na nb t : ℝ} (hna : 0 < na) (hab : na ≤ nb) (ht : 0 ≤ t) :
    0 ≤ snellTan (na / nb) t ∧
    na * (t / Real.sqrt (1 + t ^ 2))
      = nb * (snellTan (na / nb) t / Real.sqrt (1 + snellTan (na / nb) t ^ 2)) := by
  have hnb : 0 < nb := by linarith
  set m := na / nb with hm
  have hm0 : 0 < m := by positivity
  have hm1 : m ≤ 1 := by rw [hm, div_le_one hnb]; exact hab
  have h1 : 0 < 1 + t ^ 2 := by positivity
  have h2 : 0 < 1 + (1 - m ^ 2) * t ^ 2 := by
    have : 0 ≤ 1 - m ^ 2 := by nlinarith
    positivity
  have h3 := Real.sqrt_pos.2 h1
  have h4 := Real.sqrt_pos.2 h2
  have e : 1 + snellTan m t ^ 2 = (1 + t ^ 2) / (1 + (1 - m ^ 2) * t ^ 2) := by
    rw [snellTan, div_pow, Real.sq_sqrt h2.le, eq_div_iff h2.ne', add_mul,
      div_mul_cancel₀ _ h2.ne']; ring
  refine ⟨by unfold snellTan; positivity, ?_⟩
  rw [e, Real.sqrt_div h1.le, snellTan]
  have : na = nb * m := by rw [hm]; field_simp
  rw [this]
  set q := Real.sqrt (1 + (1 - m ^ 2) * t ^ 2)
  set p := Real.sqrt (1 + t ^ 2)
  field_simp

/-- Tangents with the same sine are equal. -/
theorem sin_tan_inj {a b : ℝ} (h : a / Real.sqrt (1 + a ^ 2) = b / Real.sqrt (1 + b ^ 2)) : a = b := by
  rw [← Real.sin_arctan, ← Real.sin_arctan] at h
  have hi := Real.injOn_sin (Real.arctan_mem_Ioo a |> fun h => ⟨h.1.le, h.2.le⟩)
    (Real.arctan_mem_Ioo b |> fun h => ⟨h.1.le, h.2.le⟩) h
  exact Real.arctan_injective hi

theorem apparent_iff_rBeta {n1 n2 n3 d z0 Z r rs : ℝ} (h1 : 0 < n1) (h12 : n1 ≤ n2)
    (h13 : n1 ≤ n3) (hzd : 0 < z0 - Z) :
    ApparentRadius n1 n2 n3 d z0 Z r rs ↔ 0 ≤ rs ∧ rBeta n1 n2 n3 [d] z0 Z (z0 - Z) rs = r := by
  rw [rBeta_eq h1.le h12 h13 (by linarith) (by linarith)]
  have h2 : 0 < n2 := by linarith
  have h3 : 0 < n3 := by linarith
  constructor
  · rintro ⟨t1, t2, t3, p1, p2, p3, e2, e3, er, ers⟩
    have ht : rs / (z0 - Z) = t1 := by rw [ers]; field_simp
    have s2 := snellTan_spec h1 h12 p1
    have s3 := snellTan_spec h1 h13 p1
    have q2 : t2 = snellTan (n1 / n2) t1 :=
      sin_tan_inj (mul_left_cancel₀ h2.ne' (e2.symm.trans s2.2))
    have q3 : t3 = snellTan (n1 / n3) t1 :=
      sin_tan_inj (mul_left_cancel₀ h3.ne' (e3.symm.trans s3.2))
    refine ⟨by rw [ers]; positivity, ?_⟩
    rw [ht, er, q2, q3]; simp; ring
  · rintro ⟨hrs, he⟩
    have p1 : 0 ≤ rs / (z0 - Z) := by positivity
    have s2 := snellTan_spec h1 h12 p1
    have s3 := snellTan_spec h1 h13 p1
    refine ⟨_, _, _, p1, s2.1, s3.1, s2.2, s3.2, ?_, ?_⟩
    · rw [← he]; simp; ring
    · field_simp

/-- Existence and uniqueness of the apparent radius. -/
theorem apparent_unique {n1 n2 n3 d z0 Z r : ℝ} (h1 : 0 < n1) (h12 : n1 ≤ n2) (h13 : n1 ≤ n3)
    (hd : 0 ≤ d) (hZ : Z ≤ 0) (hz0 : d < z0) (hr : 0 ≤ r) :
    ∃! rs, ApparentRadius n1 n2 n3 d z0 Z r rs := by
  have hzd : 0 < z0 - Z := by linarith
  have hq1 : (d - Z) / (z0 - Z) < 1 := by rw [div_lt_one hzd]; linarith
  have hq0 : 0 ≤ (d - Z) / (z0 - Z) := div_nonneg (by linarith) hzd.le
  have hcon := rBeta_contract (n1 := n1) (n2 := n2) (n3 := n3) h1.le h12 h13 (by linarith)
    (by linarith) hd hZ hz0
  set B := rBeta n1 n2 n3 [d] z0 Z (z0 - Z) with hB
  have h00 : B 0 = 0 := by
    rw [hB, rBeta_eq h1.le h12 h13 (by linarith) (by linarith)]; simp [snellTan_zero]
  have hcw : ContractingWith ⟨(d - Z) / (z0 - Z), hq0⟩ (fun x : ℝ => x + r - B x) := by
    refine ⟨by exact_mod_cast hq1, LipschitzWith.of_dist_le_mul fun a b => ?_⟩
    rw [Real.dist_eq, Real.dist_eq]
    have := hcon a b
    rw [show a + r - B a - (b + r - B b) = a - B a - (b - B b) by ring]
    exact this
  have hfix := hcw.fixedPoint_isFixedPt
  set rs := ContractingWith.fixedPoint (fun x : ℝ => x + r - B x) hcw
  have hrs : B rs = r := by
    have : rs + r - B rs = rs := hfix
    linarith
  have hpos : 0 ≤ rs := by
    by_contra hneg
    push Not at hneg
    have := hcon rs 0
    rw [h00, hrs, abs_le] at this
    rw [show rs - 0 = rs by ring, abs_of_neg hneg] at this
    nlinarith [this.1]
  refine ⟨rs, (apparent_iff_rBeta h1 h12 h13 hzd).2 ⟨hpos, hrs⟩, fun y hy => ?_⟩
  obtain ⟨-, hy2⟩ := (apparent_iff_rBeta h1 h12 h13 hzd).1 hy
  have := hcon y rs
  rw [← hB] at hy2
  rw [hy2, hrs, show y - r - (rs - r) = y - rs by ring] at this
  by_contra hne
  have : 0 < |y - rs| := abs_pos.2 (sub_ne_zero.2 hne)
  nlinarith

/-- Accuracy of the loop relative to a solution `rs`. -/
theorem radialLoop_error {n1 n2 n3 d z0 Z r rs q : ℝ} (hq0 : 0 ≤ q) (hq1 : q < 1)
    (hcon : ∀ a b, |(a - rBeta n1 n2 n3 [d] z0 Z (z0 - Z) a)
      - (b - rBeta n1 n2 n3 [d] z0 Z (z0 - Z) b)| ≤ q * |a - b|)
    (hrs : rBeta n1 n2 n3 [d] z0 Z (z0 - Z) rs = r) (n : ℕ) :
    ∀ rq rdiff, (|rdiff| ≤ 0.001 → |rq - rs| ≤ 0.001 * (q / (1 - q))) →
      |radialLoop n1 n2 n3 [d] z0 Z (z0 - Z) r n rq rdiff - rs| ≤ 0.001 * (q / (1 - q)) ∨
      |radialLoop n1 n2 n3 [d] z0 Z (z0 - Z) r n rq rdiff - rs| ≤ q ^ n * |rq - rs| := by
  induction n with
  | zero => intro rq rdiff _; right; simp [radialLoop]
  | succ n ih =>
    intro rq rdiff hin
    rw [radialLoop]
    set B := rBeta n1 n2 n3 [d] z0 Z (z0 - Z) with hB
    split_ifs with hc
    · have h := hcon rq rs
      have hstep : |rq + (r - B rq) - rs| ≤ q * |rq - rs| := by
        rw [show rq + (r - B rq) - rs = (rq - B rq) - (rs - B rs) by rw [hrs]; ring]
        exact h
      rcases ih (rq + (r - B rq)) (r - B rq) (fun hsm => by
        have h3 : |rq - rs| ≤ |r - B rq| + |rq + (r - B rq) - rs| := by
          have := abs_sub_abs_le_abs_sub (rq - rs) (rq + (r - B rq) - rs)
          rw [show rq - rs - (rq + (r - B rq) - rs) = -(r - B rq) by ring, abs_neg] at this
          linarith
        have h4 : |rq - rs| * (1 - q) ≤ 0.001 := by nlinarith
        have h5 : |rq - rs| ≤ 0.001 / (1 - q) := by rw [le_div_iff₀ (by linarith)]; exact h4
        calc |rq + (r - B rq) - rs| ≤ q * |rq - rs| := hstep
          _ ≤ q * (0.001 / (1 - q)) := mul_le_mul_of_nonneg_left h5 hq0
          _ = _ := by ring) with h' | h'
      · exact Or.inl h'
      · right
        refine h'.trans ?_
        calc q ^ n * |rq + (r - B rq) - rs| ≤ q ^ n * (q * |rq - rs|) :=
              mul_le_mul_of_nonneg_left hstep (by positivity)
          _ = _ := by ring
    · exact Or.inl (hin (not_lt.1 hc))

/-- Equal indices: the loop returns its starting value. -/
theorem radialLoop_same {n : ℝ} (hn : n ≠ 0) {d : List ℝ} {z0 zout zdiff r : ℝ}
    (h : z0 - d.headD 0 - zout + d.sum = zdiff) (hz : zdiff ≠ 0) (k : ℕ) :
    ∀ rdiff, radialLoop n n n d z0 zout zdiff r k r rdiff = r := by
  induction k with
  | zero => intro _; rfl
  | succ k ih =>
    intro rdiff
    rw [radialLoop]
    split_ifs
    · have : r - rBeta n n n d z0 zout zdiff r = 0 := by
        rw [rBeta_same hn, h]; field_simp; ring
      simp only [this, add_zero]; exact ih 0
    · rfl

end Verif.Geo
