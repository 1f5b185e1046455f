/-
C151: in double precision, rays that meet the window obliquely are traced.
-/
import Verif.Props.RoundedTrace
import Verif.Props.RoundedRays
import Verif.Props.Precision

namespace Verif.Round
open Verif.Geo Verif.Geo.Spec

theorem sqrtF_near {r : ℝ → ℝ} (h : Doubles r) {x : ℝ} (h0 : 1 / 10 ^ 12 ≤ x) (h1 : x ≤ 11 / 10) :
    ∃ s, sqrtF r x = some s ∧ |s * s - x| ≤ 1 / 10 ^ 15 ∧ 0 ≤ s ∧ s ≤ 106 / 100 := by
  have hx : ¬ x < 0 := by
    have : (0 : ℝ) < 1 / 10 ^ 12 := by norm_num
    linarith
  have hx0 : 0 ≤ x := not_lt.1 hx
  refine ⟨r (Real.sqrt x), by rw [sqrtF, if_neg hx], ?_⟩
  have e := Real.mul_self_sqrt hx0
  have t1 : Real.sqrt x ≤ 105 / 100 := by
    rw [Real.sqrt_le_left (by norm_num)]
    norm_num
    linarith
  have t0 : 1 / 10 ^ 6 ≤ Real.sqrt x := by
    apply Real.le_sqrt_of_sq_le
    norm_num at h0 ⊢
    linarith
  have ht := abs_of_nonneg (Real.sqrt_nonneg x)
  have q := h.near (show |Real.sqrt x - Real.sqrt x| ≤ 0 by simp) (ht.trans_le t1) (by norm_num)
  have q := q.trans (show _ ≤ (2 : ℝ) / 10 ^ 16 by norm_num)
  generalize Real.sqrt x = t at *
  obtain ⟨q1, q2⟩ := abs_le.1 q
  have b1 : 0 ≤ r t := by norm_num at *; linarith
  have b2 : r t ≤ 106 / 100 := by norm_num at *; linarith
  refine ⟨?_, b1, b2⟩
  have e2 : r t * r t - x = (r t - t) * (r t + t) := by rw [← e]; ring
  rw [e2, abs_mul]
  have b3 : |r t + t| ≤ 22 / 10 := by rw [abs_le]; constructor <;> linarith
  exact (mul_le_mul q b3 (abs_nonneg _) (by norm_num)).trans (by norm_num)

set_option maxHeartbeats 1000000 in
/-- The roots of a refraction exist, and are what they should be. -/
theorem roots {r : ℝ → ℝ} (h : Doubles r) {n na nb : ℝ} (hn : 1 / 10 ^ 10 ≤ 1 - n * n) (a1 : 1 ≤ na) (a2 : na ≤ 2) (b1 : 1 ≤ nb)
    (b2 : nb ≤ 2) (hp : (1 - n * n) * (na * na) ≤ 99 / 100 * (nb * nb)) :
    ∃ s p q, sqrtF r (r (1 - r (n * n))) = some s ∧ p = r (r (s * na) / nb) ∧ sqrtF r (r (1 - r (p * p))) = some q ∧
      0 ≤ p ∧ p ≤ 1 ∧ 0 ≤ q ∧ q ≤ 106 / 100 ∧ |p * p * (nb * nb) - (1 - n * n) * (na * na)| ≤ 3 / 10 ^ 14 ∧
      |q * q - (1 - p * p)| ≤ 2 / 10 ^ 15 := by
  have root1 : ∀ {m : ℝ}, m * m ≤ 1 → |r (1 - r (m * m)) - (1 - m * m)| ≤ 5 / 10 ^ 16 := by
    intro m hm
    have hm0 := mul_self_nonneg m
    have e1 := h.near (show |m * m - m * m| ≤ 0 by simp) (show |m * m| ≤ 1 by rw [abs_of_nonneg hm0]; exact hm) (by norm_num)
    have e1 := e1.trans (show _ ≤ (2 : ℝ) / 10 ^ 16 by norm_num)
    have e2 := h.near (sub_near (show |(1 : ℝ) - 1| ≤ 0 by simp) e1) (show |1 - m * m| ≤ 1 by rw [abs_le]; constructor <;> linarith) (by norm_num)
    exact e2.trans (by norm_num)
  have p10 : (0 : ℝ) < 1 / 10 ^ 10 := by norm_num
  have x1 := root1 (m := n) (by linarith)
  obtain ⟨x1l, x1u⟩ := abs_le.1 x1
  obtain ⟨s, hs, s1, s2, s3⟩ := sqrtF_near h (x := r (1 - r (n * n))) (by norm_num at *; linarith)
    (by have := mul_self_nonneg n; norm_num at *; linarith)
  have ss : |s * s - (1 - n * n)| ≤ 2 / 10 ^ 15 := by
    have := abs_sub_le (s * s) (r (1 - r (n * n))) (1 - n * n)
    refine this.trans ((add_le_add s1 x1).trans (by norm_num))
  have sl : 1 / 10 ^ 6 ≤ s := by
    by_contra hc
    have := (abs_le.1 ss).1
    have h2 : s * s ≤ 1 / 10 ^ 6 * (1 / 10 ^ 6) := mul_le_mul (not_le.1 hc).le (not_le.1 hc).le s2 (by norm_num)
    norm_num at *
    linarith
  -- the quotient
  have hnb : 0 < nb := by linarith
  have sna : |s * na| ≤ 212 / 100 := by
    rw [abs_of_nonneg (by positivity)]
    nlinarith
  have e1 := h.near (show |s * na - s * na| ≤ 0 by simp) sna (by norm_num)
  have e1 := e1.trans (show _ ≤ (3 : ℝ) / 10 ^ 16 by norm_num)
  have sq : |s * na / nb| ≤ 212 / 100 := by
    rw [abs_div, abs_of_pos hnb]
    exact (div_le_self (abs_nonneg _) b1).trans sna
  have e2 := div_near e1 (show |nb - nb| ≤ 0 by simp) b1 (by norm_num) sq
  have e2 := e2.trans (show _ ≤ (3 : ℝ) / 10 ^ 16 by norm_num)
  have e3 := h.near e2 sq (by norm_num)
  have e3 := e3.trans (show _ ≤ (1 : ℝ) / 10 ^ 15 by norm_num)
  obtain ⟨p, hpd⟩ : ∃ p, p = r (r (s * na) / nb) := ⟨_, rfl⟩
  rw [← hpd] at e3
  have e4 : |p * nb - s * na| ≤ 2 / 10 ^ 15 := by
    have e : p * nb - s * na = (p - s * na / nb) * nb := by field_simp
    rw [e, abs_mul, abs_of_pos hnb]
    exact (mul_le_mul e3 b2 hnb.le (by norm_num)).trans (by norm_num)
  have sna' := (abs_le.1 sna).2
  obtain ⟨e5, e6⟩ := abs_le.1 e4
  have pnb : |p * nb + s * na| ≤ 425 / 100 := by
    have : 0 ≤ s * na := by positivity
    rw [abs_le]
    constructor <;> norm_num at * <;> linarith
  have pp : |p * p * (nb * nb) - (1 - n * n) * (na * na)| ≤ 3 / 10 ^ 14 := by
    have e : p * p * (nb * nb) - (1 - n * n) * (na * na) = (p * nb - s * na) * (p * nb + s * na) + (s * s - (1 - n * n)) * (na * na) := by
      ring
    rw [e]
    refine (abs_add_le _ _).trans ?_
    rw [abs_mul, abs_mul]
    have f1 := mul_le_mul e4 pnb (abs_nonneg _) (by norm_num)
    have f2 : |na * na| ≤ 4 := by rw [abs_of_nonneg (by positivity)]; nlinarith
    have f3 := mul_le_mul ss f2 (abs_nonneg _) (by norm_num)
    exact (add_le_add f1 f3).trans (by norm_num)
  have p0 : 0 ≤ p := by
    by_contra hc
    have : p * nb ≤ 0 := mul_nonpos_of_nonpos_of_nonneg (not_le.1 hc).le hnb.le
    have : s ≤ s * na := le_mul_of_one_le_right s2 a1
    norm_num at *
    linarith
  have p1 : p * p ≤ 995 / 1000 := by
    have := (abs_le.1 pp).2
    have nb2 : 1 ≤ nb * nb := by nlinarith
    by_contra hc
    have : 995 / 1000 * (nb * nb) ≤ p * p * (nb * nb) := mul_le_mul_of_nonneg_right (not_le.1 hc).le (by linarith)
    norm_num at *
    linarith
  have p1' : p ≤ 1 := by nlinarith
  have x2 := root1 (m := p) (by linarith)
  obtain ⟨x2l, x2u⟩ := abs_le.1 x2
  obtain ⟨q, hq, q1, q2, q3⟩ := sqrtF_near h (x := r (1 - r (p * p))) (by norm_num at *; linarith)
    (by have := mul_self_nonneg p; norm_num at *; linarith)
  refine ⟨s, p, q, hs, hpd, hq, p0, p1', q2, q3, pp, ?_⟩
  have := abs_sub_le (q * q) (r (1 - r (p * p))) (1 - p * p)
  exact this.trans ((add_le_add q1 x2).trans (by norm_num))

theorem exact_dot_near {a a' b b' : V3} {α β A B : ℝ} (ha : Near3 a a' α) (hA : Box a' A) (hb : Near3 b b' β) (hB : Box b' B) :
    |V3.dot a b - V3.dot a' b'| ≤ 3 * (α * B + A * β + α * β) := by
  have e1 := add_near (add_near (mul_near ha.1 hb.1 hA.1 hB.1) (mul_near ha.2.1 hb.2.1 hA.2.1 hB.2.1)) (mul_near ha.2.2 hb.2.2 hA.2.2 hB.2.2)
  change |V3.dot a b - V3.dot a' b'| ≤ _ at e1
  linarith

theorem Near3.refl (v : V3) : Near3 v v 0 := ⟨by simp, by simp, by simp⟩

set_option maxHeartbeats 1000000 in
/-- The refracted direction has the cosine it was given. -/
theorem tangent {r : ℝ → ℝ} {l : Lib} (hr : Doubles r) (hdot : DotDouble l.dot) (hnorm : NormDouble l.vecNorm) {g u : V3}
    (hg : Box g (101 / 100)) (hu : Box u (101 / 100)) (gg : |V3.dot g g - 1| ≤ 1 / 10 ^ 12) (uu : |V3.dot u u - 1| ≤ 1 / 10 ^ 12)
    {p q : ℝ} (h1 : 1 / 10 ^ 9 ≤ 1 - l.dot u g * l.dot u g) (p0 : 0 ≤ p) (p1 : p ≤ 1) (pp : p * p ≤ 5 * (1 - l.dot u g * l.dot u g))
    (q0 : 0 ≤ q) (q1 : q ≤ 106 / 100) :
    |l.dot (add r (scale r (unit r l (sub r u (scale r g (l.dot u g)))) p) (scale r g (-q))) g + q| ≤ 1 / 10 ^ 11 := by
  have hδ := (dot_near hdot (Near3.refl u) hu (Near3.refl g) hg (by norm_num) (by norm_num)).trans (show _ ≤ (2 : ℝ) / 10 ^ 15 by norm_num)
  generalize l.dot u g = n at *
  have n9 : (0 : ℝ) < 1 / 10 ^ 9 := by norm_num
  have hn : |n| ≤ 1 := by
    rw [abs_le]
    constructor <;> nlinarith
  -- the tangential part
  have cp : ∀ {a b : ℝ}, |a| ≤ 101 / 100 → |b| ≤ 101 / 100 → |r (a - r (b * n)) - (a - b * n)| ≤ 4 / 10 ^ 16 ∧ |a - b * n| ≤ 202 / 100 := by
    intro a b ha hb
    have hbn : |b * n| ≤ 101 / 100 := by
      rw [abs_mul]
      nlinarith [abs_nonneg b, abs_nonneg n]
    have e1 := (hr.near (show |b * n - b * n| ≤ 0 by simp) hbn (by norm_num)).trans (show _ ≤ (12 : ℝ) / 10 ^ 17 by norm_num)
    have e2 : |a - b * n| ≤ 202 / 100 := (abs_sub _ _).trans (by linarith)
    exact ⟨(hr.near (sub_near (show |a - a| ≤ 0 by simp) e1) e2 (by norm_num)).trans (by norm_num), e2⟩
  have c1 := cp hu.1 hg.1
  have c2 := cp hu.2.1 hg.2.1
  have c3 := cp hu.2.2 hg.2.2
  have hw : Near3 (sub r u (scale r g n)) (u - g.smul n) (4 / 10 ^ 16) := ⟨c1.1, c2.1, c3.1⟩
  have hwb : Box (u - g.smul n) (202 / 100) := ⟨c1.2, c2.2, c3.2⟩
  generalize sub r u (scale r g n) = perp at *
  have d1 := (exact_dot_near hw hwb (Near3.refl g) hg).trans (show _ ≤ (2 : ℝ) / 10 ^ 15 by norm_num)
  have d2 := (exact_dot_near hw hwb hw hwb).trans (show _ ≤ (6 : ℝ) / 10 ^ 15 by norm_num)
  have i1 : V3.dot (u - g.smul n) g = (V3.dot u g - n) - n * (V3.dot g g - 1) := by
    simp only [V3.dot, V3.sub_x, V3.sub_y, V3.sub_z, V3.smul_x, V3.smul_y, V3.smul_z]
    ring
  have i2 : V3.dot (u - g.smul n) (u - g.smul n) = 1 - n * n + (V3.dot u u - 1) - 2 * (n * (V3.dot u g - n)) + n * n * (V3.dot g g - 1) := by
    simp only [V3.dot, V3.sub_x, V3.sub_y, V3.sub_z, V3.smul_x, V3.smul_y, V3.smul_z]
    ring
  have m1 : |n * (V3.dot g g - 1)| ≤ 1 / 10 ^ 12 := by
    rw [abs_mul]
    exact (mul_le_mul hn gg (abs_nonneg _) (by norm_num)).trans (by norm_num)
  have m2 : |n * n * (V3.dot g g - 1)| ≤ 1 / 10 ^ 12 := by
    rw [mul_assoc, abs_mul]
    exact (mul_le_mul hn m1 (abs_nonneg _) (by norm_num)).trans (by norm_num)
  have m3 : |n * (V3.dot u g - n)| ≤ 2 / 10 ^ 15 := by
    rw [abs_mul, abs_sub_comm (V3.dot u g)]
    exact (mul_le_mul hn hδ (abs_nonneg _) (by norm_num)).trans (by norm_num)
  rw [i1] at d1
  rw [i2] at d2
  have pg : |V3.dot perp g| ≤ 12 / 10 ^ 13 := by
    rw [abs_le] at d1 m1 hδ ⊢
    norm_num at *
    constructor <;> linarith
  have ppl : 99 / 100 * (1 - n * n) ≤ V3.dot perp perp := by
    rw [abs_le] at d2 m2 m3 uu
    norm_num at *
    linarith
  -- its length
  have hM0 := V3.norm_nonneg perp
  have hM2 : perp.norm * perp.norm = V3.dot perp perp := by rw [← V3.norm_sq, pow_two]
  have hpb := hw.box hwb
  have hN := hnorm perp ⟨hpb.1.trans (by norm_num), hpb.2.1.trans (by norm_num), hpb.2.2.trans (by norm_num)⟩
  obtain ⟨k1, k2, k3⟩ := comp_le_norm perp
  have pM : p ≤ 23 / 10 * perp.norm := by
    have : p * p ≤ (23 / 10 * perp.norm) * (23 / 10 * perp.norm) := by
      have e : (23 / 10 * perp.norm) * (23 / 10 * perp.norm) = 529 / 100 * V3.dot perp perp := by rw [← hM2]; ring
      rw [e]
      linarith
    exact abs_le_of_sq_le_sq' (by nlinarith) (by positivity) |>.2
  have hMl : 1 / 10 ^ 5 ≤ perp.norm := by
    by_contra hc
    have h2 : perp.norm * perp.norm ≤ 1 / 10 ^ 5 * (1 / 10 ^ 5) := mul_le_mul (not_le.1 hc).le (not_le.1 hc).le hM0 (by norm_num)
    rw [hM2] at h2
    norm_num at *
    linarith
  generalize perp.norm = M at *
  have hN1 : 999 / 1000 * M ≤ l.vecNorm perp := by
    have f1 : (2⁻¹ : ℝ) ^ 50 * M ≤ 8896 / 10 ^ 19 * M := mul_le_mul_of_nonneg_right small50 hM0
    have f2 := tiny500
    generalize (2⁻¹ : ℝ) ^ 500 = t at *
    generalize (2⁻¹ : ℝ) ^ 50 * M = t' at *
    have := (abs_le.1 hN).1
    norm_num at *
    linarith
  have hM : 0 < M := lt_of_lt_of_le (by norm_num) hMl
  have hun : unit r l perp = ⟨r (perp.x / l.vecNorm perp), r (perp.y / l.vecNorm perp), r (perp.z / l.vecNorm perp)⟩ := by
    rw [unit, if_neg]
    intro e
    rw [e] at hN1
    linarith
  rw [hun]
  generalize l.vecNorm perp = N at *
  have hN0 : 0 < N := by linarith
  -- the refracted direction
  have cq : ∀ {a b : ℝ}, |a| ≤ M → |b| ≤ 101 / 100 →
      |r (r (r (a / N) * p) + r (b * -q)) - (a / N * p + b * -q)| ≤ 1 / 10 ^ 15 ∧ |a / N * p + b * -q| ≤ 22 / 10 := by
    intro a b ha hb
    have f0 : |a / N| ≤ 101 / 100 := by
      rw [abs_div, abs_of_pos hN0, div_le_iff₀ hN0]
      linarith
    have f1 := (hr.near (show |a / N - a / N| ≤ 0 by simp) f0 (by norm_num)).trans (show _ ≤ (12 : ℝ) / 10 ^ 17 by norm_num)
    have f2 := mul_near f1 (show |p - p| ≤ 0 by simp) f0 (show |p| ≤ 1 by rw [abs_of_nonneg p0]; exact p1)
    have f3 : |a / N * p| ≤ 101 / 100 := by
      rw [abs_mul, abs_of_nonneg p0]
      nlinarith [abs_nonneg (a / N)]
    have f4 := (hr.near f2 f3 (by norm_num)).trans (show _ ≤ (25 : ℝ) / 10 ^ 17 by norm_num)
    have f5 : |b * -q| ≤ 108 / 100 := by
      rw [abs_mul, abs_neg, abs_of_nonneg q0]
      nlinarith [abs_nonneg b]
    have f6 := (hr.near (show |b * -q - b * -q| ≤ 0 by simp) f5 (by norm_num)).trans (show _ ≤ (13 : ℝ) / 10 ^ 17 by norm_num)
    have f7 : |a / N * p + b * -q| ≤ 22 / 10 := (abs_add_le _ _).trans (by linarith)
    exact ⟨(hr.near (add_near f4 f6) f7 (by norm_num)).trans (by norm_num), f7⟩
  have a1 := cq k1 hg.1
  have a2 := cq k2 hg.2.1
  have a3 := cq k3 hg.2.2
  have hA : Near3 (add r (scale r ⟨r (perp.x / N), r (perp.y / N), r (perp.z / N)⟩ p) (scale r g (-q)))
      ⟨perp.x / N * p + g.x * -q, perp.y / N * p + g.y * -q, perp.z / N * p + g.z * -q⟩ (1 / 10 ^ 15) := ⟨a1.1, a2.1, a3.1⟩
  have hB : Box ⟨perp.x / N * p + g.x * -q, perp.y / N * p + g.y * -q, perp.z / N * p + g.z * -q⟩ (22 / 10) := ⟨a1.2, a2.2, a3.2⟩
  have fin := (dot_near hdot hA hB (Near3.refl g) hg (by norm_num) (by norm_num)).trans (show _ ≤ (7 : ℝ) / 10 ^ 15 by norm_num)
  have i3 : V3.dot ⟨perp.x / N * p + g.x * -q, perp.y / N * p + g.y * -q, perp.z / N * p + g.z * -q⟩ g =
      p / N * V3.dot perp g - q * (V3.dot g g - 1) - q := by
    simp only [V3.dot]
    field_simp
    ring
  rw [i3] at fin
  have m4 : |p / N * V3.dot perp g| ≤ 3 / 10 ^ 12 := by
    have : |p / N| ≤ 24 / 10 := by
      rw [abs_div, abs_of_pos hN0, abs_of_nonneg p0, div_le_iff₀ hN0]
      linarith
    rw [abs_mul]
    exact (mul_le_mul this pg (abs_nonneg _) (by norm_num)).trans (by norm_num)
  have m5 : |q * (V3.dot g g - 1)| ≤ 106 / 10 ^ 14 := by
    rw [abs_mul, abs_of_nonneg q0]
    exact (mul_le_mul q1 gg (abs_nonneg _) (by norm_num)).trans (by norm_num)
  generalize l.dot _ g = z at *
  generalize p / N * V3.dot perp g = z1 at *
  generalize q * (V3.dot g g - 1) = z2 at *
  rw [abs_le] at fin m4 m5 ⊢
  obtain ⟨f1, f2⟩ := fin
  obtain ⟨f3, f4⟩ := m4
  obtain ⟨f5, f6⟩ := m5
  clear * - f1 f2 f3 f4 f5 f6
  norm_num at *
  constructor <;> linarith

/-- The unit vector is computed right. -/
theorem unit_near {r : ℝ → ℝ} {l : Lib} (hr : Doubles r) (hnorm : NormDouble l.vecNorm) {v w : V3} {L : ℝ} (hv : v = w.smul L)
    (hw : w.norm = 1) (h1 : 1 / 1000 ≤ L) (h2 : L ≤ 10 ^ 6) : Near3 (unit r l v) w (2 / 10 ^ 15) := by
  have hL : 0 < L := lt_of_lt_of_le (by norm_num) h1
  obtain ⟨k1, k2, k3⟩ := comp_le_norm w
  rw [hw] at k1 k2 k3
  have bd : ∀ {a : ℝ}, |a| ≤ 1 → |a * L| ≤ 10 ^ 6 := by
    intro a ha
    rw [abs_mul, abs_of_pos hL]
    nlinarith [abs_nonneg a]
  have hN := hnorm v (by rw [hv]; exact ⟨bd k1, bd k2, bd k3⟩)
  have hvn : v.norm = L := by rw [hv, V3.norm_smul, hw, abs_of_pos hL, one_mul]
  rw [hvn] at hN
  have hN1 : |l.vecNorm v - L| ≤ 9 / 10 ^ 16 * L := by
    refine hN.trans ?_
    have f1 : (2⁻¹ : ℝ) ^ 50 * L ≤ 8896 / 10 ^ 19 * L := mul_le_mul_of_nonneg_right small50 hL.le
    have f2 := tiny500
    generalize (2⁻¹ : ℝ) ^ 500 = t at *
    generalize (2⁻¹ : ℝ) ^ 50 * L = t' at *
    norm_num at *
    linarith
  obtain ⟨n1, n2⟩ := abs_le.1 hN1
  have hN0 : 999 / 1000 * L ≤ l.vecNorm v := by norm_num at *; linarith
  have hpos : 0 < l.vecNorm v := by linarith
  rw [unit, if_neg hpos.ne']
  generalize l.vecNorm v = N at *
  have key : ∀ {a : ℝ}, |a| ≤ 1 → |r (a * L / N) - a| ≤ 2 / 10 ^ 15 := by
    intro a ha
    have e : a * L / N - a = a * ((L - N) / N) := by field_simp
    have e1 : |a * L / N - a| ≤ 10 / 10 ^ 16 := by
      rw [e, abs_mul, abs_div, abs_of_pos hpos, abs_sub_comm]
      have : |N - L| / N ≤ 10 / 10 ^ 16 := by
        rw [div_le_iff₀ hpos]
        refine hN1.trans ?_
        norm_num
        linarith
      have := mul_le_mul ha this (by positivity) (by norm_num)
      linarith
    exact (hr.near e1 ha (by norm_num)).trans (by norm_num)
  rw [hv]
  exact ⟨key k1, key k2, key k3⟩

/-- The entries of a rotation matrix. -/
theorem rotation_box (omega phi kappa : ℝ) :
    Box (Geo.rotationMatrix omega phi kappa).r0 1 ∧ Box (Geo.rotationMatrix omega phi kappa).r1 1 ∧
      Box (Geo.rotationMatrix omega phi kappa).r2 1 := by
  have h1 := comp_le_norm ((Geo.rotationMatrix omega phi kappa).mulVec ⟨1, 0, 0⟩)
  have h2 := comp_le_norm ((Geo.rotationMatrix omega phi kappa).mulVec ⟨0, 1, 0⟩)
  have h3 := comp_le_norm ((Geo.rotationMatrix omega phi kappa).mulVec ⟨0, 0, 1⟩)
  have e1 : (⟨1, 0, 0⟩ : V3).norm = 1 := by rw [V3.norm]; norm_num
  have e2 : (⟨0, 1, 0⟩ : V3).norm = 1 := by rw [V3.norm]; norm_num
  have e3 : (⟨0, 0, 1⟩ : V3).norm = 1 := by rw [V3.norm]; norm_num
  rw [C25_isometry, e1] at h1
  rw [C25_isometry, e2] at h2
  rw [C25_isometry, e3] at h3
  simp only [M3.mulVec, V3.dot, mul_one, mul_zero, add_zero, zero_add] at h1 h2 h3
  exact ⟨⟨h1.1, h2.1, h3.1⟩, ⟨h1.2.1, h2.2.1, h3.2.1⟩, ⟨h1.2.2, h2.2.2, h3.2.2⟩⟩

set_option maxHeartbeats 1000000 in
/-- C151 in double precision: the ray of an image point is traced if it meets the window with an angle of at least a ten-thousandth (0.006
degrees) to the normal, and is not near total reflection (the sine behind each interface would be at most 0.98). The matrix of the camera
is near the rotation by its angles (as near as C150 says), `g` is the normal of the glass and `dir` the direction of the ray. -/
theorem C151_oblique_partial (r : ℝ → ℝ) (l : Lib) (hr : Doubles r) (hdot : DotDouble l.dot) (hnorm : NormDouble l.vecNorm)
    (x y cc omega phi kappa L d n1 n2 n3 s : ℝ) (dm : M3) (pos glass g dir : V3)
    (hdm : NearMatrix dm (Geo.rotationMatrix omega phi kappa) (1 / 10 ^ 14))
    (hL : 1 / 1000 ≤ L ∧ L ≤ 10 ^ 6) (hg : g.norm = 1) (hglass : glass = g.smul L)
    (hs : 1 / 1000 ≤ s ∧ s ≤ 10 ^ 6) (hdir1 : dir.norm = 1)
    (hdir : (Geo.rotationMatrix omega phi kappa).mulVec ⟨x, y, -cc⟩ = dir.smul s)
    (h1 : 1 ≤ n1 ∧ n1 ≤ 2) (h2 : 1 ≤ n2 ∧ n2 ≤ 2) (h3 : 1 ≤ n3 ∧ n3 ≤ 2)
    (ht : 1 / 10 ^ 4 ≤ (tangential g dir).norm)
    (ht2 : (tangential g dir).norm * n1 ≤ 98 / 100 * n2) (ht3 : (tangential g dir).norm * n1 ≤ 98 / 100 * n3) :
    ∃ X out, fastRayTracing r l ⟨x, y, -cc⟩ dm pos glass d n1 n2 n3 = some (X, out) := by
  have hs0 : 0 < s := lt_of_lt_of_le (by norm_num) hs.1
  -- the exact direction in the camera
  have hi : V3.norm ⟨x, y, -cc⟩ = s := by
    have := C25_isometry omega phi kappa ⟨x, y, -cc⟩
    rw [hdir, V3.norm_smul, hdir1, abs_of_pos hs0, one_mul] at this
    exact this.symm
  obtain ⟨e, he⟩ : ∃ e : V3, e = (⟨x, y, -cc⟩ : V3).smul (1 / s) := ⟨_, rfl⟩
  have he1 : e.norm = 1 := by
    rw [he, V3.norm_smul, hi, abs_of_pos (by positivity)]
    field_simp
  have he2 : (⟨x, y, -cc⟩ : V3) = e.smul s := by
    rw [he]
    ext <;> simp only [V3.smul_x, V3.smul_y, V3.smul_z] <;> field_simp
  have he3 : (Geo.rotationMatrix omega phi kappa).mulVec e = dir := by
    rw [he, mulVec_smul, hdir]
    ext <;> simp only [V3.smul_x, V3.smul_y, V3.smul_z] <;> field_simp
  -- the computed direction and normal
  have un := unit_near hr hnorm he2 he1 hs.1 hs.2
  have gn := unit_near hr hnorm hglass hg hL.1 hL.2
  have eb : Box e 1 := by
    have := comp_le_norm e
    rwa [he1] at this
  have gb : Box g 1 := by
    have := comp_le_norm g
    rwa [hg] at this
  have db : Box dir 1 := by
    have := comp_le_norm dir
    rwa [hdir1] at this
  obtain ⟨r0, r1, r2⟩ := rotation_box omega phi kappa
  have row : ∀ {a b : V3}, Near3 a b (1 / 10 ^ 14) → Box b 1 → |l.dot a (unit r l ⟨x, y, -cc⟩) - V3.dot b e| ≤ 5 / 10 ^ 14 := by
    intro a b ha hb
    exact (dot_near hdot ha hb un eb (by norm_num) (by norm_num)).trans (by norm_num)
  have dn : Near3 (mulVec l dm (unit r l ⟨x, y, -cc⟩)) dir (5 / 10 ^ 14) := by
    rw [← he3]
    exact ⟨row hdm.1 r0, row hdm.2.1 r1, row hdm.2.2 r2⟩
  have hgg := V3.norm_eq_one.1 hg
  have hdd := V3.norm_eq_one.1 hdir1
  have gg := (exact_dot_near gn gb gn gb).trans (show _ ≤ (1 : ℝ) / 10 ^ 12 by norm_num)
  have uu := (exact_dot_near dn db dn db).trans (show _ ≤ (1 : ℝ) / 10 ^ 12 by norm_num)
  have ug := (dot_near hdot dn db gn gb (by norm_num) (by norm_num)).trans (show _ ≤ (1 : ℝ) / 10 ^ 12 by norm_num)
  rw [show V3.dot g g = 1 from hgg] at gg
  rw [show V3.dot dir dir = 1 from hdd] at uu
  have gb' : Box (unit r l glass) (101 / 100) := by
    have := gn.box gb
    exact ⟨this.1.trans (by norm_num), this.2.1.trans (by norm_num), this.2.2.trans (by norm_num)⟩
  have db' : Box (mulVec l dm (unit r l ⟨x, y, -cc⟩)) (101 / 100) := by
    have := dn.box db
    exact ⟨this.1.trans (by norm_num), this.2.1.trans (by norm_num), this.2.2.trans (by norm_num)⟩
  -- the sine
  have hsin := tangential_norm_sq hgg hdd
  have hs00 := V3.norm_nonneg (tangential g dir)
  have hc1 : |V3.dot dir g| ≤ 1 := by
    rw [abs_le]
    change (tangential g dir).norm ^ 2 = 1 - (V3.dot dir g) ^ 2 at hsin
    constructor <;> nlinarith [sq_nonneg (tangential g dir).norm]
  have nn := (mul_near ug ug hc1 hc1).trans (show _ ≤ (3 : ℝ) / 10 ^ 12 by norm_num)
  rw [show V3.dot dir g * V3.dot dir g = 1 - (tangential g dir).norm * (tangential g dir).norm by
    rw [← pow_two (tangential g dir).norm, hsin]; ring] at nn
  generalize (tangential g dir).norm = S at *
  simp only [fastRayTracing]
  generalize mulVec l dm (unit r l ⟨x, y, -cc⟩) = u at *
  generalize unit r l glass = G at *
  have sq : ∀ {n : ℝ}, 1 ≤ n → S * n1 ≤ 98 / 100 * n → S * S * (n1 * n1) ≤ 9604 / 10000 * (n * n) := by
    intro n hn h
    have : (S * n1) * (S * n1) ≤ (98 / 100 * n) * (98 / 100 * n) :=
      mul_le_mul h h (mul_nonneg hs00 (by linarith [h1.1])) (by linarith)
    nlinarith
  have q2 := sq h2.1 ht2
  have q3 := sq h3.1 ht3
  have S2 : 1 / 10 ^ 8 ≤ S * S := by
    have := mul_le_mul ht ht (by norm_num) hs00
    norm_num at this ⊢
    linarith
  have n11 : n1 * n1 ≤ 4 := by nlinarith [h1.1, h1.2]
  have n11' : 1 ≤ n1 * n1 := by nlinarith [h1.1, h1.2]
  have n22 : 1 ≤ n2 * n2 := by nlinarith [h2.1]
  have n22' : n2 * n2 ≤ 4 := by nlinarith [h2.1, h2.2]
  have n33 : 1 ≤ n3 * n3 := by nlinarith [h3.1]
  obtain ⟨k1, k2⟩ := abs_le.1 nn
  have sin1 : 1 / 10 ^ 9 ≤ 1 - l.dot u G * l.dot u G := by norm_num at *; linarith
  have sin2 : (1 - l.dot u G * l.dot u G) * (n1 * n1) ≤ S * S * (n1 * n1) + 12 / 10 ^ 12 := by
    have e : (1 - l.dot u G * l.dot u G) * (n1 * n1) = S * S * (n1 * n1) + (1 - l.dot u G * l.dot u G - S * S) * (n1 * n1) := by ring
    rw [e]
    have f1 : 1 - l.dot u G * l.dot u G - S * S ≤ 3 / 10 ^ 12 := by linarith
    have f2 : (1 - l.dot u G * l.dot u G - S * S) * (n1 * n1) ≤ 3 / 10 ^ 12 * (n1 * n1) := mul_le_mul_of_nonneg_right f1 (by linarith)
    have f3 : (3 : ℝ) / 10 ^ 12 * (n1 * n1) ≤ 12 / 10 ^ 12 := by norm_num; linarith
    linarith
  -- the first interface
  have lim : ∀ {n : ℝ}, 1 ≤ n * n → S * S * (n1 * n1) ≤ 9604 / 10000 * (n * n) → S * S * (n1 * n1) + 12 / 10 ^ 12 ≤ 98 / 100 * (n * n) := by
    intro n hn h
    norm_num
    linarith
  have l2 := lim n22 q2
  have l3 := lim n33 q3
  obtain ⟨s1, p, q, hs1, hp, hq, p0, p1, q0, q1, pp, qq⟩ := roots hr (n := l.dot u G) (na := n1) (nb := n2)
    ((by norm_num : (1 : ℝ) / 10 ^ 10 ≤ 1 / 10 ^ 9).trans sin1) h1.1 h1.2 h2.1 h2.2 (by linarith)
  have hf : refractDir r l G (sub r u (scale r G (l.dot u G))) (l.dot u G) n1 n2 =
      some (add r (scale r (unit r l (sub r u (scale r G (l.dot u G)))) p) (scale r G (-q)), scale r G (-q)) := by
    simp only [refractDir, hs1, Option.bind_eq_bind, Option.bind_some, ← hp, hq]
  have pn : p * p ≤ 5 * (1 - l.dot u G * l.dot u G) := by
    have f1 := (abs_le.1 pp).2
    have f2 : p * p ≤ p * p * (n2 * n2) := le_mul_of_one_le_right (mul_self_nonneg p) n22
    have f3 : (1 - l.dot u G * l.dot u G) * (n1 * n1) ≤ (1 - l.dot u G * l.dot u G) * 4 :=
      mul_le_mul_of_nonneg_left n11 (le_trans (by norm_num) sin1)
    norm_num at *
    linarith
  have tg := tangent hr hdot hnorm gb' db' gg uu sin1 p0 p1 pn q0 q1
  rw [hf]
  simp only [Option.bind_eq_bind, Option.bind_some]
  generalize add r (scale r (unit r l (sub r u (scale r G (l.dot u G)))) p) (scale r G (-q)) = a at *
  -- the second one
  have pl : 2 / 10 ^ 10 ≤ p * p := by
    have f1 := (abs_le.1 pp).1
    have f2 : p * p * (n2 * n2) ≤ p * p * 4 := mul_le_mul_of_nonneg_left n22' (mul_self_nonneg p)
    have f3 : (1 - l.dot u G * l.dot u G) * 1 ≤ (1 - l.dot u G * l.dot u G) * (n1 * n1) :=
      mul_le_mul_of_nonneg_left n11' (le_trans (by norm_num) sin1)
    norm_num at *
    linarith
  have cs : |1 - l.dot a G * l.dot a G - p * p| ≤ 3 / 10 ^ 11 := by
    have e : 1 - l.dot a G * l.dot a G - p * p = -(q * q - (1 - p * p)) + (l.dot a G + q) * (2 * q - (l.dot a G + q)) := by ring
    rw [e]
    refine (abs_add_le _ _).trans ?_
    rw [abs_neg, abs_mul]
    have b : |2 * q - (l.dot a G + q)| ≤ 22 / 10 := by
      rw [abs_le] at tg ⊢
      norm_num at *
      constructor <;> linarith
    have := mul_le_mul tg b (abs_nonneg _) (by norm_num)
    exact (add_le_add qq this).trans (by norm_num)
  obtain ⟨c1, c2⟩ := abs_le.1 cs
  have lim3 : (1 - l.dot a G * l.dot a G) * (n2 * n2) ≤ 99 / 100 * (n3 * n3) := by
    have f1 : (1 - l.dot a G * l.dot a G) * (n2 * n2) ≤ (p * p + 3 / 10 ^ 11) * (n2 * n2) :=
      mul_le_mul_of_nonneg_right (by linarith) (by linarith)
    have f2 := (abs_le.1 pp).2
    have f3 : (3 : ℝ) / 10 ^ 11 * (n2 * n2) ≤ 12 / 10 ^ 11 := by norm_num; linarith
    rw [add_mul] at f1
    norm_num at *
    linarith
  obtain ⟨s2, p', q', hs2, hp', hq', -⟩ := roots hr (n := l.dot a G) (na := n2) (nb := n3) (by norm_num at *; linarith) h2.1 h2.2 h3.1 h3.2 lim3
  have hf2 : refractDir r l G (sub r a (scale r G (-q))) (l.dot a G) n2 n3 =
      some (add r (scale r (unit r l (sub r a (scale r G (-q)))) p') (scale r G (-q')), scale r G (-q')) := by
    simp only [refractDir, hs2, Option.bind_eq_bind, Option.bind_some, ← hp', hq']
  rw [hf2]
  exact ⟨_, _, rfl⟩

/-! ### Example -/

theorem doubleDot_double : DotDouble doubleDot := seqDot_double nearestDouble_doubles

set_option maxHeartbeats 2000000 in
/-- The root of the sum of squares in double precision is such a norm. -/
theorem doubleNorm_double : NormDouble doubleLib.vecNorm := by
  intro v hv
  have hd := doubleDot_double v v hv hv
  have e : |v.x * v.x| + |v.y * v.y| + |v.z * v.z| = v.norm * v.norm := by
    rw [abs_of_nonneg (mul_self_nonneg _), abs_of_nonneg (mul_self_nonneg _), abs_of_nonneg (mul_self_nonneg _), V3.norm_mul_self]
  have e2 : V3.dot v v = v.norm * v.norm := by rw [V3.norm_mul_self]; rfl
  rw [e, e2] at hd
  have h0 := V3.norm_nonneg v
  have hM : v.norm * v.norm ≤ 3 * 10 ^ 12 := by
    rw [← e]
    have sq : ∀ {c : ℝ}, |c| ≤ 10 ^ 6 → |c * c| ≤ 10 ^ 12 := by
      intro c hc
      rw [abs_mul]
      exact (mul_le_mul hc hc (abs_nonneg _) (by norm_num)).trans (by norm_num)
    have a1 := sq hv.1
    have a2 := sq hv.2.1
    have a3 := sq hv.2.2
    linarith
  change |nearestDouble (Real.sqrt (doubleDot v v)) - v.norm| ≤ _
  generalize doubleDot v v = D at *
  generalize v.norm = M at *
  have ht : (2⁻¹ : ℝ) ^ 1070 = 2⁻¹ ^ 535 * 2⁻¹ ^ 535 := by rw [← pow_add]
  have ht1 : (2⁻¹ : ℝ) ^ 535 ≤ 2⁻¹ ^ 510 := pow_le_pow_of_le_one (by norm_num) (by norm_num) (by norm_num)
  have ht0 : (0 : ℝ) < 2⁻¹ ^ 535 := pow_pos (by norm_num) _
  have ht2 : (2⁻¹ : ℝ) ^ 1075 ≤ 2⁻¹ ^ 510 := pow_le_pow_of_le_one (by norm_num) (by norm_num) (by norm_num)
  have ht3 : (2⁻¹ : ℝ) ^ 500 = 1024 * 2⁻¹ ^ 510 := by
    rw [show 510 = 500 + 10 from rfl, pow_add]
    generalize (2⁻¹ : ℝ) ^ 500 = t
    norm_num
    ring
  have ht4 : (2⁻¹ : ℝ) ^ 510 ≤ 1 := pow_le_one₀ (by norm_num) (by norm_num)
  rw [ht] at hd
  generalize (2⁻¹ : ℝ) ^ 535 = t at *
  -- the root of the computed sum
  have eps : (2⁻¹ : ℝ) ^ 51 = 4 * 2⁻¹ ^ 53 := by norm_num
  have eps' : (2⁻¹ : ℝ) ^ 50 = 8 * 2⁻¹ ^ 53 := by norm_num
  have epsl : (2⁻¹ : ℝ) ^ 53 ≤ 1 / 10 ^ 6 := by norm_num
  have eps0 : (0 : ℝ) < 2⁻¹ ^ 53 := by positivity
  rw [eps] at hd
  rw [eps', ht3]
  obtain ⟨d1, d2⟩ := abs_le.1 hd
  have hnd := nearestDouble_doubles (Real.sqrt D)
  have hs0 := Real.sqrt_nonneg D
  have hbig := huge
  generalize (2 : ℝ) ^ 1023 = big at *
  generalize (2⁻¹ : ℝ) ^ 1075 = t2 at *
  clear ht3
  generalize (2⁻¹ : ℝ) ^ 510 = t3 at *
  generalize (2⁻¹ : ℝ) ^ 53 = u at *
  have up : Real.sqrt D ≤ (1 + 4 * u) * M + t := by
    rw [Real.sqrt_le_left (by positivity)]
    nlinarith [mul_nonneg h0 ht0.le, mul_nonneg eps0.le (mul_nonneg h0 h0), mul_nonneg eps0.le (mul_nonneg h0 ht0.le),
      mul_nonneg (mul_nonneg eps0.le eps0.le) (mul_nonneg h0 h0)]
  have lo : (1 - 4 * u) * M ≤ Real.sqrt D + t := by
    by_contra hc
    have hc := not_lt.1 (fun h => hc (le_of_lt h) : ¬ (1 - 4 * u) * M < Real.sqrt D + t)
    have hD : D ≤ Real.sqrt D * Real.sqrt D := by
      rcases le_total 0 D with h | h
      · rw [Real.mul_self_sqrt h]
      · exact h.trans (mul_self_nonneg _)
    have h5 : (Real.sqrt D + t) * (Real.sqrt D + t) ≤ ((1 - 4 * u) * M) * ((1 - 4 * u) * M) :=
      mul_le_mul hc hc (by positivity) (by nlinarith)
    have h6 : (1 - 4 * u) * (1 - 4 * u) * (M * M) ≤ (1 - 4 * u) * (M * M) := by
      have : (1 - 4 * u) * (1 - 4 * u) ≤ 1 - 4 * u := by nlinarith
      exact mul_le_mul_of_nonneg_right this (mul_nonneg h0 h0)
    have h7 : Real.sqrt D * t ≤ 0 := by nlinarith
    have h8 : Real.sqrt D = 0 := by
      rcases hs0.eq_or_lt with h | h
      · exact h.symm
      · nlinarith [mul_pos h ht0]
    exact absurd (by nlinarith : (1 - 4 * u) * M ≤ Real.sqrt D + t) (by assumption)
  have hb : |Real.sqrt D| ≤ big := by
    rw [abs_of_nonneg hs0]
    have hM6 : M ≤ 10 ^ 7 := by
      by_contra hc
      have := mul_le_mul (not_le.1 hc).le (not_le.1 hc).le (by norm_num) h0
      norm_num at this hM
      linarith
    have : Real.sqrt D ≤ 10 ^ 12 := by
      have h9 : (1 + 4 * u) * M ≤ 2 * 10 ^ 7 :=
        (mul_le_mul (show 1 + 4 * u ≤ 2 by norm_num at epsl; linarith) hM6 h0 (by norm_num)).trans (by norm_num)
      have h10 : t ≤ 1 := ht1.trans ht4
      refine up.trans ((add_le_add h9 h10).trans (by norm_num))
    exact this.trans hbig
  have hnd := hnd hb
  rw [abs_of_nonneg hs0] at hnd
  have us : u * Real.sqrt D ≤ u * ((1 + 4 * u) * M + t) := mul_le_mul_of_nonneg_left up eps0.le
  have uM : 4 * u * (u * M) ≤ u * M := by
    have : 0 ≤ u * M := mul_nonneg eps0.le h0
    nlinarith
  have ut : u * t ≤ t := by nlinarith
  obtain ⟨g1, g2⟩ := abs_le.1 hnd
  have uM0 : 0 ≤ u * M := mul_nonneg eps0.le h0
  rw [abs_le]
  constructor
  · linarith
  · linarith

/-- The hypotheses are met: a camera looks through a window of glass at water; the ray of an image point 30 mm from the middle, with the
principal distance 40 mm, in double precision. -/
example (pos : V3) : ∃ X out, fastRayTracing nearestDouble doubleLib ⟨30, 0, -40⟩ ⟨⟨1, 0, 0⟩, ⟨0, 1, 0⟩, ⟨0, 0, 1⟩⟩ pos ⟨0, 0, 50⟩ 5 1 1.5 1.33 =
    some (X, out) := by
  have ht : (tangential ⟨0, 0, 1⟩ ⟨3 / 5, 0, -(4 / 5)⟩).norm = 3 / 5 := by
    have : tangential ⟨0, 0, 1⟩ ⟨3 / 5, 0, -(4 / 5)⟩ = ⟨3 / 5, 0, 0⟩ := by
      ext <;> norm_num [tangential, V3.dot, V3.smul]
    rw [this, V3.norm, show (3 / 5 : ℝ) * (3 / 5) + 0 * 0 + 0 * 0 = (3 / 5) ^ 2 by norm_num]
    exact Real.sqrt_sq (by norm_num)
  have hR : Geo.rotationMatrix 0 0 0 = ⟨⟨1, 0, 0⟩, ⟨0, 1, 0⟩, ⟨0, 0, 1⟩⟩ := by
    simp [Geo.rotationMatrix]
  refine C151_oblique_partial nearestDouble doubleLib nearestDouble_doubles doubleDot_double doubleNorm_double 30 0 40 0 0 0 50 5 1 1.5 1.33 50
    _ pos _ ⟨0, 0, 1⟩ ⟨3 / 5, 0, -(4 / 5)⟩ ?_ (by norm_num) ?_ ?_ (by norm_num) ?_ ?_ (by norm_num) (by norm_num) (by norm_num) ?_ ?_ ?_
  · rw [hR]
    norm_num [NearMatrix]
  · rw [V3.norm]; norm_num
  · ext <;> norm_num [V3.smul]
  · rw [V3.norm]; norm_num
  · rw [hR]
    ext <;> norm_num [M3.mulVec, V3.dot, V3.smul]
  · rw [ht]; norm_num
  · rw [ht]; norm_num
  · rw [ht]; norm_num

end Verif.Round
