/-
C152: in double precision, the angle of a particle that turns is a number, and accurate.
-/
import Verif.Props.RoundedAngle
import Verif.Props.RoundedOblique
import Mathlib.Analysis.SpecialFunctions.Trigonometric.InverseDeriv
import Mathlib.Analysis.Calculus.MeanValue
import Mathlib.Analysis.Real.Pi.Bounds

namespace Verif.Round
open Verif.Geo Verif.Geo.Spec

theorem sub_rel {r : ℝ → ℝ} (h : Doubles r) (a b : V3) (h1 : 1 / 10 ^ 6 ≤ (a - b).norm) (h2 : (a - b).norm ≤ 4 * 10 ^ 4) :
    Near3 (sub r a b) (a - b) (2 / 10 ^ 16 * (a - b).norm) := by
  obtain ⟨k1, k2, k3⟩ := comp_le_norm (a - b)
  have key : ∀ {x : ℝ}, |x| ≤ (a - b).norm → |r x - x| ≤ 2 / 10 ^ 16 * (a - b).norm := by
    intro x hx
    refine (h.near (show |x - x| ≤ 0 by simp) hx (by norm_num; linarith)).trans ?_
    generalize (a - b).norm = N at *
    norm_num at *
    linarith
  exact ⟨key k1, key k2, key k3⟩

theorem norm_rel {f : V3 → ℝ} (hf : NormDouble f) {v w : V3} (h : Near3 v w (2 / 10 ^ 16 * w.norm)) (h1 : 1 / 10 ^ 6 ≤ w.norm)
    (h2 : w.norm ≤ 4 * 10 ^ 4) : |f v - w.norm| ≤ 2 / 10 ^ 15 * w.norm := by
  have hb := h.box (comp_le_norm w)
  have h6 : w.norm + 2 / 10 ^ 16 * w.norm ≤ 10 ^ 6 := by norm_num at *; linarith
  have e1 := hf v ⟨hb.1.trans h6, hb.2.1.trans h6, hb.2.2.trans h6⟩
  have e2 := norm_near h
  have e3 := abs_sub_le (f v) v.norm w.norm
  have e4 := (abs_le.1 e2).2
  have t1 := tiny500
  have t2 : (2⁻¹ : ℝ) ^ 50 * v.norm ≤ 8896 / 10 ^ 19 * v.norm := mul_le_mul_of_nonneg_right small50 (V3.norm_nonneg _)
  generalize (2⁻¹ : ℝ) ^ 50 * v.norm = t at *
  generalize (2⁻¹ : ℝ) ^ 500 = t' at *
  generalize v.norm = V at *
  generalize w.norm = W at *
  norm_num at *
  linarith

/-- Vectors that are nearly equal, or nearly opposite, have a cosine near 1. -/
theorem nearly_parallel {v w u : V3} {e : ℝ} (h : Near3 v u e) (hu : u.norm = w.norm) (hd : |V3.dot u w| = w.norm * w.norm)
    (he : e ≤ 4 / 10 ^ 16 * (v.norm + w.norm)) (h0 : 0 < v.norm) (h1 : 0 < w.norm) :
    (1 - 1 / 10 ^ 13) * (v.norm * w.norm) ≤ |V3.dot v w| := by
  have e0 := (abs_nonneg _).trans h.1
  have e1 := exact_dot_near h (comp_le_norm u) (Near3.refl w) (comp_le_norm w)
  have e2 := norm_near h
  rw [hu] at e1 e2
  have e3 : |V3.dot u w| ≤ |V3.dot v w| + |V3.dot v w - V3.dot u w| := by
    have := abs_sub_le (V3.dot u w) (V3.dot v w) 0
    rw [sub_zero, sub_zero, abs_sub_comm (V3.dot u w)] at this
    linarith
  rw [hd] at e3
  obtain ⟨e4, e5⟩ := abs_le.1 e2
  generalize |V3.dot v w - V3.dot u w| = t at *
  generalize |V3.dot v w| = D at *
  generalize v.norm = N at *
  generalize w.norm = M at *
  have hM : M ≤ 11 / 10 * N := by norm_num at *; linarith
  have m1 : M * M ≤ 11 / 10 * (N * M) := by nlinarith
  have m2 : e * M ≤ 4 / 10 ^ 16 * (N * M + M * M) := by
    have := mul_le_mul_of_nonneg_right he h1.le
    linarith
  have m3 : N * M - 2 * (e * M) ≤ M * M := by nlinarith
  have P0 : 0 < N * M := mul_pos h0 h1
  generalize N * M = P at *
  generalize e * M = q at *
  generalize M * M = Q at *
  norm_num at *
  linarith

theorem arccos_near {x y e : ℝ} (hx : |x| ≤ 1 - 9 / 10 ^ 13) (hy : |y| ≤ 1 - 9 / 10 ^ 13) (h : |x - y| ≤ e) :
    |Real.arccos x - Real.arccos y| ≤ 10 ^ 6 * e := by
  have hb : ∀ z ∈ Set.Icc (-(1 - 9 / 10 ^ 13 : ℝ)) (1 - 9 / 10 ^ 13), HasDerivWithinAt Real.arccos (-(1 / Real.sqrt (1 - z ^ 2)))
      (Set.Icc (-(1 - 9 / 10 ^ 13 : ℝ)) (1 - 9 / 10 ^ 13)) z := by
    intro z hz
    refine (Real.hasDerivAt_arccos ?_ ?_).hasDerivWithinAt
    · have := hz.1
      norm_num at *
      intro hc
      rw [hc] at this
      norm_num at this
    · have := hz.2
      intro hc
      rw [hc] at this
      norm_num at this
  have hbd : ∀ z ∈ Set.Icc (-(1 - 9 / 10 ^ 13 : ℝ)) (1 - 9 / 10 ^ 13), ‖-(1 / Real.sqrt (1 - z ^ 2))‖ ≤ 10 ^ 6 := by
    intro z hz
    have hs : 1 / 10 ^ 6 ≤ Real.sqrt (1 - z ^ 2) := by
      apply Real.le_sqrt_of_sq_le
      have h2 : z ^ 2 ≤ (1 - 9 / 10 ^ 13 : ℝ) ^ 2 := sq_le_sq.2 (by
        rw [abs_of_nonneg (show (0 : ℝ) ≤ 1 - 9 / 10 ^ 13 by norm_num)]
        exact abs_le.2 hz)
      refine le_trans ?_ (sub_le_sub_left h2 1)
      norm_num
    have hp : 0 < Real.sqrt (1 - z ^ 2) := lt_of_lt_of_le (by norm_num) hs
    rw [norm_neg, Real.norm_eq_abs, abs_of_pos (by positivity), div_le_iff₀ hp]
    have := mul_le_mul_of_nonneg_left hs (show (0 : ℝ) ≤ 10 ^ 6 by norm_num)
    refine le_trans ?_ this
    norm_num
  have := (convex_Icc _ _).norm_image_sub_le_of_norm_hasDerivWithin_le hb hbd (abs_le.1 hy) (abs_le.1 hx)
  rw [Real.norm_eq_abs, Real.norm_eq_abs] at this
  exact this.trans (mul_le_mul_of_nonneg_left h (by norm_num))

set_option maxHeartbeats 1000000 in
/-- The computed cosine. -/
theorem cos_near {r : ℝ → ℝ} {l : Lib} (hr : Doubles r) (hdot : DotDouble l.dot) (hnorm : NormDouble l.norm) {start pred cand : V3}
    (p1 : 1 / 10 ^ 6 ≤ (pred - start).norm) (p2 : (pred - start).norm ≤ 4 * 10 ^ 4) (c1 : 1 / 10 ^ 6 ≤ (cand - start).norm)
    (c2 : (cand - start).norm ≤ 4 * 10 ^ 4) :
    r (l.norm (sub r start pred) * l.norm (sub r start cand)) ≠ 0 ∧
    |r (l.dot (sub r pred start) (sub r cand start) / r (l.norm (sub r start pred) * l.norm (sub r start cand))) -
      V3.dot (pred - start) (cand - start) / ((pred - start).norm * (cand - start).norm)| ≤ 1 / 10 ^ 14 := by
  have a1 := sub_rel hr pred start p1 p2
  have a2 := sub_rel hr cand start c1 c2
  have b1 := sub_rel hr start pred (by rw [norm_sub_comm]; exact p1) (by rw [norm_sub_comm]; exact p2)
  have b2 := sub_rel hr start cand (by rw [norm_sub_comm]; exact c1) (by rw [norm_sub_comm]; exact c2)
  have n1 := norm_rel hnorm b1 (by rw [norm_sub_comm]; exact p1) (by rw [norm_sub_comm]; exact p2)
  have n2 := norm_rel hnorm b2 (by rw [norm_sub_comm]; exact c1) (by rw [norm_sub_comm]; exact c2)
  rw [norm_sub_comm start pred] at n1
  rw [norm_sub_comm start cand] at n2
  have d := dot_near hdot a1 (comp_le_norm _) a2 (comp_le_norm _) (by norm_num at *; linarith) (by norm_num at *; linarith)
  have hD := abs_dot_le (pred - start) (cand - start)
  generalize l.dot (sub r pred start) (sub r cand start) = D' at *
  generalize l.norm (sub r start pred) = N' at *
  generalize l.norm (sub r start cand) = M' at *
  generalize V3.dot (pred - start) (cand - start) = D at *
  have N0 := V3.norm_nonneg (pred - start)
  have M0 := V3.norm_nonneg (cand - start)
  clear a1 a2 b1 b2
  generalize (pred - start).norm = N at *
  generalize (cand - start).norm = M at *
  have P1 : 1 / 10 ^ 12 ≤ N * M := by
    have := mul_le_mul p1 c1 (by norm_num) N0
    norm_num at *
    linarith
  have P2 : N * M ≤ 16 * 10 ^ 8 := by
    have := mul_le_mul p2 c2 M0 (by norm_num)
    norm_num at *
    linarith
  have m := mul_near n1 n2 (abs_of_nonneg N0).le (abs_of_nonneg M0).le
  have m : |N' * M' - N * M| ≤ 41 / 10 ^ 16 * (N * M) := by
    refine m.trans ?_
    have e : 2 / 10 ^ 15 * N * M + N * (2 / 10 ^ 15 * M) + 2 / 10 ^ 15 * N * (2 / 10 ^ 15 * M) = (4 / 10 ^ 15 + 4 / 10 ^ 30) * (N * M) := by ring
    rw [e]
    exact mul_le_mul_of_nonneg_right (by norm_num) (by positivity)
  have d : |D' - D| ≤ 3 / 10 ^ 15 * (N * M) := by
    refine d.trans ?_
    have e : 3 * (2 / 10 ^ 16 * N * M + N * (2 / 10 ^ 16 * M) + 2 / 10 ^ 16 * N * (2 / 10 ^ 16 * M)) +
        4448 / 10 ^ 19 * (3 * ((N + 2 / 10 ^ 16 * N) * (M + 2 / 10 ^ 16 * M))) + 1 / 10 ^ 60 =
        (3 * (4 / 10 ^ 16 + 4 / 10 ^ 32) + 4448 / 10 ^ 19 * (3 * ((1 + 2 / 10 ^ 16) * (1 + 2 / 10 ^ 16)))) * (N * M) + 1 / 10 ^ 60 := by ring
    rw [e]
    generalize N * M = P at *
    norm_num at *
    linarith
  generalize N * M = P at *
  have P0 : 0 < P := lt_of_lt_of_le (by norm_num) P1
  have k := hr.near m (abs_of_pos P0).le (by norm_num at *; linarith)
  have k : |r (N' * M') - P| ≤ 5 / 10 ^ 15 * P := by
    refine k.trans ?_
    norm_num at *
    linarith
  have hQ : |D / P| ≤ 1 := by
    rw [abs_div, abs_of_pos P0, div_le_one P0]
    exact hD
  have hy : 0 < P - 5 / 10 ^ 15 * P := by norm_num; linarith
  have q := div_near d k le_rfl hy hQ
  have q : |D' / r (N' * M') - D / P| ≤ 9 / 10 ^ 15 := by
    refine q.trans ?_
    rw [div_le_iff₀ hy]
    norm_num
    linarith
  refine ⟨?_, (hr.near q hQ (by norm_num)).trans (by norm_num)⟩
  intro hz
  rw [hz, zero_sub, abs_neg, abs_of_pos P0] at k
  norm_num at k
  linarith

/-- The angle from the cosine. -/
theorem gon_near {r : ℝ → ℝ} (hr : Doubles r) {a b : ℝ} (h : |a - b| ≤ 11 / 10 ^ 9) (h0 : 0 ≤ b) (h1 : b ≤ Real.pi) :
    |r (r (200 / r Real.pi) * a) - 200 / Real.pi * b| ≤ 1 / 10 ^ 6 := by
  have g1 := Real.pi_gt_three
  have g2 := Real.pi_le_four
  generalize Real.pi = p at *
  have k := (hr.near (show |p - p| ≤ 0 by simp) (show |p| ≤ 4 by rw [abs_of_pos (by linarith)]; linarith) (by norm_num)).trans
    (show _ ≤ (5 : ℝ) / 10 ^ 16 by norm_num)
  have hq : |200 / p| ≤ 67 := by
    rw [abs_of_pos (by positivity), div_le_iff₀ (by linarith)]
    linarith
  have k1 := (div_near (show |(200 : ℝ) - 200| ≤ 0 by simp) k g1.le (by norm_num) hq).trans (show _ ≤ (2 : ℝ) / 10 ^ 14 by norm_num)
  have k2 := (hr.near k1 hq (by norm_num)).trans (show _ ≤ (3 : ℝ) / 10 ^ 14 by norm_num)
  have m := (mul_near k2 h hq (show |b| ≤ 4 by rw [abs_of_nonneg h0]; linarith)).trans (show _ ≤ (74 : ℝ) / 10 ^ 8 by norm_num)
  have hb : |200 / p * b| ≤ 200 := by
    rw [abs_of_nonneg (by positivity), div_mul_eq_mul_div, div_le_iff₀ (by linarith)]
    linarith
  exact (hr.near m hb (by norm_num)).trans (by norm_num)

set_option maxHeartbeats 1000000 in
/-- C152 in double precision: within ten metres of the origin (in millimetres), for a particle that is predicted to move and moves at least a
nanometre, and whose direction differs from the predicted one and its opposite by more than 0.0001 gon (the cosine is not
within `10^-12` of 1 or -1), the call returns; the angle is a number with an error of at most a millionth gon, and the acceleration
has an error of at most `10^-9` mm. `r` is any rounding with the precision of doubles, `l` and `ac` are any library functions of
that precision. Missing: smaller angles, where it is wrong (`C152_straight_refuted`). -/
theorem C152_turn_partial (r : ℝ → ℝ) (l : Lib) (ac : ℝ → ℝ) (hr : Doubles r) (hdot : DotDouble l.dot) (hnorm : NormDouble l.norm)
    (hac : ∀ x, |x| ≤ 1 → |ac x - Real.arccos x| ≤ 2⁻¹ ^ 50) (start pred cand : V3)
    (hs : |start.x| ≤ 10 ^ 4 ∧ |start.y| ≤ 10 ^ 4 ∧ |start.z| ≤ 10 ^ 4) (hp : |pred.x| ≤ 10 ^ 4 ∧ |pred.y| ≤ 10 ^ 4 ∧ |pred.z| ≤ 10 ^ 4)
    (hc : |cand.x| ≤ 10 ^ 4 ∧ |cand.y| ≤ 10 ^ 4 ∧ |cand.z| ≤ 10 ^ 4)
    (p1 : 1 / 10 ^ 6 ≤ (pred - start).norm) (c1 : 1 / 10 ^ 6 ≤ (cand - start).norm)
    (hturn : |V3.dot (pred - start) (cand - start)| ≤ (1 - 1 / 10 ^ 12) * ((pred - start).norm * (cand - start).norm)) :
    ∃ angle acc angle' acc', Geo.angleAcc start pred cand = .ok (angle, acc) ∧
      angleAcc r l ac start pred cand = .ok (some angle', acc') ∧ |angle' - angle| ≤ 1 / 10 ^ 6 ∧ |acc' - acc| ≤ 1 / 10 ^ 9 := by
  have size : ∀ {a b : V3}, (|a.x| ≤ 10 ^ 4 ∧ |a.y| ≤ 10 ^ 4 ∧ |a.z| ≤ 10 ^ 4) → (|b.x| ≤ 10 ^ 4 ∧ |b.y| ≤ 10 ^ 4 ∧ |b.z| ≤ 10 ^ 4) →
      (a - b).norm ≤ 4 * 10 ^ 4 := by
    intro a b ha hb
    have k : ∀ {x y : ℝ}, |x| ≤ 10 ^ 4 → |y| ≤ 10 ^ 4 → (x - y) * (x - y) ≤ 4 * 10 ^ 8 := by
      intro x y hx hy
      have : |x - y| ≤ 2 * 10 ^ 4 := (abs_sub _ _).trans (by linarith)
      rw [← abs_mul_abs_self]
      exact (mul_le_mul this this (abs_nonneg _) (by norm_num)).trans (by norm_num)
    rw [V3.norm, Real.sqrt_le_left (by norm_num)]
    have := k ha.1 hb.1
    have := k ha.2.1 hb.2.1
    have := k ha.2.2 hb.2.2
    simp only [V3.sub_x, V3.sub_y, V3.sub_z]
    norm_num at *
    linarith
  have p2 := size hp hs
  have c2 := size hc hs
  have q2 := size hp hc
  have N0 : 0 < (pred - start).norm := lt_of_lt_of_le (by norm_num) p1
  have M0 : 0 < (cand - start).norm := lt_of_lt_of_le (by norm_num) c1
  have P0 := mul_pos N0 M0
  have a1 := sub_rel hr pred start p1 p2
  have a2 := sub_rel hr cand start c1 c2
  obtain ⟨z, hq⟩ := cos_near hr hdot hnorm p1 p2 c1 c2
  -- the special cases do not occur
  have par : ∀ u : V3, u.norm = (cand - start).norm → |V3.dot u (cand - start)| = (cand - start).norm * (cand - start).norm →
      Near3 (sub r pred start) u (2 / 10 ^ 16 * (cand - start).norm) → False := by
    intro u h1 h2 h3
    have t : Near3 (pred - start) u (2 / 10 ^ 16 * (pred - start).norm + 2 / 10 ^ 16 * (cand - start).norm) := by
      have tri : ∀ {a b c e f : ℝ}, |b - a| ≤ e → |b - c| ≤ f → |a - c| ≤ e + f := by
        intro a b c e f h1 h2
        have := abs_sub_le a b c
        rw [abs_sub_comm a b] at this
        linarith
      exact ⟨tri a1.1 h3.1, tri a1.2.1 h3.2.1, tri a1.2.2 h3.2.2⟩
    have := nearly_parallel t h1 h2 (by norm_num; linarith) N0 M0
    generalize (pred - start).norm * (cand - start).norm = P at *
    norm_num at *
    linarith
  have dself : |V3.dot (cand - start) (cand - start)| = (cand - start).norm * (cand - start).norm := by
    have e : V3.dot (cand - start) (cand - start) = (cand - start).norm * (cand - start).norm := by
      rw [V3.norm_mul_self]; rfl
    rw [e, abs_of_nonneg (mul_self_nonneg _)]
  have b1 : ¬ sub r pred start = neg (sub r cand start) := by
    intro h
    refine par (neg (cand - start)) ?_ ?_ ?_
    · simp only [V3.norm, neg, neg_mul_neg]
    · have : V3.dot (neg (cand - start)) (cand - start) = -V3.dot (cand - start) (cand - start) := by
        simp only [V3.dot, neg]; ring
      rw [this, abs_neg, dself]
    · rw [h]
      have k : ∀ {a b e : ℝ}, |a - b| ≤ e → |-a - -b| ≤ e := by
        intro a b e h
        rw [show -a - -b = -(a - b) by ring, abs_neg]
        exact h
      exact ⟨k a2.1, k a2.2.1, k a2.2.2⟩
  have b2 : ¬ sub r pred start = sub r cand start := by
    intro h
    refine par (cand - start) rfl dself ?_
    rw [h]
    exact a2
  -- exactly
  have v1 : ¬ pred - start = neg (cand - start) := by
    intro h
    have h1 : |V3.dot (pred - start) (cand - start)| = (cand - start).norm * (cand - start).norm := by
      rw [← dself, h, ← abs_neg]
      congr 1
      simp only [V3.dot, neg]; ring
    have h2 : (pred - start).norm = (cand - start).norm := by
      rw [h]
      simp only [V3.norm, neg, neg_mul_neg]
    rw [h1, h2] at hturn
    rw [h2] at P0
    generalize (cand - start).norm * (cand - start).norm = P at *
    norm_num at *
    linarith
  have v2 : ¬ pred - start = cand - start := by
    intro h
    rw [h, dself] at hturn
    rw [h] at P0
    generalize (cand - start).norm * (cand - start).norm = P at *
    norm_num at *
    linarith
  have hcos : |V3.dot (pred - start) (cand - start) / ((pred - start).norm * (cand - start).norm)| ≤ 1 - 1 / 10 ^ 12 := by
    rw [abs_div, abs_of_pos P0, div_le_iff₀ P0]
    exact hturn
  have e1 : Geo.angleAcc start pred cand = .ok ((200 / Real.pi) * Real.arccos (V3.dot (pred - start) (cand - start) /
      ((pred - start).norm * (cand - start).norm)), (pred - start - (cand - start)).norm) := by
    simp only [Geo.angleAcc, norm_sub_comm start pred, norm_sub_comm start cand]
    rw [if_neg v1, if_neg v2, if_neg P0.ne']
  generalize V3.dot (pred - start) (cand - start) / ((pred - start).norm * (cand - start).norm) = c at *
  obtain ⟨q, hqd⟩ : ∃ q, q = r (l.dot (sub r pred start) (sub r cand start) / r (l.norm (sub r start pred) * l.norm (sub r start cand))) :=
    ⟨_, rfl⟩
  rw [← hqd] at hq
  have hq1 : |q| ≤ 1 - 9 / 10 ^ 13 := by
    have := abs_add_le (q - c) c
    rw [sub_add_cancel] at this
    norm_num at *
    linarith
  have hq2 : |q| ≤ 1 := hq1.trans (by norm_num)
  have e2 : angleAcc r l ac start pred cand = .ok (some (r (r (200 / r Real.pi) * ac q)), l.norm (sub r (sub r pred start) (sub r cand start))) := by
    simp only [angleAcc, ← hqd]
    rw [if_neg b1, if_neg b2, if_neg z, arccosF, if_pos hq2]
    rfl
  refine ⟨_, _, _, _, e1, e2, gon_near hr ?_ (Real.arccos_nonneg _) (Real.arccos_le_pi _), ?_⟩
  · have k1 := arccos_near hq1 (hcos.trans (by norm_num)) hq
    have k2 := (hac q hq2).trans small50
    have := abs_sub_le (ac q) (Real.arccos q) (Real.arccos c)
    refine this.trans ((add_le_add k2 k1).trans (by norm_num))
  · -- the acceleration
    have hd : pred - start - (cand - start) = pred - cand := by
      ext <;> simp
    have kb : Box (pred - start - (cand - start)) (4 * 10 ^ 4) := by
      rw [hd]
      obtain ⟨t1, t2, t3⟩ := comp_le_norm (pred - cand)
      exact ⟨t1.trans q2, t2.trans q2, t3.trans q2⟩
    have kk : ∀ {a b x y : ℝ}, |a - x| ≤ 2 / 10 ^ 16 * (pred - start).norm → |b - y| ≤ 2 / 10 ^ 16 * (cand - start).norm → |x - y| ≤ 4 * 10 ^ 4 →
        |r (a - b) - (x - y)| ≤ 3 / 10 ^ 11 := by
      intro a b x y h1 h2 h3
      have g1 : |a - x| ≤ 8 / 10 ^ 12 := h1.trans (by norm_num at *; linarith)
      have g2 : |b - y| ≤ 8 / 10 ^ 12 := h2.trans (by norm_num at *; linarith)
      exact (hr.near (sub_near g1 g2) h3 (by norm_num)).trans (by norm_num)
    have kn : Near3 (sub r (sub r pred start) (sub r cand start)) (pred - start - (cand - start)) (3 / 10 ^ 11) :=
      ⟨kk a1.1 a2.1 kb.1, kk a1.2.1 a2.2.1 kb.2.1, kk a1.2.2 a2.2.2 kb.2.2⟩
    have kv := kn.box kb
    have k6 : (4 * 10 ^ 4 + 3 / 10 ^ 11 : ℝ) ≤ 10 ^ 6 := by norm_num
    have f1 := hnorm _ ⟨kv.1.trans k6, kv.2.1.trans k6, kv.2.2.trans k6⟩
    have f2 := norm_near kn
    rw [hd] at f2 ⊢
    generalize sub r (sub r pred start) (sub r cand start) = w at *
    have f3 := abs_sub_le (l.norm w) w.norm (pred - cand).norm
    have f4 := (abs_le.1 f2).2
    have t1 := tiny500
    have t2 : (2⁻¹ : ℝ) ^ 50 * w.norm ≤ 8896 / 10 ^ 19 * w.norm := mul_le_mul_of_nonneg_right small50 (V3.norm_nonneg _)
    generalize (2⁻¹ : ℝ) ^ 50 * w.norm = t at *
    generalize (2⁻¹ : ℝ) ^ 500 = t' at *
    clear e1 e2 hqd z hq par hturn hac v1 v2 b1 b2
    generalize w.norm = W at *
    generalize (pred - cand).norm = V at *
    norm_num at *
    linarith

/-- The hypotheses are met: a particle that is predicted to go on 1 mm along the x axis turns to the y axis, in double precision. -/
example : ∃ angle acc angle' acc', Geo.angleAcc ⟨0, 0, 0⟩ ⟨1, 0, 0⟩ ⟨0, 1, 0⟩ = .ok (angle, acc) ∧
    angleAcc nearestDouble doubleLib (fun x => nearestDouble (Real.arccos x)) ⟨0, 0, 0⟩ ⟨1, 0, 0⟩ ⟨0, 1, 0⟩ = .ok (some angle', acc') ∧
    |angle' - angle| ≤ 1 / 10 ^ 6 ∧ |acc' - acc| ≤ 1 / 10 ^ 9 := by
  have n1 : ((⟨1, 0, 0⟩ : V3) - ⟨0, 0, 0⟩).norm = 1 := by rw [V3.norm]; norm_num
  have n2 : ((⟨0, 1, 0⟩ : V3) - ⟨0, 0, 0⟩).norm = 1 := by rw [V3.norm]; norm_num
  refine C152_turn_partial nearestDouble doubleLib _ nearestDouble_doubles doubleDot_double doubleNorm_double ?_ _ _ _ (by norm_num) (by norm_num)
    (by norm_num) (by rw [n1]; norm_num) (by rw [n2]; norm_num) (by rw [n1, n2]; norm_num [V3.dot])
  intro x _
  have hb : |Real.arccos x| ≤ 4 := by
    rw [abs_of_nonneg (Real.arccos_nonneg _)]
    exact (Real.arccos_le_pi x).trans Real.pi_le_four
  exact (nearestDouble_doubles.near (show |Real.arccos x - Real.arccos x| ≤ 0 by simp) hb (by norm_num)).trans (by norm_num)

end Verif.Round
