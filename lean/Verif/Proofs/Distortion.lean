/-
C24, radial distortion: the correction loop is a contraction along the ray through the point.
-/
import Verif.Model.Trafo
import Mathlib.Tactic.NormNum
import Mathlib.Tactic.LinearCombination
import Mathlib.Tactic.GCongr

namespace Verif.Geo

/-- Relative radial distortion at `s` times the reference radius. -/
def radC (a b c s : ℝ) : ℝ := a * s ^ 2 + b * s ^ 4 + c * s ^ 6

variable {a b c : ℝ}

theorem radC_abs (h : |a| + |b| + |c| ≤ 1 / 24) {s : ℝ} (h1 : 10 / 11 ≤ s) (h2 : s ≤ 12 / 11) :
    |radC a b c s| ≤ 1 / 12 := by
  have h0 : 0 ≤ s := by linarith
  have e2 : s ^ 2 ≤ 2 := by nlinarith
  have e4 : s ^ 4 ≤ 2 := by
    calc s ^ 4 ≤ (12 / 11) ^ 4 := by gcongr
      _ ≤ 2 := by norm_num
  have e6 : s ^ 6 ≤ 2 := by
    calc s ^ 6 ≤ (12 / 11) ^ 6 := by gcongr
      _ ≤ 2 := by norm_num
  have : |radC a b c s| ≤ |a| * s ^ 2 + |b| * s ^ 4 + |c| * s ^ 6 := by
    unfold radC
    refine (abs_add_three _ _ _).trans ?_
    rw [abs_mul, abs_mul, abs_mul, abs_of_nonneg (by positivity : 0 ≤ s ^ 2),
      abs_of_nonneg (by positivity : 0 ≤ s ^ 4), abs_of_nonneg (by positivity : 0 ≤ s ^ 6)]
  nlinarith [abs_nonneg a, abs_nonneg b, abs_nonneg c]

theorem radC_lip (h : |a| + |b| + |c| ≤ 1 / 24) {s t : ℝ} (h1 : 10 / 11 ≤ s) (h2 : s ≤ 12 / 11)
    (h3 : 10 / 11 ≤ t) (h4 : t ≤ 12 / 11) :
    |s * radC a b c s - t * radC a b c t| ≤ 1 / 2 * |s - t| := by
  have hs : 0 ≤ s := by linarith
  have ht : 0 ≤ t := by linarith
  set P2 := s ^ 2 + s * t + t ^ 2
  set P4 := s ^ 4 + s ^ 3 * t + s ^ 2 * t ^ 2 + s * t ^ 3 + t ^ 4
  set P6 := s ^ 6 + s ^ 5 * t + s ^ 4 * t ^ 2 + s ^ 3 * t ^ 3 + s ^ 2 * t ^ 4 + s * t ^ 5 + t ^ 6
  have e : s * radC a b c s - t * radC a b c t = (a * P2 + b * P4 + c * P6) * (s - t) := by
    simp only [radC, P2, P4, P6]; ring
  have b2 : P2 ≤ 12 := by
    calc P2 ≤ (12 / 11) ^ 2 + (12 / 11) * (12 / 11) + (12 / 11) ^ 2 := by simp only [P2]; gcongr
      _ ≤ 12 := by norm_num
  have b4 : P4 ≤ 12 := by
    calc P4 ≤ (12 / 11) ^ 4 + (12 / 11) ^ 3 * (12 / 11) + (12 / 11) ^ 2 * (12 / 11) ^ 2
          + (12 / 11) * (12 / 11) ^ 3 + (12 / 11) ^ 4 := by simp only [P4]; gcongr
      _ ≤ 12 := by norm_num
  have b6 : P6 ≤ 12 := by
    calc P6 ≤ (12 / 11) ^ 6 + (12 / 11) ^ 5 * (12 / 11) + (12 / 11) ^ 4 * (12 / 11) ^ 2
          + (12 / 11) ^ 3 * (12 / 11) ^ 3 + (12 / 11) ^ 2 * (12 / 11) ^ 4
          + (12 / 11) * (12 / 11) ^ 5 + (12 / 11) ^ 6 := by simp only [P6]; gcongr
      _ ≤ 12 := by norm_num
  have p2 : 0 ≤ P2 := by positivity
  have p4 : 0 ≤ P4 := by positivity
  have p6 : 0 ≤ P6 := by positivity
  have : |a * P2 + b * P4 + c * P6| ≤ |a| * P2 + |b| * P4 + |c| * P6 := by
    refine (abs_add_three _ _ _).trans ?_
    rw [abs_mul, abs_mul, abs_mul, abs_of_nonneg p2, abs_of_nonneg p4, abs_of_nonneg p6]
  rw [e, abs_mul]
  refine mul_le_mul_of_nonneg_right ?_ (abs_nonneg _)
  nlinarith [abs_nonneg a, abs_nonneg b, abs_nonneg c]

/-- One correction pass in terms of the scale factor. -/
def radF (a b c s : ℝ) : ℝ := 1 - s * radC a b c s

theorem radF_mem (h : |a| + |b| + |c| ≤ 1 / 24) {s : ℝ} (h1 : 10 / 11 ≤ s) (h2 : s ≤ 12 / 11) :
    10 / 11 ≤ radF a b c s ∧ radF a b c s ≤ 12 / 11 := by
  have := abs_le.1 (radC_abs h h1 h2)
  unfold radF
  constructor <;> nlinarith

/-- The loop state is the point scaled by `s`. -/
def RadState (x y ρ s : ℝ) (st : CorrState) : Prop :=
  st.xq = x * s ∧ st.yq = y * s ∧ st.rq = s * ρ

theorem corrStep_radial {x y ρ k1 k2 k3 s : ℝ} {st : CorrState}
    (hρ : ρ = Real.sqrt (x ^ 2 + y ^ 2))
    (h : |k1 * ρ ^ 2| + |k2 * ρ ^ 4| + |k3 * ρ ^ 6| ≤ 1 / 24)
    (h1 : 10 / 11 ≤ s) (h2 : s ≤ 12 / 11) (hst : RadState x y ρ s st) :
    let st' := corrStep x y ⟨k1, k2, k3, 0, 0, 1, 0⟩ st
    RadState x y ρ (radF (k1 * ρ ^ 2) (k2 * ρ ^ 4) (k3 * ρ ^ 6) s) st' ∧
      st'.common = radC (k1 * ρ ^ 2) (k2 * ρ ^ 4) (k3 * ρ ^ 6) s ∧ st'.r = s * ρ := by
  obtain ⟨e1, e2, e3⟩ := hst
  have hρ0 : 0 ≤ ρ := by rw [hρ]; exact Real.sqrt_nonneg _
  have hm := radF_mem h h1 h2
  have hx : (corrStep x y ⟨k1, k2, k3, 0, 0, 1, 0⟩ st).xq
      = x * radF (k1 * ρ ^ 2) (k2 * ρ ^ 4) (k3 * ρ ^ 6) s := by
    simp [corrStep, e1, e3, radF, radC]; ring
  have hy : (corrStep x y ⟨k1, k2, k3, 0, 0, 1, 0⟩ st).yq
      = y * radF (k1 * ρ ^ 2) (k2 * ρ ^ 4) (k3 * ρ ^ 6) s := by
    simp [corrStep, e2, e3, radF, radC]; ring
  set s' := radF (k1 * ρ ^ 2) (k2 * ρ ^ 4) (k3 * ρ ^ 6) s
  have hr : Real.sqrt ((corrStep x y ⟨k1, k2, k3, 0, 0, 1, 0⟩ st).xq ^ 2
      + (corrStep x y ⟨k1, k2, k3, 0, 0, 1, 0⟩ st).yq ^ 2) = s' * ρ := by
    rw [hx, hy, show (x * s') ^ 2 + (y * s') ^ 2 = s' ^ 2 * (x ^ 2 + y ^ 2) by ring,
      Real.sqrt_mul (by positivity), Real.sqrt_sq (by linarith [hm.1]), ← hρ]
  refine ⟨⟨hx, hy, ?_⟩, ?_, ?_⟩
  · have : (corrStep x y ⟨k1, k2, k3, 0, 0, 1, 0⟩ st).rq
        = if s' * ρ > 1.2 * (s * ρ) then 0.5 * (s * ρ) else s' * ρ := by
      rw [← hr, ← e3]; rfl
    rw [this, if_neg]
    have : s' * ρ ≤ 1.2 * s * ρ := by
      refine mul_le_mul_of_nonneg_right ?_ hρ0
      linarith [hm.2]
    linarith
  · simp [corrStep, e3, radC]; ring
  · simp [corrStep, e3]

theorem corrLoop_radial {x y ρ k1 k2 k3 tol : ℝ} (hxy : ¬(x = 0 ∧ y = 0))
    (hρ : ρ = Real.sqrt (x ^ 2 + y ^ 2))
    (h : |k1 * ρ ^ 2| + |k2 * ρ ^ 4| + |k3 * ρ ^ 6| ≤ 1 / 24) (n : ℕ) :
    ∀ (s δ : ℝ) (st : CorrState), 10 / 11 ≤ s → s ≤ 12 / 11 → RadState x y ρ s st →
      |radF (k1 * ρ ^ 2) (k2 * ρ ^ 4) (k3 * ρ ^ 6) s - s| ≤ δ →
      ∃ s0, 10 / 11 ≤ s0 ∧ s0 ≤ 12 / 11 ∧
        RadState x y ρ (radF (k1 * ρ ^ 2) (k2 * ρ ^ 4) (k3 * ρ ^ 6) s0)
          (corrLoop x y ⟨k1, k2, k3, 0, 0, 1, 0⟩ tol n st) ∧
        (corrLoop x y ⟨k1, k2, k3, 0, 0, 1, 0⟩ tol n st).common
          = radC (k1 * ρ ^ 2) (k2 * ρ ^ 4) (k3 * ρ ^ 6) s0 ∧
        (|radF (k1 * ρ ^ 2) (k2 * ρ ^ 4) (k3 * ρ ^ 6) s0 - s0| ≤ tol * s0 ∨
         |radF (k1 * ρ ^ 2) (k2 * ρ ^ 4) (k3 * ρ ^ 6) s0 - s0| ≤ (1 / 2) ^ n * δ) := by
  have hρ0 : 0 < ρ := by
    rw [hρ]; apply Real.sqrt_pos.2
    rcases not_and_or.1 hxy with hx | hy
    · have := sq_nonneg y; positivity
    · have := sq_nonneg x; positivity
  induction n with
  | zero =>
    intro s δ st h1 h2 hst hδ
    obtain ⟨q1, q2, q3⟩ := corrStep_radial hρ h h1 h2 hst
    exact ⟨s, h1, h2, q1, q2, Or.inr (by simpa using hδ)⟩
  | succ n ih =>
    intro s δ st h1 h2 hst hδ
    obtain ⟨q1, q2, q3⟩ := corrStep_radial hρ h h1 h2 hst
    rw [corrLoop]
    split_ifs with hb
    · refine ⟨s, h1, h2, q1, q2, Or.inl ?_⟩
      rw [q1.2.2, q3, ← sub_mul, abs_mul, abs_of_pos hρ0, ← mul_assoc] at hb
      exact le_of_mul_le_mul_right hb hρ0
    · have hm := radF_mem h h1 h2
      obtain ⟨s0, r1, r2, r3, r4, r5⟩ := ih (radF (k1 * ρ ^ 2) (k2 * ρ ^ 4) (k3 * ρ ^ 6) s)
        (1 / 2 * δ) _ hm.1 hm.2 q1 (by
          have := radC_lip h hm.1 hm.2 h1 h2
          rw [show radF (k1 * ρ ^ 2) (k2 * ρ ^ 4) (k3 * ρ ^ 6)
                (radF (k1 * ρ ^ 2) (k2 * ρ ^ 4) (k3 * ρ ^ 6) s)
              - radF (k1 * ρ ^ 2) (k2 * ρ ^ 4) (k3 * ρ ^ 6) s
              = -(radF (k1 * ρ ^ 2) (k2 * ρ ^ 4) (k3 * ρ ^ 6) s
                * radC (k1 * ρ ^ 2) (k2 * ρ ^ 4) (k3 * ρ ^ 6)
                  (radF (k1 * ρ ^ 2) (k2 * ρ ^ 4) (k3 * ρ ^ 6) s)
                - s * radC (k1 * ρ ^ 2) (k2 * ρ ^ 4) (k3 * ρ ^ 6) s) by
              rw [radF]; simp only [radF]; ring, abs_neg]
          refine this.trans ?_
          linarith)
      refine ⟨s0, r1, r2, r3, r4, ?_⟩
      rcases r5 with r5 | r5
      · exact Or.inl r5
      · right
        refine r5.trans (le_of_eq ?_)
        ring

/-- What `correct_brown_affine` returns for radial distortion: the input scaled by some `s` whose
re-distorted scale is within `tol` of 1. -/
theorem correct_radial {x y ρ k1 k2 k3 tol : ℝ} (hxy : ¬(x = 0 ∧ y = 0))
    (hρ : ρ = Real.sqrt (x ^ 2 + y ^ 2))
    (h : |k1 * ρ ^ 2| + |k2 * ρ ^ 4| + |k3 * ρ ^ 6| ≤ 1 / 24) (htol : (1 / 2) ^ 200 ≤ tol) :
    ∃ s, 10 / 11 ≤ s ∧ s ≤ 12 / 11 ∧
      correctBrownAffine x y ⟨k1, k2, k3, 0, 0, 1, 0⟩ tol = (x * s, y * s) ∧
      |s * (1 + radC (k1 * ρ ^ 2) (k2 * ρ ^ 4) (k3 * ρ ^ 6) s) - 1| ≤ 7 / 10 * tol := by
  have hρ0 : 0 ≤ ρ := by rw [hρ]; exact Real.sqrt_nonneg _
  set a := k1 * ρ ^ 2
  set b := k2 * ρ ^ 4
  set c := k3 * ρ ^ 6
  have hinit : RadState x y ρ 1 (corrInit x y) := by
    simp [RadState, corrInit, hρ]
  have h11 : |radF a b c 1 - 1| ≤ 1 := by
    have := radC_abs h (s := 1) (by norm_num) (by norm_num)
    rw [radF, show 1 - 1 * radC a b c 1 - 1 = -radC a b c 1 by ring, abs_neg]
    linarith
  obtain ⟨s0, r1, r2, ⟨r3, r4, -⟩, r5, r6⟩ := corrLoop_radial (tol := tol) hxy hρ h 200 1 1
    (corrInit x y) (by norm_num) (by norm_num) hinit h11
  have hC := radC_abs h r1 r2
  have hC' := abs_le.1 hC
  have hm := radF_mem h r1 r2
  have hd : |radF a b c s0 - s0| ≤ 12 / 11 * tol := by
    have : (0 : ℝ) < (1 / 2) ^ 200 := by positivity
    rcases r6 with r6 | r6
    · refine r6.trans ?_
      nlinarith
    · linarith
  refine ⟨1 - radF a b c s0 * radC a b c s0, by nlinarith, by nlinarith, ?_, ?_⟩
  · rw [correctBrownAffine, if_neg hxy, corrFinal]
    simp only [r3, r4, r5]
    simp only [Real.sin_zero, Real.cos_zero, Prod.mk.injEq]
    constructor <;> ring
  · set sf := 1 - radF a b c s0 * radC a b c s0
    have hl := radC_lip h (s := sf) (t := s0) (by simp only [sf]; nlinarith)
      (by simp only [sf]; nlinarith) r1 r2
    have e : sf * (1 + radC a b c sf) - 1 = (sf * radC a b c sf - s0 * radC a b c s0)
        + -((radF a b c s0 - s0) * radC a b c s0) := by
      simp only [sf]; ring
    have e2 : sf - s0 = (radF a b c s0 - s0) + -((radF a b c s0 - s0) * radC a b c s0) := by
      simp only [sf, radF]; ring
    have e3 : |(radF a b c s0 - s0) * radC a b c s0| ≤ |radF a b c s0 - s0| * (1 / 12) := by
      rw [abs_mul]; exact mul_le_mul_of_nonneg_left hC (abs_nonneg _)
    have e4 : |sf - s0| ≤ 13 / 12 * |radF a b c s0 - s0| := by
      rw [e2]; refine (abs_add_le _ _).trans ?_
      rw [abs_neg]; linarith
    rw [e]
    refine (abs_add_le _ _).trans ?_
    rw [abs_neg]
    linarith

theorem distort_radial {x y ρ k1 k2 k3 s : ℝ} (hxy : ¬(x = 0 ∧ y = 0))
    (hρ : ρ = Real.sqrt (x ^ 2 + y ^ 2)) (hs : 0 < s) :
    distortBrownAffine (x * s) (y * s) ⟨k1, k2, k3, 0, 0, 1, 0⟩
      = (x * (s * (1 + radC (k1 * ρ ^ 2) (k2 * ρ ^ 4) (k3 * ρ ^ 6) s)),
         y * (s * (1 + radC (k1 * ρ ^ 2) (k2 * ρ ^ 4) (k3 * ρ ^ 6) s))) := by
  have hne : ¬(x * s = 0 ∧ y * s = 0) := by
    rintro ⟨h1, h2⟩
    exact hxy ⟨(mul_eq_zero.1 h1).resolve_right hs.ne', (mul_eq_zero.1 h2).resolve_right hs.ne'⟩
  have hr : Real.sqrt ((x * s) ^ 2 + (y * s) ^ 2) = s * ρ := by
    rw [show (x * s) ^ 2 + (y * s) ^ 2 = s ^ 2 * (x ^ 2 + y ^ 2) by ring,
      Real.sqrt_mul (by positivity), Real.sqrt_sq hs.le, ← hρ]
  simp only [distortBrownAffine, if_neg hne, hr, Real.sin_zero, Real.cos_zero, Prod.mk.injEq, radC]
  constructor <;> ring

end Verif.Geo
