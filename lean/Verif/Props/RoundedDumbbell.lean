/-
C150: rounding errors of the dumbbell score.
-/
import Verif.Model.RoundedDumbbell
import Verif.Props.RoundedPoint
import Verif.Props.RoundedOblique
import Verif.Props.Dumbbell

namespace Verif.Round
open Verif.Geo

/-- The smaller of a ratio and its inverse. -/
noncomputable def ratio (db x : ℝ) : ℝ := if x > db then db / x else x / db

theorem ratio_mixed {db x y : ℝ} (h : 0 < db) (hx : db < x) (hy : y ≤ db) : |db / x - y / db| ≤ (x - y) / db := by
  have hx0 : 0 < x := h.trans hx
  have h1 : db / x ≤ 1 := (div_le_one hx0).2 hx.le
  have h2 : 2 - x / db ≤ db / x := by
    have : db / x - (2 - x / db) = (x - db) ^ 2 / (x * db) := by field_simp; ring
    have h3 : 0 ≤ (x - db) ^ 2 / (x * db) := by positivity
    linarith
  have h3 : y / db ≤ 1 := (div_le_one h).2 hy
  have h4 : 1 ≤ x / db := (one_le_div h).2 hx.le
  rw [sub_div, abs_le]
  constructor <;> linarith

theorem ratio_near {db x y : ℝ} (h : 0 < db) : |ratio db x - ratio db y| ≤ |x - y| / db := by
  unfold ratio
  by_cases hx : x > db
  · by_cases hy : y > db
    · rw [if_pos hx, if_pos hy]
      have hx0 : 0 < x := h.trans hx
      have hy0 : 0 < y := h.trans hy
      have e : db / x - db / y = -((x - y) * (db / (x * y))) := by field_simp; ring
      rw [e, abs_neg, abs_mul, abs_of_pos (show 0 < db / (x * y) by positivity), div_eq_mul_one_div (|x - y|) db]
      refine mul_le_mul_of_nonneg_left ?_ (abs_nonneg _)
      rw [div_le_div_iff₀ (by positivity) h]
      have := mul_le_mul (le_of_lt hx) (le_of_lt hy) h.le hx0.le
      linarith
    · rw [if_pos hx, if_neg hy]
      have hy := not_lt.1 hy
      exact (ratio_mixed h hx hy).trans (div_le_div_of_nonneg_right (le_abs_self _) h.le)
  · have hx' := not_lt.1 hx
    by_cases hy : y > db
    · rw [if_neg hx, if_pos hy, abs_sub_comm, abs_sub_comm x y]
      exact (ratio_mixed h hy hx').trans (div_le_div_of_nonneg_right (le_abs_self _) h.le)
    · rw [if_neg hx, if_neg hy, ← sub_div, abs_div, abs_of_pos h]

/-- Results of `point_position`, the exact and the computed one. -/
structure Spec.NearResult (p p' : ℝ × V3) : Prop where
  dist : |p'.1 - p.1| ≤ 4 / 10 ^ 7
  size : |p.1| ≤ 7 * 10 ^ 4
  pos : |p'.2.x - p.2.x| ≤ 2 / 10 ^ 7 ∧ |p'.2.y - p.2.y| ≤ 2 / 10 ^ 7 ∧ |p'.2.z - p.2.z| ≤ 2 / 10 ^ 7
  place : |p.2.x| ≤ 2 * 10 ^ 4 ∧ |p.2.y| ≤ 2 * 10 ^ 4 ∧ |p.2.z| ≤ 2 * 10 ^ 4

variable {r : ℝ → ℝ} {fnorm : V3 → ℝ}

theorem lenErr_near (hr : Doubles r) (hnorm : NormDouble fnorm) {db : ℝ} (hdb : 1 ≤ db) {p p' q q' : ℝ × V3} (hp : Spec.NearResult p p')
    (hq : Spec.NearResult q q') :
    |lenErr r fnorm db p'.2 q'.2 - Geo.lenErr db p.2 q.2| ≤ 84 / 10 ^ 8 ∧ |Geo.lenErr db p.2 q.2| ≤ 7 * 10 ^ 4 := by
  have hdb0 : 0 < db := by linarith
  have vb1 : ∀ {a b : ℝ}, |a| ≤ 2 * 10 ^ 4 → |b| ≤ 2 * 10 ^ 4 → |a - b| ≤ 4 * 10 ^ 4 := fun ha hb => (abs_sub _ _).trans (by linarith)
  have s1 : ∀ {a a' b b' : ℝ}, |a' - a| ≤ 2 / 10 ^ 7 → |b' - b| ≤ 2 / 10 ^ 7 → |a| ≤ 2 * 10 ^ 4 → |b| ≤ 2 * 10 ^ 4 →
      |r (a' - b') - (a - b)| ≤ 41 / 10 ^ 8 := by
    intro a a' b b' h1 h2 h3 h4
    have e : |(a' - b') - (a - b)| ≤ 4 / 10 ^ 7 := by
      rw [show (a' - b') - (a - b) = (a' - a) - (b' - b) by ring]
      exact (abs_sub _ _).trans (by norm_num at *; linarith)
    exact (hr.near e (vb1 h3 h4) (by norm_num)).trans (by norm_num)
  have vn : Near3 (sub r p'.2 q'.2) (p.2 - q.2) (41 / 10 ^ 8) := ⟨s1 hp.pos.1 hq.pos.1 hp.place.1 hq.place.1,
    s1 hp.pos.2.1 hq.pos.2.1 hp.place.2.1 hq.place.2.1, s1 hp.pos.2.2 hq.pos.2.2 hp.place.2.2 hq.place.2.2⟩
  have vb : Box (p.2 - q.2) (4 * 10 ^ 4) := ⟨vb1 hp.place.1 hq.place.1, vb1 hp.place.2.1 hq.place.2.1, vb1 hp.place.2.2 hq.place.2.2⟩
  have vb' := vn.box vb
  have big : (4 : ℝ) * 10 ^ 4 + 41 / 10 ^ 8 ≤ 10 ^ 6 := by norm_num
  have hn := hnorm (sub r p'.2 q'.2) ⟨vb'.1.trans big, vb'.2.1.trans big, vb'.2.2.trans big⟩
  have hd := norm_near vn
  have nb : (p.2 - q.2).norm ≤ 10 ^ 5 := by
    rw [V3.norm, Real.sqrt_le_left (by norm_num)]
    have sq : ∀ {c : ℝ}, |c| ≤ 4 * 10 ^ 4 → c * c ≤ 16 * 10 ^ 8 := by
      intro c hc
      obtain ⟨h1, h2⟩ := abs_le.1 hc
      norm_num at *
      nlinarith
    have h1 := sq vb.1
    have h2 := sq vb.2.1
    have h3 := sq vb.2.2
    norm_num at *
    linarith
  have h50 := small50
  have h500 := tiny500
  have hd' : |fnorm (sub r p'.2 q'.2) - (p.2 - q.2).norm| ≤ 83 / 10 ^ 8 := by
    have h1 := abs_sub_le (fnorm (sub r p'.2 q'.2)) (sub r p'.2 q'.2).norm (p.2 - q.2).norm
    have h2 : (sub r p'.2 q'.2).norm ≤ 10 ^ 5 + 1 := by
      have := (abs_le.1 hd).2
      norm_num at *
      linarith
    have h3 : (2⁻¹ : ℝ) ^ 50 * (sub r p'.2 q'.2).norm ≤ 8896 / 10 ^ 19 * (10 ^ 5 + 1) :=
      mul_le_mul h50 h2 (V3.norm_nonneg _) (by norm_num)
    generalize (2⁻¹ : ℝ) ^ 500 = t at *
    generalize (2⁻¹ : ℝ) ^ 50 * (sub r p'.2 q'.2).norm = t' at *
    norm_num at *
    linarith
  have hk := ratio_near (x := fnorm (sub r p'.2 q'.2)) (y := (p.2 - q.2).norm) hdb0
  have hk' : |ratio db (fnorm (sub r p'.2 q'.2)) - ratio db (p.2 - q.2).norm| ≤ 83 / 10 ^ 8 :=
    hk.trans ((div_le_self (abs_nonneg _) hdb).trans hd')
  have hb : |ratio db (p.2 - q.2).norm| ≤ 1 := by
    have h0 := V3.norm_nonneg (p.2 - q.2)
    unfold ratio
    split
    · rename_i h
      rw [abs_of_nonneg (by positivity)]
      exact (div_le_one (hdb0.trans h)).2 (le_of_lt h)
    · rename_i h
      rw [abs_of_nonneg (by positivity)]
      exact (div_le_one hdb0).2 (not_lt.1 h)
  have e1 : lenErr r fnorm db p'.2 q'.2 = r (1 - r (ratio db (fnorm (sub r p'.2 q'.2)))) := by
    simp only [lenErr, ratio]
    split <;> rfl
  have e2 : Geo.lenErr db p.2 q.2 = 1 - ratio db (p.2 - q.2).norm := rfl
  have hr1 := hr.near hk' hb (by norm_num)
  have hb2 : |1 - ratio db (p.2 - q.2).norm| ≤ 2 := (abs_sub _ _).trans (by rw [abs_one]; linarith)
  have hs : |(1 - r (ratio db (fnorm (sub r p'.2 q'.2)))) - (1 - ratio db (p.2 - q.2).norm)| ≤ 835 / 10 ^ 9 := by
    rw [sub_sub_sub_cancel_left, abs_sub_comm]
    exact hr1.trans (by norm_num)
  rw [e1, e2]
  exact ⟨(hr.near hs hb2 (by norm_num)).trans (by norm_num), hb2.trans (by norm_num)⟩

/-- The sums of the exact and the computed loop after `k` points and `j` dumbbells. -/
structure ScoreSums (s s' : ℝ × ℝ) (k j : ℕ) : Prop where
  dist : |s'.1 - s.1| ≤ k * (5 / 10 ^ 7)
  distSize : |s.1| ≤ k * (7 * 10 ^ 4)
  len : |s'.2 - s.2| ≤ j * (87 / 10 ^ 8)
  lenSize : |s.2| ≤ j * (7 * 10 ^ 4)

theorem loop_near (hr : Doubles r) (hnorm : NormDouble fnorm) {db : ℝ} (hdb : 1 ≤ db) : ∀ (n : ℕ) (ps ps' : List (ℝ × V3)) (s s' : ℝ × ℝ)
    (k j : ℕ), ps.length = n → List.Forall₂ Spec.NearResult ps ps' → ScoreSums s s' k j → k + ps.length ≤ 1600 → 2 * j ≤ k →
    ∃ m, 2 * m ≤ k + ps.length ∧ ScoreSums (Geo.dumbbellLoop db ps s) (dumbbellLoop r fnorm db ps' s') (k + ps.length) m := by
  intro n
  induction n using Nat.strong_induction_on with
  | _ n ih =>
    intro ps ps' s s' k j hn hp hs hk hj
    cases hp with
    | nil => exact ⟨j, by simpa using hj, by simpa [Geo.dumbbellLoop, dumbbellLoop] using hs⟩
    | cons h1 t1 =>
      rename_i p p' ps ps'
      have a1 := acc_near hr hs.dist hs.distSize h1.dist h1.size (by simp at hk; omega) (by norm_num) (by norm_num)
      cases t1 with
      | nil =>
        refine ⟨j, by simp; omega, ?_⟩
        simp only [Geo.dumbbellLoop, dumbbellLoop, List.length_singleton]
        exact ⟨a1.1, a1.2, hs.len, hs.lenSize⟩
      | cons h2 t2 =>
        rename_i q q' ps ps'
        have a2 := acc_near hr a1.1 a1.2 h2.dist h2.size (by simp at hk; omega) (by norm_num) (by norm_num)
        have hl := lenErr_near hr hnorm hdb h1 h2
        have a3 := acc_near hr hs.len hs.lenSize hl.1 hl.2 (by simp at hk; omega) (by norm_num) (by norm_num)
        simp only [Geo.dumbbellLoop, dumbbellLoop]
        obtain ⟨m, m1, m2⟩ := ih ps.length (by simp at hn; omega) ps ps' (s.1 + p.1 + q.1, s.2 + Geo.lenErr db p.2 q.2)
          (r (r (s'.1 + p'.1) + q'.1), r (s'.2 + lenErr r fnorm db p'.2 q'.2)) (k + 1 + 1) (j + 1) rfl t2 ⟨a2.1, a2.2, a3.1, a3.2⟩
          (by simp at hk; omega) (by omega)
        refine ⟨m, by simp; omega, ?_⟩
        rw [show k + (p :: q :: ps).length = k + 1 + 1 + ps.length by simp; omega]
        exact m2

/-- C150: the dumbbell score in double precision. Given up to 1600 points whose positions and mean ray distances have been computed with the
errors that the theorem on `point_position` allows, within twenty metres of the origin, a dumbbell length of at least a millimetre and a
weight up to a thousand, the score is computed with an error of at most 6e-7, plus 9e-7 times the weight. -/
theorem C150_dumbbell (r : ℝ → ℝ) (fnorm : V3 → ℝ) (hr : Doubles r) (hnorm : NormDouble fnorm) (db w : ℝ) (hdb : 1 ≤ db) (hw : |w| ≤ 10 ^ 3)
    (targets : List (List (ℝ × ℝ))) (numCams : ℕ) (mm : MM) (cals : List Cam) (ps ps' : List (ℝ × V3)) (h0 : targets ≠ [])
    (hps : allPositions targets numCams mm cals = .ok (ps.map some)) (hlen : ps.length = targets.length) (h1600 : ps.length ≤ 1600)
    (hp : List.Forall₂ Spec.NearResult ps ps') :
    ∃ score, Geo.weightedDumbbell targets numCams mm cals db w = .ok (some score) ∧
      |dumbbellScore r fnorm db w ps' - score| ≤ 6 / 10 ^ 7 + 9 / 10 ^ 7 * |w| := by
  have hall : ∀ l : List (ℝ × V3), allSome (l.map some) = some l := by
    intro l
    induction l with
    | nil => rfl
    | cons a l ih => simp [allSome, ih]
  have hne : targets.length ≠ 0 := by simpa using h0
  refine ⟨_, by rw [Geo.weightedDumbbell, hps]; simp only [if_neg hne, hall, Option.map_some]; rfl, ?_⟩
  obtain ⟨j, j1, hj⟩ := loop_near hr hnorm hdb ps.length ps ps' (0, 0) (0, 0) 0 0 rfl hp ⟨by simp, by simp, by simp, by simp⟩ (by omega) (by omega)
  rw [Nat.zero_add] at j1 hj
  simp only [dumbbellScore, ← hp.length_eq, ← hlen]
  generalize Geo.dumbbellLoop db ps (0, 0) = s at *
  generalize dumbbellLoop r fnorm db ps' (0, 0) = s' at *
  obtain ⟨d1, d2, l1, l2⟩ := hj
  have hn1 : (1 : ℝ) ≤ ps.length := by
    have : 1 ≤ ps.length := by omega
    exact_mod_cast this
  have hn2 : (ps.length : ℝ) ≤ 1600 := by exact_mod_cast h1600
  have hjn : (j : ℝ) ≤ 0.5 * ps.length := by
    have : (2 : ℝ) * j ≤ ps.length := by exact_mod_cast j1
    norm_num at *
    linarith
  generalize (ps.length : ℝ) = n at *
  generalize (j : ℝ) = J at *
  clear hp hps hlen h1600 j1
  have hn0 : 0 < n := by linarith
  have hW0 := abs_nonneg w
  -- the mean distance
  have f1 : |s'.1 / n - s.1 / n| ≤ 5 / 10 ^ 7 := by
    rw [← sub_div, abs_div, abs_of_pos hn0, div_le_iff₀ hn0]
    linarith
  have f2 : |s.1 / n| ≤ 7 * 10 ^ 4 := by
    rw [abs_div, abs_of_pos hn0, div_le_iff₀ hn0]
    linarith
  have f3 := hr.near f1 f2 (by norm_num)
  -- the mean length error
  obtain ⟨K, hK⟩ : ∃ K, K = 0.5 * n := ⟨_, rfl⟩
  rw [← hK] at hjn ⊢
  have hK1 : 1 / 2 ≤ K := by rw [hK]; norm_num; linarith
  have hK2 : K ≤ 800 := by rw [hK]; norm_num; linarith
  have hK0 : 0 < K := by linarith
  have l1' : |s'.2 - s.2| ≤ K * (87 / 10 ^ 8) := l1.trans (mul_le_mul_of_nonneg_right hjn (by norm_num))
  have l2' : |s.2| ≤ K * (7 * 10 ^ 4) := l2.trans (mul_le_mul_of_nonneg_right hjn (by norm_num))
  have g1 : |w * s'.2 - w * s.2| ≤ |w| * K * (87 / 10 ^ 8) := by
    rw [← mul_sub, abs_mul, mul_assoc]
    exact mul_le_mul_of_nonneg_left l1' hW0
  have g2 : |w * s.2| ≤ |w| * K * (7 * 10 ^ 4) := by
    rw [abs_mul, mul_assoc]
    exact mul_le_mul_of_nonneg_left l2' hW0
  have hWK : |w| * K ≤ 8 * 10 ^ 5 := (mul_le_mul hw hK2 hK0.le (by norm_num)).trans (by norm_num)
  have hWK0 : 0 ≤ |w| * K := by positivity
  have g3 := hr.near g1 g2 (by norm_num at *; linarith)
  have g3' : |r (w * s'.2) - w * s.2| ≤ (|w| * (8801 / 10 ^ 10) + 2 / 10 ^ 60) * K := by
    refine g3.trans ?_
    have e : (|w| * (8801 / 10 ^ 10) + 2 / 10 ^ 60) * K = |w| * K * (8801 / 10 ^ 10) + K * (2 / 10 ^ 60) := by ring
    rw [e]
    generalize |w| * K = T at *
    norm_num at *
    linarith
  have g4 : |r (w * s'.2) / K - w * s.2 / K| ≤ |w| * (8801 / 10 ^ 10) + 2 / 10 ^ 60 := by
    rw [← sub_div, abs_div, abs_of_pos hK0, div_le_iff₀ hK0]
    exact g3'
  have g5 : |w * s.2 / K| ≤ |w| * (7 * 10 ^ 4) := by
    rw [abs_div, abs_of_pos hK0, div_le_iff₀ hK0]
    linarith
  have g6 := hr.near g4 g5 (by norm_num at *; linarith)
  have sum := add_near f3 g6
  have sumb : |s.1 / n + w * s.2 / K| ≤ 7 * 10 ^ 4 + |w| * (7 * 10 ^ 4) := (abs_add_le _ _).trans (add_le_add f2 g5)
  refine (hr.near sum sumb (by norm_num at *; linarith)).trans ?_
  generalize |w| = W at *
  norm_num at *
  linarith

/-- `C150_dumbbell` for the two points of the example in `Props/Dumbbell.lean`, whatever the errors in their positions. -/
example (p' q' : ℝ × V3) (hp : Spec.NearResult (0, ⟨5, 0, 0⟩) p') (hq : Spec.NearResult (0, ⟨5, 0, 0⟩) q') :
    ∃ score, Geo.weightedDumbbell [[(1 / 2, 0), (coordUnused, 0), (-1 / 2, 0)], [(1 / 2, 0), (coordUnused, 0), (-1 / 2, 0)]] 3
        ⟨1, 1, [1], 1, [2]⟩ [exCam 0, exCam 0, exCam 10] 5 7 = .ok (some score) ∧
      |dumbbellScore nearestDouble doubleLib.vecNorm 5 7 [p', q'] - score| ≤ 6 / 10 ^ 7 + 9 / 10 ^ 7 * |7| := by
  refine C150_dumbbell _ _ nearestDouble_doubles doubleNorm_double 5 7 (by norm_num) (by norm_num) _ _ _ _
    [(0, ⟨5, 0, 0⟩), (0, ⟨5, 0, 0⟩)] [p', q'] (by simp) ?_ (by simp) (by simp) (by simp [hp, hq])
  rw [allPositions_eq 3 _ _ _ (fun _ => some (0, ⟨5, 0, 0⟩))]
  · simp [List.range_succ]
  · intro i t ht
    match i with
    | 0 => simp at ht; subst ht; simpa using ex_position
    | 1 => simp at ht; subst ht; simpa using ex_position
    | n + 2 => simp at ht

example : Spec.NearResult (0, ⟨5, 0, 0⟩) (1 / 10 ^ 7, ⟨5, 1 / 10 ^ 7, 0⟩) := by
  constructor <;> norm_num [abs_le]

end Verif.Round
