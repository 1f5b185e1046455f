/-
C150: rounding errors of `point_position`, for given rays.
-/
import Verif.Model.RoundedPoint
import Verif.Props.RoundedRays

namespace Verif.Round
open Verif.Geo

/-- The size of the exact results. -/
theorem skew_bound {v1 d1 v2 d2 : V3} (h : WellPosed v1 d1 v2 d2) {D : ℝ} {M : V3}
    (hG : Geo.skewMidpoint (v1, d1) (v2, d2) = some (D, M)) : |D| ≤ 7 * 10 ^ 4 ∧ Box M (7 * 10 ^ 4) := by
  obtain ⟨hs, ht1, ht2⟩ := nearest_reach h
  have hne : V3.dot (V3.cross d1 d2) (V3.cross d1 d2) ≠ 0 := by linarith
  simp only [Geo.skewMidpoint, if_neg hne, Option.some.injEq, Prod.mk.injEq] at hG
  generalize V3.dot (V3.cross d1 d2) (V3.cross (v2 - v1) d2) = q1 at *
  generalize V3.dot (V3.cross d1 d2) (V3.cross (v2 - v1) d1) = q2 at *
  generalize V3.dot (V3.cross d1 d2) (V3.cross d1 d2) = s at *
  have co : ∀ {v d q : ℝ}, |v| ≤ 10 ^ 4 → |d| ≤ 1 → |q / s| ≤ 10 ^ 4 → |v + d * q * (1 / s)| ≤ 2 * 10 ^ 4 := by
    intro v d q h1 h2 h3
    refine (abs_add_le _ _).trans ?_
    rw [show d * q * (1 / s) = d * (q / s) by ring, abs_mul]
    have := mul_le_mul h2 h3 (abs_nonneg _) (by norm_num)
    linarith
  have a1 := co h.place1.1 h.direct1.1 ht1
  have a2 := co h.place1.2.1 h.direct1.2.1 ht1
  have a3 := co h.place1.2.2 h.direct1.2.2 ht1
  have b1 := co h.place2.1 h.direct2.1 ht2
  have b2 := co h.place2.2.1 h.direct2.2.1 ht2
  have b3 := co h.place2.2.2 h.direct2.2.2 ht2
  obtain ⟨e1, e2⟩ := hG
  have mid : ∀ {a b : ℝ}, |a| ≤ 2 * 10 ^ 4 → |b| ≤ 2 * 10 ^ 4 → |(a + b) * 0.5| ≤ 7 * 10 ^ 4 := by
    intro a b h1 h2
    rw [abs_mul]
    have := abs_add_le a b
    norm_num at *
    linarith
  have sq : ∀ {a b : ℝ}, |a| ≤ 2 * 10 ^ 4 → |b| ≤ 2 * 10 ^ 4 → (a - b) * (a - b) ≤ 16 * 10 ^ 8 := by
    intro a b h1 h2
    have : |a - b| ≤ 4 * 10 ^ 4 := (abs_sub _ _).trans (by linarith)
    rw [← abs_mul_abs_self]
    exact (mul_le_mul this this (abs_nonneg _) (by norm_num)).trans (by norm_num)
  refine ⟨?_, ?_⟩
  · rw [← e1, abs_of_nonneg (V3.norm_nonneg _), V3.norm, Real.sqrt_le_left (by norm_num)]
    have g1 := sq a1 b1
    have g2 := sq a2 b2
    have g3 := sq a3 b3
    simp only [V3.sub_x, V3.sub_y, V3.sub_z, V3.add_x, V3.add_y, V3.add_z, V3.smul_x, V3.smul_y, V3.smul_z]
    norm_num at g1 g2 g3 ⊢
    linarith
  · rw [← e2]
    exact ⟨mid a1 b1, mid a2 b2, mid a3 b3⟩

/-- One addition to a sum of `k` terms. -/
theorem acc_near {r : ℝ → ℝ} (h : Doubles r) {s s' m m' μ δ : ℝ} {k : ℕ} (hs : |s' - s| ≤ k * δ) (hsb : |s| ≤ k * (7 * 10 ^ 4))
    (hm : |m' - m| ≤ μ) (hmb : |m| ≤ 7 * 10 ^ 4) (hk : k ≤ 1600) (hμ : μ + 2 / 10 ^ 8 ≤ δ) (hδ : δ ≤ 1 / 10 ^ 6) :
    |r (s' + m') - (s + m)| ≤ (k + 1 : ℕ) * δ ∧ |s + m| ≤ (k + 1 : ℕ) * (7 * 10 ^ 4) := by
  have hkr : (k : ℝ) ≤ 1600 := by exact_mod_cast hk
  have hk0 : (0 : ℝ) ≤ k := Nat.cast_nonneg k
  push_cast
  generalize (k : ℝ) = K at *
  clear hk
  have hμ0 := (abs_nonneg _).trans hm
  have hkδ : K * δ ≤ 1600 / 10 ^ 6 := by
    have := mul_le_mul hkr hδ (by norm_num at *; linarith) (by norm_num)
    linarith
  have hb : |s + m| ≤ (K + 1) * (7 * 10 ^ 4) := (abs_add_le _ _).trans (by linarith)
  refine ⟨?_, hb⟩
  refine (h.near (add_near hs hm) hb (by norm_num at *; linarith)).trans ?_
  have e : (K + 1) * δ = K * δ + δ := by ring
  rw [e]
  generalize K * δ = t at *
  norm_num at *
  linarith

/-- The sums of the exact and the computed loop. -/
structure Sums (a a' : PPAcc) : Prop where
  count : a'.n = a.n
  sums : ∃ t t', a.tot = some t ∧ a'.tot = some t' ∧ |t'.1 - t.1| ≤ a.n * (33 / 10 ^ 8) ∧ |t.1| ≤ a.n * (7 * 10 ^ 4) ∧
    Near3 t'.2 t.2 (a.n * (13 / 10 ^ 8)) ∧ Box t.2 (a.n * (7 * 10 ^ 4))

variable {r : ℝ → ℝ} {fdot : V3 → V3 → ℝ} {fnorm : V3 → ℝ}

theorem Sums.add (hr : Doubles r) (hdot : DotDouble fdot) (hnorm : NormDouble fnorm) {a a' : PPAcc} (h : Sums a a') (hn : a.n ≤ 1600)
    {p q : Ray} (hw : WellPosed p.1 p.2 q.1 q.2) : Sums (Geo.addPair a p q) (Round.addPair r fdot fnorm a' p q) := by
  obtain ⟨c, t, t', e1, e2, s1, s2, s3, s4⟩ := h
  obtain ⟨D, M, D', M', g1, g2, m1, m2, m3, m4⟩ := C150_skew_midpoint r fdot fnorm hr hdot hnorm _ _ _ _ hw
  obtain ⟨b1, b2⟩ := skew_bound hw g1
  refine ⟨by simp only [Geo.addPair, Round.addPair, c], (t.1 + D, t.2 + M),
    (r (t'.1 + D'), ⟨r (t'.2.x + M'.x), r (t'.2.y + M'.y), r (t'.2.z + M'.z)⟩), ?_, ?_, ?_⟩
  · simp only [Geo.addPair, e1, Option.bind_eq_bind, Option.bind_some]
    have g : Geo.skewMidpoint p q = some (D, M) := g1
    simp [g]
  · simp only [Round.addPair, e2, Option.bind_eq_bind, Option.bind_some]
    have g : Round.skewMidpoint r fdot fnorm p q = some (D', M') := g2
    simp [g]
  · have k1 := acc_near hr s1 s2 m4 b1 hn (show (3 : ℝ) / 10 ^ 7 + 2 / 10 ^ 8 ≤ 33 / 10 ^ 8 by norm_num) (by norm_num)
    have k2 := acc_near hr s3.1 s4.1 m1 b2.1 hn (show (1 : ℝ) / 10 ^ 7 + 2 / 10 ^ 8 ≤ 13 / 10 ^ 8 by norm_num) (by norm_num)
    have k3 := acc_near hr s3.2.1 s4.2.1 m2 b2.2.1 hn (show (1 : ℝ) / 10 ^ 7 + 2 / 10 ^ 8 ≤ 13 / 10 ^ 8 by norm_num) (by norm_num)
    have k4 := acc_near hr s3.2.2 s4.2.2 m3 b2.2.2 hn (show (1 : ℝ) / 10 ^ 7 + 2 / 10 ^ 8 ≤ 13 / 10 ^ 8 by norm_num) (by norm_num)
    exact ⟨k1.1, k1.2, ⟨k2.1, k3.1, k4.1⟩, ⟨k2.2, k3.2, k4.2⟩⟩

theorem Sums.row (hr : Doubles r) (hdot : DotDouble fdot) (hnorm : NormDouble fnorm) {p : Ray} (rs : List (Option Ray)) {a a' : PPAcc}
    (h : Sums a a') (hn : a.n + rs.length ≤ 1600) (hw : ∀ q, some q ∈ rs → WellPosed p.1 p.2 q.1 q.2) :
    Sums (rs.foldl (Geo.addPairOpt p) a) (rs.foldl (Round.addPairOpt r fdot fnorm p) a') ∧
      a.n ≤ (rs.foldl (Geo.addPairOpt p) a).n ∧ (rs.foldl (Geo.addPairOpt p) a).n ≤ a.n + rs.length ∧
      ((∃ q, some q ∈ rs) → 1 ≤ (rs.foldl (Geo.addPairOpt p) a).n) := by
  induction rs generalizing a a' with
  | nil => exact ⟨h, le_rfl, le_rfl, fun ⟨q, hq⟩ => absurd hq (List.not_mem_nil)⟩
  | cons o rs ih =>
    rw [List.length_cons] at hn
    cases o with
    | none =>
      obtain ⟨i1, i2, i3, i4⟩ := ih h (by omega) (fun q hq => hw q (List.mem_cons_of_mem _ hq))
      refine ⟨i1, i2, by rw [List.length_cons]; exact i3.trans (by omega), fun ⟨q, hq⟩ => i4 ⟨q, ?_⟩⟩
      rcases List.mem_cons.1 hq with e | e
      · exact absurd e (by simp)
      · exact e
    | some q =>
      have h1 := h.add hr hdot hnorm (by omega) (hw q List.mem_cons_self)
      have e : (Geo.addPair a p q).n = a.n + 1 := rfl
      obtain ⟨i1, i2, i3, -⟩ := ih h1 (by omega) (fun q hq => hw q (List.mem_cons_of_mem _ hq))
      rw [e] at i2 i3
      refine ⟨i1, ?_, ?_, fun _ => ?_⟩
      · exact le_trans (by omega) i2
      · rw [List.length_cons]; exact i3.trans (by omega)
      · exact le_trans (by omega) i2

/-- Every two used rays are well posed. -/
def AllWellPosed (rays : List (Option Ray)) : Prop :=
  rays.Pairwise fun o o' => ∀ p q, o = some p → o' = some q → WellPosed p.1 p.2 q.1 q.2

theorem Sums.all (hr : Doubles r) (hdot : DotDouble fdot) (hnorm : NormDouble fnorm) (rs : List (Option Ray)) {a a' : PPAcc}
    (h : Sums a a') (hn : a.n + rs.length * rs.length ≤ 1600) (hw : AllWellPosed rs) :
    Sums (Geo.pairLoop rs a) (Round.pairLoop r fdot fnorm rs a') ∧ a.n ≤ (Geo.pairLoop rs a).n ∧
      (2 ≤ (rs.filterMap id).length → 1 ≤ (Geo.pairLoop rs a).n) := by
  induction rs generalizing a a' with
  | nil => exact ⟨h, le_rfl, fun h => absurd h (by simp)⟩
  | cons o rs ih =>
    rw [List.length_cons] at hn
    obtain ⟨w1, w2⟩ := List.pairwise_cons.1 hw
    have e : (rs.length + 1) * (rs.length + 1) = rs.length * rs.length + rs.length + rs.length + 1 := by ring
    cases o with
    | none =>
      obtain ⟨i1, i2, i3⟩ := ih h (by omega) w2
      exact ⟨i1, i2, i3⟩
    | some p =>
      obtain ⟨j1, j2, j3, j4⟩ := h.row hr hdot hnorm (p := p) rs (by omega) (fun q hq => w1 _ hq p q rfl rfl)
      rw [e] at hn
      obtain ⟨i1, i2, i3⟩ := ih j1 (by omega) w2
      refine ⟨i1, j2.trans i2, fun h2 => le_trans (j4 ?_) i2⟩
      rw [show (some p :: rs).filterMap id = p :: rs.filterMap id from rfl, List.length_cons] at h2
      obtain ⟨q, hq⟩ := List.exists_mem_of_length_pos (show 0 < (rs.filterMap id).length by omega)
      obtain ⟨o, ho, e⟩ := List.mem_filterMap.1 hq
      exact ⟨q, by rw [← (show o = some q from e)]; exact ho⟩

/-- C150: in double precision, the position computed by `point_position` from the rays of up to forty cameras, at least two of which see
the particle and every two of which are well-posed, is right up to 2e-7 mm in every coordinate, and the mean distance of the rays up to
4e-7 mm. -/
theorem C150_point_position (r : ℝ → ℝ) (fdot : V3 → V3 → ℝ) (fnorm : V3 → ℝ) (hr : Doubles r) (hdot : DotDouble fdot)
    (hnorm : NormDouble fnorm) (targets : List (ℝ × ℝ)) (numCams : ℕ) (mm : MM) (cals : List Cam) (rays : List (Option Ray))
    (hrays : camRays targets cals mm (List.range numCams) = .ok rays) (h40 : rays.length ≤ 40)
    (h2 : 2 ≤ (rays.filterMap id).length) (hw : AllWellPosed rays) :
    ∃ D P D' P', Geo.pointPosition targets numCams mm cals = .ok (some (D, P)) ∧
      Round.pointOfRays r fdot fnorm rays = .ok (some (D', P')) ∧
      |P'.x - P.x| ≤ 2 / 10 ^ 7 ∧ |P'.y - P.y| ≤ 2 / 10 ^ 7 ∧ |P'.z - P.z| ≤ 2 / 10 ^ 7 ∧ |D' - D| ≤ 4 / 10 ^ 7 := by
  have h0 : Sums ⟨0, some (0, 0)⟩ ⟨0, some (0, 0)⟩ := by
    refine ⟨rfl, _, _, rfl, rfl, ?_⟩
    simp [Near3, Box]
  obtain ⟨⟨c, t, t', e1, e2, s1, s2, s3, s4⟩, -, i3⟩ := h0.all hr hdot hnorm rays (by simp only [zero_add]; exact (Nat.mul_le_mul h40 h40).trans (by norm_num)) hw
  have hn := i3 h2
  have e3 : Geo.pointPosition targets numCams mm cals = .ok (some (t.1 / (Geo.pairLoop rays ⟨0, some (0, 0)⟩).n,
      t.2.smul (1 / (Geo.pairLoop rays ⟨0, some (0, 0)⟩).n))) := by
    simp only [Geo.pointPosition, hrays, e1]
    rw [if_neg (by omega)]
    rfl
  have e4 : Round.pointOfRays r fdot fnorm rays = .ok (some (r (t'.1 / (Geo.pairLoop rays ⟨0, some (0, 0)⟩).n),
      ⟨r (t'.2.x / (Geo.pairLoop rays ⟨0, some (0, 0)⟩).n), r (t'.2.y / (Geo.pairLoop rays ⟨0, some (0, 0)⟩).n),
        r (t'.2.z / (Geo.pairLoop rays ⟨0, some (0, 0)⟩).n)⟩)) := by
    simp only [Round.pointOfRays, c, e2]
    rw [if_neg (by omega)]
    rfl
  refine ⟨_, _, _, _, e3, e4, ?_⟩
  clear e1 e2 e3 e4 i3 c
  generalize (Geo.pairLoop rays ⟨0, some (0, 0)⟩).n = n at *
  have hn0 : (0 : ℝ) < n := by exact_mod_cast hn
  have key : ∀ {s s' δ : ℝ}, |s' - s| ≤ n * δ → |s| ≤ n * (7 * 10 ^ 4) → δ ≤ 1 / 10 ^ 6 → |r (s' / n) - s / n| ≤ δ + 1 / 10 ^ 8 := by
    intro s s' δ h1 h2 h3
    have g1 : |s' / n - s / n| ≤ δ := by
      rw [← sub_div, abs_div, abs_of_pos hn0, div_le_iff₀ hn0]
      linarith
    have g2 : |s / n| ≤ 7 * 10 ^ 4 := by
      rw [abs_div, abs_of_pos hn0, div_le_iff₀ hn0]
      linarith
    refine (hr.near g1 g2 (by norm_num at *; linarith)).trans ?_
    norm_num at *
    linarith
  have ed : ∀ x : ℝ, x * (1 / n) = x / n := fun x => by ring
  simp only [V3.smul_x, V3.smul_y, V3.smul_z, ed]
  exact ⟨(key s3.1 s4.1 (by norm_num)).trans (by norm_num), (key s3.2.1 s4.2.1 (by norm_num)).trans (by norm_num),
    (key s3.2.2 s4.2.2 (by norm_num)).trans (by norm_num), (key s1 s2 (by norm_num)).trans (by norm_num)⟩

/-- The hypotheses are met: two rays at right angles, after the ray of a camera that is not used. -/
example : AllWellPosed [none, some (⟨-100, 0, 0⟩, ⟨1, 0, 0⟩), some (⟨0, -100, 0⟩, ⟨0, 1, 0⟩)] ∧
    2 ≤ (([none, some (⟨-100, 0, 0⟩, ⟨1, 0, 0⟩), some (⟨0, -100, 0⟩, ⟨0, 1, 0⟩)] : List (Option Ray)).filterMap id).length := by
  refine ⟨?_, by simp⟩
  simp only [AllWellPosed, List.pairwise_cons, List.mem_cons, List.not_mem_nil, or_false, forall_eq, reduceCtorEq,
    implies_true, Option.some.injEq, true_and, and_true, List.Pairwise.nil, IsEmpty.forall_iff]
  rintro p q rfl rfl
  refine ⟨by norm_num, by norm_num, by norm_num, by norm_num, by norm_num [V3.cross, V3.norm], ?_⟩
  intro t1 t2 e1 e2
  simp only [V3.dot, V3.smul, V3.add_x, V3.add_y, V3.add_z, V3.sub_x, V3.sub_y, V3.sub_z] at e1 e2
  constructor
  · rw [show t1 = 100 by linarith]; norm_num
  · rw [show t2 = 100 by linarith]; norm_num

end Verif.Round
