/-
C150: rounding errors of the dumbbell score, from the rays to the score.
-/
import Verif.Props.RoundedDumbbell

namespace Verif.Round
open Verif.Geo

/-- The midpoint lies within twenty metres of the origin. -/
theorem midpoint_bound {v1 d1 v2 d2 : V3} (h : WellPosed v1 d1 v2 d2) {D : ℝ} {M : V3}
    (hG : Geo.skewMidpoint (v1, d1) (v2, d2) = some (D, M)) : Box M (2 * 10 ^ 4) := by
  obtain ⟨hs, ht1, ht2⟩ := nearest_reach h
  have hne : V3.dot (V3.cross d1 d2) (V3.cross d1 d2) ≠ 0 := by linarith
  simp only [Geo.skewMidpoint, if_neg hne, Option.some.injEq, Prod.mk.injEq] at hG
  generalize V3.dot (V3.cross d1 d2) (V3.cross (v2 - v1) d2) = q1 at *
  generalize V3.dot (V3.cross d1 d2) (V3.cross (v2 - v1) d1) = q2 at *
  generalize V3.dot (V3.cross d1 d2) (V3.cross d1 d2) = s at *
  have co : ∀ {v d q : ℝ}, |v| ≤ 10 ^ 4 → |d| ≤ 1 → |q / s| ≤ 10 ^ 4 → |v + d * q * (1 / s)| ≤ 2 * 10 ^ 4 := by
    intro v d q h1 h2 h3
    refine (abs_add_le _ _).trans ?_
    rw [show d * q * (1 / s) = d * (q / s) by ring, abs_mul]
    have := mul_le_mul h2 h3 (abs_nonneg _) (by norm_num)
    linarith
  have mid : ∀ {a b : ℝ}, |a| ≤ 2 * 10 ^ 4 → |b| ≤ 2 * 10 ^ 4 → |(a + b) * 0.5| ≤ 2 * 10 ^ 4 := by
    intro a b h1 h2
    rw [abs_mul]
    have := abs_add_le a b
    norm_num at *
    linarith
  rw [← hG.2]
  exact ⟨mid (co h.place1.1 h.direct1.1 ht1) (co h.place2.1 h.direct2.1 ht2),
    mid (co h.place1.2.1 h.direct1.2.1 ht1) (co h.place2.2.1 h.direct2.2.1 ht2),
    mid (co h.place1.2.2 h.direct1.2.2 ht1) (co h.place2.2.2 h.direct2.2.2 ht2)⟩

/-- The sums of the exact loop are no larger than their terms allow. -/
def Within (a : PPAcc) : Prop := ∀ t, a.tot = some t → |t.1| ≤ a.n * (7 * 10 ^ 4) ∧ Box t.2 (a.n * (2 * 10 ^ 4))

theorem Within.add {a : PPAcc} (h : Within a) {p q : Ray} (hw : WellPosed p.1 p.2 q.1 q.2) : Within (Geo.addPair a p q) := by
  intro t ht
  simp only [Geo.addPair, Option.bind_eq_bind, Option.bind_eq_some_iff, Option.some.injEq] at ht
  obtain ⟨t0, e0, ⟨D, M⟩, e1, rfl⟩ := ht
  obtain ⟨h1, h2, h3, h4⟩ := h t0 e0
  have g1 := (skew_bound hw e1).1
  obtain ⟨g2, g3, g4⟩ := midpoint_bound hw e1
  have key : ∀ {x y c : ℝ}, |x| ≤ a.n * c → |y| ≤ c → |x + y| ≤ (a.n + 1 : ℕ) * c := by
    intro x y c hx hy
    push_cast
    have := abs_add_le x y
    linarith
  exact ⟨key h1 g1, key h2 g2, key h3 g3, key h4 g4⟩

theorem Within.row {p : Ray} (rs : List (Option Ray)) {a : PPAcc} (h : Within a) (hw : ∀ q, some q ∈ rs → WellPosed p.1 p.2 q.1 q.2) :
    Within (rs.foldl (Geo.addPairOpt p) a) := by
  induction rs generalizing a with
  | nil => exact h
  | cons o rs ih =>
    refine ih (a := Geo.addPairOpt p a o) ?_ (fun q hq => hw q (List.mem_cons_of_mem _ hq))
    cases o with
    | none => exact h
    | some q => exact h.add (hw q List.mem_cons_self)

theorem Within.all (rs : List (Option Ray)) {a : PPAcc} (h : Within a) (hw : AllWellPosed rs) : Within (Geo.pairLoop rs a) := by
  induction rs generalizing a with
  | nil => exact h
  | cons o rs ih =>
    obtain ⟨w1, w2⟩ := List.pairwise_cons.1 hw
    cases o with
    | none => exact ih h w2
    | some p => exact ih (h.row rs (fun q hq => w1 _ hq p q rfl rfl)) w2

variable {r : ℝ → ℝ} {fdot : V3 → V3 → ℝ} {fnorm : V3 → ℝ}

/-- The rays of the cameras that see a particle, as `C150_point_position` wants them. -/
structure Spec.GoodRays (numCams : ℕ) (mm : MM) (cals : List Cam) (t : List (ℝ × ℝ)) (rays : List (Option Ray)) : Prop where
  traced : camRays t cals mm (List.range numCams) = .ok rays
  forty : rays.length ≤ 40
  two : 2 ≤ (rays.filterMap id).length
  posed : AllWellPosed rays

theorem result_near (hr : Doubles r) (hdot : DotDouble fdot) (hnorm : NormDouble fnorm) {t : List (ℝ × ℝ)} {numCams : ℕ} {mm : MM}
    {cals : List Cam} {rays : List (Option Ray)} (h : Spec.GoodRays numCams mm cals t rays) :
    ∃ p p', Geo.pointPosition t numCams mm cals = .ok (some p) ∧ pointOfRays r fdot fnorm rays = .ok (some p') ∧ Spec.NearResult p p' := by
  obtain ⟨D, P, D', P', e1, e2, n1, n2, n3, n4⟩ := C150_point_position r fdot fnorm hr hdot hnorm t numCams mm cals rays h.traced h.forty h.two h.posed
  refine ⟨_, _, e1, e2, n4, ?_, ⟨n1, n2, n3⟩, ?_⟩
  all_goals
    have hW : Within (Geo.pairLoop rays ⟨0, some (0, 0)⟩) := by
      refine Within.all rays ?_ h.posed
      intro t ht
      simp only [Option.some.injEq] at ht
      subst ht
      simp [Box]
    simp only [Geo.pointPosition, h.traced] at e1
    by_cases hn : (Geo.pairLoop rays ⟨0, some (0, 0)⟩).n = 0
    · simp [hn] at e1
    simp only [if_neg hn, Except.ok.injEq, Option.map_eq_some_iff, Prod.mk.injEq] at e1
    obtain ⟨s, es, rfl, rfl⟩ := e1
    obtain ⟨w1, w2, w3, w4⟩ := hW s es
    have hn0 : (0 : ℝ) < (Geo.pairLoop rays ⟨0, some (0, 0)⟩).n := by exact_mod_cast Nat.pos_of_ne_zero hn
    have key : ∀ {x c : ℝ}, |x| ≤ (Geo.pairLoop rays ⟨0, some (0, 0)⟩).n * c → |x / (Geo.pairLoop rays ⟨0, some (0, 0)⟩).n| ≤ c := by
      intro x c hx
      rw [abs_div, abs_of_pos hn0, div_le_iff₀ hn0]
      linarith
    have ed : ∀ x : ℝ, x * (1 / (Geo.pairLoop rays ⟨0, some (0, 0)⟩).n) = x / (Geo.pairLoop rays ⟨0, some (0, 0)⟩).n := fun x => by ring
    simp only [V3.smul_x, V3.smul_y, V3.smul_z, ed]
  · exact key w1
  · exact ⟨key w2, key w3, key w4⟩

/-- C150: the dumbbell score computed in double precision from the rays. For up to 1600 points, each of them seen by at least two of up to
forty cameras along rays every two of which are well-posed, a dumbbell length of at least a millimetre and a weight of at most a thousand,
triangulating in double precision and computing the score in double precision gives the exact score up to 6e-7, plus 9e-7 times the weight. -/
theorem C150_dumbbell_rays (r : ℝ → ℝ) (fdot : V3 → V3 → ℝ) (fnorm : V3 → ℝ) (hr : Doubles r) (hdot : DotDouble fdot)
    (hnorm : NormDouble fnorm) (db w : ℝ) (hdb : 1 ≤ db) (hw : |w| ≤ 10 ^ 3) (targets : List (List (ℝ × ℝ))) (numCams : ℕ) (mm : MM)
    (cals : List Cam) (rayss : List (List (Option Ray))) (h0 : targets ≠ []) (h1600 : targets.length ≤ 1600)
    (h : List.Forall₂ (Spec.GoodRays numCams mm cals) targets rayss) :
    ∃ ps' score, List.Forall₂ (fun rays p' => pointOfRays r fdot fnorm rays = .ok (some p')) rayss ps' ∧
      Geo.weightedDumbbell targets numCams mm cals db w = .ok (some score) ∧
      |dumbbellScore r fnorm db w ps' - score| ≤ 6 / 10 ^ 7 + 9 / 10 ^ 7 * |w| := by
  have key : ∀ {targets : List (List (ℝ × ℝ))} {rayss : List (List (Option Ray))},
      List.Forall₂ (Spec.GoodRays numCams mm cals) targets rayss →
      ∃ ps ps', List.Forall₂ (fun rays p' => pointOfRays r fdot fnorm rays = .ok (some p')) rayss ps' ∧
        allPositions targets numCams mm cals = .ok (ps.map some) ∧ ps.length = targets.length ∧ List.Forall₂ Spec.NearResult ps ps' := by
    intro targets rayss h
    induction h with
    | nil => exact ⟨[], [], .nil, rfl, rfl, .nil⟩
    | cons hx _ ih =>
      obtain ⟨ps, ps', f1, f2, f3, f4⟩ := ih
      obtain ⟨p, p', e1, e2, e3⟩ := result_near hr hdot hnorm hx
      exact ⟨p :: ps, p' :: ps', .cons e2 f1, by simp only [allPositions, e1, f2, List.map_cons], by simp [f3], .cons e3 f4⟩
  obtain ⟨ps, ps', f1, f2, f3, f4⟩ := key h
  obtain ⟨score, g1, g2⟩ := C150_dumbbell r fnorm hr hnorm db w hdb hw targets numCams mm cals ps ps' h0 f2 f3 (by omega) f4
  exact ⟨ps', score, f1, g1, g2⟩

/-- The rays of two cameras in air, seen at 3/4 of a millimetre to either side. -/
theorem ex_ray (x u : ℝ) (hu : u = 3 / 4 ∨ u = -(3 / 4)) :
    rayTracing u 0 (exCam x) ⟨1, 1, [1], 1, [2]⟩ = some (⟨x + 9 * u, 0, 1⟩, ⟨4 / 5 * u, 0, -4 / 5⟩) := by
  obtain ⟨X, e1, ⟨t, e2⟩, e3⟩ := C26_straight u 0 0 0 0 1 (exCam x) ⟨1, 1, [1], 1, [2]⟩ 2 1 [] [] ⟨0, 0, 1⟩ ⟨4 / 5 * u, 0, -4 / 5⟩ (5 / 4)
    rfl rfl rfl (by norm_num) (by norm_num [V3.norm]) (by simp [exCam, V3.smul]) (by norm_num)
    (by rcases hu with rfl | rfl <;> norm_num [V3.norm])
    (by simp [exCam, Geo.rotationMatrix, M3.mulVec, V3.smul, V3.dot]; ring_nf; simp)
    (by norm_num [V3.dot]) (by norm_num) rfl rfl
  rw [e1]
  have hz : t = 45 / 4 := by
    rw [e2] at e3
    simp [V3.dot, exCam] at e3
    linarith
  rw [e2, hz]
  simp only [Option.some.injEq, Prod.mk.injEq, and_true]
  ext <;> simp [exCam] <;> norm_num <;> ring_nf

theorem ex_goodRays : Spec.GoodRays 2 ⟨1, 1, [1], 1, [2]⟩ [exCam 0, exCam 15] [(3 / 4, 0), (-(3 / 4), 0)]
    [some (⟨27 / 4, 0, 1⟩, ⟨3 / 5, 0, -(4 / 5)⟩), some (⟨33 / 4, 0, 1⟩, ⟨-(3 / 5), 0, -(4 / 5)⟩)] := by
  refine ⟨?_, by simp, by simp, ?_⟩
  · have r1 := ex_ray 0 (3 / 4) (Or.inl rfl)
    have r2 := ex_ray 15 (-(3 / 4)) (Or.inr rfl)
    have c1 : (3 / 4 : ℝ) ≠ coordUnused := by norm_num [coordUnused]
    have c2 : (-(3 / 4) : ℝ) ≠ coordUnused := by norm_num [coordUnused]
    norm_num at r1 r2
    simp [camRays, camRay, pyGet, List.range_succ, r1, r2, c1, c2]
  · simp only [AllWellPosed, List.pairwise_cons, List.mem_cons, List.not_mem_nil, or_false, forall_eq,
      implies_true, Option.some.injEq, and_true, List.Pairwise.nil, IsEmpty.forall_iff]
    rintro p q rfl rfl
    refine ⟨by norm_num [abs_le], by norm_num [abs_le], by norm_num [abs_le], by norm_num [abs_le], ?_, ?_⟩
    · rw [V3.norm]
      apply Real.le_sqrt_of_sq_le
      norm_num [V3.cross]
    · intro t1 t2 e1 e2
      simp only [V3.dot, V3.smul, V3.add_x, V3.add_y, V3.add_z, V3.sub_x, V3.sub_y, V3.sub_z] at e1 e2
      have h1 : t1 = 5 / 4 := by linarith
      have h2 : t2 = 5 / 4 := by linarith
      rw [h1, h2]
      norm_num

/-- `C150_dumbbell_rays` for two points. -/
example : ∃ ps' score, ps'.length = 2 ∧ Geo.weightedDumbbell [[(3 / 4, 0), (-(3 / 4), 0)], [(3 / 4, 0), (-(3 / 4), 0)]] 2 ⟨1, 1, [1], 1, [2]⟩
      [exCam 0, exCam 15] 25 1 = .ok (some score) ∧
    |dumbbellScore nearestDouble doubleLib.vecNorm 25 1 ps' - score| ≤ 6 / 10 ^ 7 + 9 / 10 ^ 7 * |1| := by
  obtain ⟨ps', score, h1, h2, h3⟩ := C150_dumbbell_rays nearestDouble doubleDot doubleLib.vecNorm nearestDouble_doubles doubleDot_double
    doubleNorm_double 25 1 (by norm_num) (by norm_num) [[(3 / 4, 0), (-(3 / 4), 0)], [(3 / 4, 0), (-(3 / 4), 0)]] 2 ⟨1, 1, [1], 1, [2]⟩
    [exCam 0, exCam 15] _ (by simp) (by simp) (.cons ex_goodRays (.cons ex_goodRays .nil))
  exact ⟨ps', score, by simpa using h1.length_eq.symm, h2, h3⟩

end Verif.Round
