/-
C147: measured positions through weak lenses with all kinds of distortion, and through the window.
-/
import Verif.Props.MeasuredEx

namespace Verif.Geo
open V3 Spec

/-- C147, positions: a point that at least two cameras see through their windows, each with any weak lens, is measured on the sensors
within `ε0`. `point_position` of the corrected image points is within `δ (1 + 2/σ)` of the point; `δ` is the error of a line of sight
whose image point is `5/2 ε0` and the rest of the lens off. `m` are the measured points; the other
cameras have the number that marks an unused coordinate. -/
theorem C147_position (P : V3) (m targets : List (ℝ × ℝ)) (numCams : ℕ) (mm : MM) (cals : List Cam) (tol d n2 R κ ε0 ε δ σ : ℝ)
    (hlen : numCams ≤ targets.length) (hmm : OnePlate mm d n2) (hσ : 0 < σ) (htol : 0 ≤ tol)
    (hproj : ∀ cam < numCams, ∀ t, targets[cam]? = some t → t.1 ≠ coordUnused →
      ∃ c f p, cals[cam]? = some c ∧ m[cam]? = some p ∧ t = distToFlat p.1 p.2 c.xh c.yh c.ap tol ∧ WeakLens c.ap R κ ∧
        5 / 2 * ε0 + lensRest c.ap R κ tol ≤ ε ∧ SeesWithin c d P ε δ ∧ flatImageCoord P c emptyLUT mm = some f ∧
        Real.sqrt ((f.1 + c.xh) ^ 2 + (f.2 + c.yh) ^ 2) ≤ R ∧ Real.sqrt (p.1 ^ 2 + p.2 ^ 2) ≤ 0.9 * R ∧
        imageDist (flatToDist f.1 f.2 c.xh c.yh c.ap) p ≤ ε0)
    (hcross : ∀ i j ti tj ci cj Xi ai Xj aj, i < j → i ∈ usedCams targets numCams → j ∈ usedCams targets numCams →
      targets[i]? = some ti → targets[j]? = some tj → cals[i]? = some ci → cals[j]? = some cj →
      rayTracing ti.1 ti.2 ci mm = some (Xi, ai) → rayTracing tj.1 tj.2 cj mm = some (Xj, aj) → Crossing ai aj σ)
    (htwo : 2 ≤ (usedCams targets numCams).card) :
    ∃ D M, pointPosition targets numCams mm cals = .ok (some (D, M)) ∧ 0 ≤ D ∧ D ≤ 2 * δ ∧
      (M - P).norm ≤ δ * (1 + 2 / σ) := by
  refine C136_position P targets numCams mm cals d n2 ε δ σ hlen hmm hσ ?_ hcross htwo
  intro cam hc t ht hne
  obtain ⟨c, f, p, h1, -, h3, h4, h5, h6, h7, h8, h9, h10⟩ := hproj cam hc t ht hne
  refine ⟨c, f, h1, h6, h7, ?_⟩
  rw [h3]
  have := C147_flat c.ap c.xh c.yh R κ tol f p h4 htol h8 h9
  linarith

/-- A camera over the window with a lens of every kind of distortion. -/
noncomputable def everyCam (a : ℝ) : Cam :=
  ⟨⟨a, 0, 100⟩, rotationMatrix 0 0 0, 4, 0, 0, everyLens, ⟨0, 0, 50⟩⟩

/-- Neither the image of a point before the lens nor the ray of an image point behind it depends on the lens. -/
theorem everyCam_image (a : ℝ) (P : V3) : flatImageCoord P (everyCam a) emptyLUT waterMM = flatImageCoord P (mildCam a) emptyLUT waterMM := rfl

theorem everyCam_ray (a x y : ℝ) : rayTracing x y (everyCam a) waterMM = rayTracing x y (mildCam a) waterMM := rfl

theorem everyCam_within {a ε : ℝ} (ha : |a| = 30) (h0 : 0 ≤ ε) (hε : ε ≤ 0.01006) : SeesWithin (everyCam a) 6 ⟨0, 0, 0⟩ ε 0.75 := by
  have h := mildCam_within ha h0 hε
  exact ⟨⟨h.through.rot, h.through.glass, h.through.camera, h.through.behind, h.through.front, h.through.window⟩, h.small, h.error⟩

/-- The lens is weaker nearer to its centre. -/
theorem everyLens_inner : WeakLens everyLens (10 / 3) (4 / 10 ^ 3) := by
  refine ⟨by norm_num, ?_, by norm_num⟩
  simp only [everyLens]
  rw [abs_of_pos, abs_of_pos, abs_of_neg, abs_of_pos, abs_of_neg, abs_of_pos, abs_of_pos] <;> norm_num

/-- What its correction leaves. -/
theorem everyLens_rest : lensRest everyLens (10 / 3) (4 / 10 ^ 3) 0.00001 ≤ 0.00085 := by
  simp only [lensRest, everyLens]
  rw [abs_of_pos, abs_of_pos] <;> norm_num

end Verif.Geo

namespace Verif.Track
open Verif.Track.Spec Verif.Geo Verif.Geo.Spec

/-- The two cameras with those lenses. -/
noncomputable def everySetup : Setup where
  cals := [(everyCam 30, emptyLUT), (everyCam (-30), emptyLUT)]
  mm := waterMM
  ip := ⟨1280, 1024, 0.01, 0.01⟩
  tol := 0.00001
  vel := ⟨⟨-2, -2, -2⟩, ⟨2, 2, 2⟩⟩
  dacc := 1
  dangle := 100
  add := true
  lmax := 3
  lo := ⟨-50, -50, -50⟩
  hi := ⟨50, 50, 50⟩

theorem everySetup_lens : LensWithin everySetup everyLens 3 0.3 0.01006 := by
  refine Or.inr ⟨4 / 10 ^ 3, ?_, by norm_num [everySetup], ?_⟩
  · rw [show (10 / 9 * 3 : ℝ) = 10 / 3 by norm_num]; exact everyLens_inner
  · rw [weakFlatError, show (10 / 9 * 3 : ℝ) = 10 / 3 by norm_num]
    have h : lensRest everyLens (10 / 3) (4 / 10 ^ 3) everySetup.tol ≤ 0.00085 := everyLens_rest
    have h2 : max everySetup.ip.pixX everySetup.ip.pixY = 0.01 := by simp [everySetup]
    rw [h2]
    linarith

/-- They see the origin, with targets that are up to 0.3 pixels off: the hypotheses of `C136_new_position` and of `C136_added` on the
cameras are met by lenses with every kind of distortion. -/
theorem everySetup_rig : RigSeesMildly everySetup ⟨0, 0, 0⟩ 6 (3 / 2) 3 0.3 0.01006 0.75 0.36 := by
  refine ⟨glassCam_plate, by norm_num [everySetup], ?_, ?_⟩
  · have key : ∀ a : ℝ, |a| = 30 → SeesMildly everySetup (everyCam a, emptyLUT) ⟨0, 0, 0⟩ 6 3 0.3 0.01006 0.75 := by
      intro a ha
      refine ⟨rfl, everySetup_lens, everyCam_within ha (by norm_num) (by norm_num), ?_, ?_⟩
      · intro f hf
        obtain ⟨u, h1, h2, h3⟩ := mildCam_image a
        have hf' : flatImageCoord ⟨0, 0, 0⟩ (mildCam a) emptyLUT waterMM = some f := hf
        rw [h1] at hf'
        cases hf'
        have ha2 : a ^ 2 = 900 := by rw [← sq_abs, ha]; norm_num
        apply Real.sqrt_le_iff.2
        refine ⟨by norm_num, ?_⟩
        simp only [everyCam]
        rw [show (-a / 30 * u + 0) ^ 2 + (0 + 0) ^ 2 = a ^ 2 / 900 * u ^ 2 by ring, ha2]
        nlinarith
      · intro f t hf ht
        exact mildCam_mark ha le_rfl hf ht
    intro c hc
    simp only [everySetup, List.mem_cons, List.not_mem_nil, or_false] at hc
    rcases hc with rfl | rfl <;> exact key _ (by norm_num)
  · simp only [everySetup, List.pairwise_cons, List.mem_cons, List.not_mem_nil, or_false, forall_eq, false_imp_iff, implies_true,
      List.Pairwise.nil, and_true]
    intro f f' t t' Y a Y' a' hf hf' ht ht' hr hr'
    exact mildCam_cross (by norm_num) le_rfl hf hf' ht ht' hr hr'

end Verif.Track

namespace Verif.Geo
open V3 Spec

/-- `C147_position`: the origin, seen by the two cameras, and measured on their sensors wherever within 2 µm in x and y of its images. -/
example (n : Fin 2 → ℝ × ℝ) (hn : ∀ i, |(n i).1| ≤ 0.002 ∧ |(n i).2| ≤ 0.002) :
    ∃ f0 f1, flatImageCoord ⟨0, 0, 0⟩ (everyCam 30) emptyLUT waterMM = some f0 ∧
      flatImageCoord ⟨0, 0, 0⟩ (everyCam (-30)) emptyLUT waterMM = some f1 ∧
      ∀ m0 m1, m0 = flatToDist f0.1 f0.2 0 0 everyLens + n 0 → m1 = flatToDist f1.1 f1.2 0 0 everyLens + n 1 →
      ∃ D M, pointPosition [distToFlat m0.1 m0.2 0 0 everyLens 0.00001, distToFlat m1.1 m1.2 0 0 everyLens 0.00001] 2 waterMM
        [everyCam 30, everyCam (-30)] = .ok (some (D, M)) ∧ (M - ⟨0, 0, 0⟩).norm ≤ 0.75 * (1 + 2 / 0.36) := by
  have cam : ∀ a : ℝ, |a| = 30 → ∀ e : ℝ × ℝ, |e.1| ≤ 0.002 ∧ |e.2| ≤ 0.002 →
      ∃ f, flatImageCoord ⟨0, 0, 0⟩ (everyCam a) emptyLUT waterMM = some f ∧ Real.sqrt ((f.1 + 0) ^ 2 + (f.2 + 0) ^ 2) ≤ 10 / 3 ∧
        Real.sqrt ((flatToDist f.1 f.2 0 0 everyLens + e).1 ^ 2 + (flatToDist f.1 f.2 0 0 everyLens + e).2 ^ 2) ≤ 0.9 * (10 / 3) ∧
        imageDist (flatToDist f.1 f.2 0 0 everyLens) (flatToDist f.1 f.2 0 0 everyLens + e) ≤ 0.003 ∧
        ∀ t, imageDist f t ≤ 0.01006 → t.1 ≠ coordUnused := by
    intro a ha e he
    obtain ⟨u, h1, h2, h3⟩ := mildCam_image a
    have ha2 : a ^ 2 = 900 := by rw [← sq_abs, ha]; norm_num
    have hr : Real.sqrt ((-a / 30 * u + 0) ^ 2 + (0 + 0) ^ 2) ≤ 2.73 := by
      apply Real.sqrt_le_iff.2
      refine ⟨by norm_num, ?_⟩
      rw [show (-a / 30 * u + 0) ^ 2 + (0 + 0) ^ 2 = a ^ 2 / 900 * u ^ 2 by ring, ha2]
      nlinarith
    refine ⟨_, h1, by simp only; linarith, ?_, ?_, ?_⟩
    · have hmv := (weakLens_numbers everyLens_inner).moved (X := -a / 30 * u + 0) (Y := 0 + 0) (by linarith)
      have hd := (abs_le.1 (radius_diff (flatToDist (-a / 30 * u) 0 0 0 everyLens + e).1 (flatToDist (-a / 30 * u) 0 0 0 everyLens + e).2
        (-a / 30 * u + 0) (0 + 0))).2
      have t1 := abs_add_le ((distortBrownAffine (-a / 30 * u + 0) (0 + 0) everyLens).1 - (-a / 30 * u + 0)) e.1
      have t2 := abs_add_le ((distortBrownAffine (-a / 30 * u + 0) (0 + 0) everyLens).2 - (0 + 0)) e.2
      rw [flatToDist, Prod.fst_add, Prod.snd_add] at hd ⊢
      rw [sub_add_eq_add_sub] at t1 t2
      simp only at hd ⊢
      linarith [he.1, he.2]
    · simp only [imageDist, Prod.fst_add, Prod.snd_add]
      apply Real.sqrt_le_iff.2
      refine ⟨by norm_num, ?_⟩
      have := pow_le_pow_left₀ (abs_nonneg _) he.1 2
      have := pow_le_pow_left₀ (abs_nonneg _) he.2 2
      rw [sq_abs] at *
      ring_nf
      norm_num at *
      linarith
    · intro t ht
      exact mildCam_mark ha le_rfl h1 ht
  obtain ⟨f0, a1, a2, a3, a4, a5⟩ := cam 30 (by norm_num) (n 0) (hn 0)
  obtain ⟨f1, b1, b2, b3, b4, b5⟩ := cam (-30) (by norm_num) (n 1) (hn 1)
  refine ⟨f0, f1, a1, b1, ?_⟩
  rintro m0 m1 rfl rfl
  set m0 := flatToDist f0.1 f0.2 0 0 everyLens + n 0
  set m1 := flatToDist f1.1 f1.2 0 0 everyLens + n 1
  have hε : 5 / 2 * 0.003 + lensRest everyLens (10 / 3) (4 / 10 ^ 3) 0.00001 ≤ 0.01006 := by linarith [everyLens_rest]
  have d1 : imageDist f0 (distToFlat m0.1 m0.2 0 0 everyLens 0.00001) ≤ 0.01006 := by
    linarith [C147_flat everyLens 0 0 (10 / 3) (4 / 10 ^ 3) 0.00001 f0 m0 everyLens_inner (by norm_num) a2 a3]
  have d2 : imageDist f1 (distToFlat m1.1 m1.2 0 0 everyLens 0.00001) ≤ 0.01006 := by
    linarith [C147_flat everyLens 0 0 (10 / 3) (4 / 10 ^ 3) 0.00001 f1 m1 everyLens_inner (by norm_num) b2 b3]
  have hu : usedCams [distToFlat m0.1 m0.2 0 0 everyLens 0.00001, distToFlat m1.1 m1.2 0 0 everyLens 0.00001] 2 = {0, 1} := by
    ext i
    simp only [usedCams, Finset.mem_filter, Finset.mem_range, Finset.mem_insert, Finset.mem_singleton]
    constructor
    · rintro ⟨h, -⟩
      omega
    · rintro (rfl | rfl)
      · exact ⟨by norm_num, _, rfl, a5 _ d1⟩
      · exact ⟨by norm_num, _, rfl, b5 _ d2⟩
  obtain ⟨D, M, h, -, -, hM⟩ := C147_position ⟨0, 0, 0⟩ [m0, m1]
    [distToFlat m0.1 m0.2 0 0 everyLens 0.00001, distToFlat m1.1 m1.2 0 0 everyLens 0.00001] 2 waterMM [everyCam 30, everyCam (-30)]
    0.00001 6 (3 / 2) (10 / 3) (4 / 10 ^ 3) 0.003 0.01006 0.75 0.36 (by simp) glassCam_plate (by norm_num) (by norm_num) (by
      intro cam hc t ht hne
      have : cam = 0 ∨ cam = 1 := by omega
      rcases this with rfl | rfl
      · simp only [List.getElem?_cons_zero, Option.some.injEq] at ht
        exact ⟨_, f0, m0, rfl, rfl, ht.symm, everyLens_inner, hε, everyCam_within (by norm_num) (by norm_num) le_rfl, a1, a2, a3, a4⟩
      · simp only [List.getElem?_cons_succ, List.getElem?_cons_zero, Option.some.injEq] at ht
        exact ⟨_, f1, m1, rfl, rfl, ht.symm, everyLens_inner, hε, everyCam_within (by norm_num) (by norm_num) le_rfl, b1, b2, b3, b4⟩) (by
      intro i j ti tj ci cj Xi ai Xj aj hij hi hj hti htj hci hcj hri hrj
      rw [hu] at hi hj
      have hi' : i = 0 := by simp only [Finset.mem_insert, Finset.mem_singleton] at hi hj; omega
      have hj' : j = 1 := by simp only [Finset.mem_insert, Finset.mem_singleton] at hi hj; omega
      subst hi' hj'
      simp only [List.getElem?_cons_succ, List.getElem?_cons_zero, Option.some.injEq] at hti htj hci hcj
      subst hti htj hci hcj
      exact mildCam_cross (by norm_num) le_rfl a1 b1 d1 d2 hri hrj)
    (by rw [hu]; rfl)
  exact ⟨D, M, h, hM⟩

end Verif.Geo
