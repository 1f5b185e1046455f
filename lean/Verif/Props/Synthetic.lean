/-
C148: synthetic images of whole arrays of positions, and the way back.
-/
import Verif.Model.Synthetic
import Verif.Props.WeakLensRig

namespace Verif.Geo
open V3 Spec
open Verif.Track (orRaise)

/-- The rows of an array of positions. -/
def rowsOf (ps : List V3) : List (List ℝ) := ps.map fun p => [p.x, p.y, p.z]

/-- C148: `image_coordinates` of an array of positions returns exactly if the image of every position can be computed, and then row `i`
is the `img_coord` of position `i`. -/
theorem C148_rows (cal : Cam) (lut : LUT) (mm : MM) (ps : List V3) (out : List (ℝ × ℝ)) :
    imageCoordinates cal lut mm (rowsOf ps) = .ok out ↔
      out.length = ps.length ∧ ∀ (i : ℕ) (p : V3), ps[i]? = some p → ∃ q, out[i]? = some q ∧ imgCoord p cal lut mm = some q := by
  induction ps generalizing out with
  | nil =>
    simp only [rowsOf, List.map_nil, imageCoordinates, List.length_nil, List.length_eq_zero_iff, Except.ok.injEq, List.getElem?_nil]
    constructor
    · rintro rfl; simp
    · exact fun h => h.1.symm
  | cons p ps ih =>
    have e : imageCoordinates cal lut mm (rowsOf (p :: ps)) = (do
        let q ← orRaise (imgCoord p cal lut mm)
        let rest ← imageCoordinates cal lut mm (rowsOf ps)
        .ok (q :: rest)) := rfl
    rw [e]
    constructor
    · intro h
      cases hq : imgCoord p cal lut mm with
      | none => rw [hq] at h; cases h
      | some q =>
        rw [hq] at h
        cases hr : imageCoordinates cal lut mm (rowsOf ps) with
        | error x => rw [hr] at h; cases h
        | ok rest =>
          rw [hr] at h
          have h : Except.ok (q :: rest) = (Except.ok out : Py _) := h
          cases h
          obtain ⟨h1, h2⟩ := (ih rest).1 hr
          refine ⟨by simp [h1], ?_⟩
          intro i p' hp
          match i with
          | 0 =>
            simp only [List.getElem?_cons_zero, Option.some.injEq] at hp
            subst hp
            exact ⟨q, rfl, hq⟩
          | i + 1 =>
            simp only [List.getElem?_cons_succ] at hp ⊢
            exact h2 i p' hp
    · rintro ⟨h1, h2⟩
      match out, h1 with
      | q :: rest, h1 =>
        obtain ⟨q', e1, e2⟩ := h2 0 p rfl
        simp only [List.getElem?_cons_zero, Option.some.injEq] at e1
        subst e1
        have hr : imageCoordinates cal lut mm (rowsOf ps) = .ok rest := (ih rest).2 ⟨by simpa using h1, fun i p' hp => h2 (i + 1) p' hp⟩
        rw [e2, hr]
        rfl

/-- C148, `flat_image_coordinates`: the same with `flat_image_coord`. -/
theorem C148_flat_rows (cal : Cam) (lut : LUT) (mm : MM) (ps : List V3) (out : List (ℝ × ℝ)) :
    flatImageCoordinates cal lut mm (rowsOf ps) = .ok out ↔
      out.length = ps.length ∧ ∀ (i : ℕ) (p : V3), ps[i]? = some p → ∃ q, out[i]? = some q ∧ flatImageCoord p cal lut mm = some q := by
  induction ps generalizing out with
  | nil =>
    simp only [rowsOf, List.map_nil, flatImageCoordinates, List.length_nil, List.length_eq_zero_iff, Except.ok.injEq, List.getElem?_nil]
    constructor
    · rintro rfl; simp
    · exact fun h => h.1.symm
  | cons p ps ih =>
    have e : flatImageCoordinates cal lut mm (rowsOf (p :: ps)) = (do
        let q ← orRaise (flatImageCoord p cal lut mm)
        let rest ← flatImageCoordinates cal lut mm (rowsOf ps)
        .ok (q :: rest)) := rfl
    rw [e]
    constructor
    · intro h
      cases hq : flatImageCoord p cal lut mm with
      | none => rw [hq] at h; cases h
      | some q =>
        rw [hq] at h
        cases hr : flatImageCoordinates cal lut mm (rowsOf ps) with
        | error x => rw [hr] at h; cases h
        | ok rest =>
          rw [hr] at h
          have h : Except.ok (q :: rest) = (Except.ok out : Py _) := h
          cases h
          obtain ⟨h1, h2⟩ := (ih rest).1 hr
          refine ⟨by simp [h1], ?_⟩
          intro i p' hp
          match i with
          | 0 =>
            simp only [List.getElem?_cons_zero, Option.some.injEq] at hp
            subst hp
            exact ⟨q, rfl, hq⟩
          | i + 1 =>
            simp only [List.getElem?_cons_succ] at hp ⊢
            exact h2 i p' hp
    · rintro ⟨h1, h2⟩
      match out, h1 with
      | q :: rest, h1 =>
        obtain ⟨q', e1, e2⟩ := h2 0 p rfl
        simp only [List.getElem?_cons_zero, Option.some.injEq] at e1
        subst e1
        have hr : flatImageCoordinates cal lut mm (rowsOf ps) = .ok rest := (ih rest).2 ⟨by simpa using h1, fun i p' hp => h2 (i + 1) p' hp⟩
        rw [e2, hr]
        rfl

/-- C148, wrong shape: an array with another number of columns than three raises ValueError, if it has a row at all. -/
theorem C148_shape (cal : Cam) (lut : LUT) (mm : MM) (rows : List (List ℝ)) (n : ℕ) (hn : n ≠ 3) (h : ∀ r ∈ rows, r.length = n) :
    imageCoordinates cal lut mm rows = (if rows = [] then .ok [] else .error .valueError) ∧
    flatImageCoordinates cal lut mm rows = (if rows = [] then .ok [] else .error .valueError) := by
  cases rows with
  | nil => simp [imageCoordinates, flatImageCoordinates]
  | cons r rows =>
    have hr : asVector r = .error .valueError := by
      have hl := h r (by simp)
      match r, hl with
      | [], _ => rfl
      | [_], _ => rfl
      | [_, _], _ => rfl
      | [_, _, _], hl => simp at hl; omega
      | _ :: _ :: _ :: _ :: _, _ => rfl
    constructor <;> simp only [imageCoordinates, flatImageCoordinates, hr, reduceCtorEq, if_false] <;> rfl

/-- C148, the way back: positions behind the windows of cameras with weak lenses are projected into each camera with
`image_coordinates`, converted to pixels with `arr_metric_to_pixel` and back with `pixel_to_metric`, corrected with `dist_to_flat` and triangulated with
`point_position`, with any positive pixel size. Every position is recovered within `δ (1 + 2/σ)`. -/
theorem C148_recovered (ps : List V3) (cals : List Cam) (ip : ImgPar) (mm : MM) (tol d n2 R κ ε δ σ : ℝ)
    (hmm : OnePlate mm d n2) (hσ : 0 < σ) (htol : 0 ≤ tol) (hpix : 0 < ip.pixX ∧ 0 < ip.pixY) (hcams : 2 ≤ cals.length)
    (hcal : ∀ c ∈ cals, WeakLens c.ap R κ ∧ lensRest c.ap R κ tol ≤ ε)
    (hsee : ∀ c ∈ cals, ∀ P ∈ ps, SeesWithin c d P ε δ ∧ ∀ f, flatImageCoord P c emptyLUT mm = some f →
      Real.sqrt ((f.1 + c.xh) ^ 2 + (f.2 + c.yh) ^ 2) ≤ R ∧
      Real.sqrt ((flatToDist f.1 f.2 c.xh c.yh c.ap).1 ^ 2 + (flatToDist f.1 f.2 c.xh c.yh c.ap).2 ^ 2) ≤ 0.9 * R ∧
      ∀ t, imageDist f t ≤ ε → t.1 ≠ coordUnused)
    (hcross : cals.Pairwise fun c c' => ∀ P ∈ ps, ∀ f f' t t' Y a Y' a', flatImageCoord P c emptyLUT mm = some f →
      flatImageCoord P c' emptyLUT mm = some f' → imageDist f t ≤ ε → imageDist f' t' ≤ ε →
      rayTracing t.1 t.2 c mm = some (Y, a) → rayTracing t'.1 t'.2 c' mm = some (Y', a') → Crossing a a' σ) :
    ∃ pics : List (List (ℝ × ℝ)), pics.length = cals.length ∧
      (∀ (cam : ℕ) (c : Cam), cals[cam]? = some c → ∃ pic, pics[cam]? = some pic ∧ imageCoordinates c emptyLUT mm (rowsOf ps) = .ok pic) ∧
      ∀ (i : ℕ) (P : V3), ps[i]? = some P → ∀ targets : List (ℝ × ℝ), targets.length = cals.length →
        (∀ (cam : ℕ) (c : Cam) (pic : List (ℝ × ℝ)), cals[cam]? = some c → pics[cam]? = some pic →
          ∃ q, (arrMetricToPixel pic ip)[i]? = some q ∧ targets[cam]? =
            some (distToFlat (pixelToMetric q.1 q.2 ip).1 (pixelToMetric q.1 q.2 ip).2 c.xh c.yh c.ap tol)) →
        ∃ D M, pointPosition targets cals.length mm cals = .ok (some (D, M)) ∧ 0 ≤ D ∧ D ≤ 2 * δ ∧ (M - P).norm ≤ δ * (1 + 2 / σ) := by
  classical
  have himg : ∀ c ∈ cals, ∃ pic, imageCoordinates c emptyLUT mm (rowsOf ps) = .ok pic := by
    intro c hc
    have one : ∀ P ∈ ps, ∃ q, imgCoord P c emptyLUT mm = some q := by
      intro P hP
      obtain ⟨t, X, out, h1, -⟩ := sight_core c mm d n2 P hmm (hsee c hc P hP).1.through
      exact ⟨flatToDist t.1 t.2 c.xh c.yh c.ap, by simp only [imgCoord, h1, Option.bind_eq_bind, Option.bind_some]⟩
    choose! g hg using one
    refine ⟨ps.map g, (C148_rows c emptyLUT mm ps _).2 ⟨by simp, ?_⟩⟩
    intro i p hp
    exact ⟨g p, by simp [hp], hg p (List.mem_of_getElem? hp)⟩
  choose! pic hpic using himg
  refine ⟨cals.map pic, by simp, ?_, ?_⟩
  · intro cam c hc
    exact ⟨pic c, by simp [hc], hpic c (List.mem_of_getElem? hc)⟩
  · intro i P hP targets htl htar
    have hPm := List.mem_of_getElem? hP
    -- what a camera shows of the point
    have hcam : ∀ (cam : ℕ) (c : Cam), cals[cam]? = some c → ∃ f, flatImageCoord P c emptyLUT mm = some f ∧
        targets[cam]? = some (distToFlat (flatToDist f.1 f.2 c.xh c.yh c.ap).1 (flatToDist f.1 f.2 c.xh c.yh c.ap).2 c.xh c.yh c.ap tol) := by
      intro cam c hc
      have hcm := List.mem_of_getElem? hc
      obtain ⟨m, h1, h2⟩ := htar cam c (pic c) hc (by simp [hc])
      obtain ⟨-, hrows⟩ := (C148_rows c emptyLUT mm ps _).1 (hpic c hcm)
      obtain ⟨q, e1, e2⟩ := hrows i P hP
      have e3 := (C23_array_pixels ip (pic c)).2 i q e1
      rw [e3] at h1
      cases h1
      rw [(C23_inverse ip hpix.1.ne' hpix.2.ne' q.1 q.2).2] at h2
      cases hf : flatImageCoord P c emptyLUT mm with
      | none => simp [imgCoord, hf] at e2
      | some f =>
        simp only [imgCoord, hf, Option.bind_eq_bind, Option.bind_some, Option.some.injEq] at e2
        refine ⟨f, rfl, ?_⟩
        rw [h2, ← e2]
    have hflat : ∀ c ∈ cals, ∀ f, flatImageCoord P c emptyLUT mm = some f →
        imageDist f (distToFlat (flatToDist f.1 f.2 c.xh c.yh c.ap).1 (flatToDist f.1 f.2 c.xh c.yh c.ap).2 c.xh c.yh c.ap tol) ≤ ε := by
      intro c hc f hf
      obtain ⟨hl, hr⟩ := hcal c hc
      obtain ⟨k1, k2, -⟩ := (hsee c hc P hPm).2 f hf
      have := C147_flat c.ap c.xh c.yh R κ tol f (flatToDist f.1 f.2 c.xh c.yh c.ap) hl htol k1 k2
      have e : imageDist (flatToDist f.1 f.2 c.xh c.yh c.ap) (flatToDist f.1 f.2 c.xh c.yh c.ap) = 0 := by simp [imageDist]
      rw [e] at this
      linarith
    have hget : ∀ cam, cam < cals.length → ∃ c, cals[cam]? = some c := fun cam h => ⟨_, List.getElem?_eq_getElem h⟩
    have hused : ∀ cam, cam < cals.length → cam ∈ usedCams targets cals.length := by
      intro cam h
      obtain ⟨c, hc⟩ := hget cam h
      obtain ⟨f, hf, ht⟩ := hcam cam c hc
      simp only [usedCams, Finset.mem_filter, Finset.mem_range]
      exact ⟨h, _, ht, ((hsee c (List.mem_of_getElem? hc) P hPm).2 f hf).2.2 _ (hflat c (List.mem_of_getElem? hc) f hf)⟩
    refine C136_position P targets cals.length mm cals d n2 ε δ σ htl.ge hmm hσ ?_ ?_
      (Finset.one_lt_card.2 ⟨0, hused 0 (by omega), 1, hused 1 (by omega), by omega⟩)
    · intro cam h t ht hne
      obtain ⟨c, hc⟩ := hget cam h
      obtain ⟨f, hf, ht'⟩ := hcam cam c hc
      rw [ht'] at ht
      cases ht
      exact ⟨c, f, hc, (hsee c (List.mem_of_getElem? hc) P hPm).1, hf, hflat c (List.mem_of_getElem? hc) f hf⟩
    · intro k j tk tj ck cj Xk ak Xj aj hkj hk hj htk htj hck hcj hrk hrj
      obtain ⟨fk, hfk, hk'⟩ := hcam k ck hck
      obtain ⟨fj, hfj, hj'⟩ := hcam j cj hcj
      rw [hk'] at htk
      rw [hj'] at htj
      cases htk
      cases htj
      exact Verif.Track.getElem?_pairwise hcross hkj hck hcj P hPm fk fj _ _ Xk ak Xj aj hfk hfj (hflat ck (List.mem_of_getElem? hck) fk hfk)
        (hflat cj (List.mem_of_getElem? hcj) fj hfj) hrk hrj

/-- The hypotheses of `C148_recovered` are met: the two cameras of C147 with lenses of every kind of distortion, and the origin. -/
example : ∃ pics : List (List (ℝ × ℝ)), pics.length = 2 ∧ ∀ targets : List (ℝ × ℝ), targets.length = 2 →
    (∀ (cam : ℕ) (c : Cam) (pic : List (ℝ × ℝ)), [everyCam 30, everyCam (-30)][cam]? = some c → pics[cam]? = some pic →
      imageCoordinates c emptyLUT waterMM [[0, 0, 0]] = .ok pic ∧
      ∃ q, (arrMetricToPixel pic ⟨1280, 1024, 0.01, 0.01⟩)[0]? = some q ∧ targets[cam]? =
        some (distToFlat (pixelToMetric q.1 q.2 ⟨1280, 1024, 0.01, 0.01⟩).1 (pixelToMetric q.1 q.2 ⟨1280, 1024, 0.01, 0.01⟩).2 0 0
          everyLens 0.00001)) →
    ∃ D M, pointPosition targets 2 waterMM [everyCam 30, everyCam (-30)] = .ok (some (D, M)) ∧
      (M - ⟨0, 0, 0⟩).norm ≤ 0.75 * (1 + 2 / 0.36) := by
  have key : ∀ c ∈ [everyCam 30, everyCam (-30)], ∃ a : ℝ, |a| = 30 ∧ c = everyCam a := by
    intro c hc
    simp only [List.mem_cons, List.not_mem_nil, or_false] at hc
    rcases hc with rfl | rfl
    · exact ⟨30, by norm_num, rfl⟩
    · exact ⟨-30, by norm_num, rfl⟩
  obtain ⟨pics, h1, h2, h3⟩ := C148_recovered [⟨0, 0, 0⟩] [everyCam 30, everyCam (-30)] ⟨1280, 1024, 0.01, 0.01⟩ waterMM 0.00001 6 (3 / 2)
    (10 / 3) (4 / 10 ^ 3) 0.01006 0.75 0.36 glassCam_plate (by norm_num) (by norm_num) (by norm_num) (by simp) (by
      intro c hc
      obtain ⟨a, -, rfl⟩ := key c hc
      exact ⟨everyLens_inner, by have := everyLens_rest; simp only [everyCam]; linarith⟩) (by
      intro c hc P hP
      obtain ⟨a, ha, rfl⟩ := key c hc
      rw [List.mem_singleton] at hP
      subst hP
      refine ⟨everyCam_within ha (by norm_num) le_rfl, ?_⟩
      intro f hf
      obtain ⟨u, g1, g2, g3⟩ := mildCam_image a
      have hf' : flatImageCoord ⟨0, 0, 0⟩ (mildCam a) emptyLUT waterMM = some f := hf
      rw [g1] at hf'
      cases hf'
      have ha2 : a ^ 2 = 900 := by rw [← sq_abs, ha]; norm_num
      have hr : Real.sqrt ((-a / 30 * u + 0) ^ 2 + (0 + 0) ^ 2) ≤ 2.73 := by
        apply Real.sqrt_le_iff.2
        refine ⟨by norm_num, ?_⟩
        rw [show (-a / 30 * u + 0) ^ 2 + (0 + 0) ^ 2 = a ^ 2 / 900 * u ^ 2 by ring, ha2]
        nlinarith
      refine ⟨by simp only [everyCam]; linarith, ?_, fun t ht => mildCam_mark ha le_rfl g1 ht⟩
      have hmv := (weakLens_numbers everyLens_inner).moved (X := -a / 30 * u + 0) (Y := 0 + 0) (by linarith)
      have hd := (abs_le.1 (radius_diff (flatToDist (-a / 30 * u) 0 0 0 everyLens).1 (flatToDist (-a / 30 * u) 0 0 0 everyLens).2
        (-a / 30 * u + 0) (0 + 0))).2
      rw [flatToDist] at hd
      simp only [everyCam, flatToDist]
      linarith) (by
      simp only [List.pairwise_cons, List.mem_cons, List.not_mem_nil, or_false, forall_eq, false_imp_iff, implies_true,
        List.Pairwise.nil, and_true]
      intro f f' t t' Y a Y' a' hf hf' ht ht' hr hr'
      exact mildCam_cross (by norm_num) le_rfl hf hf' ht ht' hr hr')
  refine ⟨pics, h1, ?_⟩
  intro targets ht htar
  obtain ⟨D, M, e1, -, -, e2⟩ := h3 0 ⟨0, 0, 0⟩ rfl targets ht (by
    intro cam c pic hc hp
    obtain ⟨-, m, k1, k2⟩ := htar cam c pic hc hp
    obtain ⟨a, -, rfl⟩ := key c (List.mem_of_getElem? hc)
    exact ⟨m, k1, k2⟩)
  exact ⟨D, M, e1, e2⟩

/-- `C148_shape` and `C148_rows`: two columns; no position at all; two positions in air. -/
example (cal : Cam) (lut : LUT) (mm : MM) : imageCoordinates cal lut mm [[1, 2], [3, 4]] = .error .valueError ∧
    imageCoordinates cal lut mm [] = .ok [] :=
  ⟨(C148_shape cal lut mm [[1, 2], [3, 4]] 2 (by norm_num) (by simp)).1, rfl⟩

end Verif.Geo
