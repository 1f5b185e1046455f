/-
C121, C122: the calibration procedure as a whole: the dots of the block are identified (`match_detection_to_ref`), and the
parameters are adjusted to them (`full_calibration`).
-/
import Verif.Props.SortGrid
import Verif.Props.Calibrate
import Verif.Props.Trafo
import Mathlib.Analysis.Complex.Norm
import Mathlib.Tactic.IntervalCases

namespace Verif.Geo
open V3 Verif.Geo.Spec _root_.Verif.Spec

/-! ### Specification -/

/-- `dot i` is the place of the detection that shows reference point `i`, `none` if the point is not seen. `imgs` are the places
where the points are expected. Every seen point has its dot in the picture, at most `d` from the expected place; different points
have different dots; every other detection (dots of other points, dirt) is more than `2 d` from the dot of a point; nothing was
detected in the search window of a point that is not seen. -/
structure _root_.Verif.Spec.DotsOf (imx imy : ℕ) (d eps : ℝ) (imgs dots : List (ℝ × ℝ)) (dot : ℕ → Option ℕ) : Prop where
  near : ∀ (i j : ℕ) (c : ℝ × ℝ), imgs[i]? = some c → dot i = some j → ∃ p, dots[j]? = some p ∧ planeDist c p ≤ d ∧
    (0 ≤ p.1 ∧ p.1 ≤ imx) ∧ (0 ≤ p.2 ∧ p.2 ≤ imy)
  apart : ∀ (i j j' : ℕ) (p p' : ℝ × ℝ), i < imgs.length → dot i = some j → dots[j]? = some p → dots[j']? = some p' → j ≠ j' →
    2 * d < planeDist p p'
  own : ∀ (i i' j : ℕ), i < imgs.length → i' < imgs.length → dot i = some j → dot i' = some j → i = i'
  missing : ∀ (i : ℕ) (c p : ℝ × ℝ), imgs[i]? = some c → dot i = none → p ∈ dots → ¬ InWindow eps c p

/-! ### Distances in the plane -/

theorem planeDist_norm (a b : ℝ × ℝ) : planeDist a b = ‖(⟨a.1, a.2⟩ : ℂ) - ⟨b.1, b.2⟩‖ := by
  rw [Complex.norm_def, Complex.normSq_apply, planeDist]
  congr 1
  simp
  ring

theorem planeDist_triangle (a b c : ℝ × ℝ) : planeDist a c ≤ planeDist a b + planeDist b c := by
  simp only [planeDist_norm]
  exact norm_sub_le_norm_sub_add_norm_sub _ _ _

theorem planeDist_comm (a b : ℝ × ℝ) : planeDist a b = planeDist b a := by
  simp only [planeDist_norm]
  exact norm_sub_rev _ _

theorem abs_le_planeDist (a b : ℝ × ℝ) : |b.1 - a.1| ≤ planeDist a b ∧ |b.2 - a.2| ≤ planeDist a b := by
  constructor
  · apply Real.abs_le_sqrt
    nlinarith [sq_nonneg (a.2 - b.2)]
  · apply Real.abs_le_sqrt
    nlinarith [sq_nonneg (a.1 - b.1)]

/-- The dot of a point is the nearest detection. -/
theorem dots_nearest {imx imy : ℕ} {d eps : ℝ} {imgs dots : List (ℝ × ℝ)} {dot : ℕ → Option ℕ} (hd : d < eps)
    (h : DotsOf imx imy d eps imgs dots dot) {i j : ℕ} {c : ℝ × ℝ} (hc : imgs[i]? = some c) (hj : dot i = some j) :
    NearImage imx imy eps c ∧ IsNearest eps c dots j := by
  obtain ⟨p, hp, hdist, h1, h2⟩ := h.near i j c hc hj
  obtain ⟨a1, a2⟩ := abs_le_planeDist c p
  have b1 := abs_le.1 (a1.trans hdist)
  have b2 := abs_le.1 (a2.trans hdist)
  refine ⟨⟨⟨by linarith, by linarith⟩, ⟨by linarith, by linarith⟩⟩, p, hp, ⟨by linarith, by linarith⟩, ?_⟩
  intro k' p' hk' _
  by_cases hjk : j = k'
  · subst hjk
    rw [hp] at hk'
    obtain rfl := Option.some.inj hk'
    exact ⟨le_refl _, fun hlt => absurd hlt (lt_irrefl _)⟩
  · have hap := h.apart i j k' p p' (List.getElem?_eq_some_iff.1 hc).1 hj hp hk' hjk
    have htri := planeDist_triangle p c p'
    rw [planeDist_comm p c] at htri
    have : planeDist c p < planeDist c p' := by linarith
    exact ⟨this.le, fun _ => this⟩

/-- C121: a calibration block is identified. Let the points be projected to `imgs` by the present guess of the camera, and let
`dot` say which detection shows which point. If the guess is good to `d` pixels, `d` less than the search window, and the dots
are more than `2 d` apart, then `match_detection_to_ref` returns for every point its own dot, numbered with the index of the
point and otherwise as detected, and an unused target for a point that is not seen. All other detections are left as they were. -/
theorem C121_identified (cal : Cam) (lut : LUT) (mm : MM) (ip : ImgPar) (imx imy : ℕ) (refs : List V3) (pix : List Det)
    (d eps : ℝ) (hd : d < eps) (heps : eps ≤ 10 ^ 19) (imgs : List (ℝ × ℝ)) (hl : imgs.length = refs.length)
    (himg : ∀ (i : ℕ) (P : V3) (c : ℝ × ℝ), refs[i]? = some P → imgs[i]? = some c →
      ∃ m, imgCoord P cal lut mm = some m ∧ metricToPixel m.1 m.2 ip = c)
    (dot : ℕ → Option ℕ) (hdots : DotsOf imx imy d eps imgs (pix.map fun t => (t.x, t.y)) dot) :
    ∃ s, matchDetectionToRef cal lut mm ip imx imy refs pix eps = some s ∧ s.out.length = refs.length ∧
      s.pix.length = pix.length ∧
      (∀ i < refs.length, s.out[i]? = some (dot i)) ∧
      (∀ (i j : ℕ) (t : Det), i < refs.length → dot i = some j → pix[j]? = some t → s.pix[j]? = some ⟨(i : ℤ), t.x, t.y⟩) ∧
      (∀ j : ℕ, (∀ i < refs.length, dot i ≠ some j) → s.pix[j]? = pix[j]?) := by
  have hproj : ∀ P ∈ refs, ∃ c, pointToPixel P cal lut mm ip = some c := by
    intro P hP
    obtain ⟨i, hi⟩ := List.getElem?_of_mem hP
    have hlt : i < imgs.length := by rw [hl]; exact (List.getElem?_eq_some_iff.1 hi).1
    obtain ⟨m, hm, -⟩ := himg i P imgs[i] hi (List.getElem?_eq_getElem hlt)
    exact ⟨metricToPixel m.1 m.2 ip, by simp [pointToPixel, hm]⟩
  obtain ⟨s, hs⟩ := (C38_total (fun P => pointToPixel P cal lut mm ip) imx imy refs.length refs eps pix).2
    ⟨le_refl _, fun f hf => hproj f (List.mem_of_mem_take hf)⟩
  obtain ⟨h1, h2, h3⟩ := C38_entries _ imx imy refs.length refs eps pix heps s hs
  obtain ⟨-, h5, -, h6⟩ := C38_claims _ imx imy refs.length refs eps pix heps s hs
  have hplen : s.pix.length = pix.length := by
    have := congrArg List.length h2
    simpa using this
  have hout : ∀ i < refs.length, s.out[i]? = some (dot i) := by
    intro i hi
    obtain ⟨e, P, c, e1, e2, e3, e4, e5⟩ := h3 i hi
    have hci : imgs[i]? = some c := by
      rw [List.getElem?_eq_getElem (by omega)]
      obtain ⟨m, hm, hmc⟩ := himg i P imgs[i] e2 (List.getElem?_eq_getElem (by omega))
      simp only [pointToPixel, hm, Option.map_some, Option.some.injEq] at e3
      rw [← hmc, e3]
    rw [e1, Option.some.injEq]
    cases hdi : dot i with
    | none =>
      refine e4.2 (Or.inr ?_)
      intro t ht
      exact hdots.missing i c (t.x, t.y) hci hdi (List.mem_map_of_mem (f := fun t : Det => (t.x, t.y)) ht)
    | some j => exact (e5 j).2 (dots_nearest hd hdots hci hdi)
  refine ⟨s, hs, h1, hplen, hout, ?_, ?_⟩
  · intro i j t hi hj ht
    have hjl : j < s.pix.length := by rw [hplen]; exact (List.getElem?_eq_some_iff.1 ht).1
    have hpos : (s.pix[j].x, s.pix[j].y) = (t.x, t.y) := by
      have := congrArg (fun l : List (ℝ × ℝ) => l[j]?) h2
      simpa [List.getElem?_map, ht, List.getElem?_eq_getElem hjl] using this
    have hpn : s.pix[j].pnr = i := by
      refine (h5 i j s.pix[j] (by rw [hout i hi, hj]) (List.getElem?_eq_getElem hjl)).2 ?_
      intro i' hi'
      have hlt : i' < refs.length := by rw [← h1]; exact (List.getElem?_eq_some_iff.1 hi').1
      rw [hout i' hlt, Option.some.injEq] at hi'
      exact le_of_eq (hdots.own i' i j (by omega) (by omega) hi' hj)
    rw [List.getElem?_eq_getElem hjl, Option.some.injEq]
    simp only [Prod.mk.injEq] at hpos
    calc s.pix[j] = ⟨s.pix[j].pnr, s.pix[j].x, s.pix[j].y⟩ := rfl
      _ = _ := by rw [hpn, hpos.1, hpos.2]
  · intro j hno
    refine h6 j ?_
    intro i hi
    have hlt : i < refs.length := by rw [← h1]; exact (List.getElem?_eq_some_iff.1 hi).1
    rw [hout i hlt, Option.some.injEq] at hi
    exact hno i hlt hi

/-! ### C122 -/

theorem pointsLoop_perfect_used {ip : ImgPar} {tol dm drad : ℝ} {fl : OFlags} {env : OEnv} :
    ∀ (fs : List (Cam → Option (ℝ × ℝ))) (os : List Obs) (i : ℕ) (c c0 c' : Calib) (rs : List Rows),
    c.upd = c0.upd → env.safety = c0.cam.glass → c0.cam.ap = defaultAddPar →
    (∀ (k : ℕ) f o, fs[k]? = some f → os[k]? = some o → usePoint fl (i + k) o = true →
      f c0.upd.cam = some (pixelToMetric o.x o.y ip)) →
    pointsLoop ip tol dm drad fl env fs os i c = some (c', rs) → ∀ r ∈ rs, r.yx = 0 ∧ r.yy = 0
  | [], os, i, c, c0, c', rs, hc, hg, ha, hp, h => by
    simp only [pointsLoop, Option.some.injEq, Prod.mk.injEq] at h
    simp [← h.2]
  | _ :: _, [], i, c, c0, c', rs, hc, hg, ha, hp, h => by simp [pointsLoop] at h
  | f :: fs, o :: os, i, c, c0, c', rs, hc, hg, ha, hp, h => by
    have hp' : ∀ (k : ℕ) g q, fs[k]? = some g → os[k]? = some q → usePoint fl (i + 1 + k) q = true →
        g c0.upd.cam = some (pixelToMetric q.x q.y ip) := by
      intro k g q h1 h2 h3
      exact hp (k + 1) g q (by simpa using h1) (by simpa using h2) (by convert h3 using 2; omega)
    simp only [pointsLoop] at h
    split_ifs at h with hu
    · have h0 := hp 0 f o rfl rfl (by simpa using hu)
      simp only [Option.bind_eq_bind, Option.bind_eq_some_iff] at h
      obtain ⟨r, hr, s, hs, h⟩ := h
      rw [Option.some.injEq, Prod.mk.injEq] at h
      have h1 := pointRows_cal hr
      have hca : c.cam.ap = defaultAddPar := by
        have : c.upd.cam.ap = c0.upd.cam.ap := by rw [hc]
        exact this.trans ha
      have hyz : r.2.yx = 0 ∧ r.2.yy = 0 := by
        have := pointsLoop_perfect (ip := ip) (tol := tol) (dm := dm) (drad := drad) (fl := fl) (env := env) [f] [o] i c c0
          r.1 [r.2] hc hg ha (by
            intro fo hfo
            simp only [List.zip_cons_cons, List.zip_nil_left, List.mem_singleton] at hfo
            subst hfo
            exact h0) (by
            simp only [pointsLoop, hu, if_true, hr, Option.bind_eq_bind, Option.bind_some])
        exact this r.2 (by simp)
      rw [← h.2]
      intro q hq
      rcases List.mem_cons.1 hq with rfl | hq
      · exact hyz
      · refine pointsLoop_perfect_used fs os (i + 1) r.1 c0 s.1 s.2 ?_ hg ha hp' hs q hq
        rw [h1, hc, hg]
        rfl
    · exact pointsLoop_perfect_used fs os (i + 1) c c0 c' rs hc hg ha hp' h

theorem resiRows_exists (resi : List ℝ) : ∀ (os : List Obs) (ix : ℕ), 2 * (ix + os.length) ≤ resi.length →
    ∃ ret, resiRows resi os ix = some ret
  | [], _, _ => ⟨[], rfl⟩
  | o :: os, ix, hle => by
    simp only [List.length_cons] at hle
    obtain ⟨rs, hrs⟩ := resiRows_exists resi os (ix + 1) (by omega)
    refine ⟨(resi[2 * ix], resi[2 * ix + 1]) :: rs, ?_⟩
    simp only [resiRows, resiAt, List.getElem?_eq_getElem (show 2 * ix < resi.length by omega),
      List.getElem?_eq_getElem (show 2 * ix + 1 < resi.length by omega), hrs, Option.bind_eq_bind, Option.bind_some]

/-- If the points that take part are where they are expected, one pass is enough and nothing changes. -/
theorem full_perfect (I : OInput) (hs : Homogeneous I.solve) (c : Calib) (hap : c.cam.ap = defaultAddPar) (hupd : c.upd = c)
    (hp : ∀ (k : ℕ) f o, I.projs[k]? = some f → I.pix[k]? = some o → usePoint I.fl k o = true →
      f c.cam = some (pixelToMetric o.x o.y I.ip))
    (hl : I.pix.length ≤ I.projs.length) {d1 : Calib} {rows : List Rows}
    (hpl : pointsLoop I.ip I.tol I.dm I.drad I.fl (mkEnv I.fl c) I.projs I.pix 0 c = some (d1, rows)) :
    ∃ ret, fullCalibration I c = some (c, some (ret, I.pix.map Obs.pnr)) ∧ ret.length = I.pix.length ∧
      ∀ r ∈ ret, r = ((0 : ℝ), (0 : ℝ)) := by
  have hz := pointsLoop_perfect_used _ _ _ c c _ _ rfl rfl hap (by
    intro k f o h1 h2 h3
    rw [hupd]
    exact hp k f o h1 h2 (by simpa using h3)) hpl
  have hd : d1 = c := by
    rcases pointsLoop_cal _ _ _ _ _ _ hpl with ⟨-, e⟩ | ⟨-, e⟩
    · exact e
    · rw [e, hupd]; rfl
  have hlen := pointsLoop_rows _ _ _ _ _ _ hpl
  subst hd
  have hid : ∀ z ∈ identObs (mkEnv I.fl d1) d1, z = 0 := by
    intro z hz
    have : identObs (mkEnv I.fl d1) d1 = [0, 0, 0, 0, 0, 0, 0, 0, 0, 0] := by simp [identObs, mkEnv]
    rw [this] at hz
    simpa using hz
  have hb := hs (system I.fl (mkEnv I.fl d1) d1 rows) (by
    intro e he
    simp only [system, List.mem_append] at he
    rcases he with he | he
    · obtain ⟨r, hr1, hr2⟩ := List.mem_flatMap.1 he
      simp only [List.mem_cons, List.not_mem_nil, or_false] at hr2
      rcases hr2 with rfl | rfl
      · exact (hz r hr1).1
      · exact (hz r hr1).2
    · obtain ⟨t, ht, rfl⟩ := List.mem_map.1 he
      have hm := List.fst_mem_of_mem_zipIdx ht
      have := hid _ (List.of_mem_zip hm).1
      simp [this])
  have hm : ∀ i, maskBeta I.fl (I.solve (system I.fl (mkEnv I.fl d1) d1 rows)) i = 0 := by
    intro i
    unfold maskBeta
    split <;> simp [hb]
  have happ : applyBeta I.fl (mkEnv I.fl d1) (maskBeta I.fl (I.solve (system I.fl (mkEnv I.fl d1) d1 rows))) d1 = d1 := by
    apply calib_eq
    · simp only [applyBeta, hm, add_zero, mul_zero]
      split_ifs
      · congr 1
        ext <;> simp [smul]
      · rfl
    · simp [applyBeta, hm]
    · simp [applyBeta, hm]
    · simp [applyBeta, hm]
  set b := I.solve (system I.fl (mkEnv I.fl d1) d1 rows) with hbd
  have hi : orientIterR I (mkEnv I.fl d1) d1 = some (d1, b, ⟨rows, d1, maskBeta I.fl b⟩) := by
    simp only [orientIterR, hpl, Option.bind_eq_bind, Option.bind_some]
    rw [happ]
  have hloop : orientLoopR I (mkEnv I.fl d1) numIter d1 = some (d1, some ⟨rows, d1, maskBeta I.fl b⟩) := by
    rw [show numIter = 79 + 1 from rfl, orientLoopR, hi, Option.bind_eq_bind, Option.bind_some,
      if_pos (by intro i _; show |b i| ≤ convergence; rw [hb]; norm_num [convergence])]
  have hnum : 16 ≤ (mkEnv I.fl d1).numbers := by simp only [mkEnv]; split <;> norm_num
  have hdot : ∀ row : List ℝ, rowDot (mkEnv I.fl d1).numbers row (maskBeta I.fl b) = 0 := by
    intro row
    simp [rowDot, hm]
  have hres0 : ∀ x ∈ residuals (mkEnv I.fl d1) I.projs.length ⟨rows, d1, maskBeta I.fl b⟩, x = 0 := by
    intro x hx
    unfold residuals at hx
    rw [ident_residuals I.fl (mkEnv I.fl d1) d1 d1 _ hnum rfl, happ] at hx
    simp only [List.mem_append, List.mem_flatMap, hdot, List.mem_cons, List.not_mem_nil, or_false, List.mem_replicate] at hx
    rcases hx with (⟨r, hr, rfl | rfl⟩ | hx) | hx
    · rw [(hz r hr).1]; ring
    · rw [(hz r hr).2]; ring
    · simpa [changes] using hx
    · exact hx.2
  have hlenr : (residuals (mkEnv I.fl d1) I.projs.length ⟨rows, d1, maskBeta I.fl b⟩).length
      = 2 * rows.length + 10 + (2 * I.projs.length - 2 * rows.length) := by
    unfold residuals
    simp only [List.length_append, List.length_replicate, List.length_map, List.length_zipIdx]
    rw [pairs_length]
    rfl
  obtain ⟨ret, hret⟩ := resiRows_exists (residuals (mkEnv I.fl d1) I.projs.length ⟨rows, d1, maskBeta I.fl b⟩) I.pix 0
    (by rw [hlenr]; omega)
  obtain ⟨hrl, hrg⟩ := resiRows_spec _ _ _ hret
  refine ⟨ret, ?_, hrl, ?_⟩
  · simp only [fullCalibration, orientResi, hloop, Option.bind_eq_bind, Option.bind_some, hret, hupd]
  · intro r hr
    obtain ⟨j, hj⟩ := List.getElem?_of_mem hr
    have hjl : j < I.pix.length := by rw [← hrl]; exact (List.getElem?_eq_some_iff.1 hj).1
    rw [hrg j hjl] at hj
    simp only [resiAt, Option.bind_eq_bind, Option.bind_eq_some_iff, Option.some.injEq] at hj
    obtain ⟨x, hx, y, hy, rfl⟩ := hj
    rw [hres0 x (List.mem_of_getElem? hx), hres0 y (List.mem_of_getElem? hy)]

/-- What the caller of `match_detection_to_ref` hands on to `full_calibration`: the returned targets. -/
noncomputable def targetsOf (s : Sorting) : List Obs := s.out.map fun e =>
  match s.entry e with
  | some t => ⟨t.pnr, t.x, t.y⟩
  | none => ⟨-999, 0, 0⟩

/-- C122: calibrating with perfect data changes nothing. A camera without lens distortion (in any media) sees some of the points
of a calibration block, each exactly where the camera's parameters put it, in any order and among other detections. Then
`match_detection_to_ref` followed by `full_calibration` reports success, with every residual 0 and the numbers of the points that
were seen, and leaves all parameters of the camera as they were. For every choice of flags and every solver that answers 0 for a
system whose right-hand side is 0. -/
theorem C122_fixed_point (c : Calib) (hap : c.cam.ap = defaultAddPar) (hupd : c.upd = c) (lut : LUT) (mm : MM) (ip : ImgPar)
    (hpx : ip.pixX ≠ 0) (hpy : ip.pixY ≠ 0) (refs : List V3) (pix : List Det) (eps : ℝ) (heps0 : 0 < eps) (heps : eps ≤ 10 ^ 19)
    (imgs : List (ℝ × ℝ)) (hl : imgs.length = refs.length)
    (himg : ∀ (i : ℕ) (P : V3) (q : ℝ × ℝ), refs[i]? = some P → imgs[i]? = some q →
      ∃ m, imgCoord P c.cam lut mm = some m ∧ metricToPixel m.1 m.2 ip = q)
    (dot : ℕ → Option ℕ) (hdots : DotsOf ip.imx ip.imy 0 eps imgs (pix.map fun t => (t.x, t.y)) dot)
    (tol dm drad : ℝ) (hdm : dm ≠ 0) (hdr : drad ≠ 0) (fl : OFlags) (solve : Solver) (hs : Homogeneous solve)
    (htot : ∀ P ∈ refs, ∀ cam, ∃ q, imgCoord P cam lut mm = some q) :
    ∃ s ret, matchDetectionToRef c.cam lut mm ip ip.imx ip.imy refs pix eps = some s ∧
      fullCalibration ⟨ip, tol, dm, drad, fl, refs.map fun P cam => imgCoord P cam lut mm, targetsOf s, solve⟩ c =
        some (c, some (ret, (List.range refs.length).map fun i : ℕ => if (dot i).isSome then (i : ℤ) else -999)) ∧
      ret.length = refs.length ∧ ∀ r ∈ ret, r = ((0 : ℝ), (0 : ℝ)) := by
  obtain ⟨s, hsm, hsl, hpl, hout, hpn, -⟩ := C121_identified c.cam lut mm ip ip.imx ip.imy refs pix 0 eps heps0 heps imgs hl himg
    dot hdots
  have hdet : ∀ (i j : ℕ), i < refs.length → dot i = some j → ∃ p, (pix.map fun t => (t.x, t.y))[j]? = some p ∧
      planeDist imgs[i]! p ≤ 0 ∧ s.pix[j]? = some ⟨(i : ℤ), p.1, p.2⟩ := by
    intro i j hi hj
    obtain ⟨p, h1, h2, -⟩ := hdots.near i j imgs[i]! (by
      rw [List.getElem?_eq_getElem (by omega), getElem!_pos imgs i (by omega)]) hj
    rw [List.getElem?_map, Option.map_eq_some_iff] at h1
    obtain ⟨t, ht, rfl⟩ := h1
    exact ⟨_, by simp [ht], h2, hpn i j t hi hj ht⟩
  have htl : (targetsOf s).length = refs.length := by simp [targetsOf, hsl]
  have htget : ∀ i < refs.length, (targetsOf s)[i]? = some (match dot i with
      | some _ => ⟨(i : ℤ), (imgs[i]!).1, (imgs[i]!).2⟩
      | none => ⟨-999, 0, 0⟩) := by
    intro i hi
    simp only [targetsOf, List.getElem?_map, hout i hi, Option.map_some, Option.some.injEq]
    cases hdi : dot i with
    | none => rfl
    | some j =>
      obtain ⟨p, -, h2, h3⟩ := hdet i j hi hdi
      obtain ⟨a1, a2⟩ := abs_le_planeDist imgs[i]! p
      have e1 := abs_nonpos_iff.1 (a1.trans h2)
      have e2 := abs_nonpos_iff.1 (a2.trans h2)
      simp only [Sorting.entry, h3]
      rw [show p.1 = (imgs[i]!).1 by linarith, show p.2 = (imgs[i]!).2 by linarith]
  set I : OInput := ⟨ip, tol, dm, drad, fl, refs.map fun P cam => imgCoord P cam lut mm, targetsOf s, solve⟩ with hI
  obtain ⟨⟨d1, rows⟩, hpts⟩ := pointsLoop_total (ip := I.ip) (tol := I.tol) (fl := I.fl) (env := mkEnv I.fl c) (dm := I.dm)
    (drad := I.drad) hdm hdr I.projs I.pix 0 c (by
      intro f hf
      obtain ⟨P, hP, rfl⟩ := List.mem_map.1 hf
      exact htot P hP) (by simp [hI, htl])
  obtain ⟨ret, h1, h2, h3⟩ := full_perfect I hs c hap hupd (by
    intro k f o hf ho hu
    simp only [hI, List.getElem?_map, Option.map_eq_some_iff] at hf
    obtain ⟨P, hP, rfl⟩ := hf
    have hk : k < refs.length := (List.getElem?_eq_some_iff.1 hP).1
    have ho' : (targetsOf s)[k]? = some o := ho
    rw [htget k hk, Option.some.injEq] at ho'
    subst ho'
    cases hdk : dot k with
    | none =>
      rw [hdk] at hu
      simp [usePoint] at hu
    | some j =>
      obtain ⟨m, hm, hmq⟩ := himg k P imgs[k]! hP (by
        rw [List.getElem?_eq_getElem (by omega), getElem!_pos imgs k (by omega)])
      simp only
      rw [← hmq, (C23_inverse ip hpx hpy m.1 m.2).2]
      exact hm) (by simp [hI, htl]) hpts
  refine ⟨s, ret, hsm, ?_, by rw [h2]; exact htl, h3⟩
  rw [h1]
  congr 4
  apply List.ext_getElem?
  intro i
  by_cases hi : i < refs.length
  · have ht : I.pix[i]? = _ := htget i hi
    rw [List.getElem?_map, ht]
    cases hdi : dot i <;> simp [hi, hdi]
  · rw [List.getElem?_eq_none (by simp [hI, htl]; omega), List.getElem?_eq_none (by simp; omega)]

/-! ### A block that meets the hypotheses -/

theorem witCal_image_at (x : ℝ) : imgCoord ⟨x, 0, 0⟩ (witCal 1).cam emptyLUT witMM = some (x / 2, 0) := by
  have h := C27_no_refraction (witCal 1).cam emptyLUT witMM ⟨x, 0, 0⟩ 1 [] (by simp [witMM])
    (by simp [witMM]) (by norm_num) rfl rfl rfl (Or.inl ⟨rfl, rfl⟩)
    (fun e => by have := congrArg V3.z e; simp [witCal] at this)
    (by norm_num [witCal, dot, M3.c2, rotationMatrix])
  simp only [imgCoord, h, Option.bind_eq_bind, Option.bind_some]
  simp [pinhole, witCal, rotationMatrix, flatToDist, distortBrownAffine]
  by_cases hx : x = 0
  · simp [hx]
  · simp [hx]; ring

/-- Three points, of which the third is not seen. -/
def blockPoints : List V3 := [⟨1, 0, 0⟩, ⟨2, 0, 0⟩, ⟨100, 0, 0⟩]

/-- Where they are expected, in pixels. -/
noncomputable def blockImages : List (ℝ × ℝ) := [(11 / 2, 5), (6, 5), (55, 5)]

/-- What was detected: a grain of dirt, the second point, the first point, each with some old number. -/
noncomputable def blockDots (a b : ℝ) : List Det := [⟨7, 1, 1⟩, ⟨0, 6 + b, 5⟩, ⟨1, 11 / 2 + a, 5⟩]

def blockDot : ℕ → Option ℕ
  | 0 => some 2
  | 1 => some 1
  | _ => none

theorem planeDist_x (a b y : ℝ) : planeDist (a, y) (b, y) = |a - b| := by
  simp [planeDist, Real.sqrt_sq_eq_abs]

/-- A guess that is good to a fifth of a pixel, with dots half a pixel apart. -/
theorem block_dots (a b d : ℝ) (ha : |a| ≤ d) (hb : |b| ≤ d) (hd : d ≤ 1 / 9) :
    DotsOf 10 10 d 25 blockImages ((blockDots a b).map fun t => (t.x, t.y)) blockDot := by
  have ha' := abs_le.1 ha
  have hb' := abs_le.1 hb
  constructor
  · intro i j c hc hj
    match i, hc, hj with
    | 0, hc, hj =>
      simp only [blockDot, Option.some.injEq] at hj
      subst hj
      simp only [blockImages, List.getElem?_cons_zero, Option.some.injEq] at hc
      subst hc
      refine ⟨(11 / 2 + a, 5), rfl, ?_, ⟨by simp only; linarith, by norm_num; linarith⟩, by norm_num⟩
      rw [planeDist_x, show (11 / 2 : ℝ) - (11 / 2 + a) = - a by ring, abs_neg]
      exact ha
    | 1, hc, hj =>
      simp only [blockDot, Option.some.injEq] at hj
      subst hj
      simp only [blockImages, List.getElem?_cons_succ, List.getElem?_cons_zero, Option.some.injEq] at hc
      subst hc
      refine ⟨(6 + b, 5), rfl, ?_, ⟨by simp only; linarith, by norm_num; linarith⟩, by norm_num⟩
      rw [planeDist_x, show (6 : ℝ) - (6 + b) = - b by ring, abs_neg]
      exact hb
    | n + 2, hc, hj => simp [blockDot] at hj
  · intro i j j' p p' hi hj hp hp' hne
    have hjj : j = 1 ∨ j = 2 := by
      match i, hj with
      | 0, hj => simp only [blockDot, Option.some.injEq] at hj; omega
      | 1, hj => simp only [blockDot, Option.some.injEq] at hj; omega
      | n + 2, hj => simp [blockDot] at hj
    have hj' : j' < 3 := by
      have := (List.getElem?_eq_some_iff.1 hp').1
      simpa [blockDots] using this
    have far : ∀ p p' : ℝ × ℝ, 2 * d < |p'.1 - p.1| → 2 * d < planeDist p p' :=
      fun p p' h => lt_of_lt_of_le h (abs_le_planeDist p p').1
    rcases hjj with rfl | rfl
    · simp only [blockDots, List.map_cons, List.map_nil, List.getElem?_cons_succ, List.getElem?_cons_zero, Option.some.injEq] at hp
      subst hp
      interval_cases j'
      · simp only [blockDots, List.map_cons, List.getElem?_cons_zero, Option.some.injEq] at hp'
        subst hp'
        exact far _ _ (by rw [lt_abs]; right; simp only; linarith)
      · exact absurd rfl hne
      · simp only [blockDots, List.map_cons, List.getElem?_cons_succ, List.getElem?_cons_zero, Option.some.injEq] at hp'
        subst hp'
        exact far _ _ (by rw [lt_abs]; right; simp only; linarith)
    · simp only [blockDots, List.map_cons, List.map_nil, List.getElem?_cons_succ, List.getElem?_cons_zero, Option.some.injEq] at hp
      subst hp
      interval_cases j'
      · simp only [blockDots, List.map_cons, List.getElem?_cons_zero, Option.some.injEq] at hp'
        subst hp'
        exact far _ _ (by rw [lt_abs]; right; simp only; linarith)
      · simp only [blockDots, List.map_cons, List.getElem?_cons_succ, List.getElem?_cons_zero, Option.some.injEq] at hp'
        subst hp'
        exact far _ _ (by rw [lt_abs]; left; simp only; linarith)
      · exact absurd rfl hne
  · intro i i' j hi hi' h1 h2
    match i, i', h1, h2 with
    | 0, 0, _, _ => rfl
    | 0, 1, h1, h2 => simp [blockDot] at h1 h2; omega
    | 1, 0, h1, h2 => simp [blockDot] at h1 h2; omega
    | 1, 1, _, _ => rfl
    | n + 2, _, h1, _ => simp [blockDot] at h1
    | _, n + 2, _, h2 => simp [blockDot] at h2
  · intro i c p hc hn hp hw
    match i, hc, hn with
    | 0, _, hn => simp [blockDot] at hn
    | 1, _, hn => simp [blockDot] at hn
    | 2, hc, _ =>
      simp only [blockImages, List.getElem?_cons_succ, List.getElem?_cons_zero, Option.some.injEq] at hc
      subst hc
      have := (abs_lt.1 hw.1).1
      simp only [blockDots, List.map_cons, List.map_nil, List.mem_cons, List.not_mem_nil, or_false] at hp
      rcases hp with rfl | rfl | rfl <;> simp only at this <;> linarith
    | n + 3, hc, _ => simp [blockImages] at hc

theorem block_images (ip : ImgPar) (hip : ip = ⟨10, 10, 1, 1⟩) (i : ℕ) (P : V3) (c : ℝ × ℝ) (hP : blockPoints[i]? = some P)
    (hc : blockImages[i]? = some c) :
    ∃ m, imgCoord P (witCal 1).cam emptyLUT witMM = some m ∧ metricToPixel m.1 m.2 ip = c := by
  subst hip
  match i, hP, hc with
  | 0, hP, hc | 1, hP, hc | 2, hP, hc =>
    simp only [blockPoints, blockImages, List.getElem?_cons_succ, List.getElem?_cons_zero, Option.some.injEq] at hP hc
    subst hP hc
    exact ⟨_, witCal_image_at _, by simp only [metricToPixel]; norm_num⟩
  | n + 3, hP, _ => simp [blockPoints] at hP

/-- The guess is off by up to 1/9 pixel: the first two points get their dots (places 2 and 1), the third gets none. -/
example : ∃ s, matchDetectionToRef (witCal 1).cam emptyLUT witMM ⟨10, 10, 1, 1⟩ 10 10 blockPoints (blockDots (1 / 10) (-1 / 10))
    25 = some s ∧ s.out = [some 2, some 1, none] ∧
    s.pix = [⟨7, 1, 1⟩, ⟨1, 6 + -1 / 10, 5⟩, ⟨0, 11 / 2 + 1 / 10, 5⟩] := by
  obtain ⟨s, h1, h2, h3, h4, h5, h6⟩ := C121_identified (witCal 1).cam emptyLUT witMM ⟨10, 10, 1, 1⟩ 10 10 blockPoints
    (blockDots (1 / 10) (-1 / 10)) (1 / 9) 25 (by norm_num) (by norm_num) blockImages rfl (block_images _ rfl) blockDot
    (block_dots _ _ _ (by norm_num [abs_le]) (by norm_num [abs_le]) (le_refl _))
  refine ⟨s, h1, ?_, ?_⟩
  · apply List.ext_getElem?
    intro i
    match i with
    | 0 => rw [h4 0 (by simp [blockPoints])]; rfl
    | 1 => rw [h4 1 (by simp [blockPoints])]; rfl
    | 2 => rw [h4 2 (by simp [blockPoints])]; rfl
    | n + 3 => rw [List.getElem?_eq_none (by rw [h2]; simp [blockPoints]), List.getElem?_eq_none (by simp)]
  · apply List.ext_getElem?
    intro i
    match i with
    | 0 =>
      rw [h6 0 (by
        intro i _ hi
        match i, hi with
        | 0, hi => simp [blockDot] at hi
        | 1, hi => simp [blockDot] at hi
        | n + 2, hi => simp [blockDot] at hi)]
      rfl
    | 1 => rw [h5 1 1 _ (by simp [blockPoints]) rfl rfl]; rfl
    | 2 => rw [h5 0 2 _ (by simp [blockPoints]) rfl rfl]; rfl
    | n + 3 => rw [List.getElem?_eq_none (by rw [h3]; simp [blockDots]), List.getElem?_eq_none (by simp)]

/-- Perfect images of the same block: the calibration is left alone, and the third point is reported as not used. -/
example : ∃ s ret, matchDetectionToRef (witCal 1).cam emptyLUT witMM ⟨10, 10, 1, 1⟩ 10 10 blockPoints (blockDots 0 0) 25 = some s ∧
    fullCalibration ⟨⟨10, 10, 1, 1⟩, 0.00001, 0.0001, 0.0001, witFlags, blockPoints.map fun P cam => imgCoord P cam emptyLUT witMM,
      targetsOf s, fun _ _ => 0⟩ (witCal 1) = some (witCal 1, some (ret, [0, 1, -999])) ∧ ∀ r ∈ ret, r = ((0 : ℝ), (0 : ℝ)) := by
  obtain ⟨s, ret, h1, h2, -, h3⟩ := C122_fixed_point (witCal 1) rfl rfl emptyLUT witMM ⟨10, 10, 1, 1⟩ (by norm_num) (by norm_num)
    blockPoints (blockDots 0 0) 25 (by norm_num) (by norm_num) blockImages rfl (block_images _ rfl) blockDot
    (block_dots 0 0 0 (by simp) (by simp) (by norm_num)) 0.00001 0.0001 0.0001 (by norm_num) (by norm_num) witFlags
    (fun _ _ => 0) (fun _ _ _ => rfl) (fun P _ => imgCoord_total P witMM 2 1 [] [] rfl rfl)
  exact ⟨s, ret, h1, h2, h3⟩

end Verif.Geo
