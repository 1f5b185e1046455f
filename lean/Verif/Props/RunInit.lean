/-
C100, C101: setting up a tracking run.
-/
import Verif.Model.RunInit
import Verif.Props.Volume
import Verif.Props.LoneTrack

namespace Verif.Geo
open V3 Spec

/-! ### Widening is monotone and idempotent -/

theorem widen_mono {b c : Bounds} (h : Wider b c) (X Y : ℝ) : Wider (widen b X Y) (widen c X Y) := by
  obtain ⟨h1, h2, h3, h4⟩ := h
  simp only [Wider, widen]
  refine ⟨?_, ?_, ?_, ?_⟩ <;> split_ifs <;> linarith

theorem widen_within {c b' : Bounds} (h : Wider c b') {X Y : ℝ} (hp : Contains b' X Y) : Wider (widen c X Y) b' := by
  obtain ⟨h1, h2, h3, h4⟩ := h
  obtain ⟨p1, p2, p3, p4⟩ := hp
  simp only [Wider, widen]
  refine ⟨?_, ?_, ?_, ?_⟩ <;> split_ifs <;> linarith

theorem Spec.Wider.antisymm {a b : Bounds} (h1 : Wider a b) (h2 : Wider b a) : a = b := by
  obtain ⟨a1, a2, a3, a4⟩ := h1
  obtain ⟨b1, b2, b3, b4⟩ := h2
  cases a
  cases b
  simp only [Bounds.mk.injEq]
  exact ⟨le_antisymm a2 b2, le_antisymm b1 a1, le_antisymm a4 b4, le_antisymm b3 a3⟩

/-- Bounds `c` between `b` and `b'`, where `b'` covers the corner: after the corner they are between the new `b` and `b'`. -/
theorem volCorner_between {ip : ImgPar} {mm : MM} {zMin zMax : ℝ} {cal : Cam} {xc yc : ℝ} {b b1 b' c : Bounds}
    (h : volCorner ip mm zMin zMax cal xc yc b = some b1) (h1 : Wider b1 b') (hb : Wider b c) (hc : Wider c b') :
    ∃ c1, volCorner ip mm zMin zMax cal xc yc c = some c1 ∧ Wider b1 c1 ∧ Wider c1 b' := by
  obtain ⟨pa, hr, -, cov1, cov2⟩ := volCorner_spec h
  simp only [volCorner, hr, Option.map_some, Option.some.injEq] at h ⊢
  refine ⟨_, rfl, ?_, ?_⟩
  · rw [← h]
    exact widen_mono (widen_mono hb _ _) _ _
  · exact widen_within (widen_within hc (cov1.mono h1)) (cov2.mono h1)

theorem volCam_between {ip : ImgPar} {mm : MM} {zMin zMax : ℝ} {cal : Cam} {b b1 b' c : Bounds}
    (h : volCam ip mm zMin zMax cal b = some b1) (h1 : Wider b1 b') (hb : Wider b c) (hc : Wider c b') :
    ∃ c1, volCam ip mm zMin zMax cal c = some c1 ∧ Wider b1 c1 ∧ Wider c1 b' := by
  simp only [volCam, Option.bind_eq_bind, Option.bind_eq_some_iff] at h
  obtain ⟨a1, k1, a2, k2, a3, k3, k4⟩ := h
  obtain ⟨-, -, w2, -⟩ := volCorner_spec k2
  obtain ⟨-, -, w3, -⟩ := volCorner_spec k3
  obtain ⟨-, -, w4, -⟩ := volCorner_spec k4
  obtain ⟨c1, e1, x1, y1⟩ := volCorner_between k1 (w2.trans (w3.trans (w4.trans h1))) hb hc
  obtain ⟨c2, e2, x2, y2⟩ := volCorner_between k2 (w3.trans (w4.trans h1)) x1 y1
  obtain ⟨c3, e3, x3, y3⟩ := volCorner_between k3 (w4.trans h1) x2 y2
  obtain ⟨c4, e4, x4, y4⟩ := volCorner_between k4 h1 x3 y3
  exact ⟨c4, by simp only [volCam, Option.bind_eq_bind, e1, e2, e3, e4, Option.bind_some], x4, y4⟩

theorem volCams_between {ip : ImgPar} {mm : MM} {zMin zMax : ℝ} : ∀ (cals : List Cam) (b b' c : Bounds),
    volCams ip mm zMin zMax cals b = some b' → Wider b c → Wider c b' → volCams ip mm zMin zMax cals c = some b'
  | [], b, b', c, h, hb, hc => by
    simp only [volCams, Option.some.injEq] at h ⊢
    subst h
    exact hc.antisymm hb
  | cal :: cals, b, b', c, h, hb, hc => by
    simp only [volCams, Option.bind_eq_bind, Option.bind_eq_some_iff] at h ⊢
    obtain ⟨b1, h1, h2⟩ := h
    obtain ⟨w, -⟩ := volCams_spec cals b1 b' h2
    obtain ⟨c1, e1, e2, e3⟩ := volCam_between h1 w hb hc
    exact ⟨c1, e1, volCams_between cals b1 b' c1 h2 e2 e3⟩

end Verif.Geo

namespace Verif.Track
open Verif.Geo Verif.Geo.Spec

/-! ### Specification -/

/-- The x and y coordinates of `P` are within those of the corners `lo`, `hi`. -/
def WithinXY (lo hi P : V3) : Prop := lo.x ≤ P.x ∧ P.x ≤ hi.x ∧ lo.y ≤ P.y ∧ P.y ≤ hi.y

/-- `M` is the point at depth `z` on the line of sight of an image corner of one of the cameras. -/
def OnCornerRay (a : RunArgs) (z : ℝ) (M : V3) : Prop :=
  ∃ c ∈ a.cals, ∃ k ∈ imageCorners a.ip, ∃ X d, cornerRay a.ip c.1 a.mm k.1 k.2 = some (X, d) ∧ d.z ≠ 0 ∧ OnLine X d M ∧ M.z = z

/-- C100: the volume in which a new run tracks encloses the volume entered (in x, and from the lowest to the highest depth limit in
z), and all corners of the images seen at the far depth; the height (y) starts from 0. -/
theorem C100_volume (a : RunArgs) (v v' : VPar) (s : Setup) (h : newRun a v = some (s, v')) :
    s.lo.x ≤ v.xLay0 ∧ v.xLay1 ≤ s.hi.x ∧ s.lo.y ≤ 0 ∧ 0 ≤ s.hi.y ∧
    s.lo.z = min v.zMin0 v.zMin1 ∧ s.hi.z = max v.zMax0 v.zMax1 ∧
    ∀ M, OnCornerRay a s.hi.z M → WithinXY s.lo s.hi M := by
  simp only [newRun, Option.bind_eq_bind, Option.bind_eq_some_iff, Option.some.injEq, Prod.mk.injEq] at h
  obtain ⟨⟨b, zMax, zMin⟩, h1, rfl, rfl⟩ := h
  obtain ⟨e1, e2, ⟨w1, w2, w3, w4⟩, cov⟩ := C52_bounds_partial _ _ _ _ _ _ _ _ h1
  refine ⟨w1, w2, w3, w4, e1, e2, ?_⟩
  rintro M ⟨c, hc, k, hk, X, d, hr, hd, hM, hz⟩
  obtain ⟨X', d', hr', hc'⟩ := cov c.1 (List.mem_map_of_mem hc) k hk
  rw [hr] at hr'
  cases hr'
  exact (hc' hd).1 M hM hz

/-- A position inside the entered volume, and not higher or lower than what the cameras see, passes the volume check of the run. -/
theorem C100_inside (a : RunArgs) (v v' : VPar) (s : Setup) (h : newRun a v = some (s, v')) (P M1 M2 : V3)
    (hx : v.xLay0 < P.x ∧ P.x < v.xLay1) (hz : min v.zMin0 v.zMin1 < P.z ∧ P.z < max v.zMax0 v.zMax1)
    (h1 : OnCornerRay a s.hi.z M1) (h2 : OnCornerRay a s.hi.z M2) (hy : M1.y < P.y ∧ P.y < M2.y) : s.inVolume P = true := by
  obtain ⟨e1, e2, e3, e4, e5, e6, e7⟩ := C100_volume a v v' s h
  obtain ⟨-, -, m1, -⟩ := e7 M1 h1
  obtain ⟨-, -, -, m2⟩ := e7 M2 h2
  have y1 : s.lo.y < P.y := by linarith [hy.1]
  have y2 : P.y < s.hi.y := by linarith [hy.2]
  have z1 : s.lo.z < P.z := by rw [e5]; exact hz.1
  have z2 : P.z < s.hi.z := by rw [e6]; exact hz.2
  have x1 : s.lo.x < P.x := lt_of_le_of_lt e1 hx.1
  have x2 : P.x < s.hi.x := lt_of_lt_of_le hx.2 e2
  have hall : (s.lo.x < P.x ∧ P.x < s.hi.x) ∧ (s.lo.y < P.y ∧ P.y < s.hi.y) ∧ s.lo.z < P.z ∧ P.z < s.hi.z :=
    ⟨⟨x1, x2⟩, ⟨y1, y2⟩, z1, z2⟩
  unfold Setup.inVolume
  exact decide_eq_true hall

/-- No displacement within the velocity limits is longer than the run's `lmax`, the length by which it is divided. -/
theorem C100_lmax (a : RunArgs) (v v' : VPar) (s : Setup) (h : newRun a v = some (s, v')) (d : V3)
    (hlo : a.vel.lo.x ≤ 0 ∧ a.vel.lo.y ≤ 0 ∧ a.vel.lo.z ≤ 0) (hhi : 0 ≤ a.vel.hi.x ∧ 0 ≤ a.vel.hi.y ∧ 0 ≤ a.vel.hi.z)
    (hd : Pos3dInBounds d s.vel) : d.norm ≤ s.lmax := by
  simp only [newRun, Option.bind_eq_bind, Option.bind_eq_some_iff, Option.some.injEq, Prod.mk.injEq] at h
  obtain ⟨r, -, rfl, -⟩ := h
  obtain ⟨⟨x1, x2⟩, ⟨y1, y2⟩, z1, z2⟩ := hd
  simp only at x1 x2 y1 y2 z1 z2
  obtain ⟨l1, l2, l3⟩ := hlo
  obtain ⟨u1, u2, u3⟩ := hhi
  have sq : ∀ {l u t : ℝ}, l ≤ 0 → 0 ≤ u → l < t → t < u → t ^ 2 ≤ (l - u) ^ 2 := by
    intro l u t h1 h2 h3 h4
    nlinarith
  have hx := sq l1 u1 x1 x2
  have hy := sq l2 u2 y1 y2
  have hz := sq l3 u3 z1 z2
  simp only [V3.norm, V3.diffNorm]
  apply Real.sqrt_le_sqrt
  nlinarith

/-- Setting up a run a second time, with the parameters as the first left them, gives the same run and changes nothing more. -/
theorem C100_again (a : RunArgs) (v v' : VPar) (s : Setup) (h : newRun a v = some (s, v')) : newRun a v' = some (s, v') := by
  simp only [newRun, Option.bind_eq_bind, Option.bind_eq_some_iff, Option.some.injEq, Prod.mk.injEq] at h
  obtain ⟨⟨b, zMax, zMin⟩, h1, rfl, rfl⟩ := h
  obtain ⟨e1, e2, ⟨w1, w2, w3, w4⟩, -⟩ := C52_bounds_partial _ _ _ _ _ _ _ _ h1
  have hv : volumeDimension ⟨b.xmax, b.xmin, 0, 0⟩ (overwriteVolume v b zMax zMin) a.ip a.mm (a.cals.map Prod.fst)
      = some (b, zMax, zMin) := by
    simp only [volumeDimension, Option.bind_eq_bind, Option.bind_eq_some_iff, Option.some.injEq, Prod.mk.injEq] at h1 ⊢
    obtain ⟨b1, h2, rfl, h3, h4⟩ := h1
    have z1 : (if (overwriteVolume v b1 zMax zMin).zMin1 < (overwriteVolume v b1 zMax zMin).zMin0 then
        (overwriteVolume v b1 zMax zMin).zMin1 else (overwriteVolume v b1 zMax zMin).zMin0) = zMin := by
      apply if_neg
      show ¬ v.zMin1 < zMin
      rw [e1, not_lt]
      exact min_le_right _ _
    have z2 : (if (overwriteVolume v b1 zMax zMin).zMax1 > (overwriteVolume v b1 zMax zMin).zMax0 then
        (overwriteVolume v b1 zMax zMin).zMax1 else (overwriteVolume v b1 zMax zMin).zMax0) = zMax := by
      by_cases hc : zMax > v.zMax0
      · exact if_pos hc
      · refine (if_neg hc).trans ?_
        show v.zMax0 = zMax
        rw [e2] at hc ⊢
        exact le_antisymm (le_max_left _ _) (not_lt.1 hc)
    rw [z1, z2]
    rw [h3, h4] at h2
    exact ⟨b1, volCams_between _ _ _ _ h2 ⟨w1, w2, le_refl _, le_refl _⟩ ⟨le_refl _, le_refl _, w3, w4⟩, rfl, rfl, rfl⟩
  simp only [newRun]
  have : (⟨(overwriteVolume v b zMax zMin).xLay1, (overwriteVolume v b zMax zMin).xLay0, 0, 0⟩ : Bounds) = ⟨b.xmax, b.xmin, 0, 0⟩ := rfl
  rw [this, hv]
  rfl

/-! ### The caller's parameters -/

/-- C101 (partial): setting up a run changes the caller's volume parameters at most in this: the x range grows, and the first lower
and the second upper depth limit become the extreme ones. If the volume entered is already as wide as what the cameras see, and
its depth limits are in order, nothing changes. Missing: that nothing ever changes (false: `C101_limits_refuted`). -/
theorem C101_changes_partial (a : RunArgs) (v v' : VPar) (s : Setup) (h : newRun a v = some (s, v')) :
    v'.xLay0 ≤ v.xLay0 ∧ v.xLay1 ≤ v'.xLay1 ∧ v'.zMin1 = v.zMin1 ∧ v'.zMax0 = v.zMax0 ∧
    v'.zMin0 = min v.zMin0 v.zMin1 ∧ v'.zMax1 = max v.zMax0 v.zMax1 ∧
    (v.zMin0 ≤ v.zMin1 → v.zMax0 ≤ v.zMax1 → v.xLay0 ≤ v'.xLay0 → v'.xLay1 ≤ v.xLay1 → v' = v) := by
  simp only [newRun, Option.bind_eq_bind, Option.bind_eq_some_iff, Option.some.injEq, Prod.mk.injEq] at h
  obtain ⟨⟨b, zMax, zMin⟩, h1, rfl, rfl⟩ := h
  obtain ⟨e1, e2, ⟨w1, w2, w3, w4⟩, -⟩ := C52_bounds_partial _ _ _ _ _ _ _ _ h1
  refine ⟨w1, w2, rfl, rfl, e1, e2, ?_⟩
  intro h2 h3 h4 h5
  have x0 : b.xmin = v.xLay0 := le_antisymm w1 h4
  have x1 : b.xmax = v.xLay1 := le_antisymm h5 w2
  cases v
  simp only [overwriteVolume, VPar.mk.injEq]
  simp only at e1 e2 h2 h3 x0 x1
  rw [x0, x1, e1, e2, min_eq_left h2, max_eq_right h3]
  exact ⟨rfl, rfl, rfl, trivial, trivial, rfl⟩

/-- C101 is false: whenever the lower depth limit falls from the left of the volume to the right, setting up a run changes the
caller's parameters, and with them the depth that a correspondence search (`epi_mm`) with these parameters uses: at every x it is
the deeper one. -/
theorem C101_limits_refuted (a : RunArgs) (v v' : VPar) (s : Setup) (h : newRun a v = some (s, v')) (hz : v.zMin1 < v.zMin0) :
    v' ≠ v ∧ (∀ x, zMinAt v' x = v.zMin1) ∧ zMinAt v v.xLay0 = v.zMin0 ∧ zMinAt v' v.xLay0 ≠ zMinAt v v.xLay0 := by
  obtain ⟨-, -, c3, -, c5, -, -⟩ := C101_changes_partial a v v' s h
  rw [min_eq_right hz.le] at c5
  have hflat : ∀ x, zMinAt v' x = v.zMin1 := by
    intro x
    simp only [zMinAt, c5, c3, sub_self, mul_zero, zero_div, add_zero]
  have h0 : zMinAt v v.xLay0 = v.zMin0 := by simp [zMinAt]
  refine ⟨?_, hflat, h0, ?_⟩
  · intro e
    rw [e] at c5
    linarith
  · rw [hflat, h0]
    exact hz.ne

/-! ### A run that meets the hypotheses: one camera above the origin, an image of 0 by 6 pixels of size 1 -/

theorem volCal_rayY (y s : ℝ) (hs : 0 < s) (hy : y ^ 2 + 4 ^ 2 = s ^ 2) :
    rayTracing 0 y volCal ⟨1, 1, [1], 1, [1]⟩ = some (⟨0, y * (5 / 4), 5⟩, ⟨0, y / s, -4 / s⟩) := by
  have hdir1 : V3.norm ⟨0, y / s, -4 / s⟩ = 1 := V3.norm_eq_one.2 (by simp only [V3.dot]; field_simp; linarith)
  obtain ⟨X, e1, ⟨t, e2⟩, e3⟩ := C26_straight 0 y 0 0 0 5 volCal ⟨1, 1, [1], 1, [1]⟩ 1 1 [] [] ⟨0, 0, 1⟩
    ⟨0, y / s, -4 / s⟩ s rfl rfl rfl (by norm_num) (V3.norm_eq_one.2 (by norm_num [V3.dot]))
    (by ext <;> simp [volCal]) hs hdir1
    (by
      ext
      · simp [volCal, M3.mulVec, rotationMatrix, V3.dot]
      · simp [volCal, M3.mulVec, rotationMatrix, V3.dot]; field_simp
      · simp [volCal, M3.mulVec, rotationMatrix, V3.dot]; field_simp)
    (by simp only [V3.dot]; have : -4 / s < 0 := div_neg_of_neg_of_pos (by norm_num) hs; linarith) (by norm_num)
    rfl rfl
  have hz : 10 + -4 / s * t = 5 := by
    have : X.z = 5 := by simpa [V3.dot] using e3
    rw [← this, e2]; rfl
  have ht : t = s * (5 / 4) := by field_simp at hz; linarith
  rw [e1, e2]
  congr 2
  ext
  · simp [volCal]
  · simp [volCal, ht]; field_simp
  · simp [volCal, ht]; field_simp; norm_num

noncomputable def oneArgs : RunArgs :=
  { cals := [(volCal, emptyLUT)], mm := ⟨1, 1, [1], 1, [1]⟩, ip := ⟨0, 6, 1, 1⟩, tol := 0.001, vel := ⟨⟨-2, -2, -2⟩, ⟨2, 2, 2⟩⟩,
    dacc := 1, dangle := 100, add := false }

noncomputable def oneVol : VPar := ⟨-1, 1, -9, -10, 0, 0⟩

theorem one_low : cornerRay ⟨0, 6, 1, 1⟩ volCal ⟨1, 1, [1], 1, [1]⟩ 0 6 = some (⟨0, -15 / 4, 5⟩, ⟨0, -3 / 5, -4 / 5⟩) := by
  have hm : pixelToMetric 0 6 ⟨0, 6, 1, 1⟩ = (0, -3) := by norm_num [pixelToMetric]
  simp only [cornerRay, hm]
  rw [show volCal.ap = defaultAddPar from rfl, (C24_default_identity _ _ _).2]
  have : rayTracing 0 (-3) volCal ⟨1, 1, [1], 1, [1]⟩ = some (⟨0, -15 / 4, 5⟩, ⟨0, -3 / 5, -4 / 5⟩) := by
    rw [volCal_rayY (-3) 5 (by norm_num) (by norm_num)]; norm_num
  simpa [volCal] using this

theorem one_high : cornerRay ⟨0, 6, 1, 1⟩ volCal ⟨1, 1, [1], 1, [1]⟩ 0 0 = some (⟨0, 15 / 4, 5⟩, ⟨0, 3 / 5, -4 / 5⟩) := by
  have hm : pixelToMetric 0 0 ⟨0, 6, 1, 1⟩ = (0, 3) := by norm_num [pixelToMetric]
  simp only [cornerRay, hm]
  rw [show volCal.ap = defaultAddPar from rfl, (C24_default_identity _ _ _).2]
  have : rayTracing 0 3 volCal ⟨1, 1, [1], 1, [1]⟩ = some (⟨0, 15 / 4, 5⟩, ⟨0, 3 / 5, -4 / 5⟩) := by
    rw [volCal_rayY 3 5 (by norm_num) (by norm_num)]; norm_num
  simpa [volCal] using this

theorem one_run : ∃ s, newRun oneArgs oneVol = some (s, ⟨-1, 1, -10, -10, 0, 0⟩) ∧ s.hi = ⟨1, 15 / 2, 0⟩ ∧
    s.lo = ⟨-1, -15 / 2, -10⟩ := by
  have hd : volumeDimension ⟨1, -1, 0, 0⟩ oneVol ⟨0, 6, 1, 1⟩ ⟨1, 1, [1], 1, [1]⟩ [volCal]
      = some (⟨1, -1, 15 / 2, -15 / 2⟩, 0, -10) := by
    simp only [volumeDimension, volCams, volCam, volCorner, Nat.cast_zero, Nat.cast_ofNat, one_low, one_high, Option.map_some,
      Option.bind_eq_bind, Option.bind_some]
    norm_num [widen, oneVol]
  have hd' : volumeDimension ⟨oneVol.xLay1, oneVol.xLay0, 0, 0⟩ oneVol oneArgs.ip oneArgs.mm (oneArgs.cals.map Prod.fst)
      = some (⟨1, -1, 15 / 2, -15 / 2⟩, 0, -10) := hd
  refine ⟨_, by rw [newRun, hd']; rfl, rfl, rfl⟩

theorem one_rays : OnCornerRay oneArgs 0 ⟨0, -15 / 2, 0⟩ ∧ OnCornerRay oneArgs 0 ⟨0, 15 / 2, 0⟩ := by
  refine ⟨⟨(volCal, emptyLUT), by simp [oneArgs], (0, 6), by simp [imageCorners, oneArgs], _, _, one_low, by norm_num,
    ⟨25 / 4, ?_⟩, rfl⟩, ⟨(volCal, emptyLUT), by simp [oneArgs], (0, 0), by simp [imageCorners, oneArgs], _, _, one_high,
    by norm_num, ⟨25 / 4, ?_⟩, rfl⟩⟩
  · ext <;> norm_num
  · ext <;> norm_num

example : ∃ s v', newRun oneArgs oneVol = some (s, v') ∧ OnCornerRay oneArgs s.hi.z ⟨0, -15 / 2, 0⟩ ∧
    s.inVolume ⟨1 / 2, 7, -9.5⟩ = true ∧ (∀ d, Pos3dInBounds d s.vel → d.norm ≤ s.lmax) ∧ newRun oneArgs v' = some (s, v') := by
  obtain ⟨s, h, hh, hl⟩ := one_run
  have hz : s.hi.z = 0 := by rw [hh]
  refine ⟨s, _, h, by rw [hz]; exact one_rays.1, ?_, ?_, C100_again _ _ _ _ h⟩
  · refine C100_inside _ _ _ _ h _ ⟨0, -15 / 2, 0⟩ ⟨0, 15 / 2, 0⟩ ?_ ?_ (by rw [hz]; exact one_rays.1)
      (by rw [hz]; exact one_rays.2) ?_
    all_goals norm_num [oneVol]
  · intro d hd
    exact C100_lmax _ _ _ _ h d (by norm_num [oneArgs]) (by norm_num [oneArgs]) hd

/-- The example run changes the parameters it was given (-9 becomes -10). -/
example : ∃ s v', newRun oneArgs oneVol = some (s, v') ∧ v' ≠ oneVol ∧ zMinAt oneVol (-1) = -9 ∧ zMinAt v' (-1) = -10 := by
  obtain ⟨s, h, -, -⟩ := one_run
  obtain ⟨h1, h2, h3, -⟩ := C101_limits_refuted _ _ _ _ h (by norm_num [oneVol])
  exact ⟨s, _, h, h1, by simpa [oneVol] using h3, by simpa [oneVol] using h2 (-1)⟩

end Verif.Track
