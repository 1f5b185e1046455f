/-
C136: measured positions through lens and window.
-/
import Verif.Proofs.Measured
import Verif.Proofs.Lens
import Verif.Props.NewPosition
import Verif.Props.WeakLens

namespace Verif.Geo
open V3 Spec

/-- C136, one camera: the line of sight of an image point within `ε` of the computed image of a point passes the point at a distance of at
most `measuredError`. -/
theorem C136_sight (c : Cam) (mm : MM) (d n2 : ℝ) (P : V3) (ε : ℝ) (t t' : ℝ × ℝ) (hmm : OnePlate mm d n2) (h : SeesThrough c d P)
    (ht : flatImageCoord P c emptyLUT mm = some t) (hε : imageDist t t' ≤ ε)
    (hm : objectError c d P ε < height c.glass c.pos - height c.glass P) :
    ∃ X out, rayTracing t'.1 t'.2 c mm = some (X, out) ∧ NearLine X out P (measuredError c d P ε) := by
  obtain ⟨X, out, h1, h2, -⟩ := sight_measured c mm d n2 P ε t t' hmm h ht hε hm
  exact ⟨X, out, h1, h2⟩

/-- The camera sees `P` through the window, and an image point that is measured within `ε` has a line of sight within `δ` of `P`. -/
structure SeesWithin (c : Cam) (d : ℝ) (P : V3) (ε δ : ℝ) : Prop where
  through : SeesThrough c d P
  small : objectError c d P ε < height c.glass c.pos - height c.glass P
  error : measuredError c d P ε ≤ δ

/-- C136: a point that at least two cameras see through their windows, triangulated from image points that are measured within `ε`: the
position is within `δ (1 + 2/σ)` of the point and the reported ray distance at most `2 δ`. Any two lines of sight cross with an angle
of sine at least `σ`. -/
theorem C136_position (P : V3) (targets : List (ℝ × ℝ)) (numCams : ℕ) (mm : MM) (cals : List Cam) (d n2 ε δ σ : ℝ)
    (hlen : numCams ≤ targets.length) (hmm : OnePlate mm d n2) (hσ : 0 < σ)
    (hproj : ∀ cam < numCams, ∀ t, targets[cam]? = some t → t.1 ≠ coordUnused →
      ∃ c f, cals[cam]? = some c ∧ SeesWithin c d P ε δ ∧ flatImageCoord P c emptyLUT mm = some f ∧ imageDist f t ≤ ε)
    (hcross : ∀ i j ti tj ci cj Xi ai Xj aj, i < j → i ∈ usedCams targets numCams → j ∈ usedCams targets numCams →
      targets[i]? = some ti → targets[j]? = some tj → cals[i]? = some ci → cals[j]? = some cj →
      rayTracing ti.1 ti.2 ci mm = some (Xi, ai) → rayTracing tj.1 tj.2 cj mm = some (Xj, aj) → Crossing ai aj σ)
    (htwo : 2 ≤ (usedCams targets numCams).card) :
    ∃ D M, pointPosition targets numCams mm cals = .ok (some (D, M)) ∧ 0 ≤ D ∧ D ≤ 2 * δ ∧
      (M - P).norm ≤ δ * (1 + 2 / σ) := by
  classical
  have key : ∀ cam, ∃ ray : Ray, cam ∈ usedCams targets numCams →
      ∃ t c, targets[cam]? = some t ∧ cals[cam]? = some c ∧ rayTracing t.1 t.2 c mm = some ray ∧ NearLine ray.1 ray.2 P δ := by
    intro cam
    by_cases hu : cam ∈ usedCams targets numCams
    · have hu' := hu
      simp only [usedCams, Finset.mem_filter, Finset.mem_range] at hu'
      obtain ⟨hlt, t, ht, hne⟩ := hu'
      obtain ⟨c, f, hc, hs, hf, he⟩ := hproj cam hlt t ht hne
      obtain ⟨X, out, h2, q, h3, h4⟩ := C136_sight c mm d n2 P ε f t hmm hs.through hf he hs.small
      exact ⟨(X, out), fun _ => ⟨t, c, ht, hc, h2, q, h3, h4.trans hs.error⟩⟩
    · exact ⟨(0, 0), fun h => absurd h hu⟩
  choose ray hray using key
  refine C128_position_error targets numCams mm cals ray hlen ?_ P δ σ hσ ?_ ?_ htwo
  · intro cam hlt t ht hne
    obtain ⟨t', c, a, b, e, -⟩ := hray cam (by
      simp only [usedCams, Finset.mem_filter, Finset.mem_range]
      exact ⟨hlt, t, ht, hne⟩)
    rw [ht] at a
    obtain rfl := Option.some.inj a
    exact ⟨c, b, e⟩
  · intro cam hc
    obtain ⟨-, -, -, -, -, hn⟩ := hray cam hc
    exact hn
  · intro p hp
    simp only [pairsOf, Finset.mem_filter, Finset.mem_product] at hp
    obtain ⟨ti, ci, a1, b1, e1, -⟩ := hray _ hp.1.1
    obtain ⟨tj, cj, a2, b2, e2, -⟩ := hray _ hp.1.2
    exact hcross p.1 p.2 ti tj ci cj _ _ _ _ hp.2 hp.1.1 hp.1.2 a1 a2 b1 b2 e1 e2

/-- C136, the lens: a measured point `m` near the distorted image of `f` is corrected to a point near `f`, if the lens is mild up to the
radius `R` from the principal point and both radii are at most `R`. The error is at most doubled. -/
theorem C136_lens (ap : AddPar) (xh yh tol R : ℝ) (f m : ℝ × ℝ) (h : MildLens ap R) (htol : (1 / 2) ^ 200 ≤ tol)
    (hf : Real.sqrt ((f.1 + xh) ^ 2 + (f.2 + yh) ^ 2) ≤ R) (hm : Real.sqrt (m.1 ^ 2 + m.2 ^ 2) ≤ R) :
    imageDist f (distToFlat m.1 m.2 xh yh ap tol) ≤ 2 * (imageDist (flatToDist f.1 f.2 xh yh ap) m + tol * R) := by
  have := lens_noise h htol hf hm
  refine le_trans (le_of_eq ?_) this
  simp only [distToFlat, imageDist]
  congr 1
  ring

/-- The distance in the sensor of two pixel positions, in pixels of sizes `px`, `py`. -/
theorem C136_pixels (ip : ImgPar) (a b : ℝ × ℝ) (h : 0 ≤ ip.pixX ∧ 0 ≤ ip.pixY) :
    imageDist (pixelToMetric a.1 a.2 ip) (pixelToMetric b.1 b.2 ip) ≤ max ip.pixX ip.pixY * imageDist a b := by
  have h0 : 0 ≤ max ip.pixX ip.pixY := le_max_of_le_left h.1
  simp only [imageDist, pixelToMetric]
  rw [← Real.sqrt_sq h0, ← Real.sqrt_mul (sq_nonneg _)]
  apply Real.sqrt_le_sqrt
  have e1 : ip.pixX ^ 2 ≤ max ip.pixX ip.pixY ^ 2 := pow_le_pow_left₀ h.1 (le_max_left _ _) 2
  have e2 : ip.pixY ^ 2 ≤ max ip.pixX ip.pixY ^ 2 := pow_le_pow_left₀ h.2 (le_max_right _ _) 2
  have k1 := mul_le_mul_of_nonneg_right e1 (sq_nonneg (a.1 - b.1))
  have k2 := mul_le_mul_of_nonneg_right e2 (sq_nonneg (a.2 - b.2))
  nlinarith

end Verif.Geo

namespace Verif.Track
open Verif.Track.Spec Verif.Geo Verif.Geo.Spec

/-- The error in the image plane, in mm, of a target that is `η` pixels off, after the correction of a lens with radial distortion only
that is mild up to the radius `R`. -/
noncomputable def flatError (s : Setup) (R η : ℝ) : ℝ := 2 * (max s.ip.pixX s.ip.pixY * η + s.tol * R)

/-- The same, for a lens with all kinds of distortion that is weak up to the radius `10/9 R`. -/
noncomputable def weakFlatError (s : Setup) (ap : AddPar) (κ R η : ℝ) : ℝ :=
  5 / 2 * (max s.ip.pixX s.ip.pixY * η) + lensRest ap (10 / 9 * R) κ s.tol

/-- The correction of the lens leaves of an error of `η` pixels at most `ε` mm, up to the radius `R`: the lens has radial distortion only
and is mild, or it has any kinds of distortion and is weak. -/
def LensWithin (s : Setup) (ap : AddPar) (R η ε : ℝ) : Prop :=
  MildLens ap R ∧ (1 / 2) ^ 200 ≤ s.tol ∧ flatError s R η ≤ ε ∨
    ∃ κ, WeakLens ap (10 / 9 * R) κ ∧ 0 ≤ s.tol ∧ weakFlatError s ap κ R η ≤ ε

/-- The camera: no look-up table; a lens whose correction leaves `ε` of an error of `η` pixels, up to the radius `R`; it sees `X` through
its window, with the error `δ` for image points that are `ε` off; the image of `X` is within the radius `R`, and not near the number that
marks an unused coordinate. -/
structure SeesMildly (s : Setup) (c : Cam × LUT) (X : V3) (d R η ε δ : ℝ) : Prop where
  lut : c.2 = emptyLUT
  lens : LensWithin s c.1.ap R η ε
  sees : SeesWithin c.1 d X ε δ
  radius : ∀ f, flatImageCoord X c.1 emptyLUT s.mm = some f → Real.sqrt ((f.1 + c.1.xh) ^ 2 + (f.2 + c.1.yh) ^ 2) ≤ R
  mark : ∀ f t, flatImageCoord X c.1 emptyLUT s.mm = some f → imageDist f t ≤ ε → t.1 ≠ coordUnused

/-- All cameras see `X` so, and the lines of sight of any image points within the error of its images cross with an angle of sine at
least `σ`. -/
structure RigSeesMildly (s : Setup) (X : V3) (d n2 R η ε δ σ : ℝ) : Prop where
  media : OnePlate s.mm d n2
  pixels : 0 < s.ip.pixX ∧ 0 < s.ip.pixY
  cams : ∀ c ∈ s.cals, SeesMildly s c X d R η ε δ
  cross : s.cals.Pairwise fun c c' => ∀ f f' t t' Y a Y' a', flatImageCoord X c.1 emptyLUT s.mm = some f →
    flatImageCoord X c'.1 emptyLUT s.mm = some f' → imageDist f t ≤ ε → imageDist f' t' ≤ ε →
    rayTracing t.1 t.2 c.1 s.mm = some (Y, a) → rayTracing t'.1 t'.2 c'.1 s.mm = some (Y', a') → Crossing a a' σ

/-- In every camera, the free target that is nearest to the image of `pos` (if there is one within 3 pixels) is within `η` pixels of the
image of `X`, and within the radius `R` on the sensor; at least two cameras have one. -/
structure TargetsNear (s : Setup) (targets : List (List (Search.Tgt ℝ))) (pos X : V3) (R η : ℝ) : Prop where
  shown : ∀ cam px i t, s.pix cam pos = .ok px → NearestFree s.cams targets px cam i t →
    ∃ q, s.pix cam X = .ok q ∧ imageDist q (t.x, t.y) ≤ η ∧
      Real.sqrt ((pixelToMetric t.x t.y s.ip).1 ^ 2 + (pixelToMetric t.x t.y s.ip).2 ^ 2) ≤ R
  two : ∃ a b, a < b ∧ b < s.cals.length ∧ (∃ px i, s.pix a pos = .ok px ∧ FreeNear s.cams targets px a i) ∧
    ∃ px i, s.pix b pos = .ok px ∧ FreeNear s.cams targets px b i

/-- A target near the image of `X`, made flat. -/
theorem flat_near_pix {s : Setup} {X : V3} {cam : Nat} {p t : ℝ × ℝ} {c : Cam × LUT} {d R η ε δ : ℝ}
    (hp : 0 < s.ip.pixX ∧ 0 < s.ip.pixY)
    (hc : s.cals[cam]? = some c) (he : SeesMildly s c X d R η ε δ) (h : s.pix cam X = .ok p) (hd : imageDist p t ≤ η)
    (hR : Real.sqrt ((pixelToMetric t.1 t.2 s.ip).1 ^ 2 + (pixelToMetric t.1 t.2 s.ip).2 ^ 2) ≤ R) :
    ∃ f, flatImageCoord X c.1 emptyLUT s.mm = some f ∧ imageDist f (s.flat cam t) ≤ ε := by
  simp only [Setup.pix, hc, pointToPixel] at h
  rw [he.lut] at h
  simp only [imgCoord] at h
  cases hi : flatImageCoord X c.1 emptyLUT s.mm with
  | none => rw [hi] at h; simp [orRaise] at h
  | some f =>
    rw [hi] at h
    simp only [Option.bind_eq_bind, Option.bind_some, orRaise, Option.map_some, Except.ok.injEq] at h
    refine ⟨f, rfl, ?_⟩
    simp only [Setup.flat, hc]
    have hpx := C136_pixels s.ip p t ⟨hp.1.le, hp.2.le⟩
    rw [← h, (C23_inverse s.ip hp.1.ne' hp.2.ne' _ _).2] at hpx
    have : max s.ip.pixX s.ip.pixY * imageDist p t ≤ max s.ip.pixX s.ip.pixY * η :=
      mul_le_mul_of_nonneg_left hd (le_max_of_le_left hp.1.le)
    rw [← h] at this
    rcases he.lens with ⟨hl, htol, hε⟩ | ⟨κ, hl, htol, hε⟩
    · refine (C136_lens c.1.ap c.1.xh c.1.yh s.tol R f _ hl htol (he.radius f hi) hR).trans ?_
      rw [flatError] at hε
      linarith
    · have hR0 := hl.radius
      refine (C147_flat c.1.ap c.1.xh c.1.yh (10 / 9 * R) κ s.tol f _ hl htol (by linarith [he.radius f hi]) (by linarith)).trans ?_
      rw [weakFlatError] at hε
      linarith

/-- C136, C147, new particles: cameras with mild or weak lenses behind which a window lies, and a particle at `X`. If, near the image of the
expected position `pos`, the nearest free targets are within `η` pixels of the images of the particle, in at least two cameras, then
`assess_new_position` finds at least two and `point_position` of what it returns is within `δ (1 + 2/σ)` of `X`. -/
theorem C136_new_position (s : Setup) (pos X : V3) (targets : List (List (Search.Tgt ℝ))) (d n2 R η ε δ σ : ℝ)
    (him : (s.ip.imx : ℝ) ≤ 10 ^ 19 ∧ (s.ip.imy : ℝ) ≤ 10 ^ 19) (hn : targets.length = s.cals.length)
    (hs : ∀ ts ∈ targets, (ts.map Search.Tgt.y).Pairwise (· ≤ ·) ∧ ts.length < 8190)
    (hpos : ∀ cam, cam < s.cals.length → ∃ px, s.pix cam pos = .ok px)
    (hσ : 0 < σ) (hX : RigSeesMildly s X d n2 R η ε δ σ) (hT : TargetsNear s targets pos X R η) :
    ∃ q ps inds M, assessNew s.cams pos targets = .ok (q, ps, inds) ∧ 2 ≤ q ∧ s.position ps = .ok M ∧
      (M - X).norm ≤ δ * (1 + 2 / σ) := by
  classical
  have : ∀ cam, ∃ px, cam < s.cals.length → s.pix cam pos = .ok px := fun cam => by
    by_cases h : cam < s.cals.length
    · exact (hpos cam h).imp fun _ h _ => h
    · exact ⟨0, fun h' => absurd h' h⟩
  choose px hpx using this
  obtain ⟨q, ps, inds, h1, h2, -, h4, S, h5, h6⟩ := C80_assess_partial s.cams pos targets him hn hs px hpx
  have hnum : s.cams.num = s.cals.length := rfl
  rw [hnum] at h2 h4 h6
  have cam_of : ∀ cam, cam < s.cals.length → ∃ c, s.cals[cam]? = some c ∧ SeesMildly s c X d R η ε δ := fun cam h =>
    ⟨_, List.getElem?_eq_getElem h, hX.cams _ (List.getElem_mem h)⟩
  have shown : ∀ cam, cam < s.cals.length → ∀ i t, NearestFree s.cams targets (px cam) cam i t →
      ∃ c f, s.cals[cam]? = some c ∧ SeesMildly s c X d R η ε δ ∧ flatImageCoord X c.1 emptyLUT s.mm = some f ∧
        imageDist f (s.flat cam (t.x, t.y)) ≤ ε := by
    intro cam h i t hf
    obtain ⟨c, hc, he⟩ := cam_of cam h
    obtain ⟨p, e1, e2, e3⟩ := hT.shown cam _ i t (hpx cam h) hf
    obtain ⟨f, f1, f2⟩ := flat_near_pix (t := (t.x, t.y)) hX.pixels hc he e1 e2 e3
    exact ⟨c, f, hc, he, f1, f2⟩
  have hused : ∀ cam, cam < s.cals.length → (∃ i, FreeNear s.cams targets (px cam) cam i) →
      cam ∈ usedCams ps s.cals.length := by
    intro cam h hf
    rcases h4 cam h with ⟨e, -⟩ | ⟨i, t, e, e', -⟩
    · obtain ⟨i, hi⟩ := hf
      exact absurd hi (e i)
    · obtain ⟨c, f, -, he, hfl, hd⟩ := shown cam h i t e
      simp only [usedCams, Finset.mem_filter, Finset.mem_range]
      exact ⟨h, _, e', he.mark f _ hfl hd⟩
  obtain ⟨a, b, hab, hb, ⟨pa, ia, ha1, ha2⟩, pb, ib, hb1, hb2⟩ := hT.two
  have ea : pa = px a := by
    have := hpx a (by omega)
    rw [ha1] at this
    exact Except.ok.inj this
  have eb : pb = px b := by
    have := hpx b hb
    rw [hb1] at this
    exact Except.ok.inj this
  subst ea eb
  have from_used : ∀ cam, cam < s.cals.length → ∀ t, ps[cam]? = some t → t.1 ≠ coordUnused →
      ∃ c f, s.cals[cam]? = some c ∧ SeesMildly s c X d R η ε δ ∧ flatImageCoord X c.1 emptyLUT s.mm = some f ∧
        imageDist f t ≤ ε := by
    intro cam hcam t ht hne
    rcases h4 cam hcam with ⟨-, e, -⟩ | ⟨i, t', e, e', -⟩
    · rw [ht] at e
      cases e
      exact absurd (by norm_num [COORD_UNUSED, coordUnused]) hne
    · obtain ⟨c, f, hc, he, hfl, hd⟩ := shown cam hcam i t' e
      rw [ht] at e'
      cases e'
      exact ⟨c, f, hc, he, hfl, hd⟩
  have hwas : ∀ cam, cam ∈ usedCams ps s.cals.length → cam < s.cals.length ∧ ∃ t, ps[cam]? = some t ∧ t.1 ≠ coordUnused := by
    intro cam hu
    simp only [usedCams, Finset.mem_filter, Finset.mem_range] at hu
    exact hu
  obtain ⟨D, M, key, -, -, hM⟩ := C136_position X ps s.cals.length s.mm (s.cals.map Prod.fst) d n2 ε δ σ (by omega)
    hX.media hσ (by
      intro cam hcam t ht hne
      obtain ⟨c, f, hc, he, hfl, hd⟩ := from_used cam hcam t ht hne
      exact ⟨c.1, f, by rw [List.getElem?_map, hc]; rfl, he.sees, hfl, hd⟩) (by
      intro i j ti tj ci cj Xi ai Xj aj hij hi hj hti htj hci hcj hri hrj
      rw [List.getElem?_map, Option.map_eq_some_iff] at hci hcj
      obtain ⟨ci, hci, rfl⟩ := hci
      obtain ⟨cj, hcj, rfl⟩ := hcj
      obtain ⟨hil, ti', hti', hni⟩ := hwas i hi
      obtain ⟨hjl, tj', htj', hnj⟩ := hwas j hj
      rw [hti] at hti'
      rw [htj] at htj'
      cases hti'
      cases htj'
      obtain ⟨ci', fi, hci', -, hfi, hdi⟩ := from_used i hil ti hti hni
      obtain ⟨cj', fj, hcj', -, hfj, hdj⟩ := from_used j hjl tj htj hnj
      rw [hci] at hci'
      rw [hcj] at hcj'
      cases hci'
      cases hcj'
      exact getElem?_pairwise hX.cross hij hci hcj fi fj ti tj Xi ai Xj aj hfi hfj hdi hdj hri hrj)
    (Finset.one_lt_card.2 ⟨a, hused a (by omega) ⟨ia, ha2⟩, b, hused b hb ⟨ib, hb2⟩, by omega⟩)
  refine ⟨q, ps, inds, M, h1, ?_, ?_, hM⟩
  · rw [h5]
    exact Finset.one_lt_card.2 ⟨a, (h6 a).2 ⟨by omega, ia, ha2⟩, b, (h6 b).2 ⟨hb, ib, hb2⟩, by omega⟩
  · simp only [Setup.position, key]

end Verif.Track
