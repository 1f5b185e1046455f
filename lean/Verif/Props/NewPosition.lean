/-
C103: a position that the tracker makes from unmatched targets is where the particle is.
-/
import Verif.Props.LoneTrack
import Verif.Props.ImgCoord
import Verif.Props.Orientation

set_option linter.unusedSectionVars false

namespace Verif.Track
open Verif.Track.Spec Verif.Geo Verif.Geo.Spec

/-! ### Specification -/

/-- The camera (calibration and look-up table) sees `X` as a pinhole does, up to scale and shear: no look-up table, no lens
distortion; its image of `X` is not the number that marks an unused coordinate. -/
structure SeesExactly (s : Setup) (c : Cam × LUT) (X : V3) : Prop where
  lut : c.2 = emptyLUT
  k1 : c.1.ap.k1 = 0
  k2 : c.1.ap.k2 = 0
  k3 : c.1.ap.k3 = 0
  p1 : c.1.ap.p1 = 0
  p2 : c.1.ap.p2 = 0
  scale : c.1.ap.scx ≠ 0
  shear : Real.cos c.1.ap.she ≠ 0
  sees : Sees c.1 X
  mark : ∀ f, flatImageCoord X c.1 emptyLUT s.mm = some f → f.1 ≠ coordUnused

/-- Every camera sees `X`, no two of them on one line with it; one refractive index, and pixels have a size. -/
structure RigSees (s : Setup) (X : V3) : Prop where
  media : OneIndex s.mm
  pixels : s.ip.pixX ≠ 0 ∧ s.ip.pixY ≠ 0
  cams : ∀ c ∈ s.cals, SeesExactly s c X
  apart : s.cals.Pairwise fun c c' => NotParallel (X - c.1.pos) (X - c'.1.pos)

/-- In every camera, the free target that is nearest to the image of `pos` (if there is one within 3 pixels) is the image of
`X`; at least two cameras have one. -/
structure TargetsShow (s : Setup) (targets : List (List (Search.Tgt ℝ))) (pos X : V3) : Prop where
  shown : ∀ cam px i t, s.pix cam pos = .ok px → NearestFree s.cams targets px cam i t → s.pix cam X = .ok (t.x, t.y)
  two : ∃ a b, a < b ∧ b < s.cals.length ∧ (∃ px i, s.pix a pos = .ok px ∧ FreeNear s.cams targets px a i) ∧
    ∃ px i, s.pix b pos = .ok px ∧ FreeNear s.cams targets px b i

/-! ### Proof -/

/-- The image of `X`, made flat, is its flat projection. -/
theorem flat_of_pix {s : Setup} {X : V3} {cam : Nat} {p : ℝ × ℝ} {c : Cam × LUT} (hp : s.ip.pixX ≠ 0 ∧ s.ip.pixY ≠ 0)
    (hc : s.cals[cam]? = some c) (he : SeesExactly s c X) (h : s.pix cam X = .ok p) :
    flatImageCoord X c.1 emptyLUT s.mm = some (s.flat cam p) := by
  simp only [Setup.pix, hc, pointToPixel] at h
  cases hi : imgCoord X c.1 c.2 s.mm with
  | none => rw [hi] at h; simp [orRaise] at h
  | some q =>
    rw [hi] at h
    simp only [orRaise, Option.map_some, Except.ok.injEq] at h
    rw [← h]
    simp only [Setup.flat, hc]
    rw [(C23_inverse s.ip hp.1 hp.2 q.1 q.2).2]
    rw [he.lut] at hi
    exact C66_corrected X c.1 emptyLUT s.mm s.tol q he.k1 he.k2 he.k3 he.p1 he.p2 he.scale he.shear hi

theorem getElem?_pairwise {α : Type} {R : α → α → Prop} {l : List α} (h : l.Pairwise R) {i j : Nat} {a b : α} (hij : i < j)
    (ha : l[i]? = some a) (hb : l[j]? = some b) : R a b := by
  obtain ⟨h1, rfl⟩ := List.getElem?_eq_some_iff.1 ha
  obtain ⟨h2, rfl⟩ := List.getElem?_eq_some_iff.1 hb
  exact List.pairwise_iff_getElem.1 h i j h1 h2 hij

/-- C103 (partial): take any cameras without lens distortion, in media of one refractive index, and any particle at `X`, no two
cameras on a line with it. If, near the image of the expected position `pos`, the nearest free targets are images of the particle,
in at least two cameras, then `assess_new_position` finds at least two and `point_position` of what it returns is `X` exactly,
whatever the other cameras show. Missing: lens distortion (`dist_to_flat` stops at a tolerance) and refraction
(`point_position` is exact there too only as far as C27, C64 go); longer target lists (C13). -/
theorem C103_position_partial (s : Setup) (pos X : V3) (targets : List (List (Search.Tgt ℝ)))
    (him : (s.ip.imx : ℝ) ≤ 10 ^ 19 ∧ (s.ip.imy : ℝ) ≤ 10 ^ 19) (hn : targets.length = s.cals.length)
    (hs : ∀ ts ∈ targets, (ts.map Search.Tgt.y).Pairwise (· ≤ ·) ∧ ts.length < 8190)
    (hpos : ∀ cam, cam < s.cals.length → ∃ px, s.pix cam pos = .ok px)
    (hX : RigSees s X) (hT : TargetsShow s targets pos X) :
    ∃ q ps inds, assessNew s.cams pos targets = .ok (q, ps, inds) ∧ 2 ≤ q ∧ s.position ps = .ok X := by
  classical
  have : ∀ cam, ∃ px, cam < s.cals.length → s.pix cam pos = .ok px := fun cam => by
    by_cases h : cam < s.cals.length
    · exact (hpos cam h).imp fun _ h _ => h
    · exact ⟨0, fun h' => absurd h' h⟩
  choose px hpx using this
  obtain ⟨q, ps, inds, h1, h2, -, h4, S, h5, h6⟩ := C80_assess_partial s.cams pos targets him hn hs px hpx
  have hnum : s.cams.num = s.cals.length := rfl
  rw [hnum] at h2 h4 h6
  have cam_of : ∀ cam, cam < s.cals.length → ∃ c, s.cals[cam]? = some c ∧ SeesExactly s c X := fun cam h =>
    ⟨_, List.getElem?_eq_getElem h, hX.cams _ (List.getElem_mem h)⟩
  have shown : ∀ cam, cam < s.cals.length → ∀ i t, NearestFree s.cams targets (px cam) cam i t →
      ∃ c, s.cals[cam]? = some c ∧ SeesExactly s c X ∧
        flatImageCoord X c.1 emptyLUT s.mm = some (s.flat cam (t.x, t.y)) := by
    intro cam h i t hf
    obtain ⟨c, hc, he⟩ := cam_of cam h
    exact ⟨c, hc, he, flat_of_pix hX.pixels hc he (hT.shown cam _ i t (hpx cam h) hf)⟩
  have hused : ∀ cam, cam < s.cals.length → (∃ i, FreeNear s.cams targets (px cam) cam i) →
      cam ∈ usedCams ps s.cals.length := by
    intro cam h hf
    rcases h4 cam h with ⟨e, -⟩ | ⟨i, t, e, e', -⟩
    · obtain ⟨i, hi⟩ := hf
      exact absurd hi (e i)
    · obtain ⟨c, -, he, hfl⟩ := shown cam h i t e
      simp only [usedCams, Finset.mem_filter, Finset.mem_range]
      exact ⟨h, _, e', he.mark _ hfl⟩
  obtain ⟨a, b, hab, hb, ⟨pa, ia, ha1, ha2⟩, pb, ib, hb1, hb2⟩ := hT.two
  have ea : pa = px a := by
    have := hpx a (by omega)
    rw [ha1] at this
    exact Except.ok.inj this
  have eb : pb = px b := by
    have := hpx b hb
    rw [hb1] at this
    exact Except.ok.inj this
  subst ea eb
  refine ⟨q, ps, inds, h1, ?_, ?_⟩
  · rw [h5]
    exact Finset.one_lt_card.2 ⟨a, (h6 a).2 ⟨by omega, ia, ha2⟩, b, (h6 b).2 ⟨hb, ib, hb2⟩, by omega⟩
  · have key : pointPosition ps s.cals.length s.mm (s.cals.map Prod.fst) = .ok (some (0, X)) := by
      refine C60_triangulation_recovers X ps s.cals.length s.mm _ (by omega) hX.media ?_ ?_ ?_
      · intro cam hcam t ht hne
        rcases h4 cam hcam with ⟨-, e, -⟩ | ⟨i, t', e, e', -⟩
        · rw [ht] at e
          cases e
          exact absurd (by norm_num [COORD_UNUSED, coordUnused]) hne
        · obtain ⟨c, hc, he, hfl⟩ := shown cam hcam i t' e
          rw [ht] at e'
          cases e'
          exact ⟨c.1, by rw [List.getElem?_map, hc]; rfl, he.sees, hfl⟩
      · intro i j ci cj hij hi hj hci hcj
        rw [List.getElem?_map, Option.map_eq_some_iff] at hci hcj
        obtain ⟨ci, hci, rfl⟩ := hci
        obtain ⟨cj, hcj, rfl⟩ := hcj
        exact getElem?_pairwise hX.apart hij hci hcj
      · exact Finset.one_lt_card.2 ⟨a, hused a (by omega) ⟨ia, ha2⟩, b, hused b hb ⟨ib, hb2⟩, by omega⟩
    simp only [Setup.position, key]

/-- C103 (partial), in the tracking step with adding on: a particle that came from `y0` and is now at `p.x`, expected at
`2 p.x - y0`. Let `b2c` be the next frame as it is when the particle's turn comes. If the unmatched targets of `b2c` near the
expected position show a particle at `X`, `X` is inside the volume, `expected - X` inside the velocity limits, and angle
and acceleration over `y0`, `p.x`, `X` are accepted, then the particle gets a link (or what it prefers goes to another one).
`w` is the search list of the next frame. Missing: as in `C103_position_partial`; and the case that nothing else is near
(`C94_nothing_near_skipped_partial`: the code skips the particle). -/
theorem C103_added_partial (s : Setup) (him : (s.ip.imx : ℝ) ≤ 10 ^ 19 ∧ (s.ip.imy : ℝ) ≤ 10 ^ 19)
    (h4 : s.cals.length ≤ 4) (b0 b1 b2 b3 b1' b2' b3' : Frame V3 ℝ (Img ℝ)) (cnt : Nat)
    (hs : stepFrames s.tracker b0 b1 b2 b3 = .ok (b1', b2', b3', cnt))
    (hn : ∀ p ∈ b1.parts, p.next = NEXT_NONE) (hp : ∀ q ∈ b2.parts, q.prev = PREV_NONE)
    (i : Nat) (p : Part V3 ℝ) (y0 : V3) (hpi : b1.parts[i]? = some p)
    (hx0 : Predecessor (b0.parts.map Part.x) p (some y0)) (ha : s.add = true) :
    ∃ b2c b3a, AtTurn s.tracker b0 b1 b2 b3 i b2c b3a ∧
      ∀ w X angle acc, s.tracker.search (p.x.smul 2 - y0) (s.proj (p.x.smul 2 - y0)) b2c.img = .ok w → w.length ≠ 1 →
        b2c.img.targets.length = s.cals.length →
        (∀ ts ∈ b2c.img.targets, (ts.map Search.Tgt.y).Pairwise (· ≤ ·) ∧ ts.length < 8190) →
        (∀ cam, cam < s.cals.length → ∃ px, s.pix cam (p.x.smul 2 - y0) = .ok px) →
        RigSees s X → TargetsShow s b2c.img.targets (p.x.smul 2 - y0) X →
        (s.lo.x < X.x ∧ X.x < s.hi.x) ∧ (s.lo.y < X.y ∧ X.y < s.hi.y) ∧ (s.lo.z < X.z ∧ X.z < s.hi.z) →
        Pos3dInBounds (p.x.smul 2 - y0 - X) s.vel →
        angleAcc p.x (p.x.smul 2 - y0) X = .ok (angle, acc) → Smooth s.tracker angle acc →
        ∃ d, Served s.tracker (some y0) p.x b2.img b3.img b1'.parts b2'.parts b3'.parts i d := by
  have hg : SearchSane s.tracker := C81_search_sane s.cams _ him h4
  obtain ⟨b2c, b3a, e1, e2⟩ := C94_lost_added_partial s.tracker hg b0 b1 b2 b3 b1' b2' b3' cnt hs hn hp i p (some y0) hpi hx0 ha
  refine ⟨b2c, b3a, e1, ?_⟩
  intro w X angle acc hw hl hlen hts hpos hR hT hvol hb hang hsm
  have hexp : expected s.tracker (some y0) p.x = p.x.smul 2 - y0 := by
    show searchVolumeCenterMoving y0 p.x = _
    ext <;> simp [searchVolumeCenterMoving]
  rw [hexp] at e2
  refine e2 w hw hl ?_
  obtain ⟨q, ps, inds, f1, f2, f3⟩ := C103_position_partial s (p.x.smul 2 - y0) X b2c.img.targets him hlen hts hpos hR hT
  refine ⟨rfl, q, ps, inds, X, angle, acc, ?_, f2, f3, ?_, ?_, ?_, hsm⟩
  · rw [hexp]
    exact f1
  · show s.inVolume X = true
    simp only [Setup.inVolume, decide_eq_true_eq]
    exact hvol
  · rw [hexp]
    exact @decide_eq_true _ (Classical.propDecidable _) hb
  · rw [hexp]
    exact hang

/-! ### Examples: two cameras in air, a particle and unmatched targets -/

theorem downCam_sees (q p : ℝ) : Sees (downCam q) ⟨p, 0, 0⟩ := by
  refine ⟨⟨0, 0, 0, ?_⟩, by norm_num [downCam], ?_, ?_, ?_⟩
  · simp [downCam, rotationMatrix]
  · intro e
    have := congrArg V3.z e
    norm_num [downCam] at this
  · norm_num [downCam, V3.dot, M3.c2]
  · norm_num [downCam, V3.dot]

theorem airSetup_rig (p : ℝ) (hp : -1000 < p) : RigSees airSetup ⟨p, 0, 0⟩ := by
  have hone : OneIndex airSetup.mm := ⟨by norm_num [airSetup], ⟨[], rfl⟩, rfl, by simp [airSetup], by simp [airSetup]⟩
  refine ⟨hone, by norm_num [airSetup], ?_, ?_⟩
  · have key : ∀ q : ℝ, q ≤ 10 → SeesExactly airSetup (downCam q, emptyLUT) ⟨p, 0, 0⟩ := by
      intro q hq
      refine ⟨rfl, rfl, rfl, rfl, rfl, rfl, ?_, ?_, downCam_sees q p, ?_⟩
      · norm_num [downCam, defaultAddPar]
      · simp [downCam, defaultAddPar]
      · intro f hf
        rw [(trace_projection (downCam_sees q p) hone).1] at hf
        cases hf
        have : (pinhole (downCam q).pos (downCam q).dm (downCam q).cc ⟨p, 0, 0⟩).1 = (p - q) / 2 := by
          simp [pinhole, downCam]
          ring
        rw [this]
        simp only [coordUnused]
        intro e
        linarith
    intro c hc
    simp only [airSetup, List.mem_cons, List.not_mem_nil, or_false] at hc
    rcases hc with rfl | rfl <;> exact key _ (by norm_num)
  · simp only [airSetup, List.pairwise_cons, List.mem_cons, List.not_mem_nil, or_false, forall_eq, false_imp_iff, implies_true,
      List.Pairwise.nil, and_true]
    intro a b e
    have hx := congrArg V3.x e
    have hz := congrArg V3.z e
    simp [downCam, V3.smul] at hx hz
    subst hz
    have : a = 0 := by linarith
    exact ⟨this, this⟩

/-- A particle (number 0) at `(p, 0, 0)` and unmatched targets of one at `(x, 0, 0)`. -/
noncomputable def twoImg (p x : ℝ) : Img ℝ :=
  ⟨[[⟨5 * (p - 0) + 500, 500, 0⟩, ⟨5 * (x - 0) + 500, 500, -1⟩], [⟨5 * (p - 10) + 500, 500, 0⟩, ⟨5 * (x - 10) + 500, 500, -1⟩]],
    [⟨1, [0, 0]⟩], by
    intro ts hts t ht
    simp only [List.mem_cons, List.not_mem_nil, or_false] at hts
    rcases hts with rfl | rfl <;> simp only [List.mem_cons, List.not_mem_nil, or_false] at ht <;> rcases ht with rfl | rfl <;> norm_num⟩

theorem airSetup_pix (p : ℝ) (cam : Nat) (h : cam < airSetup.cals.length) :
    airSetup.pix cam ⟨p, 0, 0⟩ = .ok (5 * (p - 10 * cam) + 500, 500) := by
  have hc : cam = 0 ∨ cam = 1 := by
    have : cam < 2 := h
    omega
  rcases hc with rfl | rfl
  · have : airSetup.cals[0]? = some (downCam 0, emptyLUT) := rfl
    simp only [Setup.pix, this, airSetup_pixel, orRaise]
    norm_num
  · have : airSetup.cals[1]? = some (downCam 10, emptyLUT) := rfl
    simp only [Setup.pix, this, airSetup_pixel, orRaise]
    norm_num

theorem twoImg_targets (p x : ℝ) (cam : Nat) (h : cam < airSetup.cals.length) : (twoImg p x).targets[cam]? =
    some [⟨5 * (p - 10 * cam) + 500, 500, 0⟩, ⟨5 * (x - 10 * cam) + 500, 500, -1⟩] := by
  have hc : cam = 0 ∨ cam = 1 := by
    have : cam < 2 := h
    omega
  rcases hc with rfl | rfl <;> norm_num [twoImg]

/-- Looking from `(e, 0, 0)`, at most half a millimetre away, the free targets show `(x, 0, 0)`. -/
theorem twoImg_show (p x e : ℝ) (hx : 0 < x ∧ x < 40) (he : 0 < e ∧ e < 40) (hex : |x - e| < 1 / 2) :
    TargetsShow airSetup (twoImg p x).targets ⟨e, 0, 0⟩ ⟨x, 0, 0⟩ := by
  have hex' := abs_lt.1 hex
  have free : ∀ cam, cam < airSetup.cals.length →
      FreeNear airSetup.cams (twoImg p x).targets (5 * (e - 10 * cam) + 500, 500) cam 1 := by
    intro cam hc
    have hc' : (cam : ℝ) ≤ 1 := by
      have : cam < 2 := hc
      exact_mod_cast (by omega : cam ≤ 1)
    have hc0 : (0 : ℝ) ≤ cam := Nat.cast_nonneg _
    have hix : airSetup.cams.imx = 1000 ∧ airSetup.cams.imy = 1000 := by simp [Setup.cams, airSetup]
    rw [FreeNear, hix.1, hix.2]
    refine ⟨⟨by simp only; linarith, by simp only; linarith, by norm_num, by norm_num⟩, _, twoImg_targets p x cam hc, _, rfl, rfl, ?_, ?_⟩
    · simp only [max_lt_iff, lt_min_iff]
      refine ⟨⟨?_, ?_⟩, ?_, ?_⟩ <;> linarith
    · norm_num
  refine ⟨?_, 0, 1, by omega, by simp [airSetup], ⟨_, 1, airSetup_pix e 0 (by simp [airSetup]), free 0 (by simp [airSetup])⟩,
    _, 1, airSetup_pix e 1 (by simp [airSetup]), free 1 (by simp [airSetup])⟩
  intro cam px i t hpx hn
  have hc : cam < airSetup.cals.length := by
    by_contra h
    rw [Setup.pix, List.getElem?_eq_none (by omega)] at hpx
    cases hpx
  obtain ⟨⟨-, ts, h1, t', h2, h3, -⟩, ts', h4, h5, -⟩ := hn
  rw [h1] at h4
  cases h4
  rw [h2] at h5
  cases h5
  rw [twoImg_targets p x cam hc] at h1
  cases h1
  rw [airSetup_pix x cam hc]
  match i with
  | 0 => simp at h2; subst h2; simp at h3
  | 1 => simp at h2; subst h2; rfl
  | i + 2 => simp at h2

/-- C103_position: the free targets near the image of `(2, 0, 0)` are those of a particle at `(2.2, 0, 0)`. -/
example : ∃ q ps inds, assessNew airSetup.cams ⟨2, 0, 0⟩ (twoImg 3 2.2).targets = .ok (q, ps, inds) ∧ 2 ≤ q ∧
    airSetup.position ps = .ok ⟨2.2, 0, 0⟩ := by
  refine C103_position_partial airSetup ⟨2, 0, 0⟩ ⟨2.2, 0, 0⟩ _ (by norm_num [airSetup]) rfl ?_ ?_ (airSetup_rig _ (by norm_num))
    (twoImg_show 3 2.2 2 (by norm_num) (by norm_num) (by norm_num [abs_lt]))
  · intro ts hts
    simp only [twoImg, List.mem_cons, List.not_mem_nil, or_false] at hts
    rcases hts with rfl | rfl <;> simp
  · intro cam hc
    exact ⟨_, airSetup_pix _ cam hc⟩

end Verif.Track
