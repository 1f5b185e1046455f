/-
C136, new particles in the tracking step.
-/
import Verif.Props.MeasuredEx
import Verif.Props.NoRaiseAdd

namespace Verif.Track
open Verif.Track.Spec Verif.Geo Verif.Geo.Spec

/-- Whatever is measured within `r` of the particle at `X` would be accepted as the next position of a particle that came from `y0` and
is at `y`: inside the measurement volume, its difference to the expected position inside the velocity limits, angle and acceleration
accepted. -/
def AcceptedAround (s : Setup) (y0 y X : V3) (r : ℝ) : Prop :=
  ∀ M, (M - X).norm ≤ r →
    ((s.lo.x < M.x ∧ M.x < s.hi.x) ∧ (s.lo.y < M.y ∧ M.y < s.hi.y) ∧ (s.lo.z < M.z ∧ M.z < s.hi.z)) ∧
    Pos3dInBounds (y.smul 2 - y0 - M) s.vel ∧
    ∃ angle acc, angleAcc y (y.smul 2 - y0) M = .ok (angle, acc) ∧ Smooth s.tracker angle acc

/-- C136, in the tracking step with adding on, for cameras with mild lenses over a window: a particle that came from `y0` and is now at
`p.x`, expected at `2 p.x - y0`. Let `b2c` be the next frame as it is when the particle's turn comes. If the nearest unmatched targets
of `b2c` at the image of the expected position are within `η` pixels of the images of a particle at `X`, and all positions within the
measurement error of `X` would be accepted, then the particle gets a link (or what it prefers goes to another one). `w` is the search
list of the next frame. -/
theorem C136_added (s : Setup) (him : (s.ip.imx : ℝ) ≤ 10 ^ 19 ∧ (s.ip.imy : ℝ) ≤ 10 ^ 19)
    (h4 : s.cals.length ≤ 4) (b0 b1 b2 b3 b1' b2' b3' : Frame V3 ℝ (Img ℝ)) (cnt : Nat)
    (hs : stepFrames s.tracker b0 b1 b2 b3 = .ok (b1', b2', b3', cnt))
    (hn : ∀ p ∈ b1.parts, p.next = NEXT_NONE) (hp : ∀ q ∈ b2.parts, q.prev = PREV_NONE)
    (i : Nat) (p : Part V3 ℝ) (y0 : V3) (hpi : b1.parts[i]? = some p)
    (hx0 : Predecessor (b0.parts.map Part.x) p (some y0)) (ha : s.add = true) :
    ∃ b2c b3a, AtTurn s.tracker b0 b1 b2 b3 i b2c b3a ∧
      ∀ w X d n2 R η ε δ σ, s.tracker.search (p.x.smul 2 - y0) (s.proj (p.x.smul 2 - y0)) b2c.img = .ok w → w.length ≠ 1 →
        b2c.img.targets.length = s.cals.length →
        (∀ ts ∈ b2c.img.targets, (ts.map Search.Tgt.y).Pairwise (· ≤ ·) ∧ ts.length < 8190) →
        (∀ cam, cam < s.cals.length → ∃ px, s.pix cam (p.x.smul 2 - y0) = .ok px) →
        0 < σ → RigSeesMildly s X d n2 R η ε δ σ → TargetsNear s b2c.img.targets (p.x.smul 2 - y0) X R η →
        AcceptedAround s y0 p.x X (δ * (1 + 2 / σ)) →
        ∃ d, Served s.tracker (some y0) p.x b2.img b3.img b1'.parts b2'.parts b3'.parts i d := by
  have hg : SearchSane s.tracker := C81_search_sane s.cams _ him h4
  obtain ⟨b2c, b3a, e1, e2⟩ := C94_lost_added_partial s.tracker hg b0 b1 b2 b3 b1' b2' b3' cnt hs hn hp i p (some y0) hpi hx0 ha
  refine ⟨b2c, b3a, e1, ?_⟩
  intro w X d n2 R η ε δ σ hw hl hlen hts hpos hσ hR hT hacc
  have hexp : expected s.tracker (some y0) p.x = p.x.smul 2 - y0 := by
    show searchVolumeCenterMoving y0 p.x = _
    ext <;> simp [searchVolumeCenterMoving]
  rw [hexp] at e2
  refine e2 w hw hl ?_
  obtain ⟨q, ps, inds, M, f1, f2, f3, f4⟩ :=
    C136_new_position s (p.x.smul 2 - y0) X b2c.img.targets d n2 R η ε δ σ him hlen hts hpos hσ hR hT
  obtain ⟨hvol, hb, angle, acc, hang, hsm⟩ := hacc M f4
  refine ⟨rfl, q, ps, inds, M, angle, acc, ?_, f2, f3, ?_, ?_, ?_, hsm⟩
  · rw [hexp]
    exact f1
  · show s.inVolume M = true
    simp only [Setup.inVolume, decide_eq_true_eq]
    exact hvol
  · rw [hexp]
    exact @decide_eq_true _ (Classical.propDecidable _) hb
  · rw [hexp]
    exact hang

end Verif.Track

namespace Verif.Geo
open V3 Spec Verif.Track

/-! Example: the step of C103, for which the particle at `(2, 0, 0)` has to be added. The iteration of the lens correction alone brings
an error of 0.008 mm in the image plane. -/

theorem downCam_through (q : ℝ) : SeesThrough (downCam q) 1 ⟨2, 0, 0⟩ where
  rot := (downCam_sees q 2).rot
  glass := by intro h; have := congrArg V3.z h; simp [downCam] at this
  camera := by simp only [downCam, glassCam_height, glassCam_norm]; norm_num
  behind := by simp only [downCam, glassCam_height, glassCam_norm]; norm_num
  front := by norm_num [downCam, M3.c2, dot]
  window := by
    simp only [downCam, windowAbove, glassCam_height, glassCam_norm, M3.c2, dot]; norm_num

theorem airPlate : OnePlate ⟨1, 1, [1], 1, [1]⟩ 1 1 :=
  ⟨rfl, rfl, rfl, by norm_num, by norm_num, by norm_num, by norm_num⟩

theorem downCam_reach {q : ℝ} (hq : q = 0 ∨ q = 10) : 0 ≤ reach (downCam q) 1 ⟨2, 0, 0⟩ ∧ reach (downCam q) 1 ⟨2, 0, 0⟩ ≤ 101.4 := by
  simp only [reach, windowAbove, downCam, glassCam_height, glassCam_norm]
  rw [show (⟨2, 0, 0⟩ : V3) + (⟨0, 0, 50⟩ : V3).smul ((50 + 1 - 0) / 50) - ⟨q, 0, 100⟩ = ⟨2 - q, 0, -49⟩ by ext <;> norm_num]
  have h1 : (⟨2 - q, 0, -49⟩ : V3).norm ≤ 49.65 := by
    rw [V3.norm]
    apply Real.sqrt_le_iff.2
    rcases hq with rfl | rfl <;> norm_num
  have h0 := V3.norm_nonneg (⟨2 - q, 0, -49⟩ : V3)
  constructor
  · have : (0 : ℝ) ≤ (100 - 0) / (100 - 50 - 1) := by norm_num
    positivity
  · linarith

theorem downCam_object {q : ℝ} (hq : q = 0 ∨ q = 10) : objectError (downCam q) 1 ⟨2, 0, 0⟩ 0.008 ≤ 0.01623 := by
  obtain ⟨h1, h2⟩ := downCam_reach hq
  rw [objectError, show (downCam q).cc = 50 from rfl, abs_of_pos (by norm_num)]
  linarith

theorem downCam_within {q : ℝ} (hq : q = 0 ∨ q = 10) : SeesWithin (downCam q) 1 ⟨2, 0, 0⟩ 0.008 0.034 := by
  obtain ⟨h1, h2⟩ := downCam_reach hq
  have h3 := downCam_object hq
  have hH : height (downCam q).glass (downCam q).pos - height (downCam q).glass ⟨2, 0, 0⟩ = 100 := by
    simp only [downCam, glassCam_height]; norm_num
  have ho : offNormal (downCam q) ⟨2, 0, 0⟩ ≤ 8 := by
    simp only [offNormal, downCam, glassCam_height, glassCam_norm]
    rw [show (⟨2, 0, 0⟩ : V3) - ⟨q, 0, 100⟩ - (⟨0, 0, 50⟩ : V3).smul ((0 - 100) / 50) = ⟨2 - q, 0, 0⟩ by ext <;> norm_num]
    rw [V3.norm]
    apply Real.sqrt_le_iff.2
    rcases hq with rfl | rfl <;> norm_num
  have h4 : sightError (downCam q) 1 ⟨2, 0, 0⟩ ≤ 0.00105 := by
    have hs : sightError (downCam q) 1 ⟨2, 0, 0⟩ = 51 / 49 * max 0.001 ((51 / 100) ^ 40 * offNormal (downCam q) ⟨2, 0, 0⟩) := by
      rw [sightError]
      simp only [show (downCam q).glass = ⟨0, 0, 50⟩ from rfl, show (downCam q).pos = ⟨q, 0, 100⟩ from rfl, glassCam_height, glassCam_norm]
      norm_num
    rw [hs, max_eq_left (by
      have : (51 / 100 : ℝ) ^ 40 ≤ 0.0001 := by norm_num
      have h0 : (0 : ℝ) ≤ (51 / 100) ^ 40 := by positivity
      nlinarith)]
    norm_num
  refine ⟨downCam_through q, by rw [hH]; linarith, ?_⟩
  have h5 : 0 ≤ objectError (downCam q) 1 ⟨2, 0, 0⟩ 0.008 := by rw [objectError]; positivity
  rw [measuredError, hH]
  have h6 : objectError (downCam q) 1 ⟨2, 0, 0⟩ 0.008 * (2 * reach (downCam q) 1 ⟨2, 0, 0⟩) / (100 - objectError (downCam q) 1 ⟨2, 0, 0⟩ 0.008)
      ≤ 0.03295 := by
    rw [div_le_iff₀ (by linarith)]
    nlinarith
  linarith

theorem downCam_image (q : ℝ) : flatImageCoord ⟨2, 0, 0⟩ (downCam q) emptyLUT ⟨1, 1, [1], 1, [1]⟩ = some ((2 - q) / 2, 0) := by
  have hone : OneIndex ⟨1, 1, [1], 1, [1]⟩ := ⟨by norm_num, ⟨[], rfl⟩, rfl, by simp, by simp⟩
  rw [(trace_projection (downCam_sees q 2) hone).1]
  simp only [pinhole, downCam]
  norm_num
  ring

theorem down_numbers {p y z N s o k : ℝ} (hp1 : 1.98 ≤ p) (hp2 : p ≤ 16.4) (hy : y ^ 2 ≤ 0.01623 ^ 2)
    (hz : -0.01623 ≤ z ∧ z ≤ 0.01623) (hN : N ^ 2 = p ^ 2 + y ^ 2 + (-100 + z) ^ 2) (hN0 : 0 < N) (hs : s * N = p)
    (ho : o * N = y) (hk : s ^ 2 + o ^ 2 + k ^ 2 = 1) (hk0 : 0 < k) :
    0.0193 ≤ s ∧ 0.98 ≤ k ∧ (7.98 ≤ p → 0.078 ≤ s) := by
  have hz1 : 99.98 ^ 2 ≤ (-100 + z) ^ 2 := by
    have := pow_le_pow_left₀ (by norm_num : (0 : ℝ) ≤ 99.98) (by linarith [hz.2] : 99.98 ≤ 100 - z) 2
    linarith
  have hz2 : (-100 + z) ^ 2 ≤ 100.02 ^ 2 := by
    have := pow_le_pow_left₀ (by linarith [hz.2] : (0 : ℝ) ≤ 100 - z) (by linarith [hz.1] : 100 - z ≤ 100.02) 2
    linarith
  have hp3 : p ^ 2 ≤ 16.4 ^ 2 := pow_le_pow_left₀ (by linarith) hp2 2
  have hN1 : N ≤ 101.6 := by
    apply (pow_le_pow_iff_left₀ hN0.le (by norm_num) two_ne_zero).1
    norm_num at *; linarith
  have hN2 : 99.98 ≤ N := by
    apply (pow_le_pow_iff_left₀ (by norm_num) hN0.le two_ne_zero).1
    nlinarith [sq_nonneg p, sq_nonneg y]
  have hs0 : 0 < s := by
    by_contra h; push Not at h
    nlinarith
  have hs1 : s ≤ 0.1641 := by
    by_contra h; push Not at h
    nlinarith
  have ho1 : o ^ 2 ≤ 0.0001 := by
    have : (o * N) ^ 2 ≤ 0.01623 ^ 2 := by rw [ho]; exact hy
    have h2 : 99.98 ^ 2 ≤ N ^ 2 := pow_le_pow_left₀ (by norm_num) hN2 2
    have h3 : o ^ 2 * 99.98 ^ 2 ≤ o ^ 2 * N ^ 2 := mul_le_mul_of_nonneg_left h2 (sq_nonneg o)
    norm_num at *
    nlinarith
  refine ⟨?_, ?_, ?_⟩
  · by_contra h; push Not at h
    nlinarith
  · apply (pow_le_pow_iff_left₀ (by norm_num) hk0.le two_ne_zero).1
    have : s ^ 2 ≤ 0.1641 ^ 2 := pow_le_pow_left₀ hs0.le hs1 2
    norm_num at *; linarith
  · intro hp
    by_contra h; push Not at h
    nlinarith

/-- The line of sight of a measured image: `b` is the side on which the particle is of the camera. -/
theorem downCam_ray {q b : ℝ} (hq : (q = 0 ∧ b = 1) ∨ (q = 10 ∧ b = -1)) {t : ℝ × ℝ} (ht : imageDist ((2 - q) / 2, 0) t ≤ 0.008)
    {X out : V3} (hr : rayTracing t.1 t.2 (downCam q) ⟨1, 1, [1], 1, [1]⟩ = some (X, out)) :
    ∃ s y k, out = ⟨b * s, y, -k⟩ ∧ 0.0193 ≤ s ∧ 0.98 ≤ k ∧ (q = 10 → 0.078 ≤ s) ∧ s ^ 2 + y ^ 2 + k ^ 2 = 1 := by
  have hq' : q = 0 ∨ q = 10 := hq.imp And.left And.left
  have hs := downCam_within hq'
  obtain ⟨X', out', h2, -, h3, h4, F, v, h5, h6, h7, h8⟩ := sight_measured (downCam q) ⟨1, 1, [1], 1, [1]⟩ 1 1 ⟨2, 0, 0⟩ 0.008 _ t
    airPlate hs.through (downCam_image q) ht hs.small
  rw [hr] at h2
  cases h2
  have h7' := h7.trans (downCam_object hq')
  simp only [downCam, glassCam_height, glassCam_norm, glassCam_unit, tangential] at h4 h6 h8
  norm_num [dot] at h4 h6 h8
  have e : ((⟨2, 0, 0⟩ : V3) - ⟨q, 0, 100⟩ - (⟨0, 0, 1⟩ : V3).smul (-100)) = ⟨2 - q, 0, 0⟩ := by ext <;> simp
  have e' : (⟨2 - q, 0, 0⟩ : V3).smul F - (⟨0, 0, 1⟩ : V3).smul 100 + v = ⟨(2 - q) * F + v.x, v.y, -100 + v.z⟩ := by ext <;> simp
  rw [e, e'] at h8
  have hv : v.x ^ 2 + v.y ^ 2 + v.z ^ 2 ≤ 0.01623 ^ 2 := by
    have := pow_le_pow_left₀ (V3.norm_nonneg v) h7' 2
    rw [V3.norm_sq] at this
    simp only [dot] at this
    nlinarith
  set N := V3.norm ⟨(2 - q) * F + v.x, v.y, -100 + v.z⟩ with hN
  have hvz : |v.z| ≤ 0.01623 := abs_le_of_sq_le_sq (by nlinarith [sq_nonneg v.x, sq_nonneg v.y]) (by norm_num)
  have hvx : |v.x| ≤ 0.01623 := abs_le_of_sq_le_sq (by nlinarith [sq_nonneg v.z, sq_nonneg v.y]) (by norm_num)
  have hvy : v.y ^ 2 ≤ 0.01623 ^ 2 := by nlinarith [sq_nonneg v.z, sq_nonneg v.x]
  have hvz' := abs_le.1 hvz
  have hvx' := abs_le.1 hvx
  have hN0 : 0 < N := V3.norm_pos (by intro h; have := congrArg V3.z h; simp at this; linarith)
  have hN2 : N ^ 2 = ((2 - q) * F + v.x) ^ 2 + v.y ^ 2 + (-100 + v.z) ^ 2 := by
    rw [hN, V3.norm_sq]; simp only [dot]; ring
  have ox : out.x * N = (2 - q) * F + v.x := by
    have := congrArg V3.x h8
    simp only [V3.smul, V3.sub_x] at this
    norm_num at this
    rw [this]; field_simp
  have oy : out.y * N = v.y := by
    have := congrArg V3.y h8
    simp only [V3.smul, V3.sub_y] at this
    norm_num at this
    rw [this]; field_simp
  have oo := V3.norm_eq_one.1 h3
  simp only [dot] at oo
  have hb : b * b = 1 := by rcases hq with ⟨-, rfl⟩ | ⟨-, rfl⟩ <;> norm_num
  have hF : 49 * F ≤ 100 := by linarith
  have hp1 : 1.98 ≤ b * ((2 - q) * F + v.x) ∧ b * ((2 - q) * F + v.x) ≤ 16.4 ∧ (q = 10 → 7.98 ≤ b * ((2 - q) * F + v.x)) := by
    rcases hq with ⟨rfl, rfl⟩ | ⟨rfl, rfl⟩
    · refine ⟨by linarith, by linarith, by norm_num⟩
    · refine ⟨by linarith, by linarith, fun _ => by linarith⟩
  have hkey := down_numbers (s := b * out.x) (o := out.y) (k := -out.z) hp1.1 hp1.2.1 hvy hvz'
    (by rw [hN2]; linear_combination -((2 - q) * F + v.x) ^ 2 * hb) hN0 (by rw [mul_assoc, ox]) oy
    (by linear_combination oo + out.x ^ 2 * hb) (by linarith)
  refine ⟨b * out.x, out.y, -out.z, ?_, hkey.1, hkey.2.1, fun h => hkey.2.2 (hp1.2.2 h), by linear_combination oo + out.x ^ 2 * hb⟩
  ext
  · show out.x = b * (b * out.x)
    linear_combination -out.x * hb
  · rfl
  · simp

theorem downCam_cross {t t' : ℝ × ℝ} {Y a Y' a' : V3}
    (ht : imageDist ((2 - 0) / 2, 0) t ≤ 0.008) (ht' : imageDist ((2 - 10) / 2, 0) t' ≤ 0.008)
    (hr : rayTracing t.1 t.2 (downCam 0) ⟨1, 1, [1], 1, [1]⟩ = some (Y, a))
    (hr' : rayTracing t'.1 t'.2 (downCam 10) ⟨1, 1, [1], 1, [1]⟩ = some (Y', a')) : Crossing a a' 0.09 := by
  obtain ⟨s, y, k, rfl, h1, h2, -, h3⟩ := downCam_ray (Or.inl ⟨rfl, rfl⟩) ht hr
  obtain ⟨s', y', k', rfl, h1', h2', h4', h3'⟩ := downCam_ray (Or.inr ⟨rfl, rfl⟩) ht' hr'
  have h1' := h4' rfl
  refine ⟨?_, ?_, ?_⟩
  · intro h; have := congrArg V3.z h; simp at this; linarith
  · intro h; have := congrArg V3.z h; simp at this; linarith
  · rw [V3.norm_sq, V3.norm_sq]
    simp only [dot]
    norm_num
    have g1 : s * k' + k * s' ≥ 0.095 := by nlinarith
    have : (-(s * s') + y * y' + k * k') ^ 2 + (s * k' + k * s') ^ 2 + (y * k' - k * y') ^ 2 + (s * y' + y * s') ^ 2 = 1 := by
      linear_combination (s' ^ 2 + y' ^ 2 + k' ^ 2) * h3 + h3'
    rw [show s * s + y * y + k * k = 1 by linarith, show s' * s' + y' * y' + k' * k' = 1 by linarith]
    nlinarith [sq_nonneg (y * k' - k * y'), sq_nonneg (s * y' + y * s')]

end Verif.Geo

namespace Verif.Track
open Verif.Track.Spec Verif.Geo Verif.Geo.Spec

theorem addSetup_error : flatError addSetup 4 0 = 0.008 := by
  norm_num [flatError, addSetup, airSetup]

theorem addSetup_mild : RigSeesMildly addSetup ⟨2, 0, 0⟩ 1 1 4 0 0.008 0.034 0.09 := by
  refine ⟨airPlate, by norm_num [addSetup, airSetup], ?_, ?_⟩
  · have key : ∀ q : ℝ, q = 0 ∨ q = 10 → SeesMildly addSetup (downCam q, emptyLUT) ⟨2, 0, 0⟩ 1 4 0 0.008 0.034 := by
      intro q hq
      refine ⟨rfl, Or.inl ⟨⟨rfl, rfl, rfl, rfl, by norm_num [downCam, defaultAddPar]⟩, by norm_num [addSetup, airSetup], addSetup_error.le⟩,
        ?_, ?_, ?_⟩
      · exact downCam_within hq
      · intro f hf
        have hf' : some ((2 - q) / 2, (0 : ℝ)) = some f := (downCam_image q).symm.trans hf
        cases hf'
        apply Real.sqrt_le_iff.2
        refine ⟨by norm_num, ?_⟩
        simp only [downCam]
        rcases hq with rfl | rfl <;> norm_num
      · intro f t hf ht
        have hf' : some ((2 - q) / 2, (0 : ℝ)) = some f := (downCam_image q).symm.trans hf
        cases hf'
        have := abs_le.1 (imageDist_fst ht)
        intro e
        rw [coordUnused] at e
        simp only at this
        rcases hq with rfl | rfl <;> linarith
    intro c hc
    have hc : c ∈ [(downCam 0, emptyLUT), (downCam 10, emptyLUT)] := hc
    simp only [List.mem_cons, List.not_mem_nil, or_false] at hc
    rcases hc with rfl | rfl
    · exact key _ (Or.inl rfl)
    · exact key _ (Or.inr rfl)
  · show [(downCam 0, emptyLUT), (downCam 10, emptyLUT)].Pairwise _
    simp only [List.pairwise_cons, List.mem_cons, List.not_mem_nil, or_false, forall_eq, false_imp_iff, implies_true,
      List.Pairwise.nil, and_true]
    intro f f' t t' Y a Y' a' hf hf' ht ht' hr hr'
    have e1 : some ((2 - 0) / 2, (0 : ℝ)) = some f := (downCam_image 0).symm.trans hf
    have e2 : some ((2 - 10) / 2, (0 : ℝ)) = some f' := (downCam_image 10).symm.trans hf'
    cases e1
    cases e2
    exact downCam_cross ht ht' hr hr'

theorem lost_near : TargetsNear addSetup lostFrame.img.targets ⟨2, 0, 0⟩ ⟨2, 0, 0⟩ 4 0 := by
  obtain ⟨h1, h2⟩ := twoImg_show 2.5 2 2 (by norm_num) (by norm_num) (by norm_num)
  refine ⟨?_, h2⟩
  intro cam px i t hpx hn
  have hX := h1 cam px i t hpx hn
  refine ⟨_, hX, ?_, ?_⟩
  · simp [imageDist]
  · have hc : cam < airSetup.cals.length := by
      by_contra h
      have hpx : airSetup.pix cam ⟨2, 0, 0⟩ = .ok px := hpx
      rw [Setup.pix, List.getElem?_eq_none (by omega)] at hpx
      cases hpx
    have hX : airSetup.pix cam ⟨2, 0, 0⟩ = .ok (t.x, t.y) := hX
    rw [airSetup_pix 2 cam hc] at hX
    have e := Except.ok.inj hX
    have ex : 5 * (2 - 10 * (cam : ℝ)) + 500 = t.x := congrArg Prod.fst e
    have ey : (500 : ℝ) = t.y := congrArg Prod.snd e
    rw [← ex, ← ey]
    have hc2 : cam < 2 := hc
    have : cam = 0 ∨ cam = 1 := by omega
    apply Real.sqrt_le_iff.2
    refine ⟨by norm_num, ?_⟩
    rcases this with rfl | rfl <;> norm_num [pixelToMetric, addSetup, airSetup]

theorem lost_accepted : AcceptedAround addSetup ⟨0, 0, 0⟩ ⟨1, 0, 0⟩ ⟨2, 0, 0⟩ (0.034 * (1 + 2 / 0.09)) := by
  intro M hM
  have hM : (M - ⟨2, 0, 0⟩).norm ≤ 0.8 := hM.trans (by norm_num)
  have h2 := pow_le_pow_left₀ (V3.norm_nonneg _) hM 2
  rw [V3.norm_sq] at h2
  simp only [V3.dot, V3.sub_x, V3.sub_y, V3.sub_z] at h2
  have hx := abs_le.1 (abs_le_of_sq_le_sq (a := M.x - 2) (b := 0.8) (by nlinarith [mul_self_nonneg (M.y - 0), mul_self_nonneg (M.z - 0)]) (by norm_num))
  have hy := abs_le.1 (abs_le_of_sq_le_sq (a := M.y) (b := 0.8) (by nlinarith [mul_self_nonneg (M.x - 2), mul_self_nonneg (M.z - 0)]) (by norm_num))
  have hz := abs_le.1 (abs_le_of_sq_le_sq (a := M.z) (b := 0.8) (by nlinarith [mul_self_nonneg (M.x - 2), mul_self_nonneg (M.y - 0)]) (by norm_num))
  have hexp : (⟨1, 0, 0⟩ : V3).smul 2 - ⟨0, 0, 0⟩ = ⟨2, 0, 0⟩ := by ext <;> norm_num [V3.smul]
  rw [hexp]
  refine ⟨?_, ?_, ?_⟩
  · simp only [addSetup, airSetup]
    refine ⟨⟨?_, ?_⟩, ⟨?_, ?_⟩, ?_, ?_⟩ <;> linarith
  · simp only [Pos3dInBounds, addSetup, airSetup, V3.sub_x, V3.sub_y, V3.sub_z]
    refine ⟨⟨?_, ?_⟩, ⟨?_, ?_⟩, ?_, ?_⟩ <;> linarith
  · obtain ⟨angle, h⟩ := angleAcc_ok (a := (⟨1, 0, 0⟩ : V3)) (b := ⟨2, 0, 0⟩) (c := M)
      ⟨fun e => by have := congrArg V3.x e; norm_num at this, fun e => by rw [e] at hx; norm_num at hx⟩
    refine ⟨angle, _, h, Or.inr ?_⟩
    have e : (⟨2, 0, 0⟩ - ⟨1, 0, 0⟩ - (M - ⟨1, 0, 0⟩) : V3).norm = (M - ⟨2, 0, 0⟩).norm := by
      simp only [V3.norm]
      congr 1
      simp
      ring
    rw [e]
    have : addSetup.tracker.dacc = 20 := rfl
    rw [this]
    linarith

/-- `C136_added`: all hypotheses hold for this step. -/
example : ∃ b1' b2' b3' cnt d, stepFrames addSetup.tracker (airDisk (fun n => n) 0) beforeLost lostFrame (airDisk (fun _ => 4) 3)
      = .ok (b1', b2', b3', cnt) ∧
    Served addSetup.tracker (some ⟨0, 0, 0⟩) ⟨1, 0, 0⟩ lostFrame.img (airDisk (fun _ => 4) 3).img b1'.parts b2'.parts b3'.parts 0 d := by
  obtain ⟨⟨b1', b2', b3', cnt⟩, h⟩ := lost_step_returns
  have him : (addSetup.ip.imx : ℝ) ≤ 10 ^ 19 ∧ (addSetup.ip.imy : ℝ) ≤ 10 ^ 19 := by norm_num [addSetup, airSetup]
  obtain ⟨b2c, b3a, ⟨⟨b1c, e1⟩, -⟩, key⟩ := C136_added addSetup him (by simp [addSetup, airSetup]) _ _ _ _ _ _ _ _ h
    (by simp [beforeLost]) (by simp [lostFrame]) 0 ⟨⟨1, 0, 0⟩, 0, NEXT_NONE, [], 0⟩ ⟨0, 0, 0⟩ rfl (by simp [Predecessor, airDisk]) rfl
  simp only [List.range_zero, searchLoop, Except.ok.injEq, Prod.mk.injEq] at e1
  obtain ⟨-, rfl, rfl⟩ := e1
  have hexp : (⟨1, 0, 0⟩ : V3).smul 2 - ⟨0, 0, 0⟩ = ⟨2, 0, 0⟩ := by ext <;> norm_num [V3.smul]
  simp only [hexp] at key
  have hlists : ∀ ts ∈ lostFrame.img.targets, (ts.map Search.Tgt.y).Pairwise (· ≤ ·) ∧ ts.length < 8190 ∧
      ∀ t ∈ ts, t.tnr < lostFrame.parts.length := by
    intro ts hts
    simp only [lostFrame, twoImg, List.mem_cons, List.not_mem_nil, or_false] at hts
    rcases hts with rfl | rfl <;> simp [lostFrame]
  have hseen : SeenByAll addSetup.cams lostFrame ⟨2, 0, 0⟩ (addSetup.proj ⟨2, 0, 0⟩) 0 := by
    refine near_seen (Y := ⟨2.5, 0, 0⟩) ⟨rfl, hlists⟩ ?_ (add_air (by norm_num)) (by norm_num [InOpenBox, addSetup, airSetup])
    intro cam hc
    have hc' : cam = 0 ∨ cam = 1 := by
      have : cam < 2 := hc
      omega
    have shown : ∀ (q : ℝ), q = 10 * cam → (q = 0 ∨ q = 10) → addSetup.cals[cam]? = some (downCam q, emptyLUT) →
        ShownNear addSetup lostFrame.img.targets ⟨2, 0, 0⟩ ⟨2.5, 0, 0⟩ cam 0 := by
      intro q hqc hq h1
      refine ⟨_, _, 0, _, _, _, _, h1, airSetup_pixel _ _, ?_, airSetup_pixel _ _, ?_, twoImg_targets _ _ cam hc, ?_, ?_, ?_⟩
      · rcases hq with rfl | rfl <;> norm_num [addSetup, airSetup]
      · rcases hq with rfl | rfl <;> norm_num [addSetup, airSetup]
      · rw [hqc]; rfl
      · intro i t hi hn _
        match i with
        | 0 => rfl
        | 1 => simp at hi; subst hi; simp at hn
        | i + 2 => simp at hi
      · intro S hS
        have : S = ∅ := by
          rw [Finset.eq_empty_iff_forall_notMem]
          intro i hi
          obtain ⟨t, ht, hn, hlt⟩ := hS i hi
          match i with
          | 0 => simp at ht; subst ht; rw [hqc] at hlt; exact lt_irrefl _ hlt
          | 1 => simp at ht; subst ht; simp at hn
          | i + 2 => simp at ht
        rw [this]
        simp
    rcases hc' with rfl | rfl
    · exact shown 0 (by simp) (Or.inl rfl) rfl
    · exact shown 10 (by simp) (Or.inr rfl) rfl
  obtain ⟨w, w1, w2, -⟩ := search_offers addSetup.cams _ him (by simp [Setup.cams, addSetup, airSetup]) hseen
  obtain ⟨d, hd⟩ := key w ⟨2, 0, 0⟩ 1 1 4 0 0.008 0.034 0.09 w1 (by omega) rfl (fun ts hts => ⟨(hlists ts hts).1, (hlists ts hts).2.1⟩)
    (fun cam hc => ⟨_, airSetup_pix _ cam hc⟩) (by norm_num) addSetup_mild lost_near lost_accepted
  exact ⟨_, _, _, _, d, h, hd⟩

end Verif.Track
