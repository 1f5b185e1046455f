/-
C96: the whole tracker follows uniform motion. C97: nothing inside the velocity limits is outside the search windows.
-/
import Verif.Model.Tracker
import Verif.Props.WellSeen
import Verif.Props.Motion

set_option linter.unusedSectionVars false

namespace Verif.Track
open Verif.Track.Spec Verif.Geo Verif.Geo.Spec

/-! ### Specification -/

/-- Camera `cam` of the setup shows particle `k`, at position `X`, in the target lists `targets`: exactly at its projection,
strictly inside the image, and no other particle's target is at the same place. -/
def ShownBy (s : Setup) (targets : List (List (Search.Tgt ℝ))) (X : V3) (cam : Nat) (k : Nat) : Prop :=
  ∃ c ts j px py, s.cals[cam]? = some c ∧ pointToPixel X c.1 c.2 s.mm s.ip = some (px, py) ∧
    (0 < px ∧ px < s.ip.imx ∧ 0 < py ∧ py < s.ip.imy) ∧ targets[cam]? = some ts ∧ ts[j]? = some ⟨px, py, k⟩ ∧
    ∀ (i : Nat) (t : Search.Tgt ℝ), ts[i]? = some t → t.tnr ≠ -1 → t.x = px → t.y = py → i = j

/-- The search window of camera `cam` around the position `X` extends to all sides of the projection of `X`. -/
def WindowAround (s : Setup) (X : V3) (cam : Nat) : Prop :=
  ∃ c a, s.cals[cam]? = some c ∧
    searchQuader (fun Q => pointToPixel Q c.1 c.2 s.mm s.ip) s.ip.imx s.ip.imy X s.vel = some a ∧
    0 < a.xl ∧ 0 < a.xr ∧ 0 < a.yu ∧ 0 < a.yd

/-- Target lists as the tracker reads them: one per camera, sorted by `y`, fewer than 8190 targets each, with numbers of
particles of the frame. -/
def FrameOK (s : Setup) (f : Frame V3 ℝ (Img ℝ)) : Prop :=
  f.img.targets.length = s.cals.length ∧ ∀ ts ∈ f.img.targets, (ts.map Search.Tgt.y).Pairwise (· ≤ ·) ∧ ts.length < 8190 ∧
    ∀ t ∈ ts, t.tnr < f.parts.length

/-! ### Proof -/

theorem allOk_map {α β : Type} (l : List β) (f : β → Py α) (g : β → α) (h : ∀ b ∈ l, f b = .ok (g b)) :
    Setup.allOk (l.map f) = l.map g := by
  have e : l.map f = l.map (fun b => .ok (g b)) := List.map_congr_left h
  rw [e]
  cases l with
  | nil => rfl
  | cons b l =>
    simp only [Setup.allOk, List.map_cons]
    rw [if_pos]
    · simp only [List.filterMap_cons, List.filterMap_map]
      congr 1
      induction l with
      | nil => rfl
      | cons c l ih => simp_all
    · simp

theorem centre_seen {s : Setup} {f : Frame V3 ℝ (Img ℝ)} {X : V3} {k : Nat} (hf : FrameOK s f)
    (hs : ∀ cam, cam < s.cals.length → ShownBy s f.img.targets X cam k)
    (hw : ∀ cam, cam < s.cals.length → WindowAround s X cam) : SeenByAll s.cams f X (s.proj X) k := by
  classical
  have key : ∀ cam, ∃ (v : ℝ × ℝ) (a : Rect ℝ), cam < s.cals.length → s.pix cam X = .ok v ∧ s.area cam X = .ok a ∧
      ClearlySeen s.cams f.img.targets v a cam k := by
    intro cam
    by_cases hc : cam < s.cals.length
    swap
    · exact ⟨(0, 0), ⟨0, 0, 0, 0⟩, fun h => absurd h hc⟩
    obtain ⟨c, ts, j, px, py, h1, h2, ⟨h3, h4, h5, h6⟩, h7, h8, h9⟩ := hs cam hc
    obtain ⟨c', a, g1, g2, g3, g4, g5, g6⟩ := hw cam hc
    rw [h1] at g1
    cases g1
    refine ⟨(px, py), Setup.rectOf a, fun _ => ⟨?_, ?_, ?_⟩⟩
    · simp only [Setup.pix, h1, h2, orRaise]
    · simp only [Setup.area, h1, g2, Option.map_some, orRaise]
    · refine ⟨⟨h3.le, h4.le, h5.le, h6.le⟩, ts, j, _, h7, h8, rfl, ?_, ?_, ?_⟩
      · refine ⟨_, h8, by simp only; omega, ?_, ?_⟩
        · simp only [Setup.rectOf, max_lt_iff, lt_min_iff]
          exact ⟨⟨by linarith, h3⟩, by linarith, h4⟩
        · simp only [Setup.rectOf, max_lt_iff, lt_min_iff]
          exact ⟨⟨by linarith, h5⟩, by linarith, h6⟩
      · rintro i hij ⟨t, ht, hn, -⟩ e
        simp only [Search.Spec.distOf, ht, h8, sub_self] at e
        apply hij
        refine h9 i t ht hn ?_ ?_ <;> nlinarith [sq_nonneg (px - t.x), sq_nonneg (py - t.y)]
      · intro S hS
        have : S = ∅ := by
          rw [Finset.eq_empty_iff_forall_notMem]
          intro i hi
          obtain ⟨⟨t, ht, -⟩, h⟩ := hS i hi
          simp only [Search.Spec.distOf, ht, h8, sub_self] at h
          nlinarith [sq_nonneg (px - t.x), sq_nonneg (py - t.y)]
        rw [this]
        simp
  choose v a hva using key
  refine ⟨⟨hf.1, fun ts hts => ⟨(hf.2 ts hts).1, (hf.2 ts hts).2.1⟩⟩, fun ts hts => (hf.2 ts hts).2.2, v, a, ?_⟩
  intro cam hc
  have hc : cam < s.cals.length := hc
  obtain ⟨h1, h2, h3⟩ := hva cam hc
  refine ⟨?_, h2, h3⟩
  rw [Setup.proj, allOk_map (List.range s.cals.length) _ v (fun b hb => (hva b (List.mem_range.1 hb)).1),
    List.getElem?_map, List.getElem?_range hc]
  rfl

theorem angleAcc_same (x y : V3) : ∃ angle, angleAcc x y y = .ok (angle, 0) := by
  have h0 : V3.norm ((y - x) - (y - x)) = 0 := by simp [V3.norm]
  unfold angleAcc
  simp only [h0]
  by_cases h : y - x = neg (y - x)
  · exact ⟨200, by rw [if_pos h]⟩
  · exact ⟨0, by rw [if_neg h, if_pos trivial]⟩

/-- C96: the tracker follows uniform motion, through refracting media and distorting lenses. Adding off, two to four cameras.
Particle `i` of the current frame came from `x0` and is at `x1`, with a velocity inside the limits; particle `k` of the next frame
is at `x1 + (x1 - x0)`; every camera shows it, and has a search window around it. Then `i` is linked, or what it prefers goes to
another particle with a value at least as good. -/
theorem C96_uniform_motion_tracked (s : Setup) (hn : 2 ≤ s.cals.length ∧ s.cals.length ≤ 4) (hadd : s.add = false)
    (him : (s.ip.imx : ℝ) ≤ 10 ^ 19 ∧ (s.ip.imy : ℝ) ≤ 10 ^ 19) (hdacc : 0 < s.dacc)
    (b0 b1 b2 b3 b1' b2' b3' : Frame V3 ℝ (Img ℝ)) (cnt : Nat)
    (hs : stepFrames s.tracker b0 b1 b2 b3 = .ok (b1', b2', b3', cnt))
    (hnx : ∀ p ∈ b1.parts, p.next = NEXT_NONE) (hp : ∀ q ∈ b2.parts, q.prev = PREV_NONE)
    (i : Nat) (p : Part V3 ℝ) (x0 : V3) (hpi : b1.parts[i]? = some p)
    (hx0 : Predecessor (b0.parts.map Part.x) p (some x0)) (hvel : Pos3dInBounds (p.x - x0) s.vel)
    (hf : FrameOK s b2) (k : Nat) (r : Part V3 ℝ) (hr : b2.parts[k]? = some r) (hu : r.x = p.x + (p.x - x0))
    (hshown : ∀ cam, cam < s.cals.length → ShownBy s b2.img.targets r.x cam k)
    (hwin : ∀ cam, cam < s.cals.length → WindowAround s r.x cam) :
    ∃ d, Served s.tracker (some x0) p.x b2.img b3.img b1'.parts b2'.parts b3'.parts i d := by
  have hexp : expected s.tracker (some x0) p.x = r.x := by
    show searchVolumeCenterMoving x0 p.x = r.x
    rw [hu]
    ext <;> simp [searchVolumeCenterMoving, V3.smul] <;> ring
  refine C95_seen_is_tracked s.cams _ him hn hadd b0 b1 b2 b3 b1' b2' b3' cnt hs hnx hp i p (some x0) hpi hx0 k r hr ?_ ?_
  · show SeenByAll s.cams b2 (expected s.tracker (some x0) p.x) (s.proj (expected s.tracker (some x0) p.x)) k
    rw [hexp]
    exact centre_seen hf hshown hwin
  · refine ⟨rfl, ?_, ?_⟩
    · show @decide (Pos3dInBounds (r.x - p.x) s.vel) (Classical.propDecidable _) = true
      have : r.x - p.x = p.x - x0 := by rw [hu]; ext <;> simp
      rw [this]
      exact @decide_eq_true _ (Classical.propDecidable _) hvel
    · obtain ⟨angle, ha⟩ := angleAcc_same p.x r.x
      refine ⟨angle, 0, ?_, Or.inr ?_⟩
      · show angleAcc p.x (expected s.tracker (some x0) p.x) r.x = .ok (angle, 0)
        rw [hexp]
        exact ha
      · show (0 : ℝ) < s.dacc / 10
        linarith

/-! ### Search windows of cameras in air -/

/-- An affine function that is not constant, and non-positive at the corners of a box, is negative inside. -/
theorem affine_box_lt {a b c d : ℝ} {p q : V3} {v : Vel} (hne : a ≠ 0 ∨ b ≠ 0 ∨ c ≠ 0)
    (hcor : ∀ bx b_y bz, a * (boxCorner p v bx b_y bz).x + b * (boxCorner p v bx b_y bz).y
      + c * (boxCorner p v bx b_y bz).z + d ≤ 0) (hq : InOpenBox p v.lo v.hi q) :
    a * q.x + b * q.y + c * q.z + d < 0 := by
  obtain ⟨⟨x1, x2⟩, ⟨y1, y2⟩, z1, z2⟩ := hq
  obtain ⟨e, he, hle⟩ : ∃ e : ℝ, 0 < e ∧ (e ≤ q.x - (p.x + v.lo.x) ∧ e ≤ p.x + v.hi.x - q.x) ∧
      (e ≤ q.y - (p.y + v.lo.y) ∧ e ≤ p.y + v.hi.y - q.y) ∧ (e ≤ q.z - (p.z + v.lo.z) ∧ e ≤ p.z + v.hi.z - q.z) := by
    refine ⟨min (min (q.x - (p.x + v.lo.x)) (p.x + v.hi.x - q.x)) (min (min (q.y - (p.y + v.lo.y)) (p.y + v.hi.y - q.y))
      (min (q.z - (p.z + v.lo.z)) (p.z + v.hi.z - q.z))), ?_, ?_⟩
    · simp only [lt_min_iff]
      refine ⟨⟨?_, ?_⟩, ⟨?_, ?_⟩, ?_, ?_⟩ <;> linarith
    · simp only [min_le_iff, le_refl, true_or, or_true, and_self]
  set M : ℝ := |a| + |b| + |c| + 1 with hM
  have hMpos : 0 < M := by positivity
  have hsmall : ∀ t : ℝ, |t| ≤ M → -e ≤ e / M * t ∧ e / M * t ≤ e := by
    intro t ht
    have h1 : |e / M * t| ≤ e := by
      rw [abs_mul, abs_of_pos (by positivity), div_mul_eq_mul_div, div_le_iff₀ hMpos]
      exact mul_le_mul_of_nonneg_left ht he.le
    exact abs_le.1 h1
  have pa := hsmall a (by rw [hM]; nlinarith [abs_nonneg b, abs_nonneg c])
  have pb := hsmall b (by rw [hM]; nlinarith [abs_nonneg a, abs_nonneg c])
  have pc := hsmall c (by rw [hM]; nlinarith [abs_nonneg a, abs_nonneg b])
  have := affine_box (q := ⟨q.x + e / M * a, q.y + e / M * b, q.z + e / M * c⟩) hcor (by
    refine ⟨⟨?_, ?_⟩, ⟨?_, ?_⟩, ?_, ?_⟩ <;> simp only <;> linarith [hle.1.1, hle.1.2, hle.2.1.1, hle.2.1.2, hle.2.2.1, hle.2.2.2])
  simp only at this
  have hpos : 0 < e / M * (a * a + b * b + c * c) := by
    refine mul_pos (by positivity) ?_
    rcases hne with h | h | h
    · nlinarith [mul_self_pos.2 h, mul_self_nonneg b, mul_self_nonneg c]
    · nlinarith [mul_self_pos.2 h, mul_self_nonneg a, mul_self_nonneg c]
    · nlinarith [mul_self_pos.2 h, mul_self_nonneg a, mul_self_nonneg b]
  nlinarith

/-- A camera that looks through air, without distortion, with a proper rotation matrix (columns `c0`, `c1` of unit length and
at right angles to the third), at a velocity box in front of it. -/
structure AirCam (s : Setup) (c : Cam) (X : V3) : Prop where
  air : s.mm.n1 = 1 ∧ s.mm.nlay = 1 ∧ (∃ ns, s.mm.n2 = 1 :: ns) ∧ s.mm.n3 = 1 ∧ s.mm.d.length = 1
  noDist : c.ap = defaultAddPar
  glass : c.glass ≠ 0
  cc : c.cc ≠ 0
  pix : s.ip.pixX ≠ 0 ∧ s.ip.pixY ≠ 0
  rot : c.dm.r0.x ^ 2 + c.dm.r1.x ^ 2 + c.dm.r2.x ^ 2 = 1 ∧ c.dm.r0.y ^ 2 + c.dm.r1.y ^ 2 + c.dm.r2.y ^ 2 = 1 ∧
    c.dm.r0.x * c.dm.r0.z + c.dm.r1.x * c.dm.r1.z + c.dm.r2.x * c.dm.r2.z = 0 ∧
    c.dm.r0.y * c.dm.r0.z + c.dm.r1.y * c.dm.r1.z + c.dm.r2.y * c.dm.r2.z = 0
  front : ∀ bx b_y bz, 0 < depth c (boxCorner X s.vel bx b_y bz)

/-- A quotient of affine functions, one over the depth, that is at most `w` at the corners, is less inside. -/
theorem frac_box_lt {cal : Cam} {X q : V3} {v : Vel} (hdep : ∀ bx b_y bz, 0 < depth cal (boxCorner X v bx b_y bz))
    (hdq : 0 < depth cal q) (hq : InOpenBox X v.lo v.hi q) (n0 n1 n2 k t w : ℝ) (hk : k ≠ 0)
    (hn : n0 ^ 2 + n1 ^ 2 + n2 ^ 2 = 1) (ho : n0 * cal.dm.r0.z + n1 * cal.dm.r1.z + n2 * cal.dm.r2.z = 0)
    (hh : ∀ bx b_y bz, t + k * ((n0 * ((boxCorner X v bx b_y bz).x - cal.pos.x) + n1 * ((boxCorner X v bx b_y bz).y - cal.pos.y) +
      n2 * ((boxCorner X v bx b_y bz).z - cal.pos.z)) / depth cal (boxCorner X v bx b_y bz)) ≤ w) :
    t + k * ((n0 * (q.x - cal.pos.x) + n1 * (q.y - cal.pos.y) + n2 * (q.z - cal.pos.z)) / depth cal q) < w := by
  have e : ∀ P : V3, 0 < depth cal P →
      t + k * ((n0 * (P.x - cal.pos.x) + n1 * (P.y - cal.pos.y) + n2 * (P.z - cal.pos.z)) / depth cal P) - w
        = ((k * n0 - (t - w) * cal.dm.r0.z) * P.x + (k * n1 - (t - w) * cal.dm.r1.z) * P.y
        + (k * n2 - (t - w) * cal.dm.r2.z) * P.z
        + (-(k * n0 - (t - w) * cal.dm.r0.z) * cal.pos.x
          - (k * n1 - (t - w) * cal.dm.r1.z) * cal.pos.y
          - (k * n2 - (t - w) * cal.dm.r2.z) * cal.pos.z)) / depth cal P := by
    intro P hP
    rw [eq_div_iff hP.ne']
    have : t + k * ((n0 * (P.x - cal.pos.x) + n1 * (P.y - cal.pos.y) + n2 * (P.z - cal.pos.z)) / depth cal P) - w =
        (t - w) + k * ((n0 * (P.x - cal.pos.x) + n1 * (P.y - cal.pos.y) + n2 * (P.z - cal.pos.z)) / depth cal P) := by ring
    rw [this, add_mul, mul_assoc, div_mul_cancel₀ _ hP.ne']
    simp only [depth]
    ring
  have hlt := affine_box_lt (p := X) (q := q) (v := v) (a := k * n0 - (t - w) * cal.dm.r0.z)
    (b := k * n1 - (t - w) * cal.dm.r1.z) (c := k * n2 - (t - w) * cal.dm.r2.z)
    (d := -(k * n0 - (t - w) * cal.dm.r0.z) * cal.pos.x - (k * n1 - (t - w) * cal.dm.r1.z) * cal.pos.y
          - (k * n2 - (t - w) * cal.dm.r2.z) * cal.pos.z) (by
      by_contra hc
      push Not at hc
      obtain ⟨h1, h2, h3⟩ := hc
      have : k * (n0 ^ 2 + n1 ^ 2 + n2 ^ 2) - (t - w) * (n0 * cal.dm.r0.z + n1 * cal.dm.r1.z + n2 * cal.dm.r2.z) =
          n0 * (k * n0 - (t - w) * cal.dm.r0.z) + n1 * (k * n1 - (t - w) * cal.dm.r1.z) +
            n2 * (k * n2 - (t - w) * cal.dm.r2.z) := by ring
      rw [h1, h2, h3, hn, ho] at this
      simp at this
      exact hk this) (by
      intro bx b_y bz
      have h1 := hh bx b_y bz
      have h2 := e _ (hdep bx b_y bz)
      have h3 := div_le_iff₀ (hdep bx b_y bz) |>.1 (show _ ≤ (0 : ℝ) by rw [← h2]; linarith)
      linarith) hq
  have := div_neg_of_neg_of_pos hlt hdq
  rw [← e q hdq] at this
  linarith

/-- The depth inside the box is positive. -/
theorem depth_pos {cal : Cam} {X q : V3} {v : Vel} (hdep : ∀ bx b_y bz, 0 < depth cal (boxCorner X v bx b_y bz))
    (hq : InBox X v.lo v.hi q) : 0 < depth cal q := by
  obtain ⟨m, hm, hm2⟩ : ∃ m : ℝ, 0 < m ∧ ∀ bx b_y bz, m ≤ depth cal (boxCorner X v bx b_y bz) := by
    obtain ⟨t, ht⟩ := Finite.exists_min (fun t : Bool × Bool × Bool => depth cal (boxCorner X v t.1 t.2.1 t.2.2))
    exact ⟨_, hdep _ _ _, fun bx b_y bz => ht (bx, b_y, bz)⟩
  have := affine_box (a := cal.dm.r0.z) (b := cal.dm.r1.z) (c := cal.dm.r2.z)
    (d := m - cal.dm.r0.z * cal.pos.x - cal.dm.r1.z * cal.pos.y - cal.dm.r2.z * cal.pos.z)
    (p := X) (q := q) (v := v) (by
      intro bx b_y bz
      have := hm2 bx b_y bz
      simp only [depth] at this
      linarith) hq
  simp only [depth]
  linarith

theorem openBox_closed {p lo hi q : V3} (h : InOpenBox p lo hi q) : InBox p lo hi q :=
  ⟨⟨h.1.1.le, h.1.2.le⟩, ⟨h.2.1.1.le, h.2.1.2.le⟩, h.2.2.1.le, h.2.2.2.le⟩

/-- The window as returned, for points strictly inside the image and the limits of all corners. -/
theorem searchQuader_strict {proj : V3 → Option (ℝ × ℝ)} {imx imy : ℕ} {point : V3} {v : Vel} {a : Area}
    {center : ℝ × ℝ} (hc : proj point = some center) (h : searchQuader proj imx imy point v = some a) :
    ∃ l r u d, (∀ bx b_y bz, ∃ c, proj (boxCorner point v bx b_y bz) = some c ∧
        l ≤ c.1 ∧ c.1 ≤ r ∧ u ≤ c.2 ∧ c.2 ≤ d) ∧
      ∀ c : ℝ × ℝ, (0 < c.1 ∧ c.1 < imx ∧ 0 < c.2 ∧ c.2 < imy) → l < c.1 → c.1 < r → u < c.2 → c.2 < d →
        center.1 - a.xl < c.1 ∧ c.1 < center.1 + a.xr ∧ center.2 - a.yu < c.2 ∧ c.2 < center.2 + a.yd := by
  simp only [searchQuader, hc, Option.bind_eq_bind, Option.bind_some, Option.bind_eq_some_iff] at h
  obtain ⟨b, hb, h⟩ := h
  rw [Option.some.injEq] at h
  subst h
  obtain ⟨-, ih⟩ := areaLoop_covers _ _ _ hb
  refine ⟨b.xl, b.xr, b.yu, b.yd, ?_, ?_⟩
  · intro bx b_y bz
    obtain ⟨pt, hpt, e⟩ := corner_is_quader point v bx b_y bz
    rw [← e]
    exact ih pt hpt
  · rintro c ⟨c1, c2, c3, c4⟩ h1 h2 h3 h4
    simp only [Area.clip]
    refine ⟨?_, ?_, ?_, ?_⟩ <;> split_ifs <;> linarith

/-- For a camera in air, every point strictly inside the velocity box whose image is strictly inside the image is strictly inside
the search window. -/
theorem air_window_strict {s : Setup} {c : Cam} {lut : LUT} {X q : V3} (h : AirCam s c X) {a : Area} {center px : ℝ × ℝ}
    (hc : pointToPixel X c lut s.mm s.ip = some center)
    (ha : searchQuader (fun Q => pointToPixel Q c lut s.mm s.ip) s.ip.imx s.ip.imy X s.vel = some a)
    (hq : InOpenBox X s.vel.lo s.vel.hi q) (hpx : pointToPixel q c lut s.mm s.ip = some px)
    (hi : 0 < px.1 ∧ px.1 < s.ip.imx ∧ 0 < px.2 ∧ px.2 < s.ip.imy) :
    center.1 - a.xl < px.1 ∧ px.1 < center.1 + a.xr ∧ center.2 - a.yu < px.2 ∧ px.2 < center.2 + a.yd := by
  obtain ⟨l, r, u, d, h2, h3⟩ := searchQuader_strict hc ha
  have hdq := depth_pos h.front (openBox_closed hq)
  rw [pointToPixel_pinhole h.air h.noDist h.glass hdq, Option.some.injEq] at hpx
  have px' : ∀ P, (metricToPixel ((pinhole c.pos c.dm c.cc P).1 + c.xh)
        ((pinhole c.pos c.dm c.cc P).2 + c.yh) s.ip).1
      = (c.xh / s.ip.pixX + s.ip.imx / 2) + (c.cc / s.ip.pixX) * ((c.dm.r0.x * (P.x - c.pos.x)
        + c.dm.r1.x * (P.y - c.pos.y) + c.dm.r2.x * (P.z - c.pos.z)) / depth c P) := by
    intro P
    simp only [metricToPixel, pinhole, depth, V3.sub_x, V3.sub_y, V3.sub_z, div_neg]
    ring
  have py' : ∀ P, (metricToPixel ((pinhole c.pos c.dm c.cc P).1 + c.xh)
        ((pinhole c.pos c.dm c.cc P).2 + c.yh) s.ip).2
      = (s.ip.imy / 2 - c.yh / s.ip.pixY) + (-c.cc / s.ip.pixY) * ((c.dm.r0.y * (P.x - c.pos.x)
        + c.dm.r1.y * (P.y - c.pos.y) + c.dm.r2.y * (P.z - c.pos.z)) / depth c P) := by
    intro P
    simp only [metricToPixel, pinhole, depth, V3.sub_x, V3.sub_y, V3.sub_z, div_neg]
    ring
  have hcor : ∀ bx b_y bz, l ≤ (metricToPixel ((pinhole c.pos c.dm c.cc (boxCorner X s.vel bx b_y bz)).1 + c.xh)
        ((pinhole c.pos c.dm c.cc (boxCorner X s.vel bx b_y bz)).2 + c.yh) s.ip).1 ∧
      (metricToPixel ((pinhole c.pos c.dm c.cc (boxCorner X s.vel bx b_y bz)).1 + c.xh)
        ((pinhole c.pos c.dm c.cc (boxCorner X s.vel bx b_y bz)).2 + c.yh) s.ip).1 ≤ r ∧
      u ≤ (metricToPixel ((pinhole c.pos c.dm c.cc (boxCorner X s.vel bx b_y bz)).1 + c.xh)
        ((pinhole c.pos c.dm c.cc (boxCorner X s.vel bx b_y bz)).2 + c.yh) s.ip).2 ∧
      (metricToPixel ((pinhole c.pos c.dm c.cc (boxCorner X s.vel bx b_y bz)).1 + c.xh)
        ((pinhole c.pos c.dm c.cc (boxCorner X s.vel bx b_y bz)).2 + c.yh) s.ip).2 ≤ d := by
    intro bx b_y bz
    obtain ⟨e, he, hb⟩ := h2 bx b_y bz
    simp only [pointToPixel_pinhole h.air h.noDist h.glass (h.front bx b_y bz), Option.some.injEq] at he
    rw [he]
    exact hb
  have kx : c.cc / s.ip.pixX ≠ 0 := div_ne_zero h.cc h.pix.1
  have ky : -c.cc / s.ip.pixY ≠ 0 := div_ne_zero (neg_ne_zero.2 h.cc) h.pix.2
  apply h3 px hi
  · have := frac_box_lt h.front hdq hq c.dm.r0.x c.dm.r1.x c.dm.r2.x (-(c.cc / s.ip.pixX))
      (-(c.xh / s.ip.pixX + s.ip.imx / 2)) (-l) (neg_ne_zero.2 kx) h.rot.1 h.rot.2.2.1 (by
        intro bx b_y bz
        have := (hcor bx b_y bz).1
        rw [px'] at this
        linarith)
    rw [← hpx, px']
    linarith
  · have := frac_box_lt h.front hdq hq c.dm.r0.x c.dm.r1.x c.dm.r2.x (c.cc / s.ip.pixX)
      (c.xh / s.ip.pixX + s.ip.imx / 2) r kx h.rot.1 h.rot.2.2.1 (by
        intro bx b_y bz
        have := (hcor bx b_y bz).2.1
        rw [px'] at this
        linarith)
    rw [← hpx, px']
    linarith
  · have := frac_box_lt h.front hdq hq c.dm.r0.y c.dm.r1.y c.dm.r2.y (-(-c.cc / s.ip.pixY))
      (-(s.ip.imy / 2 - c.yh / s.ip.pixY)) (-u) (neg_ne_zero.2 ky) h.rot.2.1 h.rot.2.2.2 (by
        intro bx b_y bz
        have := (hcor bx b_y bz).2.2.1
        rw [py'] at this
        linarith)
    rw [← hpx, py']
    linarith
  · have := frac_box_lt h.front hdq hq c.dm.r0.y c.dm.r1.y c.dm.r2.y (-c.cc / s.ip.pixY)
      (s.ip.imy / 2 - c.yh / s.ip.pixY) d ky h.rot.2.1 h.rot.2.2.2 (by
        intro bx b_y bz
        have := (hcor bx b_y bz).2.2.2
        rw [py'] at this
        linarith)
    rw [← hpx, py']
    linarith

theorem areaLoop_ok {proj : V3 → Option (ℝ × ℝ)} {point : V3} {v : Vel} : ∀ (pts : List ℕ) (a : Area),
    (∀ pt ∈ pts, ∃ c, proj (quader point v pt) = some c) → ∃ b, areaLoop proj point v pts a = some b
  | [], a, _ => ⟨a, rfl⟩
  | pt :: pts, a, h => by
    obtain ⟨c, hc⟩ := h pt (by simp)
    obtain ⟨b, hb⟩ := areaLoop_ok pts (a.extend c) (fun q hq => h q (by simp [hq]))
    exact ⟨b, by simp only [areaLoop, hc, Option.bind_eq_bind, Option.bind_some, hb]⟩

theorem air_window_ok {s : Setup} {c : Cam} {lut : LUT} {X : V3} (h : AirCam s c X) {center : ℝ × ℝ}
    (hc : pointToPixel X c lut s.mm s.ip = some center) :
    ∃ a, searchQuader (fun Q => pointToPixel Q c lut s.mm s.ip) s.ip.imx s.ip.imy X s.vel = some a := by
  obtain ⟨b, hb⟩ := areaLoop_ok (proj := fun Q => pointToPixel Q c lut s.mm s.ip) (point := X) (v := s.vel)
    (List.range 8) ⟨s.ip.imx, 0, s.ip.imy, 0⟩ (by
      intro pt _
      obtain ⟨bx, b_y, bz, e⟩ : ∃ bx b_y bz, quader X s.vel pt = boxCorner X s.vel bx b_y bz :=
        quader_is_corner X s.vel pt
      rw [e]
      exact ⟨_, pointToPixel_pinhole h.air h.noDist h.glass (h.front bx b_y bz)⟩)
  rw [← Option.isSome_iff_exists]
  simp only [searchQuader, hc, hb, Option.bind_eq_bind, Option.bind_some, Option.isSome_some]

theorem air_window_around {s : Setup} {X : V3} {cam : Nat} {c : Cam × LUT} (hcal : s.cals[cam]? = some c) (h : AirCam s c.1 X)
    (h0 : Pos3dInBounds 0 s.vel) {px : ℝ × ℝ} (hpx : pointToPixel X c.1 c.2 s.mm s.ip = some px)
    (hi : 0 < px.1 ∧ px.1 < s.ip.imx ∧ 0 < px.2 ∧ px.2 < s.ip.imy) : WindowAround s X cam := by
  obtain ⟨a, ha⟩ := air_window_ok h hpx
  obtain ⟨⟨x1, x2⟩, ⟨y1, y2⟩, z1, z2⟩ := h0
  simp only [V3.zero_x, V3.zero_y, V3.zero_z] at x1 x2 y1 y2 z1 z2
  have hbox : InOpenBox X s.vel.lo s.vel.hi X := by
    refine ⟨⟨?_, ?_⟩, ⟨?_, ?_⟩, ?_, ?_⟩ <;> linarith
  obtain ⟨g1, g2, g3, g4⟩ := air_window_strict h hpx ha hbox hpx hi
  exact ⟨c, a, hcal, ha, by linarith, by linarith, by linarith, by linarith⟩

/-- C96 for cameras that look through air, without distortion: here the search windows are as they should be. The velocity
limits allow a particle at rest, and the velocity box around the new position is in front of all cameras. -/
theorem C96_uniform_motion_in_air (s : Setup) (hn : 2 ≤ s.cals.length ∧ s.cals.length ≤ 4) (hadd : s.add = false)
    (him : (s.ip.imx : ℝ) ≤ 10 ^ 19 ∧ (s.ip.imy : ℝ) ≤ 10 ^ 19) (hdacc : 0 < s.dacc)
    (b0 b1 b2 b3 b1' b2' b3' : Frame V3 ℝ (Img ℝ)) (cnt : Nat)
    (hs : stepFrames s.tracker b0 b1 b2 b3 = .ok (b1', b2', b3', cnt))
    (hnx : ∀ p ∈ b1.parts, p.next = NEXT_NONE) (hp : ∀ q ∈ b2.parts, q.prev = PREV_NONE)
    (i : Nat) (p : Part V3 ℝ) (x0 : V3) (hpi : b1.parts[i]? = some p)
    (hx0 : Predecessor (b0.parts.map Part.x) p (some x0)) (hvel : Pos3dInBounds (p.x - x0) s.vel)
    (hrest : Pos3dInBounds 0 s.vel)
    (hf : FrameOK s b2) (k : Nat) (r : Part V3 ℝ) (hr : b2.parts[k]? = some r) (hu : r.x = p.x + (p.x - x0))
    (hshown : ∀ cam, cam < s.cals.length → ShownBy s b2.img.targets r.x cam k)
    (hair : ∀ c ∈ s.cals, AirCam s c.1 r.x) :
    ∃ d, Served s.tracker (some x0) p.x b2.img b3.img b1'.parts b2'.parts b3'.parts i d := by
  refine C96_uniform_motion_tracked s hn hadd him hdacc b0 b1 b2 b3 b1' b2' b3' cnt hs hnx hp i p x0 hpi hx0 hvel hf k r hr hu
    hshown ?_
  intro cam hcam
  obtain ⟨c, ts, j, px, py, h1, h2, h3, -⟩ := hshown cam hcam
  exact air_window_around h1 (hair c (List.mem_of_getElem? h1)) hrest h2 h3

/-! ### C97 -/

/-- Camera `cam` shows particle `k`, at position `Y`, well enough for a search around the position `X`: the target is exactly
at the projection of `Y`, strictly inside the image; the projection of `X` is in the image; no other particle's target is
exactly as far from it, and fewer than four are nearer. -/
def ShownNear (s : Setup) (targets : List (List (Search.Tgt ℝ))) (X Y : V3) (cam : Nat) (k : Nat) : Prop :=
  ∃ c ts j qx qy px py, s.cals[cam]? = some c ∧ pointToPixel X c.1 c.2 s.mm s.ip = some (qx, qy) ∧
    (0 ≤ qx ∧ qx ≤ s.ip.imx ∧ 0 ≤ qy ∧ qy ≤ s.ip.imy) ∧ pointToPixel Y c.1 c.2 s.mm s.ip = some (px, py) ∧
    (0 < px ∧ px < s.ip.imx ∧ 0 < py ∧ py < s.ip.imy) ∧ targets[cam]? = some ts ∧ ts[j]? = some ⟨px, py, k⟩ ∧
    (∀ (i : Nat) (t : Search.Tgt ℝ), ts[i]? = some t → t.tnr ≠ -1 →
      (qx - t.x) ^ 2 + (qy - t.y) ^ 2 = (qx - px) ^ 2 + (qy - py) ^ 2 → i = j) ∧
    ∀ S : Finset Nat, (∀ i ∈ S, ∃ t, ts[i]? = some t ∧ t.tnr ≠ -1 ∧
      (qx - t.x) ^ 2 + (qy - t.y) ^ 2 < (qx - px) ^ 2 + (qy - py) ^ 2) → S.card < 4

theorem near_seen {s : Setup} {f : Frame V3 ℝ (Img ℝ)} {X Y : V3} {k : Nat} (hf : FrameOK s f)
    (hs : ∀ cam, cam < s.cals.length → ShownNear s f.img.targets X Y cam k)
    (hair : ∀ c ∈ s.cals, AirCam s c.1 X) (hbox : InOpenBox X s.vel.lo s.vel.hi Y) :
    SeenByAll s.cams f X (s.proj X) k := by
  classical
  have key : ∀ cam, ∃ (v : ℝ × ℝ) (a : Rect ℝ), cam < s.cals.length → s.pix cam X = .ok v ∧ s.area cam X = .ok a ∧
      ClearlySeen s.cams f.img.targets v a cam k := by
    intro cam
    by_cases hc : cam < s.cals.length
    swap
    · exact ⟨(0, 0), ⟨0, 0, 0, 0⟩, fun h => absurd h hc⟩
    obtain ⟨c, ts, j, qx, qy, px, py, h1, h2, h3, h4, h5, h6, h7, h8, h9⟩ := hs cam hc
    have hac := hair c (List.mem_of_getElem? h1)
    obtain ⟨a, ha⟩ := air_window_ok hac h2
    obtain ⟨w1, w2, w3, w4⟩ := air_window_strict hac h2 ha hbox h4 h5
    refine ⟨(qx, qy), Setup.rectOf a, fun _ => ⟨?_, ?_, ?_⟩⟩
    · simp only [Setup.pix, h1, h2, orRaise]
    · simp only [Setup.area, h1, ha, Option.map_some, orRaise]
    · refine ⟨h3, ts, j, _, h6, h7, rfl, ?_, ?_, ?_⟩
      · refine ⟨_, h7, by simp only; omega, ?_, ?_⟩
        · simp only [Setup.rectOf, max_lt_iff, lt_min_iff]
          exact ⟨⟨w1, h5.1⟩, w2, h5.2.1⟩
        · simp only [Setup.rectOf, max_lt_iff, lt_min_iff]
          exact ⟨⟨w3, h5.2.2.1⟩, w4, h5.2.2.2⟩
      · rintro i hij ⟨t, ht, hn, -⟩ e
        simp only [Search.Spec.distOf, ht, h7] at e
        exact hij (h8 i t ht hn e)
      · intro S hS
        refine h9 S (fun i hi => ?_)
        obtain ⟨⟨t, ht, hn, -⟩, h⟩ := hS i hi
        simp only [Search.Spec.distOf, ht, h7] at h
        exact ⟨t, ht, hn, h⟩
  choose v a hva using key
  refine ⟨⟨hf.1, fun ts hts => ⟨(hf.2 ts hts).1, (hf.2 ts hts).2.1⟩⟩, fun ts hts => (hf.2 ts hts).2.2, v, a, ?_⟩
  intro cam hc
  have hc : cam < s.cals.length := hc
  obtain ⟨h1, h2, h3⟩ := hva cam hc
  refine ⟨?_, h2, h3⟩
  rw [Setup.proj, allOk_map (List.range s.cals.length) _ v (fun b hb => (hva b (List.mem_range.1 hb)).1),
    List.getElem?_map, List.getElem?_range hc]
  rfl

/-- C97: the tracker follows smooth motion (cameras in air, without distortion; adding off). Particle `i` of the current frame
came from `x0` and is at `x1`, so it is expected at `X = 2 x1 - x0`. Particle `k` of the next frame is at `Y`, inside the velocity box
around `X`; the step from `x1` to `Y` is within the velocity limits; the deviation from `X` is below the limit on the
acceleration and the angle below its limit (or the deviation is below a tenth of the limit); all cameras show the particle and are
not too crowded. Then `i` is linked, or what it prefers goes to another particle with a value at least as good. -/
theorem C97_smooth_motion_tracked (s : Setup) (hn : 2 ≤ s.cals.length ∧ s.cals.length ≤ 4) (hadd : s.add = false)
    (him : (s.ip.imx : ℝ) ≤ 10 ^ 19 ∧ (s.ip.imy : ℝ) ≤ 10 ^ 19)
    (b0 b1 b2 b3 b1' b2' b3' : Frame V3 ℝ (Img ℝ)) (cnt : Nat)
    (hs : stepFrames s.tracker b0 b1 b2 b3 = .ok (b1', b2', b3', cnt))
    (hnx : ∀ p ∈ b1.parts, p.next = NEXT_NONE) (hp : ∀ q ∈ b2.parts, q.prev = PREV_NONE)
    (i : Nat) (p : Part V3 ℝ) (x0 X : V3) (hpi : b1.parts[i]? = some p)
    (hx0 : Predecessor (b0.parts.map Part.x) p (some x0)) (hX : X = p.x.smul 2 - x0)
    (hf : FrameOK s b2) (k : Nat) (r : Part V3 ℝ) (hr : b2.parts[k]? = some r)
    (hbox : InOpenBox X s.vel.lo s.vel.hi r.x) (hvel : Pos3dInBounds (r.x - p.x) s.vel)
    (angle : ℝ) (hang : angleAcc p.x X r.x = .ok (angle, (X - r.x).norm))
    (hsm : ((X - r.x).norm < s.dacc ∧ angle < s.dangle) ∨ (X - r.x).norm < s.dacc / 10)
    (hshown : ∀ cam, cam < s.cals.length → ShownNear s b2.img.targets X r.x cam k)
    (hair : ∀ c ∈ s.cals, AirCam s c.1 X) :
    ∃ d, Served s.tracker (some x0) p.x b2.img b3.img b1'.parts b2'.parts b3'.parts i d := by
  have hexp : expected s.tracker (some x0) p.x = X := by
    rw [hX]
    rfl
  refine C95_seen_is_tracked s.cams _ him hn hadd b0 b1 b2 b3 b1' b2' b3' cnt hs hnx hp i p (some x0) hpi hx0 k r hr ?_ ?_
  · show SeenByAll s.cams b2 (expected s.tracker (some x0) p.x) (s.proj (expected s.tracker (some x0) p.x)) k
    rw [hexp]
    exact near_seen hf hshown hair hbox
  · refine ⟨rfl, ?_, ?_⟩
    · exact @decide_eq_true _ (Classical.propDecidable _) hvel
    · refine ⟨angle, (X - r.x).norm, ?_, hsm⟩
      show angleAcc p.x (expected s.tracker (some x0) p.x) r.x = .ok (angle, (X - r.x).norm)
      rw [hexp]
      exact hang

end Verif.Track
