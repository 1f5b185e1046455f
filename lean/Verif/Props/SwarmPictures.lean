/-
C149: from inexact pictures of a swarm to its trajectories: the tracking.
-/
import Verif.Props.CloudPictures
import Verif.Props.Swarm

namespace Verif.Track
open Verif.Track.Spec Verif.Geo Verif.Geo.Spec V3
open Verif.FullCorr Verif.Search.Spec Verif.Corr Verif.Corr.Spec

/-! ### Specification -/

/-- The displacement is within the velocity limits, by the margin `ε`. -/
def InBoundsBy (v : V3) (b : Vel) (ε : ℝ) : Prop :=
  (b.lo.x + ε < v.x ∧ v.x < b.hi.x - ε) ∧ (b.lo.y + ε < v.y ∧ v.y < b.hi.y - ε) ∧ (b.lo.z + ε < v.z ∧ v.z < b.hi.z - ε)

/-- Inside the image, not on its border. -/
def InsideImage (s : Setup) (q : ℝ × ℝ) : Prop := 0 < q.1 ∧ q.1 < s.ip.imx ∧ 0 < q.2 ∧ q.2 < s.ip.imy

/-- The search around the position `X`, begun at the pixel position `v`, comes by the target position `t`: from `v` to `t` it is as far as
from the image of `X` to the image of a point `Y` of the velocity box around `X`. -/
def Findable (s : Setup) (c : Cam × LUT) (X : V3) (v t : ℝ × ℝ) : Prop :=
  AirCam s c.1 X ∧ InsideImage s v ∧ InsideImage s t ∧ ∃ q r Y, pointToPixel X c.1 c.2 s.mm s.ip = some q ∧
    InOpenBox X s.vel.lo s.vel.hi Y ∧ pointToPixel Y c.1 c.2 s.mm s.ip = some r ∧ InsideImage s r ∧
    t.1 - v.1 = r.1 - q.1 ∧ t.2 - v.2 = r.2 - q.2

/-- Of the targets `t` the one with number `k` is the nearest to `v`. -/
def NearestOf {N : ℕ} (t : Fin N → Det) (v : ℝ × ℝ) (k : Fin N) : Prop :=
  ∀ l, l ≠ k → (v.1 - (t k).x) ^ 2 + (v.2 - (t k).y) ^ 2 < (v.1 - (t l).x) ^ 2 + (v.2 - (t l).y) ^ 2

/-- Four cameras film `N` particles in the frames `first .. first + L`: particle `k` is at `P k n` in frame `n`. `ρ` is the error of
measured positions, `B` the longest possible step. -/
structure FilmedSwarm (s : Setup) (p : Pars) (tol : ℝ) (pics : Int → Fin 4 → Pic) (N : ℕ) (P : Fin N → Int → V3)
    (m : Int → Fin N → Fin 4 → ℕ) (t : Int → Fin N → Fin 4 → Det) (d w : Int → Fin N → Fin 4 → Fin 4 → ℝ) (cm δ σ : ℝ)
    (ray : Int → Fin N → Fin 4 → Ray) (first : Int) (L : ℕ) (B ρ : ℝ) : Prop where
  /-- every frame has inexact pictures of the particles -/
  pictured : ∀ n, first ≤ n → n ≤ first + L → PicturedCloud p tol (pics n) N (fun k => P k n) (m n) (t n) (d n) (w n) cm δ σ (ray n)
  error : ρ = δ * (1 + 2 / σ)
  /-- the tracker has the calibrations the pictures are taken with -/
  cals : ∀ n, first ≤ n → n ≤ first + L → s.cals = (List.finRange 4).map fun c => ((pics n c).cal, (pics n c).lut)
  sorted : ∀ n c, first ≤ n → n ≤ first + L → ((pics n c).dets.map Det.y).Pairwise (· ≤ ·)
  /-- the particles keep apart -/
  apart : ∀ k l n, k ≠ l → first ≤ n → n < first + L → B + 2 * s.dacc + 2 * ρ ≤ (P l (n + 1) - P k n).norm
  /-- they move, within the velocity limits and smoothly, by more than the errors -/
  moves : ∀ k n, first ≤ n → n < first + L → 2 * ρ < (P k (n + 1) - P k n).norm
  steps : ∀ k n, first < n → n < first + L → InBoundsBy (P k (n + 1) - P k n) s.vel (2 * ρ)
  smooth : ∀ k n, first < n → n < first + L → ((P k (n + 1) - P k n) - (P k n - P k (n - 1))).norm + 4 * ρ < s.dacc / 10
  /-- wherever a particle may be expected, the search comes by its next target, and no other target is as near -/
  seenFirst : ∀ k c cal X, s.cals[c.val]? = some cal → (X - P k first).norm ≤ ρ →
    Findable s cal X ((t first k c).x, (t first k c).y) ((t (first + 1) k c).x, (t (first + 1) k c).y) ∧
    NearestOf (fun l => t (first + 1) l c) ((t first k c).x, (t first k c).y) k
  seen : ∀ k n c cal X, first < n → n < first + L → s.cals[c.val]? = some cal → (X - ((P k n).smul 2 - P k (n - 1))).norm ≤ 3 * ρ →
    ∃ v, pointToPixel X cal.1 cal.2 s.mm s.ip = some v ∧ Findable s cal X v ((t (n + 1) k c).x, (t (n + 1) k c).y) ∧
      NearestOf (fun l => t (n + 1) l c) v k

/-! ### Proof -/

theorem findable_seen {s : Setup} {f : Frame V3 ℝ (Img ℝ)} {X : V3} {k : ℕ} {proj : List (ℝ × ℝ)} (v : ℕ → ℝ × ℝ) (hf : FrameOK s f)
    (h : ∀ cam, cam < s.cals.length → proj[cam]? = some (v cam) ∧ ∃ (c : Cam × LUT) (ts : List (Search.Tgt ℝ)) (j : ℕ) (t : Search.Tgt ℝ),
      s.cals[cam]? = some c ∧ f.img.targets[cam]? = some ts ∧ ts[j]? = some t ∧ t.tnr = k ∧ Findable s c X (v cam) (t.x, t.y) ∧
      ∀ (i : ℕ) (u : Search.Tgt ℝ), ts[i]? = some u → i ≠ j →
        ((v cam).1 - t.x) ^ 2 + ((v cam).2 - t.y) ^ 2 < ((v cam).1 - u.x) ^ 2 + ((v cam).2 - u.y) ^ 2) :
    SeenByAll s.cams f X proj k := by
  classical
  have key : ∀ cam, ∃ a : Rect ℝ, cam < s.cals.length → s.area cam X = .ok a ∧
      ClearlySeen s.cams f.img.targets (v cam) a cam k := by
    intro cam
    by_cases hc : cam < s.cals.length
    swap
    · exact ⟨⟨0, 0, 0, 0⟩, fun h => absurd h hc⟩
    obtain ⟨-, c, ts, j, t, h1, h2, h3, h4, ⟨hair, hv, ht, q, r, Y, g1, g2, g3, g4, g5, g6⟩, hnear⟩ := h cam hc
    obtain ⟨a, ha⟩ := air_window_ok hair g1
    obtain ⟨w1, w2, w3, w4⟩ := air_window_strict hair g1 ha g2 g3 g4
    obtain ⟨t1, t2, t3, t4⟩ := ht
    obtain ⟨v1, v2, v3, v4⟩ := hv
    simp only at g5 g6 t1 t2 t3 t4
    refine ⟨Setup.rectOf a, fun _ => ⟨?_, ?_⟩⟩
    · simp only [Setup.area, h1, ha, Option.map_some, orRaise]
    · refine ⟨⟨v1.le, v2.le, v3.le, v4.le⟩, ts, j, t, h2, h3, h4, ?_, ?_, ?_⟩
      · refine ⟨t, h3, by rw [h4]; omega, ?_, ?_⟩
        · simp only [Setup.rectOf, max_lt_iff, lt_min_iff]
          exact ⟨⟨by linarith, t1⟩, by linarith, t2⟩
        · simp only [Setup.rectOf, max_lt_iff, lt_min_iff]
          exact ⟨⟨by linarith, t3⟩, by linarith, t4⟩
      · rintro i hij ⟨u, hu, -⟩ e
        simp only [Search.Spec.distOf, hu, h3] at e
        have := hnear i u hu hij
        linarith
      · intro S hS
        have : S = ∅ := by
          rw [Finset.eq_empty_iff_forall_notMem]
          intro i hi
          obtain ⟨⟨u, hu, -⟩, hlt⟩ := hS i hi
          simp only [Search.Spec.distOf, hu, h3] at hlt
          by_cases hij : i = j
          · subst hij
            rw [h3] at hu
            cases hu
            exact lt_irrefl _ hlt
          · have := hnear i u hu hij
            linarith
        rw [this]
        simp
  choose a ha using key
  refine ⟨⟨hf.1, fun ts hts => ⟨(hf.2 ts hts).1, (hf.2 ts hts).2.1⟩⟩, fun ts hts => (hf.2 ts hts).2.2, v, a, ?_⟩
  intro cam hc
  have hc : cam < s.cals.length := hc
  exact ⟨(h cam hc).1, (ha cam hc).1, (ha cam hc).2⟩

/-- Two directions have an angle. -/
theorem angle_of_ne {u v : V3} (hu : u ≠ 0) (hv : v ≠ 0) : ∃ φ, AngleOf u v φ := by
  have h1 := V3.norm_pos hu
  have h2 := V3.norm_pos hv
  have h3 : 0 < u.norm * v.norm := mul_pos h1 h2
  have h4 := abs_le.1 (abs_dot_le u v)
  have hpi := Real.pi_pos
  refine ⟨Real.arccos (dot u v / (u.norm * v.norm)) * (200 / Real.pi), Or.inl ⟨hu, hv, ?_, ?_, ?_⟩⟩
  · exact mul_nonneg (Real.arccos_nonneg _) (by positivity)
  · have := Real.arccos_le_pi (dot u v / (u.norm * v.norm))
    calc _ ≤ Real.pi * (200 / Real.pi) := mul_le_mul_of_nonneg_right this (by positivity)
      _ = 200 := by field_simp
  · rw [show Real.arccos (dot u v / (u.norm * v.norm)) * (200 / Real.pi) * (Real.pi / 200) =
      Real.arccos (dot u v / (u.norm * v.norm)) by field_simp, Real.cos_arccos]
    · field_simp
    · rw [le_div_iff₀ h3]; linarith
    · rw [div_le_one h3]; exact h4.2

theorem inBounds_of_near {u v : V3} {b : Vel} {ε : ℝ} (h : InBoundsBy u b ε) (hv : (v - u).norm ≤ ε) : Pos3dInBounds v b := by
  have hx := abs_le.1 ((comp_le_norm (v - u)).1.trans hv)
  have hy := abs_le.1 ((comp_le_norm (v - u)).2.1.trans hv)
  have hz := abs_le.1 ((comp_le_norm (v - u)).2.2.trans hv)
  simp only [V3.sub_x, V3.sub_y, V3.sub_z] at hx hy hz
  obtain ⟨⟨a1, a2⟩, ⟨b1, b2⟩, c1, c2⟩ := h
  exact ⟨⟨by linarith [hx.1], by linarith [hx.2]⟩, ⟨by linarith [hy.1], by linarith [hy.2]⟩, by linarith [hz.1], by linarith [hz.2]⟩

/-- C149: the pictures of a swarm. Four cameras in air without lens distortion, inexact targets, adding off. Record the results of
`py_correspondences` frame by frame and track: a forward run that returns has written every frame once, with exactly the `N` particles, each within
`ρ = δ (1 + 2/σ)` of its true position and linked to itself, and to nothing else, in the frames before and after. -/
theorem C149_swarm (srt : NpSort ℝ) (s : Setup) (hadd : s.add = false) (him : (s.ip.imx : ℝ) ≤ 10 ^ 19 ∧ (s.ip.imy : ℝ) ≤ 10 ^ 19)
    (hdacc : 0 < s.dacc) (B : ℝ) (hB : LongestStep s B) (p : Pars) (tol : ℝ) (heps : 0 < p.crit.eps0) (hcs : 0 ≤ p.crit.csumg)
    (cm : ℝ) (hcm : p.corrmin = .fin cm) (δ σ ρ : ℝ) (hσ : 0 < σ) (pics : Int → Fin 4 → Pic) (N : ℕ) (P : Fin N → Int → V3)
    (m : Int → Fin N → Fin 4 → ℕ) (t : Int → Fin N → Fin 4 → Det) (d w : Int → Fin N → Fin 4 → Fin 4 → ℝ)
    (ray : Int → Fin N → Fin 4 → Ray) (first : Int) (L : ℕ) (hL : 2 ≤ L)
    (hfilm : FilmedSwarm s p tol pics N P m t d w cm δ σ ray first L B ρ) (disk : Int → Frame V3 ℝ (Img ℝ))
    (hdisk : ∀ n, first ≤ n → n ≤ first + L → ∃ o, pyCorrespondences srt p (fun c => (pics n c).data p.ip tol) = .ok o ∧
      Recorded p tol (pics n) o (disk n))
    (hout : ∀ n, ¬ (first ≤ n ∧ n ≤ first + L) → ∀ q ∈ (disk n).parts, q.prev = -1 ∧ q.next = -2)
    (a b c e : Frame V3 ℝ (Img ℝ)) (r : Run (Frame V3 ℝ (Img ℝ)))
    (h : forwardRun disk (trackBuf s.tracker) first (first + L) [a, b, c, e] = .ok r) :
    ∃ num : Fin N → Int → ℕ, (∀ n, first ≤ n → n ≤ first + L → Function.Injective fun k => num k n) ∧
      (writesOf r.log).map Prod.fst = (List.range (L + 1)).map (fun j : ℕ => first + (j : Int)) ∧
      ∀ n f, (n, f) ∈ writesOf r.log → f.parts.length = N ∧ TrueLinks (fun x y => (y - x).norm ≤ ρ) P num first L n f.parts := by
  classical
  -- the frames
  have hold : ∀ n, ∃ pos : Fin N → ℕ, first ≤ n → n ≤ first + L →
      HoldsCloud (disk n) N (fun k => P k n) (m n) (t n) ρ pos := by
    intro n
    by_cases hn : first ≤ n ∧ n ≤ first + L
    · obtain ⟨o, ho, hrec⟩ := hdisk n hn.1 hn.2
      obtain ⟨o', ho', -, hall⟩ := C149_frame srt heps hcs hcm hσ (hfilm.pictured n hn.1 hn.2)
      rw [ho] at ho'
      cases ho'
      obtain ⟨pos, hpos⟩ := hall _ hrec
      exact ⟨pos, fun _ _ => by rw [hfilm.error]; exact hpos⟩
    · exact ⟨fun _ => 0, fun h1 h2 => absurd ⟨h1, h2⟩ hn⟩
  choose pos hpos using hold
  have hpart : ∀ k n, ∃ x : V3, first ≤ n → n ≤ first + L → (∃ q, (disk n).parts[pos n k]? = some q ∧ q.x = x) ∧ (x - P k n).norm ≤ ρ := by
    intro k n
    by_cases hn : first ≤ n ∧ n ≤ first + L
    · obtain ⟨q, h1, -, -, h4⟩ := (hpos n hn.1 hn.2).part k
      exact ⟨q.x, fun _ _ => ⟨⟨q, h1, rfl⟩, h4⟩⟩
    · exact ⟨0, fun h1 h2 => absurd ⟨h1, h2⟩ hn⟩
  choose y hy using hpart
  have hlt : ∀ k n, first ≤ n → n ≤ first + L → pos n k < N := by
    intro k n h1 h2
    obtain ⟨⟨q, hq, -⟩, -⟩ := hy k n h1 h2
    rw [← (hpos n h1 h2).count]
    exact (List.getElem?_eq_some_iff.1 hq).1
  have hsurj : ∀ n i, first ≤ n → n ≤ first + L → i < N → ∃ k, pos n k = i := by
    intro n i h1 h2 hi
    have hs : Function.Surjective (fun k : Fin N => (⟨pos n k, hlt k n h1 h2⟩ : Fin N)) :=
      Finite.surjective_of_injective fun a b e => (hpos n h1 h2).once (by simpa using e)
    obtain ⟨k, hk⟩ := hs ⟨i, hi⟩
    exact ⟨k, by simpa using congrArg Fin.val hk⟩
  have hnone : ∀ n, ∀ q ∈ (disk n).parts, q.prev = PREV_NONE ∧ q.next = NEXT_NONE := by
    intro n q hq
    by_cases hn : first ≤ n ∧ n ≤ first + L
    · obtain ⟨i, hi⟩ := List.mem_iff_getElem?.1 hq
      obtain ⟨k, rfl⟩ := hsurj n i hn.1 hn.2 (by rw [← (hpos n hn.1 hn.2).count]; exact (List.getElem?_eq_some_iff.1 hi).1)
      obtain ⟨q', h1, h2, h3, -⟩ := (hpos n hn.1 hn.2).part k
      rw [hi] at h1
      cases h1
      exact ⟨h2, h3⟩
    · exact hout n hn q hq
  have hρ : ∀ k n, first ≤ n → n ≤ first + L → (y k n - P k n).norm ≤ ρ := fun k n h1 h2 => (hy k n h1 h2).2
  have hcal4 : s.cals.length = 4 := by
    rw [hfilm.cals first (le_refl _) (by omega)]
    simp
  have hcal : ∀ n (c : Fin 4), first ≤ n → n ≤ first + L → s.cals[c.val]? = some ((pics n c).cal, (pics n c).lut) := by
    intro n c h1 h2
    rw [hfilm.cals n h1 h2]
    exact finRange_get _ c
  -- differences of measured positions
  have hdiff : ∀ k l n n', first ≤ n → n ≤ first + L → first ≤ n' → n' ≤ first + L →
      ((y l n' - y k n) - (P l n' - P k n)).norm ≤ 2 * ρ := by
    intro k l n n' h1 h2 h3 h4
    have e : (y l n' - y k n) - (P l n' - P k n) = (y l n' - P l n') - (y k n - P k n) := by ext <;> simp <;> ring
    rw [e]
    have := norm_sub_le' (y l n' - P l n') (y k n - P k n)
    have h5 := hρ l n' h3 h4
    have h6 := hρ k n h1 h2
    linarith
  have hfar : ∀ k l n, k ≠ l → first ≤ n → n < first + L → B + 2 * s.dacc ≤ (y l (n + 1) - y k n).norm := by
    intro k l n hkl h1 h2
    have h3 := hdiff k l n (n + 1) h1 (by omega) (by omega) (by omega)
    have h4 := hfilm.apart k l n hkl h1 h2
    have e : P l (n + 1) - P k n = (y l (n + 1) - y k n) - ((y l (n + 1) - y k n) - (P l (n + 1) - P k n)) := by ext <;> simp
    have h5 := norm_sub_le' (y l (n + 1) - y k n) ((y l (n + 1) - y k n) - (P l (n + 1) - P k n))
    rw [← e] at h5
    linarith
  have hmove : ∀ k n, first ≤ n → n < first + L → y k (n + 1) - y k n ≠ 0 := by
    intro k n h1 h2 h0
    have h3 := hdiff k k n (n + 1) h1 (by omega) (by omega) (by omega)
    rw [h0] at h3
    have e : (0 : V3) - (P k (n + 1) - P k n) = P k n - P k (n + 1) := by ext <;> simp
    rw [e, v3_norm_comm] at h3
    have := hfilm.moves k n h1 h2
    linarith
  have hat : ∀ n i x, first ≤ n → n ≤ first + L → ((disk n).parts.map Part.x)[i]? = some x → ∃ k, pos n k = i ∧ x = y k n := by
    intro n i x h1 h2 hi
    rw [List.getElem?_map, Option.map_eq_some_iff] at hi
    obtain ⟨q, hq, rfl⟩ := hi
    obtain ⟨k, rfl⟩ := hsurj n i h1 h2 (by rw [← (hpos n h1 h2).count]; exact (List.getElem?_eq_some_iff.1 hq).1)
    obtain ⟨⟨q', h3, h4⟩, -⟩ := hy k n h1 h2
    rw [hq] at h3
    cases h3
    exact ⟨k, rfl, h4⟩
  have hframe : ∀ n, first ≤ n → n ≤ first + L → FrameOK s (disk n) := by
    intro n h1 h2
    have hh := hpos n h1 h2
    have hall : ∀ (cam : ℕ) (ts : List (Search.Tgt ℝ)), (disk n).img.targets[cam]? = some ts → ∃ c : Fin 4, c.val = cam ∧ ts.length = N ∧
        ts.map Search.Tgt.y = (pics n c).dets.map Det.y ∧ ∀ (i : ℕ) (u : Search.Tgt ℝ), ts[i]? = some u →
        ∃ k, m n k c = i ∧ u = ⟨(t n k c).x, (t n k c).y, pos n k⟩ := by
      intro cam ts hts
      have hc : cam < 4 := by rw [← hh.cams]; exact (List.getElem?_eq_some_iff.1 hts).1
      obtain ⟨g1, g2⟩ := hh.target ⟨cam, hc⟩ ts hts
      have hpc := hfilm.pictured n h1 h2
      have hdl : (pics n ⟨cam, hc⟩).dets.length = N := by
        have hb : Function.Bijective (fun k : Fin N => (⟨m n k ⟨cam, hc⟩, (List.getElem?_eq_some_iff.1 (hpc.target k ⟨cam, hc⟩)).1⟩ :
            Fin (pics n ⟨cam, hc⟩).dets.length)) := by
          constructor
          · intro a b e
            exact hpc.once a b ⟨cam, hc⟩ (by simpa using e)
          · intro i
            obtain ⟨k, hk⟩ := hpc.all ⟨cam, hc⟩ i i.isLt
            exact ⟨k, Fin.ext hk⟩
        have := Fintype.card_of_bijective hb
        simpa using this.symm
      refine ⟨⟨cam, hc⟩, rfl, g1, ?_, ?_⟩
      · refine List.ext_getElem? fun i => ?_
        by_cases hi : i < N
        · obtain ⟨k, rfl⟩ := hpc.all ⟨cam, hc⟩ i (by rw [hdl]; exact hi)
          rw [List.getElem?_map, List.getElem?_map, g2 k, hpc.target k ⟨cam, hc⟩]
          rfl
        · rw [List.getElem?_eq_none (by rw [List.length_map, g1]; omega), List.getElem?_eq_none (by rw [List.length_map, hdl]; omega)]
      · intro i u hu
        obtain ⟨k, rfl⟩ := hpc.all ⟨cam, hc⟩ i (by rw [hdl, ← g1]; exact (List.getElem?_eq_some_iff.1 hu).1)
        refine ⟨k, rfl, ?_⟩
        rw [g2 k] at hu
        exact (Option.some.inj hu).symm
    refine ⟨by rw [hh.cams, hcal4], fun ts hts => ?_⟩
    obtain ⟨cam, hcam⟩ := List.mem_iff_getElem?.1 hts
    obtain ⟨c, -, g1, g2, g3⟩ := hall cam ts hcam
    refine ⟨by rw [g2]; exact hfilm.sorted n c h1 h2, ?_, ?_⟩
    · have e1 := congrArg List.length g2
      rw [List.length_map, List.length_map] at e1
      rw [e1]
      exact ((hfilm.pictured n h1 h2).fine c).few
    · intro u hu
      obtain ⟨i, hi⟩ := List.mem_iff_getElem?.1 hu
      obtain ⟨k, -, rfl⟩ := g3 i u hi
      simp only
      rw [hh.count]
      exact_mod_cast hlt k n h1 h2
  -- targets
  have hseeing : ∀ k n (c : Fin 4) X v cal, first ≤ n → n ≤ first + L → s.cals[c.val]? = some cal →
      Findable s cal X v ((t n k c).x, (t n k c).y) → NearestOf (fun l => t n l c) v k →
      ∃ (c' : Cam × LUT) (ts : List (Search.Tgt ℝ)) (j : ℕ) (u : Search.Tgt ℝ), s.cals[c.val]? = some c' ∧ (disk n).img.targets[c.val]? = some ts ∧
        ts[j]? = some u ∧ u.tnr = (pos n k : ℕ) ∧ Findable s c' X v (u.x, u.y) ∧ ∀ (i : ℕ) (z : Search.Tgt ℝ), ts[i]? = some z → i ≠ j →
          (v.1 - u.x) ^ 2 + (v.2 - u.y) ^ 2 < (v.1 - z.x) ^ 2 + (v.2 - z.y) ^ 2 := by
    intro k n c X v cal h1 h2 hc hf hn
    have hh := hpos n h1 h2
    have hl : c.val < (disk n).img.targets.length := by rw [hh.cams]; exact c.isLt
    obtain ⟨g1, g2⟩ := hh.target c _ (List.getElem?_eq_getElem hl)
    refine ⟨cal, _, _, _, hc, List.getElem?_eq_getElem hl, g2 k, rfl, hf, ?_⟩
    intro i z hz hij
    have hi : i < N := by rw [← g1]; exact (List.getElem?_eq_some_iff.1 hz).1
    have hpc := hfilm.pictured n h1 h2
    -- i is the target of another particle
    obtain ⟨l, rfl⟩ : ∃ l, m n l c = i := by
      have hs : Function.Surjective (fun k : Fin N => (⟨m n k c, by
          have := (List.getElem?_eq_some_iff.1 (g2 k)).1
          rw [g1] at this
          exact this⟩ : Fin N)) :=
        Finite.surjective_of_injective fun a b e => hpc.once a b c (by simpa using e)
      obtain ⟨l, hl⟩ := hs ⟨i, hi⟩
      exact ⟨l, by simpa using congrArg Fin.val hl⟩
    have hkl : l ≠ k := fun e => hij (by rw [e])
    rw [g2 l] at hz
    cases hz
    exact hn l hkl
  have hres := C132_swarm (K := Fin N) s (by omega) hadd him hdacc B hB disk hnone first L hL y (fun k n => pos n k)
    ⟨fun k n h1 h2 => by
      obtain ⟨⟨q, hq, e⟩, -⟩ := hy k n h1 h2
      rw [List.getElem?_map, hq, Option.map_some, e], fun n i h1 h2 hi => hsurj n i h1 h2 (by rw [← (hpos n h1 h2).count]; exact hi)⟩
    (by
      intro k n h1 h2
      constructor
      · intro i x hx hne
        obtain ⟨l, rfl, rfl⟩ := hat (n + 1) i x (by omega) (by omega) hx
        exact hfar k l n (fun e => hne (by rw [e])) h1 h2
      · intro i x hx hne
        obtain ⟨l, rfl, rfl⟩ := hat n i x h1 (by omega) hx
        exact hfar l k n (fun e => hne (by rw [e])) h1 h2)
    (by
      intro k n h1 h2
      refine ⟨inBounds_of_near (hfilm.steps k n h1 h2) (hdiff k k n (n + 1) (by omega) (by omega) (by omega) (by omega)), ?_⟩
      have hm1 := hmove k (n - 1) (by omega) (by omega)
      rw [sub_add_cancel] at hm1
      obtain ⟨φ, hφ⟩ := angle_of_ne hm1 (hmove k n (by omega) h2)
      refine ⟨φ, hφ, Or.inr ?_⟩
      have h3 := hfilm.smooth k n h1 h2
      have h4 := hdiff k k n (n + 1) (by omega) (by omega) (by omega) (by omega)
      have h5 := hdiff k k (n - 1) n (by omega) (by omega) (by omega) (by omega)
      have e1 : (y k (n + 1) - y k n) - (y k n - y k (n - 1)) = ((P k (n + 1) - P k n) - (P k n - P k (n - 1))) +
          (((y k (n + 1) - y k n) - (P k (n + 1) - P k n)) - ((y k n - y k (n - 1)) - (P k n - P k (n - 1)))) := by
        ext <;> simp <;> ring
      rw [e1]
      have h6 := norm_add_le' ((P k (n + 1) - P k n) - (P k n - P k (n - 1)))
        (((y k (n + 1) - y k n) - (P k (n + 1) - P k n)) - ((y k n - y k (n - 1)) - (P k n - P k (n - 1))))
      have h7 := norm_sub_le' ((y k (n + 1) - y k n) - (P k (n + 1) - P k n)) ((y k n - y k (n - 1)) - (P k n - P k (n - 1)))
      linarith)
    (by
      intro k
      have hh := hpos first (le_refl _) (by omega)
      refine findable_seen (fun cam => if hc : cam < 4 then ((t first k ⟨cam, hc⟩).x, (t first k ⟨cam, hc⟩).y) else 0)
        (hframe _ (by omega) (by omega)) ?_
      intro cam hcam
      rw [hcal4] at hcam
      obtain ⟨row, hr1, hr2⟩ := hh.row k
      simp only [dif_pos hcam]
      constructor
      · rw [Setup.projOwn, hcal4, allOk_map (List.range 4) _
          (fun cam => if hc : cam < 4 then ((t first k ⟨cam, hc⟩).x, (t first k ⟨cam, hc⟩).y) else 0), List.getElem?_map,
          List.getElem?_range hcam]
        · simp only [Option.map_some, dif_pos hcam]
        · intro b hb
          have hb : b < 4 := List.mem_range.1 hb
          have hl : b < (disk first).img.targets.length := by rw [hh.cams]; exact hb
          obtain ⟨g1, g2⟩ := hh.target ⟨b, hb⟩ _ (List.getElem?_eq_getElem hl)
          have hrp : row.p[b]? = some ((m first k ⟨b, hb⟩ : ℕ) : Int) := by
            rw [hr2]
            exact finRange_get (fun c => (m first k c : Int)) ⟨b, hb⟩
          unfold Setup.ownPix
          rw [pyGet_some hr1]
          simp only [bind, Except.bind]
          rw [pyGet_some hrp]
          simp only
          rw [if_neg (by omega), pyGet_some (List.getElem?_eq_getElem hl)]
          simp only
          rw [pyGetI_nat (g2 k)]
          simp only [dif_pos hb]
      · obtain ⟨h1, h2⟩ := hfilm.seenFirst k ⟨cam, hcam⟩ _ (y k first) (hcal first ⟨cam, hcam⟩ (le_refl _) (by omega))
          (hρ k first (le_refl _) (by omega))
        exact hseeing k (first + 1) ⟨cam, hcam⟩ _ _ _ (by omega) (by omega) (hcal first ⟨cam, hcam⟩ (le_refl _) (by omega)) h1 h2)
    (by
      intro k n h1 h2
      set X := (y k n).smul 2 - y k (n - 1) with hX
      have hXn : (X - ((P k n).smul 2 - P k (n - 1))).norm ≤ 3 * ρ := by
        have e : X - ((P k n).smul 2 - P k (n - 1)) = ((y k n - P k n).smul 2) - (y k (n - 1) - P k (n - 1)) := by
          rw [hX]
          ext <;> simp <;> ring
        rw [e]
        have h3 := norm_sub_le' ((y k n - P k n).smul 2) (y k (n - 1) - P k (n - 1))
        rw [V3.norm_smul] at h3
        have h4 := hρ k n (by omega) (by omega)
        have h5 := hρ k (n - 1) (by omega) (by omega)
        norm_num at h3
        linarith
      have hall := fun c : Fin 4 => hfilm.seen k n c _ X h1 h2 (hcal n c (by omega) (by omega)) hXn
      choose v hv1 hv2 hv3 using hall
      refine findable_seen (fun cam => if hc : cam < 4 then v ⟨cam, hc⟩ else 0) (hframe _ (by omega) (by omega)) ?_
      intro cam hcam
      rw [hcal4] at hcam
      simp only [dif_pos hcam]
      constructor
      · rw [Setup.proj, hcal4, allOk_map (List.range 4) _ (fun cam => if hc : cam < 4 then v ⟨cam, hc⟩ else 0), List.getElem?_map,
          List.getElem?_range hcam]
        · simp only [Option.map_some, dif_pos hcam]
        · intro b hb
          have hb : b < 4 := List.mem_range.1 hb
          have hcb := hcal n ⟨b, hb⟩ (by omega) (by omega)
          simp only at hcb
          simp only [Setup.pix, hcb, hv1 ⟨b, hb⟩, orRaise, dif_pos hb]
      · exact hseeing k (n + 1) ⟨cam, hcam⟩ _ _ _ (by omega) (by omega) (hcal n ⟨cam, hcam⟩ (by omega) (by omega)) (hv2 ⟨cam, hcam⟩)
          (hv3 ⟨cam, hcam⟩))
    a b c e r h
  refine ⟨fun k n => pos n k, fun n h1 h2 => (hpos n h1 h2).once, hres.1, ?_⟩
  intro n f hf
  obtain ⟨h1, h2⟩ := hres.2 n f hf
  have hn : first ≤ n ∧ n ≤ first + L := by
    have : n ∈ (writesOf r.log).map Prod.fst := List.mem_map.2 ⟨_, hf, rfl⟩
    rw [hres.1, List.mem_map] at this
    obtain ⟨j, hj, rfl⟩ := this
    rw [List.mem_range] at hj
    constructor <;> omega
  refine ⟨by rw [h1, (hpos n hn.1 hn.2).count], fun i q hq => ?_⟩
  obtain ⟨k, e1, e2, e3, e4⟩ := h2 i q hq
  refine ⟨k, e1, ?_, e3, e4⟩
  rw [← e2]
  exact hρ k n hn.1 hn.2

end Verif.Track
