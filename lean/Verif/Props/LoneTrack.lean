/-
C98: the whole tracker follows a single particle through a whole run.
-/
import Verif.Props.UniformTrack
import Verif.Proofs.LoneRun

set_option linter.unusedSectionVars false

namespace Verif.Track
open Verif.Track.Spec Verif.Geo Verif.Geo.Spec

/-! ### Specification -/

/-- All cameras project the position `X`, and the corners of the velocity box around it, somewhere (maybe outside the image). -/
def Projectable (s : Setup) (X : V3) : Prop :=
  ∀ c ∈ s.cals, (∃ px, pointToPixel X c.1 c.2 s.mm s.ip = some px) ∧
    ∃ a, searchQuader (fun Q => pointToPixel Q c.1 c.2 s.mm s.ip) s.ip.imx s.ip.imy X s.vel = some a

/-- The images of a frame with one particle: one target per camera, numbered 0, and the correspondence of the particle to these
targets. -/
def LoneImage (s : Setup) (i : Img ℝ) : Prop :=
  (∀ cam, cam < s.cals.length → ∃ t, i.targets[cam]? = some [t] ∧ t.tnr = 0) ∧
    ∃ r, i.corr[0]? = some r ∧ ∀ cam, cam < s.cals.length → r.p[cam]? = some 0

/-- The frames `first .. last` as read: one particle, in frame `n` at `x n`, without links. -/
def LoneFiles (s : Setup) (disk : Int → Frame V3 ℝ (Img ℝ)) (x : Int → V3) (first last : Int) : Prop :=
  ∀ n, first ≤ n → n ≤ last → (∃ c d, (disk n).parts = [⟨x n, PREV_NONE, NEXT_NONE, c, d⟩]) ∧ LoneImage s (disk n).img

/-- The run reads the frames `first .. last` and writes them, in order; each holds the particle, linked to its neighbours
in time: particle 0 of the frame before (none for the first), and particle 0 of the frame after (none for the last). -/
def CompleteTrajectory (x : Int → V3) (first : Int) (L : Nat) (w : List (Int × Frame V3 ℝ (Img ℝ))) : Prop :=
  w.map (fun e => (e.1, e.2.parts.map fun p => (p.x, p.prev, p.next))) =
    (List.range (L + 1)).map fun (k : ℕ) =>
      (first + (k : Int), [(x (first + k), if k = 0 then -1 else 0, if k = L then -2 else 0)])

/-! ### Proof -/

theorem lone_written_all {x : Int → V3} {first : Int} {L : Nat} {w : List (Int × Frame V3 ℝ (Img ℝ))}
    (h1 : w.map Prod.fst = intRange first (L + 1)) (h2 : ∀ e ∈ w, LoneWritten x first (first + L) e.1 e.2) :
    CompleteTrajectory x first L w := by
  unfold CompleteTrajectory
  have hmap : w.map (fun e => (e.1, e.2.parts.map fun p => (p.x, p.prev, p.next))) =
      (w.map Prod.fst).map (fun n => (n, [(x n, if n = first then PREV_NONE else 0, if n = first + L then NEXT_NONE else 0)])) := by
    rw [List.map_map]
    refine List.map_congr_left fun e he => ?_
    have := h2 e he
    unfold LoneWritten at this
    simp only [Function.comp_apply, this]
  rw [hmap, h1]
  unfold intRange
  rw [List.map_map]
  refine List.map_congr_left fun k _ => ?_
  simp only [Function.comp_apply, PREV_NONE, NEXT_NONE]
  have e1 : (first + (k : Int) = first) = (k = 0) := by apply propext; omega
  have e2 : (first + (k : Int) = first + (L : Int)) = (k = L) := by apply propext; omega
  simp only [e1, e2]

theorem proj_length {s : Setup} {X : V3} (h : Projectable s X) : (s.proj X).length = s.cals.length := by
  classical
  have key : ∀ cam, ∃ v, cam < s.cals.length → s.pix cam X = .ok v := by
    intro cam
    by_cases hc : cam < s.cals.length
    · obtain ⟨⟨px, hpx⟩, -⟩ := h _ (List.getElem_mem hc)
      exact ⟨px, fun _ => by simp only [Setup.pix, List.getElem?_eq_getElem hc, hpx, orRaise]⟩
    · exact ⟨(0, 0), fun h => absurd h hc⟩
  choose v hv using key
  rw [Setup.proj, allOk_map (List.range s.cals.length) _ v (fun b hb => hv b (List.mem_range.1 hb))]
  simp

theorem area_ok {s : Setup} {X : V3} (h : Projectable s X) (cam : Nat) (hc : cam < s.cams.num) : ∃ a, s.cams.area cam X = .ok a := by
  have hc : cam < s.cals.length := hc
  obtain ⟨-, a, ha⟩ := h _ (List.getElem_mem hc)
  exact ⟨Setup.rectOf a, by simp only [Setup.cams, Setup.area, List.getElem?_eq_getElem hc, ha, Option.map_some, orRaise]⟩

theorem pix_ok {s : Setup} {X : V3} (h : Projectable s X) (cam : Nat) (hc : cam < s.cams.num) : ∃ a, s.cams.pix cam X = .ok a := by
  have hc : cam < s.cals.length := hc
  obtain ⟨⟨px, hpx⟩, -⟩ := h _ (List.getElem_mem hc)
  exact ⟨px, by simp only [Setup.cams, Setup.pix, List.getElem?_eq_getElem hc, hpx, orRaise]⟩

theorem ownPix_length {s : Setup} {i : Img ℝ} (hi : LoneImage s i) (X : V3) : (s.projOwn i 0 X).length = s.cals.length := by
  classical
  obtain ⟨h1, r, h2, h3⟩ := hi
  have key : ∀ cam, ∃ v, cam < s.cals.length → s.ownPix i 0 X cam = .ok v := by
    intro cam
    by_cases hc : cam < s.cals.length
    · obtain ⟨t, ht, -⟩ := h1 cam hc
      refine ⟨(t.x, t.y), fun _ => ?_⟩
      unfold Setup.ownPix
      rw [pyGet_some h2]
      simp only [bind, Except.bind]
      rw [pyGet_some (h3 cam hc)]
      simp only
      rw [if_neg (by decide), pyGet_some ht]
      rfl
    · exact ⟨(0, 0), fun h => absurd h hc⟩
  choose v hv using key
  rw [Setup.projOwn, allOk_map (List.range s.cals.length) _ v (fun b hb => hv b (List.mem_range.1 hb))]
  simp

theorem tracker_search_one {s : Setup} (hn : 1 ≤ s.cals.length ∧ s.cals.length ≤ 4) {X : V3} (h : Projectable s X) {v : List (ℝ × ℝ)}
    (hv : v.length = s.cals.length) {i : Img ℝ} (hi : LoneImage s i) :
    s.tracker.search X v i = .ok [⟨0, s.cals.length⟩, ⟨-1, 0⟩] := by
  obtain ⟨l, h1, h2⟩ := sortedCandidates_one s.cams X v i.targets hn hi.1 hv (area_ok h)
  show (sortedCandidates s.cams X v i.targets).bind _ = _
  rw [h1]
  exact congrArg Except.ok h2

theorem lone_hyp {s : Setup} (hn : 1 ≤ s.cals.length ∧ s.cals.length ≤ 4) (hadd : s.add = false)
    {disk : Int → Frame V3 ℝ (Img ℝ)} {x : Int → V3} {first last : Int} (hlt : first < last) (hf : LoneFiles s disk x first last)
    (h0 : Projectable s (x first))
    (hstart : Pos3dInBounds (x (first + 2) - x (first + 1)) s.vel ∧
      ∃ angle acc, angleAcc (x (first + 1)) (x (first + 2)) ((x (first + 1)).smul 2 - x first) = .ok (angle, acc) ∧ acc < s.dacc / 10)
    (hvis : ∀ n, first < n → n < last → Projectable s ((x n).smul 2 - x (n - 1)))
    (hvis2 : ∀ n, first ≤ n → n < last → Projectable s (aheadAt s.tracker x first n))
    (hstep : ∀ n, first < n → n < last → Pos3dInBounds (x (n + 1) - x n) s.vel ∧
      ∃ angle acc, angleAcc (x n) ((x n).smul 2 - x (n - 1)) (x (n + 1)) = .ok (angle, acc) ∧ acc < s.dacc / 10)
    (hang : ∀ n m, first ≤ n → n < last → (n + 2 ≤ last ∧ m = n + 2 ∨ last < n + 2 ∧ m = n - 2) →
      ∃ a, angleAcc (x (n + 1)) (x m) (aheadAt s.tracker x first n) = .ok a) :
    LoneHyp s.tracker disk x (Projectable s) s.cals.length first last where
  add := hadd
  parts := fun n h1 h2 => (hf n h1 h2).1
  search := by
    intro X hX n h1 h2
    obtain ⟨-, hi⟩ := hf n h1 h2
    refine ⟨tracker_search_one hn hX (proj_length hX) hi, ?_⟩
    exact assessNew_one s.cams X (disk n).img.targets hi.1 (pix_ok hX)
  own := by
    obtain ⟨-, hi⟩ := hf first (le_refl _) hlt.le
    exact tracker_search_one hn h0 (ownPix_length hi _) (hf (first + 1) (by omega) (by omega)).2
  start := by
    obtain ⟨a1, angle, acc, a2, a3⟩ := hstart
    exact ⟨@decide_eq_true _ (Classical.propDecidable _) a1, angle, acc, a2, Or.inr a3⟩
  vis := hvis
  visAhead := hvis2
  step := by
    intro n h1 h2
    obtain ⟨a1, angle, acc, a2, a3⟩ := hstep n h1 h2
    exact ⟨@decide_eq_true _ (Classical.propDecidable _) a1, angle, acc, a2, Or.inr a3⟩
  angle := fun n m h1 h2 h3 _ => hang n m h1 h2 h3

theorem angleAcc_ok {a b c : V3} (h : b = a ↔ c = a) : ∃ angle, angleAcc a b c = .ok (angle, ((b - a) - (c - a)).norm) := by
  unfold angleAcc
  simp only
  by_cases h1 : b - a = neg (c - a)
  · exact ⟨200, by rw [if_pos h1]⟩
  rw [if_neg h1]
  by_cases h2 : b - a = c - a
  · exact ⟨0, by rw [if_pos h2]⟩
  rw [if_neg h2]
  have h3 : (a - b).norm * (a - c).norm ≠ 0 := by
    intro e
    have z : ∀ d : V3, (a - d).norm = 0 → d = a := by
      intro d hd
      rw [V3.norm_eq_zero] at hd
      have hx := congrArg V3.x hd
      have hy := congrArg V3.y hd
      have hz := congrArg V3.z hd
      simp only [V3.sub_x, V3.sub_y, V3.sub_z, V3.zero_x, V3.zero_y, V3.zero_z] at hx hy hz
      ext <;> linarith
    apply h2
    rcases mul_eq_zero.1 e with e | e
    · have hb := z _ e
      rw [hb, h.1 hb]
    · have hc := z _ e
      rw [hc, h.2 hc]
  rw [if_neg h3]
  exact ⟨_, rfl⟩

theorem uniform_hyp (s : Setup) (hn : 1 ≤ s.cals.length ∧ s.cals.length ≤ 4) (hadd : s.add = false) (hdacc : 0 < s.dacc)
    (a u : V3) (hu : Pos3dInBounds u s.vel) (disk : Int → Frame V3 ℝ (Img ℝ)) (first : Int) (L : Nat) (hL : 3 ≤ L)
    (hf : LoneFiles s disk (fun n => a + u.smul n) first (first + L))
    (hp : ∀ n : Int, first ≤ n → n ≤ first + L + 1 → Projectable s (a + u.smul n)) :
    LoneHyp s.tracker disk (fun n => a + u.smul n) (Projectable s) s.cals.length first (first + L) := by
  have hpred : ∀ n : Int, (a + u.smul n).smul 2 - (a + u.smul ((n - 1 : Int))) = a + u.smul ((n + 1 : Int)) := by
    intro n
    ext <;> simp [V3.smul] <;> ring
  have hah : ∀ n : Int, aheadAt s.tracker (fun n : Int => a + u.smul n) first n = a + u.smul ((n + 2 : Int)) := by
    intro n
    unfold aheadAt
    split_ifs
    · show searchVolumeCenterMoving _ _ = _
      ext <;> simp [V3.smul, searchVolumeCenterMoving] <;> ring
    · show (((a + u.smul ((n + 1 : Int))).smul 5 - (a + u.smul n).smul 4 + (a + u.smul ((n - 1 : Int)))).smul 0.5) = _
      ext <;> simp [V3.smul] <;> ring
  have hdiff : ∀ n : Int, (a + u.smul ((n + 1 : Int))) - (a + u.smul n) = u := by
    intro n
    ext <;> simp [V3.smul] <;> ring
  exact lone_hyp hn hadd (disk := disk) (x := fun n : Int => a + u.smul n) (first := first) (last := first + L) (by omega) hf
    (hp first (le_refl _) (by omega))
    (by
      have e1 : first + 2 = first + 1 + 1 := by ring
      have e2 := hpred (first + 1)
      rw [show first + 1 - 1 = first by ring] at e2
      refine ⟨?_, ?_⟩
      · simp only [e1, hdiff]
        exact hu
      · obtain ⟨angle, h⟩ := angleAcc_same (a + u.smul ((first + 1 : Int))) (a + u.smul ((first + 1 + 1 : Int)))
        refine ⟨angle, 0, ?_, by linarith⟩
        simp only [e2, e1]
        exact h)
    (by
      intro n h1 h2
      simp only [hpred]
      exact hp _ (by omega) (by omega))
    (by
      intro n h1 h2
      rw [hah]
      exact hp _ (by omega) (by omega))
    (by
      intro n h1 h2
      simp only [hpred, hdiff]
      refine ⟨hu, ?_⟩
      obtain ⟨angle, h⟩ := angleAcc_same (a + u.smul n) (a + u.smul ((n + 1 : Int)))
      exact ⟨angle, 0, h, by linarith⟩)
    (by
      intro n m h1 h2 h3
      rw [hah]
      obtain ⟨angle, h⟩ := angleAcc_ok (a := a + u.smul ((n + 1 : Int))) (b := a + u.smul m) (c := a + u.smul ((n + 2 : Int))) (by
        have hk : ∀ k l : Int, k ≠ l → (a + u.smul k = a + u.smul l ↔ u = 0) := by
          intro k l hkl
          have hkl' : (k : ℝ) - l ≠ 0 := by
            rw [sub_ne_zero]
            exact_mod_cast hkl
          constructor
          · intro e
            have hx := congrArg V3.x e
            have hy := congrArg V3.y e
            have hz := congrArg V3.z e
            simp only [V3.smul, V3.add_x, V3.add_y, V3.add_z, add_right_inj] at hx hy hz
            ext
            · exact (mul_eq_zero.1 (show ((k : ℝ) - l) * u.x = 0 by linear_combination hx)).resolve_left hkl'
            · exact (mul_eq_zero.1 (show ((k : ℝ) - l) * u.y = 0 by linear_combination hy)).resolve_left hkl'
            · exact (mul_eq_zero.1 (show ((k : ℝ) - l) * u.z = 0 by linear_combination hz)).resolve_left hkl'
          · rintro rfl
            ext <;> simp [V3.smul]
        rw [hk m (n + 1) (by omega), hk (n + 2) (n + 1) (by omega)])
      exact ⟨_, h⟩)

/-- C98: a particle in uniform motion, alone in the volume, is tracked from the first frame to the last: the run does not raise, and
it writes one complete trajectory. Cameras with any calibration, also refracting and distorting, that project all positions;
velocity within the limits; adding off. -/
theorem C98_lone_uniform_run (s : Setup) (hn : 1 ≤ s.cals.length ∧ s.cals.length ≤ 4) (hadd : s.add = false) (hdacc : 0 < s.dacc)
    (a u : V3) (hu : Pos3dInBounds u s.vel) (disk : Int → Frame V3 ℝ (Img ℝ)) (first : Int) (L : Nat) (hL : 3 ≤ L)
    (hf : LoneFiles s disk (fun n => a + u.smul n) first (first + L))
    (hp : ∀ n : Int, first ≤ n → n ≤ first + L + 1 → Projectable s (a + u.smul n)) (c0 c1 c2 c3 : Frame V3 ℝ (Img ℝ)) :
    ∃ r, forwardRun disk (trackBuf s.tracker) first (first + L) [c0, c1, c2, c3] = .ok r ∧
      CompleteTrajectory (fun n => a + u.smul n) first L (writesOf r.log) := by
  obtain ⟨r, r1, r2, r3⟩ := lone_run (uniform_hyp s hn hadd hdacc a u hu disk first L hL hf hp) hL c0 c1 c2 c3
  exact ⟨r, r1, lone_written_all r2 r3⟩

/-! ### Smooth motion -/

theorem norm_add_le' (a b : V3) : (a + b).norm ≤ a.norm + b.norm := by
  have h := abs_dot_le a b
  have h1 := V3.norm_mul_self a
  have h2 := V3.norm_mul_self b
  have h3 := V3.norm_mul_self (a + b)
  simp only [V3.add_x, V3.add_y, V3.add_z] at h3
  have h4 := le_of_abs_le h
  simp only [V3.dot] at h4
  have n1 := V3.norm_nonneg a
  have n2 := V3.norm_nonneg b
  have n3 := V3.norm_nonneg (a + b)
  nlinarith

/-- The second difference of a trajectory. -/
def secondDiff (x : Int → V3) (n : Int) : V3 := x (n + 1) - (x n).smul 2 + x (n - 1)

theorem smooth_hyp (s : Setup) (hn : 1 ≤ s.cals.length ∧ s.cals.length ≤ 4) (hadd : s.add = false)
    (x : Int → V3) (disk : Int → Frame V3 ℝ (Img ℝ)) (first : Int) (L : Nat) (hL : 3 ≤ L)
    (hf : LoneFiles s disk x first (first + L))
    (hv : ∀ n, first ≤ n → n < first + L → Pos3dInBounds (x (n + 1) - x n) s.vel ∧ x (n + 1) ≠ x n)
    (ha : ∀ n, first < n → n < first + L → (secondDiff x n).norm < s.dacc / 10 ∧
      2 * (secondDiff x n).norm < (x (n + 1) - x n).norm)
    (hp0 : Projectable s (x first))
    (hp1 : ∀ n, first < n → n ≤ first + L → Projectable s ((x n).smul 2 - x (n - 1)))
    (hp2 : ∀ n, first < n → n < first + L → Projectable s (((x (n + 1)).smul 5 - (x n).smul 4 + x (n - 1)).smul 0.5)) :
    LoneHyp s.tracker disk x (Projectable s) s.cals.length first (first + L) := by
  have hz : ∀ p q : V3, (p - q).norm = 0 → p = q := by
    intro p q h
    rw [V3.norm_eq_zero] at h
    have hx := congrArg V3.x h
    have hy := congrArg V3.y h
    have hz := congrArg V3.z h
    simp only [V3.sub_x, V3.sub_y, V3.sub_z, V3.zero_x, V3.zero_y, V3.zero_z] at hx hy hz
    ext <;> linarith
  have hacc : ∀ n, (((x n).smul 2 - x (n - 1)) - x n - (x (n + 1) - x n)).norm = (secondDiff x n).norm := by
    intro n
    have : ((x n).smul 2 - x (n - 1)) - x n - (x (n + 1) - x n) = (secondDiff x n).smul (-1) := by
      ext <;> simp [secondDiff, V3.smul] <;> ring
    rw [this, V3.norm_smul]
    simp
  have hpredne : ∀ n, first < n → n ≤ first + L → (x n).smul 2 - x (n - 1) ≠ x n := by
    intro n h1 h2 e
    apply (hv (n - 1) (by omega) (by omega)).2
    rw [show n - 1 + 1 = n by ring]
    have hx := congrArg V3.x e
    have hy := congrArg V3.y e
    have hz := congrArg V3.z e
    simp only [V3.smul, V3.sub_x, V3.sub_y, V3.sub_z] at hx hy hz
    ext <;> linarith
  have hah : ∀ n, first ≤ n → n < first + L → aheadAt s.tracker x first n ≠ x (n + 1) ∧ Projectable s (aheadAt s.tracker x first n) := by
    intro n h1 h2
    unfold aheadAt
    split_ifs with h0
    · have e : s.tracker.predict (x n) (x (n + 1)) = (x (n + 1)).smul 2 - x (n + 1 - 1) := by
        rw [show n + 1 - 1 = n by ring]; rfl
      rw [e]
      exact ⟨hpredne (n + 1) (by omega) (by omega), hp1 (n + 1) (by omega) (by omega)⟩
    · have e : s.tracker.predict2 (x (n + 1)) (x n) (x (n - 1)) = ((x (n + 1)).smul 5 - (x n).smul 4 + x (n - 1)).smul 0.5 := rfl
      rw [e]
      refine ⟨?_, hp2 n (by omega) h2⟩
      intro e
      obtain ⟨-, h⟩ := ha n (by omega) h2
      have : x (n + 1) - x n = (secondDiff x n).smul (-1 / 2) := by
        have hx := congrArg V3.x e
        have hy := congrArg V3.y e
        have hz := congrArg V3.z e
        simp only [V3.smul, V3.sub_x, V3.sub_y, V3.sub_z, V3.add_x, V3.add_y, V3.add_z] at hx hy hz
        ext <;> simp only [secondDiff, V3.smul, V3.sub_x, V3.sub_y, V3.sub_z, V3.add_x, V3.add_y, V3.add_z] <;> linarith
      rw [this, V3.norm_smul] at h
      norm_num at h
      have := V3.norm_nonneg (secondDiff x n)
      linarith
  exact lone_hyp hn hadd (disk := disk) (x := x) (first := first) (last := first + L) (by omega) hf hp0
    (by
      refine ⟨?_, ?_⟩
      · have := (hv (first + 1) (by omega) (by omega)).1
        rwa [show first + 1 + 1 = first + 2 by ring] at this
      · have h1 := (hv (first + 1) (by omega) (by omega)).2
        have h2 := hpredne (first + 1) (by omega) (by omega)
        rw [show first + 1 + 1 = first + 2 by ring] at h1
        rw [show first + 1 - 1 = first by ring] at h2
        obtain ⟨angle, h⟩ := angleAcc_ok (a := x (first + 1)) (b := x (first + 2)) (c := (x (first + 1)).smul 2 - x first)
          ⟨fun e => absurd e h1, fun e => absurd e h2⟩
        refine ⟨angle, _, h, ?_⟩
        have h3 := (ha (first + 1) (by omega) (by omega)).1
        have : x (first + 2) - x (first + 1) - ((x (first + 1)).smul 2 - x first - x (first + 1)) = secondDiff x (first + 1) := by
          unfold secondDiff
          rw [show first + 1 + 1 = first + 2 by ring, show first + 1 - 1 = first by ring]
          ext <;> simp [V3.smul] <;> ring
        rw [this]
        exact h3)
    (fun n h1 h2 => hp1 n h1 (by omega))
    (fun n h1 h2 => (hah n h1 h2).2)
    (by
      intro n h1 h2
      refine ⟨(hv n (by omega) h2).1, ?_⟩
      obtain ⟨angle, h⟩ := angleAcc_ok (a := x n) (b := (x n).smul 2 - x (n - 1)) (c := x (n + 1))
        ⟨fun e => absurd e (hpredne n h1 (by omega)), fun e => absurd e (hv n (by omega) h2).2⟩
      refine ⟨angle, _, h, ?_⟩
      rw [hacc]
      exact (ha n h1 h2).1)
    (by
      intro n m h1 h2 h3
      obtain ⟨angle, h⟩ := angleAcc_ok (a := x (n + 1)) (b := x m) (c := aheadAt s.tracker x first n) (by
        refine ⟨fun e => ?_, fun e => absurd e (hah n h1 h2).1⟩
        exfalso
        rcases h3 with ⟨h3, rfl⟩ | ⟨h3, rfl⟩
        · apply (hv (n + 1) (by omega) (by omega)).2
          rw [show n + 1 + 1 = n + 2 by ring]
          exact e
        · obtain ⟨-, a1⟩ := ha n (by omega) h2
          obtain ⟨-, a2⟩ := ha (n - 1) (by omega) (by omega)
          rw [show n - 1 + 1 = n by ring] at a2
          have t1 : (x (n + 1) - x n).norm ≤ (x n - x (n - 1)).norm + (secondDiff x n).norm := by
            have : x (n + 1) - x n = (x n - x (n - 1)) + secondDiff x n := by
              ext <;> simp [secondDiff, V3.smul] <;> ring
            conv_lhs => rw [this]
            exact norm_add_le' _ _
          have t2 : ((x n - x (n - 1)).smul 3).norm ≤ (secondDiff x (n - 1)).norm + (secondDiff x n).norm := by
            have : (x n - x (n - 1)).smul 3 = secondDiff x (n - 1) + (secondDiff x n).smul (-1) := by
              have hx := congrArg V3.x e
              have hy := congrArg V3.y e
              have hz := congrArg V3.z e
              unfold secondDiff
              rw [show n - 1 + 1 = n by ring, show n - 1 - 1 = n - 2 by ring]
              ext <;> simp only [V3.smul, V3.sub_x, V3.sub_y, V3.sub_z, V3.add_x, V3.add_y, V3.add_z] <;> linarith
            rw [this]
            refine le_trans (norm_add_le' _ _) ?_
            rw [V3.norm_smul]
            simp
          rw [V3.norm_smul] at t2
          norm_num at t2
          have p1 := V3.norm_nonneg (secondDiff x n)
          have p2 := V3.norm_nonneg (secondDiff x (n - 1))
          linarith)
      exact ⟨_, h⟩)

/-- C98 for smooth motion: between two frames the particle moves, within the velocity limits, and its velocity changes by less
than a tenth of the limit on the acceleration, and by less than half of itself. The cameras project the positions where the
tracker looks: the first one, and those expected one and two frames ahead. -/
theorem C98_lone_smooth_run (s : Setup) (hn : 1 ≤ s.cals.length ∧ s.cals.length ≤ 4) (hadd : s.add = false)
    (x : Int → V3) (disk : Int → Frame V3 ℝ (Img ℝ)) (first : Int) (L : Nat) (hL : 3 ≤ L)
    (hf : LoneFiles s disk x first (first + L))
    (hv : ∀ n, first ≤ n → n < first + L → Pos3dInBounds (x (n + 1) - x n) s.vel ∧ x (n + 1) ≠ x n)
    (ha : ∀ n, first < n → n < first + L → (secondDiff x n).norm < s.dacc / 10 ∧
      2 * (secondDiff x n).norm < (x (n + 1) - x n).norm)
    (hp0 : Projectable s (x first))
    (hp1 : ∀ n, first < n → n ≤ first + L → Projectable s ((x n).smul 2 - x (n - 1)))
    (hp2 : ∀ n, first < n → n < first + L → Projectable s (((x (n + 1)).smul 5 - (x n).smul 4 + x (n - 1)).smul 0.5))
    (c0 c1 c2 c3 : Frame V3 ℝ (Img ℝ)) :
    ∃ r, forwardRun disk (trackBuf s.tracker) first (first + L) [c0, c1, c2, c3] = .ok r ∧
      CompleteTrajectory x first L (writesOf r.log) := by
  obtain ⟨r, r1, r2, r3⟩ := lone_run (smooth_hyp s hn hadd x disk first L hL hf hv ha hp0 hp1 hp2) hL c0 c1 c2 c3
  exact ⟨r, r1, lone_written_all r2 r3⟩

/-! ### Examples: two cameras in air -/

theorem air_projectable {s : Setup} {X : V3} (h : ∀ c ∈ s.cals, AirCam s c.1 X) (h0 : ∀ c ∈ s.cals, 0 < depth c.1 X) :
    Projectable s X := by
  intro c hc
  have hpx := pointToPixel_pinhole (lut := c.2) (ip := s.ip) (h c hc).air (h c hc).noDist (h c hc).glass (h0 c hc)
  exact ⟨⟨_, hpx⟩, air_window_ok (h c hc) hpx⟩

/-- A camera at height 100 that looks down. -/
noncomputable def downCam (p : ℝ) : Cam :=
  ⟨⟨p, 0, 100⟩, ⟨⟨1, 0, 0⟩, ⟨0, 1, 0⟩, ⟨0, 0, 1⟩⟩, 50, 0, 0, defaultAddPar, ⟨0, 0, 50⟩⟩

/-- Two such cameras. -/
noncomputable def airSetup : Setup where
  cals := [(downCam 0, emptyLUT), (downCam 10, emptyLUT)]
  mm := ⟨1, 1, [1], 1, [1]⟩
  ip := ⟨1000, 1000, 0.1, 0.1⟩
  tol := 0.001
  vel := ⟨⟨-2, -2, -2⟩, ⟨2, 2, 2⟩⟩
  dacc := 1
  dangle := 100
  add := false
  lmax := 3
  lo := ⟨-50, -50, -50⟩
  hi := ⟨50, 50, 50⟩

theorem downCam_depth (p : ℝ) (X : V3) : depth (downCam p) X = 100 - X.z := by
  simp [depth, downCam]

theorem airSetup_air {X : V3} (hX : X.z ≤ 50) : ∀ c ∈ airSetup.cals, AirCam airSetup c.1 X := by
  have key : ∀ p, AirCam airSetup (downCam p) X := by
    intro p
    refine ⟨⟨rfl, rfl, ⟨[], rfl⟩, rfl, rfl⟩, rfl, ?_, ?_, ?_, ?_, ?_⟩
    · intro e
      have := congrArg V3.z e
      norm_num [downCam] at this
    · norm_num [downCam]
    · norm_num [airSetup]
    · norm_num [downCam]
    · intro bx b_y bz
      rw [downCam_depth]
      cases bz <;> simp only [boxCorner, airSetup] <;> norm_num <;> linarith
  intro c hc
  simp only [airSetup, List.mem_cons, List.not_mem_nil, or_false] at hc
  rcases hc with rfl | rfl <;> exact key _

theorem airSetup_projectable {X : V3} (hX : X.z ≤ 50) : Projectable airSetup X := by
  refine air_projectable (airSetup_air hX) ?_
  intro c hc
  simp only [airSetup, List.mem_cons, List.not_mem_nil, or_false] at hc
  rcases hc with rfl | rfl <;> simp only [downCam_depth] <;> linarith

theorem airSetup_pixel (p q : ℝ) : pointToPixel ⟨p, 0, 0⟩ (downCam q) emptyLUT airSetup.mm airSetup.ip
    = some (5 * (p - q) + 500, 500) := by
  have h := airSetup_air (X := ⟨p, 0, 0⟩) (by norm_num) (downCam 0, emptyLUT) (by simp [airSetup])
  rw [pointToPixel_pinhole h.air rfl (by
    intro e
    have := congrArg V3.z e
    norm_num [downCam] at this) (by rw [downCam_depth]; norm_num)]
  simp [metricToPixel, pinhole, downCam, airSetup]
  norm_num
  ring

/-- The images of a particle at `(p, 0, 0)`. -/
noncomputable def airImg (p : ℝ) : Img ℝ :=
  ⟨[[⟨5 * (p - 0) + 500, 500, 0⟩], [⟨5 * (p - 10) + 500, 500, 0⟩]], [⟨1, [0, 0]⟩], by
    intro ts hts t ht
    simp only [List.mem_cons, List.not_mem_nil, or_false] at hts
    rcases hts with rfl | rfl <;> simp only [List.mem_cons, List.not_mem_nil, or_false] at ht <;> subst ht <;> norm_num⟩

theorem airImg_lone (p : ℝ) : LoneImage airSetup (airImg p) := by
  have hc : ∀ cam, cam < airSetup.cals.length → cam = 0 ∨ cam = 1 := by
    intro cam h
    have : cam < 2 := h
    omega
  refine ⟨?_, ⟨1, [0, 0]⟩, rfl, ?_⟩
  · intro cam h
    rcases hc cam h with rfl | rfl
    · exact ⟨_, rfl, rfl⟩
    · exact ⟨_, rfl, rfl⟩
  · intro cam h
    rcases hc cam h with rfl | rfl <;> rfl

/-- Frames of a particle on the x axis. -/
noncomputable def airDisk (x : Int → ℝ) (n : Int) : Frame V3 ℝ (Img ℝ) :=
  ⟨n, [⟨⟨x n, 0, 0⟩, PREV_NONE, NEXT_NONE, [], 0⟩], airImg (x n)⟩

theorem airDisk_lone (x : Int → ℝ) (y : Int → V3) (h : ∀ n, y n = ⟨x n, 0, 0⟩) (first last : Int) :
    LoneFiles airSetup (airDisk x) y first last := by
  intro n _ _
  exact ⟨⟨[], 0, by simp [airDisk, h]⟩, airImg_lone _⟩

/-- Uniform motion: the hypotheses of C98_lone_uniform_run hold for a run over the frames 10 .. 15. -/
example (c0 c1 c2 c3 : Frame V3 ℝ (Img ℝ)) :
    ∃ r, forwardRun (airDisk fun n => n) (trackBuf airSetup.tracker) 10 (10 + (5 : ℕ)) [c0, c1, c2, c3] = .ok r ∧
      CompleteTrajectory (fun n => (⟨0, 0, 0⟩ : V3) + (⟨1, 0, 0⟩ : V3).smul n) 10 5 (writesOf r.log) := by
  refine C98_lone_uniform_run airSetup (by simp [airSetup]) rfl (by norm_num [airSetup]) ⟨0, 0, 0⟩ ⟨1, 0, 0⟩
    (by norm_num [Pos3dInBounds, airSetup]) _ 10 5 (by norm_num) ?_ ?_ c0 c1 c2 c3
  · exact airDisk_lone _ _ (fun n => by ext <;> simp [V3.smul]) _ _
  · intro n _ _
    exact airSetup_projectable (by simp [V3.smul])

/-- An accelerated motion. -/
noncomputable def curve (n : Int) : ℝ := n + (n : ℝ) ^ 2 / 100
noncomputable def curve3 (n : Int) : V3 := ⟨curve n, 0, 0⟩

theorem curve_diff (n : Int) : curve3 (n + 1) - curve3 n = ⟨1 + (2 * n + 1) / 100, 0, 0⟩ := by
  ext <;> simp [curve3, curve] <;> ring

theorem curve_second (n : Int) : secondDiff curve3 n = ⟨1 / 50, 0, 0⟩ := by
  ext <;> simp [secondDiff, curve3, curve, V3.smul] <;> ring

theorem norm_axis (a : ℝ) : (⟨a, 0, 0⟩ : V3).norm = |a| := by
  simp [V3.norm, Real.sqrt_mul_self_eq_abs]

theorem curve_hyp : LoneHyp airSetup.tracker (airDisk curve) curve3 (Projectable airSetup) 2 0 (0 + (5 : ℕ)) := by
  refine smooth_hyp airSetup (by simp [airSetup]) rfl curve3 _ 0 5 (by norm_num) (airDisk_lone _ _ (fun n => rfl) _ _) ?_ ?_ ?_ ?_ ?_
  · intro n h1 h2
    have h1' : (0 : ℝ) ≤ n := by exact_mod_cast h1
    have h2' : (n : ℝ) < 5 := by push_cast at h2; exact_mod_cast h2
    rw [curve_diff]
    refine ⟨?_, ?_⟩
    · simp only [Pos3dInBounds, airSetup]
      refine ⟨⟨?_, ?_⟩, by norm_num, by norm_num⟩ <;> linarith
    · intro e
      have := congrArg V3.x e
      simp only [curve3, curve] at this
      push_cast at this
      nlinarith
  · intro n h1 h2
    have h1' : (0 : ℝ) < n := by exact_mod_cast h1
    rw [curve_second, curve_diff, norm_axis, norm_axis]
    refine ⟨?_, ?_⟩
    · norm_num [airSetup]
    · rw [abs_of_pos (by norm_num), abs_of_pos (by linarith)]
      linarith
  · exact airSetup_projectable (by norm_num [curve3])
  · intro n _ _
    exact airSetup_projectable (by norm_num [curve3, V3.smul])
  · intro n _ _
    exact airSetup_projectable (by norm_num [curve3, V3.smul])

/-- Accelerated motion: the hypotheses of C98_lone_smooth_run hold. -/
example (c0 c1 c2 c3 : Frame V3 ℝ (Img ℝ)) :
    ∃ r, forwardRun (airDisk curve) (trackBuf airSetup.tracker) 0 (0 + (5 : ℕ)) [c0, c1, c2, c3] = .ok r ∧
      CompleteTrajectory curve3 0 5 (writesOf r.log) := by
  obtain ⟨r, r1, r2, r3⟩ := lone_run curve_hyp (by norm_num) c0 c1 c2 c3
  exact ⟨r, r1, lone_written_all r2 r3⟩

theorem air_frameOK (x : Int → ℝ) (n : Int) : FrameOK airSetup (airDisk x n) := by
  refine ⟨rfl, ?_⟩
  intro ts hts
  simp only [airDisk, airImg, List.mem_cons, List.not_mem_nil, or_false] at hts
  rcases hts with rfl | rfl <;> simp [airDisk]

/-- C97: all hypotheses hold for the step from frame 1 to frame 2 of the accelerated motion. -/
example : ∃ b0 b1 b2 b3 b1' b2' b3' cnt d, stepFrames airSetup.tracker b0 b1 b2 b3 = .ok (b1', b2', b3', cnt) ∧
    Served airSetup.tracker (some (curve3 0)) (curve3 1) b2.img b3.img b1'.parts b2'.parts b3'.parts 0 d := by
  have B : LoneBuf (airDisk curve) curve3 0 (0 + (5 : ℕ)) 1 (airDisk curve 0)
      { airDisk curve 1 with parts := [⟨curve3 1, 0, NEXT_NONE, [], 0⟩] } (airDisk curve 2) (airDisk curve 3) :=
    ⟨⟨[], 0, rfl, rfl⟩, fun _ => ⟨_, rfl, rfl, rfl⟩, fun _ => rfl, fun _ => rfl, fun _ h => by norm_num at h⟩
  obtain ⟨c, d, h⟩ := lone_buf_step curve_hyp (by norm_num) (by norm_num) (by norm_num) B
  have hX : (curve3 1).smul 2 - curve3 0 = ⟨2.02, 0, 0⟩ := by ext <;> norm_num [curve3, curve, V3.smul]
  have hr : curve3 2 = ⟨2.04, 0, 0⟩ := by ext <;> norm_num [curve3, curve]
  have hp : curve3 1 = ⟨1.01, 0, 0⟩ := by ext <;> norm_num [curve3, curve]
  obtain ⟨angle, hang⟩ := angleAcc_ok (a := (⟨1.01, 0, 0⟩ : V3)) (b := ⟨2.02, 0, 0⟩) (c := ⟨2.04, 0, 0⟩) (by
    constructor <;> intro e <;> have := congrArg V3.x e <;> norm_num at this)
  have hnorm : (⟨2.02, 0, 0⟩ - ⟨1.01, 0, 0⟩ - (⟨2.04, 0, 0⟩ - ⟨1.01, 0, 0⟩) : V3) = ⟨2.02, 0, 0⟩ - ⟨2.04, 0, 0⟩ := by
    ext <;> norm_num
  obtain ⟨d', hd⟩ := C97_smooth_motion_tracked airSetup (by simp [airSetup]) rfl (by norm_num [airSetup]) _ _ _ _ _ _ _ _ h
    (by simp) (by simp [airDisk]) 0 ⟨curve3 1, 0, NEXT_NONE, [], 0⟩ (curve3 0) ⟨2.02, 0, 0⟩ rfl
    (by simp [Predecessor, airDisk, curve3]) hX.symm (air_frameOK _ _) 0 ⟨curve3 2, PREV_NONE, NEXT_NONE, [], 0⟩ rfl
    (by simp only [hr]; norm_num [InOpenBox, airSetup]) (by simp only [hr, hp]; norm_num [Pos3dInBounds, airSetup]) angle
    (by simp only [hr, hp]; rw [hang, hnorm])
    (by
      right
      simp only [hr]
      have : (⟨2.02, 0, 0⟩ - ⟨2.04, 0, 0⟩ : V3) = ⟨-0.02, 0, 0⟩ := by ext <;> norm_num
      rw [this, norm_axis, abs_of_neg (by norm_num)]
      norm_num [airSetup])
    (by
      intro cam hcam
      have hc : cam = 0 ∨ cam = 1 := by
        have : cam < 2 := hcam
        omega
      have key : ∀ (q : ℝ) (t : Search.Tgt ℝ) (i : ℕ), [(⟨5 * (curve 2 - q) + 500, 500, 0⟩ : Search.Tgt ℝ)][i]? = some t →
          i = 0 ∧ t = ⟨5 * (curve 2 - q) + 500, 500, 0⟩ := by
        intro q t i hi
        cases i with
        | zero => simp at hi; exact ⟨rfl, hi.symm⟩
        | succ i => simp at hi
      have h2 : curve 2 = 2.04 := by norm_num [curve]
      have shown : ∀ (q : ℝ), (q = 0 ∨ q = 10) → airSetup.cals[cam]? = some (downCam q, emptyLUT) →
          (airDisk curve 2).img.targets[cam]? = some [⟨5 * (curve 2 - q) + 500, 500, 0⟩] →
          ShownNear airSetup (airDisk curve 2).img.targets ⟨2.02, 0, 0⟩ (curve3 2) cam 0 := by
        intro q hq h1 ht
        refine ⟨_, _, 0, _, _, _, _, h1, airSetup_pixel _ _, ?_, airSetup_pixel _ _, ?_, ht, rfl, ?_, ?_⟩
        · rcases hq with rfl | rfl <;> norm_num [airSetup]
        · rw [h2]
          rcases hq with rfl | rfl <;> norm_num [airSetup]
        · intro i t hi _ _
          exact (key q t i hi).1
        · intro S hS
          have : S = ∅ := by
            rw [Finset.eq_empty_iff_forall_notMem]
            intro i hi
            obtain ⟨t, ht, -, hlt⟩ := hS i hi
            rw [(key q t i ht).2] at hlt
            exact lt_irrefl _ hlt
          rw [this]
          simp
      rcases hc with rfl | rfl
      · exact shown 0 (Or.inl rfl) rfl rfl
      · exact shown 10 (Or.inr rfl) rfl rfl)
    (airSetup_air (by norm_num))
  exact ⟨_, _, _, _, _, _, _, _, d', h, hd⟩

end Verif.Track
