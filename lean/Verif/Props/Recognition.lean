/-
C50, C72, C73: touching peaks, peak_fit and target_recognition (segmentation.py).
-/
import Verif.Model.Recognition
import Verif.Spec.Recognition
import Verif.Props.Segmentation

namespace Verif.Seg
open Spec.Seg Relation

/-! ### C50 -/

/-- The recorded touching peaks. -/
def Touch.recorded (t : Touch) : List ℤ := t.touch.take t.nTouch

theorem touches_loop (t : Touch) (p2 : ℤ) : ∀ n : ℕ, n ≤ t.touch.length →
    (List.range n).foldlM (m := Py) (fun done m => do
      let v ← pyGet t.touch m
      .ok (if v = p2 then true else done)) false = .ok (decide (p2 ∈ t.touch.take n)) := by
  intro n
  induction n with
  | zero => intro _; simp [pure, Except.pure]
  | succ n ih =>
    intro hn
    rw [List.range_succ, List.foldlM_append, ih (by omega)]
    have hg : pyGet t.touch n = .ok (t.touch[n]'(by omega)) := by
      simp [pyGet, List.getElem?_eq_getElem (show n < t.touch.length by omega)]
    simp only [bind, Except.bind, List.foldlM_cons, List.foldlM_nil, hg, pure, Except.pure]
    rw [List.take_add_one, List.getElem?_eq_getElem (by omega)]
    congr 1
    by_cases h : t.touch[n] = p2
    · rw [if_pos h]
      simp only [Option.toList_some, List.mem_append, List.mem_singleton, h, or_true, decide_true]
    · have h' : ¬ p2 = t.touch[n] := fun e => h e.symm
      rw [if_neg h]
      simp only [Option.toList_some, List.mem_append, List.mem_singleton, h', or_false]

theorem touches_eq (t : Touch) (p2 : ℤ) (h : t.nTouch ≤ t.touch.length) :
    touches t p2 = .ok (decide (p2 ∈ t.recorded)) := touches_loop t p2 _ h

/-- The state of a peak after the touch events `ps`. -/
structure TouchInv (p1 : ℤ) (ps : List ℤ) (t : Touch) : Prop where
  room : 4 ≤ t.touch.length
  le : t.nTouch ≤ 3
  nodup : t.recorded.Nodup
  mem : ∀ x ∈ t.recorded, x ∈ ps ∧ x ≠ 0 ∧ x ≠ p1
  all : t.nTouch < 3 → ∀ x ∈ ps, x ≠ 0 → x ≠ p1 → x ∈ t.recorded

theorem checkTouch_inv {p1 p2 : ℤ} {ps : List ℤ} {t : Touch} (inv : TouchInv p1 ps t) :
    ∃ t', checkTouch t p1 p2 = .ok t' ∧ TouchInv p1 (ps ++ [p2]) t' := by
  obtain ⟨h1, h2, h3, h4, h5⟩ := inv
  have same : (p2 = 0 ∨ p2 = p1 ∨ p2 ∈ t.recorded) → TouchInv p1 (ps ++ [p2]) t := by
    intro h
    refine ⟨h1, h2, h3, fun x hx => ⟨by simp [(h4 x hx).1], (h4 x hx).2⟩, ?_⟩
    intro hn x hx hx0 hx1
    rcases List.mem_append.1 hx with hx | hx
    · exact h5 hn x hx hx0 hx1
    · simp only [List.mem_singleton] at hx
      subst hx
      rcases h with h | h | h
      · exact absurd h hx0
      · exact absurd h hx1
      · exact h
  unfold checkTouch
  by_cases c1 : p2 = 0
  · rw [if_pos c1]; exact ⟨t, rfl, same (Or.inl c1)⟩
  rw [if_neg c1]
  by_cases c2 : p2 = p1
  · rw [if_pos c2]; exact ⟨t, rfl, same (Or.inr (Or.inl c2))⟩
  rw [if_neg c2, touches_eq t p2 (by omega)]
  simp only [bind, Except.bind]
  by_cases c3 : p2 ∈ t.recorded
  · rw [if_pos (by simpa using c3)]; exact ⟨t, rfl, same (Or.inr (Or.inr c3))⟩
  rw [if_neg (by simpa using c3), pySet, if_pos (by omega)]
  refine ⟨_, rfl, ?_⟩
  by_cases c4 : t.nTouch = 3
  · have hrec : (⟨t.touch.set t.nTouch p2, if t.nTouch + 1 > 3 then 3 else t.nTouch + 1⟩ : Touch).recorded =
        t.recorded := by
      simp only [Touch.recorded, c4]
      simp [List.take_set_of_le]
    refine ⟨by simpa using h1, by simp [c4], by rw [hrec]; exact h3, ?_, by simp [c4]⟩
    rw [hrec]
    exact fun x hx => ⟨by simp [(h4 x hx).1], (h4 x hx).2⟩
  · have hrec : (⟨t.touch.set t.nTouch p2, if t.nTouch + 1 > 3 then 3 else t.nTouch + 1⟩ : Touch).recorded =
        t.recorded ++ [p2] := by
      simp only [Touch.recorded]
      rw [if_neg (by omega), List.take_add_one, List.getElem?_set_self (by omega), List.take_set_of_le (le_refl _)]
      simp
    refine ⟨by simpa using h1, by simp only; split_ifs <;> omega, ?_, ?_, ?_⟩
    · rw [hrec, List.nodup_append]
      refine ⟨h3, by simp, ?_⟩
      intro a ha b hb
      simp only [List.mem_singleton] at hb
      rintro rfl
      exact c3 (hb ▸ ha)
    · rw [hrec]
      intro x hx
      rcases List.mem_append.1 hx with hx | hx
      · exact ⟨by simp [(h4 x hx).1], (h4 x hx).2⟩
      · simp only [List.mem_singleton] at hx
        subst hx
        exact ⟨by simp, c1, c2⟩
    · rw [hrec]
      intro _ x hx hx0 hx1
      rcases List.mem_append.1 hx with hx | hx
      · exact List.mem_append_left _ (h5 (by omega) x hx hx0 hx1)
      · exact List.mem_append_right _ hx

theorem checkTouches_inv {p1 : ℤ} : ∀ (ps done : List ℤ) (t : Touch), TouchInv p1 done t →
    ∃ t', checkTouches t p1 ps = .ok t' ∧ TouchInv p1 (done ++ ps) t'
  | [], done, t, inv => ⟨t, rfl, by simpa using inv⟩
  | p2 :: ps, done, t, inv => by
    obtain ⟨t1, e1, i1⟩ := checkTouch_inv (p2 := p2) inv
    obtain ⟨t2, e2, i2⟩ := checkTouches_inv ps _ t1 i1
    exact ⟨t2, by rw [checkTouches, e1]; exact e2, by simpa using i2⟩

/-- C50: after any history of touch events of a peak whose list has at least four places, the recorded peaks
are different from each other, at most three, each was reported as touching and is neither 0 nor the peak
itself; and if fewer than three are recorded then every reported peak is recorded. -/
theorem C50_recorded_partial (mem : List ℤ) (hmem : 4 ≤ mem.length) (p1 : ℤ) (ps : List ℤ) :
    ∃ t, checkTouches ⟨mem, 0⟩ p1 ps = .ok t ∧ t.recorded.length = t.nTouch ∧ t.nTouch ≤ 3 ∧
      t.recorded.Nodup ∧ (∀ x ∈ t.recorded, x ∈ ps ∧ x ≠ 0 ∧ x ≠ p1) ∧
      (t.nTouch < 3 → ∀ x ∈ ps, x ≠ 0 → x ≠ p1 → x ∈ t.recorded) := by
  obtain ⟨t, e, inv⟩ := checkTouches_inv (p1 := p1) ps [] ⟨mem, 0⟩
    ⟨hmem, by simp, by simp [Touch.recorded], by simp [Touch.recorded], by simp⟩
  have hr := inv.room
  have hl := inv.le
  refine ⟨t, e, ?_, inv.le, inv.nodup, by simpa using inv.mem, by simpa using inv.all⟩
  simp only [Touch.recorded, List.length_take]
  omega

/-- C50 on a history of six events of peak 2, among them a repeated one, itself and the background. -/
example : (checkTouches ⟨[0, 0, 0, 0], 0⟩ 2 [5, 0, 5, 2, 7]).map (fun t => (t.touch, t.nTouch)) =
    .ok ([5, 7, 0, 0], 2) := by decide +kernel

/-- C50 fails for the peaks that the package itself makes: their list is empty, and the first touch event is
an IndexError. -/
theorem C50_refuted (p1 p2 : ℤ) (h0 : p2 ≠ 0) (h1 : p2 ≠ p1) : checkTouch freshPeak p1 p2 = .error .indexError := by
  simp [checkTouch, freshPeak, touches, h0, h1, pySet, bind, Except.bind, pure, Except.pure]

example : checkTouch freshPeak 1 2 = .error .indexError := C50_refuted 1 2 (by decide) (by decide)

/-! ### C72 -/

theorem pyGetI_nat {α : Type} (xs : List α) (n : ℕ) : pyGetI xs (n : ℤ) = pyGet xs n := by
  simp [pyGetI]

theorem flatPx_zero (n w y x : ℕ) : flatPx (List.replicate n 0) w y x = 0 := by
  simp only [flatPx, List.getD_eq_getElem?_getD, List.getElem?_replicate]
  split_ifs <;> rfl

theorem pyGetI_flat {img : List ℤ} {w h y x : ℕ} (hl : img.length = w * h) (hy : y < h) (hx : x < w) (n : ℤ)
    (hn : n = y * w + x) : pyGetI img n = .ok (flatPx img w y x) := by
  have hlt : y * w + x < img.length := by
    rw [hl]
    calc y * w + x < y * w + w := by omega
      _ = (y + 1) * w := by ring
      _ ≤ h * w := Nat.mul_le_mul_right _ hy
      _ = w * h := Nat.mul_comm _ _
  have : n = ((y * w + x : ℕ) : ℤ) := by push_cast; exact hn
  rw [this, pyGetI_nat, pyGet, List.getElem?_eq_getElem hlt]
  simp [flatPx, hlt]

open Classical in
theorem isFlatPeak_eq {img : List ℤ} {w h : ℕ} (hl : img.length = w * h) (thres : ℤ) {y x : ℕ}
    (hy : 1 ≤ y ∧ y + 1 < h) (hx : 1 ≤ x ∧ x + 1 < w) :
    isFlatPeak img (List.replicate (w * h) 0) w thres ((y : ℤ) * w + x) =
      .ok (decide (FlatPeak img w thres y x)) := by
  obtain ⟨y, rfl⟩ : ∃ k, y = k + 1 := ⟨y - 1, by omega⟩
  obtain ⟨x, rfl⟩ : ∃ k, x = k + 1 := ⟨x - 1, by omega⟩
  have r := fun (a b : ℕ) (n : ℤ) (ha : a < h) (hb : b < w) (hn : n = a * w + b) => pyGetI_flat hl ha hb n hn
  have hz : flatPx (List.replicate (w * h) 0) w (y + 1) (x + 1) = 0 := flatPx_zero _ _ _ _
  rw [isFlatPeak, r (y + 1) (x + 1) _ (by omega) (by omega) (by push_cast; ring),
    pyGetI_flat (img := List.replicate (w * h) 0) (w := w) (h := h) (by simp) (y := y + 1) (x := x + 1) (by omega)
      (by omega) _ (by push_cast; ring), hz,
    r (y + 1) x _ (by omega) (by omega) (by push_cast; ring),
    r (y + 1) (x + 2) _ (by omega) (by omega) (by push_cast; ring),
    r y (x + 1) _ (by omega) (by omega) (by push_cast; ring),
    r (y + 2) (x + 1) _ (by omega) (by omega) (by push_cast; ring),
    r y x _ (by omega) (by omega) (by push_cast; ring),
    r (y + 2) x _ (by omega) (by omega) (by push_cast; ring),
    r y (x + 2) _ (by omega) (by omega) (by push_cast; ring),
    r (y + 2) (x + 2) _ (by omega) (by omega) (by push_cast; ring)]
  simp only [bind, Except.bind, ne_eq, not_true_eq_false, if_false]
  by_cases ht : flatPx img w (y + 1) (x + 1) ≤ thres
  · rw [if_pos ht, decide_eq_false]
    exact fun hp => absurd hp.1 (by omega)
  · rw [if_neg ht]
    have hiff : FlatPeak img w thres (y + 1) (x + 1) ↔
        flatPx img w (y + 1) x ≤ flatPx img w (y + 1) (x + 1) ∧
        flatPx img w (y + 1) (x + 2) ≤ flatPx img w (y + 1) (x + 1) ∧
        flatPx img w y (x + 1) ≤ flatPx img w (y + 1) (x + 1) ∧
        flatPx img w (y + 2) (x + 1) ≤ flatPx img w (y + 1) (x + 1) ∧
        flatPx img w y x ≤ flatPx img w (y + 1) (x + 1) ∧
        flatPx img w (y + 2) x ≤ flatPx img w (y + 1) (x + 1) ∧
        flatPx img w y (x + 2) ≤ flatPx img w (y + 1) (x + 1) ∧
        flatPx img w (y + 2) (x + 2) ≤ flatPx img w (y + 1) (x + 1) := by
      constructor
      · rintro ⟨-, hp⟩
        exact ⟨hp _ _ (by omega) (by omega), hp _ _ (by omega) (by omega), hp _ _ (by omega) (by omega),
          hp _ _ (by omega) (by omega), hp _ _ (by omega) (by omega), hp _ _ (by omega) (by omega),
          hp _ _ (by omega) (by omega), hp _ _ (by omega) (by omega)⟩
      · rintro ⟨a1, a2, a3, a4, a5, a6, a7, a8⟩
        refine ⟨by omega, ?_⟩
        intro y' x' hy' hx'
        obtain rfl | rfl | rfl : y' = y ∨ y' = y + 1 ∨ y' = y + 2 := by omega
        all_goals
          obtain rfl | rfl | rfl : x' = x ∨ x' = x + 1 ∨ x' = x + 2 := by omega
          all_goals first | assumption | exact le_refl _
    simp only [geAll, bind, Except.bind, ge_iff_le]
    by_cases b1 : flatPx img w (y + 1) x ≤ flatPx img w (y + 1) (x + 1)
    rotate_left
    · rw [if_neg b1, decide_eq_false]; rw [hiff]; exact fun h => b1 h.1
    by_cases b2 : flatPx img w (y + 1) (x + 2) ≤ flatPx img w (y + 1) (x + 1)
    rotate_left
    · rw [if_pos b1, if_neg b2, decide_eq_false]; rw [hiff]; exact fun h => b2 h.2.1
    by_cases b3 : flatPx img w y (x + 1) ≤ flatPx img w (y + 1) (x + 1)
    rotate_left
    · rw [if_pos b1, if_pos b2, if_neg b3, decide_eq_false]; rw [hiff]; exact fun h => b3 h.2.2.1
    by_cases b4 : flatPx img w (y + 2) (x + 1) ≤ flatPx img w (y + 1) (x + 1)
    rotate_left
    · rw [if_pos b1, if_pos b2, if_pos b3, if_neg b4, decide_eq_false]; rw [hiff]; exact fun h => b4 h.2.2.2.1
    by_cases b5 : flatPx img w y x ≤ flatPx img w (y + 1) (x + 1)
    rotate_left
    · rw [if_pos b1, if_pos b2, if_pos b3, if_pos b4, if_neg b5, decide_eq_false]
      rw [hiff]; exact fun h => b5 h.2.2.2.2.1
    by_cases b6 : flatPx img w (y + 2) x ≤ flatPx img w (y + 1) (x + 1)
    rotate_left
    · rw [if_pos b1, if_pos b2, if_pos b3, if_pos b4, if_pos b5, if_neg b6, decide_eq_false]
      rw [hiff]; exact fun h => b6 h.2.2.2.2.2.1
    by_cases b7 : flatPx img w y (x + 2) ≤ flatPx img w (y + 1) (x + 1)
    rotate_left
    · rw [if_pos b1, if_pos b2, if_pos b3, if_pos b4, if_pos b5, if_pos b6, if_neg b7, decide_eq_false]
      rw [hiff]; exact fun h => b7 h.2.2.2.2.2.2.1
    rw [if_pos b1, if_pos b2, if_pos b3, if_pos b4, if_pos b5, if_pos b6, if_pos b7]
    by_cases b8 : flatPx img w (y + 2) (x + 2) ≤ flatPx img w (y + 1) (x + 1)
    · rw [if_pos b8, decide_eq_true]; rw [hiff]; exact ⟨b1, b2, b3, b4, b5, b6, b7, b8⟩
    · rw [if_neg b8, decide_eq_false]; rw [hiff]; exact fun h => b8 h.2.2.2.2.2.2.2

theorem startPeak_fails (labels : List ℤ) (n npeaks i j : ℤ) :
    startPeak labels n npeaks i j = .error .indexError := by
  rw [startPeak, pySet]
  split_ifs
  · simp [pySet, bind, Except.bind]
  · rfl

theorem peakScan_eq {img : List ℤ} {w h : ℕ} (hl : img.length = w * h) (thres : ℤ)
    (rest : List ℤ × List ℤ → Py (List ℤ)) : ∀ ps : List (ℤ × ℤ),
    (∀ p ∈ ps, (1 ≤ p.1 ∧ p.1 + 1 < h) ∧ (1 ≤ p.2 ∧ p.2 + 1 < w)) →
    (peakScan img w thres rest ps (List.replicate (w * h) 0, 0) = .ok (List.replicate (w * h) 0, 0) ∧
      ∀ p ∈ ps, ¬ FlatPeak img w thres p.1.toNat p.2.toNat) ∨
    (peakScan img w thres rest ps (List.replicate (w * h) 0, 0) = .error .indexError ∧
      ∃ p ∈ ps, FlatPeak img w thres p.1.toNat p.2.toNat)
  | [], _ => Or.inl ⟨rfl, by simp⟩
  | p :: ps, hps => by
    obtain ⟨⟨a1, a2⟩, a3, a4⟩ := hps p (by simp)
    have e1 : p.1 = (p.1.toNat : ℤ) := by omega
    have e2 : p.2 = (p.2.toNat : ℤ) := by omega
    have hpk := isFlatPeak_eq hl thres (y := p.1.toNat) (x := p.2.toNat) (by omega) (by omega)
    rw [← e1, ← e2] at hpk
    rw [peakScan, hpk]
    simp only [bind, Except.bind]
    by_cases hp : FlatPeak img w thres p.1.toNat p.2.toNat
    · right
      rw [if_pos (by simpa using hp), startPeak_fails]
      exact ⟨rfl, p, by simp, hp⟩
    · rw [if_neg (by simpa using hp)]
      rcases peakScan_eq hl thres rest ps (fun q hq => hps q (by simp [hq])) with ⟨r, hr⟩ | ⟨r, q, hq, hr⟩
      · left
        refine ⟨r, ?_⟩
        intro q hq
        rcases List.mem_cons.1 hq with rfl | hq
        · exact hp
        · exact hr q hq
      · right
        exact ⟨r, q, by simp [hq], hr⟩

theorem labelScan_zero {w h : ℕ} (process : ℤ → Py Unit) : ∀ ps : List (ℤ × ℤ),
    (∀ p ∈ ps, (0 ≤ p.1 ∧ p.1 < h) ∧ (0 ≤ p.2 ∧ p.2 < w)) →
    labelScan (List.replicate (w * h) 0) w process ps = .ok ()
  | [], _ => rfl
  | p :: ps, hps => by
    obtain ⟨⟨a1, a2⟩, a3, a4⟩ := hps p (by simp)
    have hz : flatPx (List.replicate (w * h) 0) w p.1.toNat p.2.toNat = 0 := flatPx_zero _ _ _ _
    rw [labelScan, pyGetI_flat (w := w) (h := h) (by simp) (y := p.1.toNat) (x := p.2.toNat) (by omega) (by omega) _
      (by rw [Int.toNat_of_nonneg a1, Int.toNat_of_nonneg a3]), hz]
    simp only [bind, Except.bind, lt_irrefl, if_false]
    exact labelScan_zero process ps (fun q hq => hps q (by simp [hq]))

theorem mem_grid {a b c d : ℤ} {p : ℤ × ℤ} :
    (p ∈ (rangeI a b).flatMap fun i => (rangeI c d).map fun j => (i, j)) ↔
      (a ≤ p.1 ∧ p.1 < b) ∧ (c ≤ p.2 ∧ p.2 < d) := by
  simp only [List.mem_flatMap, List.mem_map, mem_rangeI]
  constructor
  · rintro ⟨i, hi, j, hj, rfl⟩
    exact ⟨hi, hj⟩
  · rintro ⟨h1, h2⟩
    exact ⟨p.1, h1, p.2, h2, rfl⟩

open Classical in
/-- C72 fails: on every image and for every search region inside it, `peak_fit` stops with an IndexError as
soon as there is a peak above the threshold (the wait list has no room for a single pixel); it returns only
if there is no peak, and then an empty list. So it never finds a target, whatever its remaining code
(`rest`, `process`, `report`) does. -/
theorem C72_refuted (img : List ℤ) (w h : ℕ) (hl : img.length = w * h) (thres xmin xmax ymin ymax : ℤ)
    (hx : 1 ≤ xmin ∧ xmax + 1 ≤ w) (hy : 1 ≤ ymin ∧ ymax ≤ h) (rest : List ℤ × List ℤ → Py (List ℤ))
    (process : ℤ → Py Unit) (report : List ℤ → ℤ → Py (List Tgt)) :
    peakFit img w h thres xmin xmax ymin ymax rest process report =
        (if ∃ y x : ℕ, (ymin ≤ y ∧ y < ymax - 1) ∧ (xmin ≤ x ∧ x < xmax) ∧ FlatPeak img w thres y x then
          .error .indexError else .ok []) := by
  have hwh : ((w : ℤ) * h).toNat = w * h := by
    rw [← Nat.cast_mul]; exact Int.toNat_natCast _
  rw [peakFit, hwh]
  rcases peakScan_eq hl thres rest
    ((rangeI ymin (ymax - 1)).flatMap fun i => (rangeI xmin xmax).map fun j => (i, j))
    (fun p hp => by rw [mem_grid] at hp; omega) with ⟨r, hr⟩ | ⟨r, p, hp, hr⟩
  · rw [r, if_neg]
    · simp only [bind, Except.bind]
      rw [labelScan_zero process _ (fun p hp => by rw [mem_grid] at hp; omega)]
      simp
    · rintro ⟨y, x, h1, h2, h3⟩
      have := hr ((y : ℤ), (x : ℤ)) (mem_grid.2 ⟨h1, h2⟩)
      exact this (by simpa using h3)
  · rw [r, if_pos]
    · rfl
    · rw [mem_grid] at hp
      exact ⟨p.1.toNat, p.2.toNat, by omega, by omega, hr⟩

/-- C72 refuted on a 4 by 4 image with one bright pixel. -/
example (rest : List ℤ × List ℤ → Py (List ℤ)) (process : ℤ → Py Unit) (report : List ℤ → ℤ → Py (List Tgt)) :
    peakFit [0, 0, 0, 0, 0, 0, 9, 0, 0, 0, 0, 0, 0, 0, 0, 0] 4 4 5 1 3 1 4 rest process report =
      .error .indexError := by
  have h := C72_refuted [0, 0, 0, 0, 0, 0, 9, 0, 0, 0, 0, 0, 0, 0, 0, 0] 4 4 rfl 5 1 3 1 4 (by norm_num) (by norm_num)
    rest process report
  rw [if_pos] at h
  · exact h
  · refine ⟨1, 2, by norm_num, by norm_num, by decide, ?_⟩
    intro y' x' hy hx
    obtain rfl | rfl | rfl : y' = 0 ∨ y' = 1 ∨ y' = 2 := by omega
    all_goals
      obtain rfl | rfl | rfl : x' = 1 ∨ x' = 2 ∨ x' = 3 := by omega
      all_goals decide

/-! ### C73 -/

/-- `p` is in the requested sub-ranges (lower limits included, upper limits excluded; the whole image by
default) and not on the border of the image. -/
def Requested (im : Image) (subx suby : Option (ℤ × ℤ)) (p : Pixel) : Prop :=
  (0 < p.1 ∧ p.1 < im.w - 1) ∧ (0 < p.2 ∧ p.2 < im.h - 1) ∧
  (∀ r, subx = some r → r.1 ≤ p.1 ∧ p.1 < r.2) ∧ (∀ r, suby = some r → r.1 ≤ p.2 ∧ p.2 < r.2)

/-- An upper limit of the sub-ranges exceeds the image. -/
def TooLarge (im : Image) (subx suby : Option (ℤ × ℤ)) : Prop :=
  (∃ r, subx = some r ∧ (im.w : ℤ) < r.2) ∨ (∃ r, suby = some r ∧ (im.h : ℤ) < r.2)

/-- The parameters that `target_recognition` hands to `targ_rec`. -/
def Par.withRange (q : Par) (imx imy : ℤ) (subx suby : Option (ℤ × ℤ)) : Par :=
  { q with
    xmin := (subx.getD (0, imx)).1, xmax := (subx.getD (0, imx)).2
    ymin := (suby.getD (0, imy)).1, ymax := (suby.getD (0, imy)).2 }

theorem withRange_region {im : Image} {q : Par} {subx suby : Option (ℤ × ℤ)} {p : Pixel} :
    Region im (q.withRange im.w im.h subx suby) p ↔ Requested im subx suby p := by
  simp only [Region, InROI, Requested, Par.withRange]
  cases subx <;> cases suby <;> simp <;> omega

theorem tooLarge_iff {im : Image} {imx imy : ℤ} (hx : imx ≤ im.w) (hy : imy ≤ im.h)
    {subx suby : Option (ℤ × ℤ)} :
    ((im.h : ℤ) < (suby.getD (0, imy)).2 ∨ (im.w : ℤ) < (subx.getD (0, imx)).2) ↔ TooLarge im subx suby := by
  simp only [TooLarge]
  cases subx <;> cases suby <;> simp <;> omega

/-- C73: when the control parameters hold the size of the image (or less) and the threshold is not negative,
`target_recognition` raises a ValueError exactly if the requested region exceeds the image; otherwise it
returns, or fails because a target has more than 20480 pixels. It never reads outside the image. -/
theorem C73_rejects_partial (im : Image) (imx imy : ℤ) (hx : imx ≤ im.w) (hy : imy ≤ im.h) (q : Par)
    (subx suby : Option (ℤ × ℤ)) (fuel : ℕ) (hth : 0 ≤ q.thres) (hfuel : im.w * im.h ≤ fuel) :
    (TooLarge im subx suby ∧ targetRecognition im imx imy q subx suby fuel = .error .valueError) ∨
    (¬ TooLarge im subx suby ∧
      ((∃ ts, targetRecognition im imx imy q subx suby fuel = .ok ts) ∨
       (targetRecognition im imx imy q subx suby fuel = .error .indexError ∧
        ∃ (s : Pixel) (B : Finset Pixel), 20480 < B.card ∧ ∀ p ∈ B, q.thres < im.g p ∧ ReflTransGen Adj4 s p))) := by
  by_cases hc : TooLarge im subx suby
  · left
    refine ⟨hc, ?_⟩
    simp only [targetRecognition]
    rw [if_pos ((tooLarge_iff hx hy).2 hc)]
  · right
    refine ⟨hc, ?_⟩
    simp only [targetRecognition]
    rw [if_neg (fun h => hc ((tooLarge_iff hx hy).1 h))]
    change (∃ ts, targRec im imx imy (q.withRange imx imy subx suby) fuel = .ok ts) ∨
       (targRec im imx imy (q.withRange imx imy subx suby) fuel = .error .indexError ∧ _)
    have hin : (clampPar imx imy (q.withRange imx imy subx suby)).Inside im := by
      simp only [clampPar, Par.Inside]
      split_ifs <;> omega
    rw [targRec, fastTargRec, raster_eq]
    rcases scan_spec hin hth fuel (rasterXY (clampPar imx imy (q.withRange imx imy subx suby))) ∅ im.px []
      (by intro p; simp [masked, Image.g])
      (fun p hp => mem_rasterXY.1 hp) with ⟨r, U, s, hs, hsr, V, v1, v2, v3⟩ | ⟨r, hlt⟩ | ⟨a', new, bs, U', r, -, -, -⟩
    · right
      rw [r]
      refine ⟨rfl, s, V.toFinset, by rw [List.toFinset_card_of_nodup v1]; exact v2, ?_⟩
      intro p hp
      have hr := v3 p (List.mem_toFinset.1 hp)
      clear hp
      induction hr with
      | refl => exact ⟨(peak_unused hth hs).2, .refl⟩
      | tail _ hg ih =>
        obtain ⟨g1, g2, g3, g4, -⟩ := hg
        exact ⟨g4, ih.2.tail g1⟩
    · exfalso
      have harea : (clampPar imx imy (q.withRange imx imy subx suby)).area ≤ fuel := by
        refine le_trans ?_ hfuel
        rw [Par.area]
        obtain ⟨⟨i1, i2⟩, i3, i4⟩ := hin
        exact Nat.mul_le_mul (by omega) (by omega)
      omega
    · left
      rw [r]
      exact ⟨_, rfl⟩

/-- C73: the targets returned describe disjoint pixel sets above the threshold in the requested region, and
every local maximum of that region is in a blob that was found and, if its blob is within the limits,
reported. -/
theorem C73_region_partial (im : Image) (q : Par) (subx suby : Option (ℤ × ℤ)) (fuel : ℕ) (hth : 0 ≤ q.thres)
    (ts : List Tgt) (h : targetRecognition im im.w im.h q subx suby fuel = .ok ts) :
    ∃ (bs kept : List (Pixel × Finset Pixel)), (∀ b ∈ bs, b ∈ kept ↔ Accepted im q b.2) ∧
      List.Forall₂ (fun t b => Describes im q.thres t b.2) ts kept ∧
      (kept.Pairwise fun a b => Disjoint a.2 b.2) ∧
      (∀ b ∈ kept, ∀ p ∈ b.2, q.thres < im.g p ∧ Requested im subx suby p) ∧
      (∀ p, Requested im subx suby p → q.thres < im.g p →
        (∀ r, Adj8 p r → im.g r ≤ im.g p) → ∃ b ∈ bs, p ∈ b.2) := by
  simp only [targetRecognition] at h
  split at h
  · simp at h
  · change targRec im im.w im.h (q.withRange im.w im.h subx suby) fuel = .ok ts at h
    obtain ⟨bs, kept, h1, h2, h3, h4, h5, -, h7⟩ := C39_blobs im (q.withRange im.w im.h subx suby) fuel ts hth h
    refine ⟨bs, kept, h2, h3, h4.sublist h1, ?_, ?_⟩
    · intro b hb p hp
      obtain ⟨a1, a2, -⟩ := (h5 b (h1.subset hb)).2 p hp
      exact ⟨a1, withRange_region.1 a2⟩
    · intro p hp ht hr
      exact h7 p (withRange_region.2 hp) ht hr

/-- C73 on the image with two dots: only the second one is in the columns 3 to 5. -/
example : targetRecognition dots dots.w dots.h ⟨3, 0, 1, 10, 1, 10, 1, 10, 0, 0, 0, 0, 0⟩ (some (3, 6)) none 30 =
    .ok [⟨9 / 2, 7 / 2, 0, 1, 1, 1, 4⟩] := by
  decide +kernel

/-- C73 fails when the control parameters state a larger image than there is: for this 3 by 3 image, stated
as 4 columns wide, and a sub-range inside the image, the fourth column is read. -/
theorem C73_refuted :
    targetRecognition ⟨3, 3, fun _ _ => 9⟩ 4 3 ⟨5, 0, 1, 10, 1, 10, 1, 10, 0, 0, 0, 0, 0⟩ (some (0, 3)) none 9 =
      .error .indexError := by
  decide +kernel

end Verif.Seg
