/-
C99 for three and four cameras.
-/
import Verif.Proofs.LastTarget
import Verif.Props.NoRaise

namespace Verif.Track
open Verif.Track.Spec Verif.Geo Verif.Geo.Spec

/-! ### Specification -/

/-- The last targets of all cameras belong to one particle. -/
def SameLast (s : Setup) (i : Img ℝ) : Prop := ∃ k : Int, k ≠ -1 ∧ ∀ cam, cam < s.cals.length → IsLast i.targets cam k

/-- No camera has more than three targets in its search window for a particle expected at `X`, begun at the pixel positions `v`. -/
def FewIn (s : Setup) (X : V3) (v : List (ℝ × ℝ)) (i : Img ℝ) : Prop :=
  ∀ cam, cam < s.cals.length → ∀ p a ts, v[cam]? = some p → s.area cam X = .ok a → i.targets[cam]? = some ts → ∀ S : Finset ℕ,
    (∀ j ∈ S, Search.Spec.InWindow ts p.1 p.2 a.left a.right a.up a.down s.ip.imx s.ip.imy j) → S.card ≤ 3

/-- The pixel positions where the search for particle `h` at `x1`, which was at `x0`, begins: where it is expected, or, without `x0`, where it is now. -/
noncomputable def searchFrom (s : Setup) (i : Img ℝ) (h : ℕ) (x0 : Option V3) (x1 : V3) : List (ℝ × ℝ) :=
  match x0 with
  | some x => s.proj (expectedNext (some x) x1)
  | none => s.projOwn i h x1

/-! ### Proof -/

theorem tracker_search_total_last {s : Setup} (hn : 2 ≤ s.cals.length ∧ s.cals.length ≤ 4)
    (him : (s.ip.imx : ℝ) ≤ 10 ^ 19 ∧ (s.ip.imy : ℝ) ≤ 10 ^ 19) {X : V3} (hX : Projectable s X) {v : List (ℝ × ℝ)}
    (hv : v.length = s.cals.length) {i : Img ℝ} (hl : SameLast s i) (hf : FewIn s X v i) :
    ∃ w, s.tracker.search X v i = .ok w ∧ Ended 4 w := by
  obtain ⟨k, hk, hl⟩ := hl
  have hi : AllSeen s i := by
    intro cam hc
    obtain ⟨ts, t, h1, h2, -⟩ := hl cam hc
    exact ⟨ts, h1, fun e => by rw [e] at h2; simp at h2⟩
  obtain ⟨l, hl'⟩ := sortedCandidates_total s.cams X v i.targets him hi hv (area_ok hX)
  refine ⟨_, ?_, sortedCandidates_ended_last (c := s.cams) him hn i.ok hk hl ?_ hl'⟩
  · show (sortedCandidates s.cams X v i.targets).bind _ = _
    rw [hl']
    rfl
  · intro cam hc
    obtain ⟨a, ha⟩ := area_ok hX cam hc
    have hp := List.getElem?_eq_getElem (l := v) (i := cam) (by rw [hv]; exact hc)
    exact ⟨_, a, hp, ha, fun ts hts S hS => hf cam hc _ a ts hp ha hts S hS⟩

theorem calls_ok_last {s : Setup} (hn : 2 ≤ s.cals.length ∧ s.cals.length ≤ 4) (him : (s.ip.imx : ℝ) ≤ 10 ^ 19 ∧ (s.ip.imy : ℝ) ≤ 10 ^ 19)
    {b1 b2 b3 : Frame V3 ℝ (Img ℝ)} (h2 : SameLast s b2.img) (h3 : SameLast s b3.img) (hr : RaysOK s b3.img) {h : Nat} {x0 : Option V3}
    {x1 : V3} (ht : Trackable s b1.img h x0 x1 (b2.parts.map Part.x) b2.img (b3.parts.map Part.x) b3.img)
    (hf : FewIn s (expectedNext x0 x1) (searchFrom s b1.img h x0 x1) b2.img)
    (hf' : ∀ x3 ∈ b2.parts.map Part.x, FewIn s (expectedThen x0 x1 x3) (s.proj (expectedThen x0 x1 x3)) b3.img) :
    CallsOK s.tracker b1 b2 b3 4 h x0 x1 := by
  have h3' : AllSeen s b3.img := by
    obtain ⟨k, -, hl⟩ := h3
    intro cam hc
    obtain ⟨ts, t, h1, h2, -⟩ := hl cam hc
    exact ⟨ts, h1, fun e => by rw [e] at h2; simp at h2⟩
  refine calls_ok_of him h3' hr ht ?_ ?_
  · cases x0 with
    | none => exact tracker_search_total_last hn him ht.next (projOwn_length (ht.own rfl) ht.next) h2 hf
    | some x0 => exact tracker_search_total_last hn him ht.next (proj_length ht.next) h2 hf
  · intro r hr
    have hX := ht.after r.x (List.mem_map_of_mem hr)
    exact tracker_search_total_last hn him hX (proj_length hX) h3 (hf' r.x (List.mem_map_of_mem hr))

/-- C99 (partial), three and four cameras: a forward run does not raise, if, beside what `C99_run_returns_partial` asks, in every
frame the last targets of all cameras belong to one particle, and no search window holds more than three targets. (Without the
first: `C99_eighty_refuted`.) -/
theorem C99_run_four_partial (s : Setup) (hn : 2 ≤ s.cals.length ∧ s.cals.length ≤ 4) (hadd : s.add = false)
    (him : (s.ip.imx : ℝ) ≤ 10 ^ 19 ∧ (s.ip.imy : ℝ) ≤ 10 ^ 19) (disk : Int → Frame V3 ℝ (Img ℝ))
    (hd : ∀ n, ∀ p ∈ (disk n).parts, Unlinked p) (first : Int) (L : Nat) (hL : 3 ≤ L)
    (hseen : ∀ n, first ≤ n → n ≤ first + L → SameLast s (disk n).img ∧ RaysOK s (disk n).img)
    (hc : ∀ n, first ≤ n → n < first + L → ∀ (h : Nat) (x1 : V3), ((disk n).parts.map Part.x)[h]? = some x1 →
      ∀ x0, (x0 = none ∨ first < n ∧ ∃ x ∈ (disk (n - 1)).parts.map Part.x, x0 = some x) →
      Trackable s (disk n).img h x0 x1 ((disk (n + 1)).parts.map Part.x) (disk (n + 1)).img
        ((disk (frameAfter (first + L) n)).parts.map Part.x) (disk (frameAfter (first + L) n)).img ∧
      FewIn s (expectedNext x0 x1) (searchFrom s (disk n).img h x0 x1) (disk (n + 1)).img ∧
      ∀ x3 ∈ (disk (n + 1)).parts.map Part.x, FewIn s (expectedThen x0 x1 x3) (s.proj (expectedThen x0 x1 x3))
        (disk (frameAfter (first + L) n)).img)
    (a b c d : Frame V3 ℝ (Img ℝ)) :
    ∃ r, forwardRun disk (trackBuf s.tracker) first (first + L) [a, b, c, d] = .ok r ∧
      (writesOf r.log).length = L + 1 ∧ LinkChain (writesOf r.log) := by
  have hg : SearchSane s.tracker := C81_search_sane s.cams _ him hn.2
  obtain ⟨r, hr⟩ := total_run hg hadd hd (m := 4) (by decide) (first := first) (L := L) (by
    intro n h1 h2 h x1 hx x0 h0 b1 b2 b3 e1 e2 e3 e4
    obtain ⟨w1, -⟩ := hseen (n + 1) (by omega) (by omega)
    have hfa : first ≤ frameAfter (first + L) n ∧ frameAfter (first + L) n ≤ first + L := by
      unfold frameAfter
      split_ifs <;> omega
    obtain ⟨w2, w3⟩ := hseen _ hfa.1 hfa.2
    obtain ⟨ht, hf, hf'⟩ := hc n h1 h2 h x1 hx x0 h0
    rw [← e1, ← e2, ← e3, ← e4] at ht
    rw [← e1, ← e2] at hf
    rw [← e2, ← e4] at hf'
    exact calls_ok_last hn him (by rw [e2]; exact w1) (by rw [e4]; exact w2) (by rw [e4]; exact w3) ht hf hf') hL a b c d
  obtain ⟨h1, h2, -⟩ := C16_run_mutual s.tracker hg disk hd first L _ _ _ _ r hr
  exact ⟨r, hr, h1, h2⟩

end Verif.Track
