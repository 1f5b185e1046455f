/-
C133: tracking a sequence again.
-/
import Verif.Props.Restart

namespace Verif.Track
open Verif.Track.Spec

set_option linter.unusedSectionVars false

section
open _root_.Verif.IO Text

variable {J C D : Type} [Field D] [LinearOrder D] [IsStrictOrderedRing D] {c : ℕ}

/-- C133: if the numbers of the frames have no more decimals than the files that are written, a second forward run (adding off) over the
same frames returns, with the same result, and leaves all files exactly as the first run left them. -/
theorem C133_second_run (b : Bases) (hb : GoodNames b) (g : Geo (ℚ × ℚ × ℚ) J C (CamData c) D) (hg : SearchSane g) (hadd : g.add = false)
    (first : Int) (hf : 0 < first) (L : Nat) (hL : 2 ≤ L) (fs fs' : FS) (x y z w : MemFrame D c) (r : Run (MemFrame D c))
    (hdec : ∀ n, first ≤ n → n ≤ first + L → ∃ f, (memStore D c b false).read fs n x = .ok f ∧ FileDecimals f)
    (h : sForwardRun (memStore D c b false) (trackBuf g) first (first + L) fs [x, y, z, w] = (fs', .ok r)) :
    sForwardRun (memStore D c b false) (trackBuf g) first (first + L) fs' [x, y, z, w] = (fs', .ok r) :=
  C131_restart b hb g hg hadd first hf L hL fs fs' x y z w r hdec h fs' fun _ => Or.inr rfl

/-- C133: whatever the decimals, a third run returns with the result of the second and leaves all files exactly as the second run left
them. (So does every later run.) -/
theorem C133_third_run (b : Bases) (hb : GoodNames b) (g : Geo (ℚ × ℚ × ℚ) J C (CamData c) D) (hg : SearchSane g) (hadd : g.add = false)
    (first : Int) (hf : 0 < first) (L : Nat) (hL : 2 ≤ L) (fs fs1 fs2 : FS) (x y z w x' y' z' w' : MemFrame D c) (r1 r2 : Run (MemFrame D c))
    (h1 : sForwardRun (memStore D c b false) (trackBuf g) first (first + L) fs [x, y, z, w] = (fs1, .ok r1))
    (h2 : sForwardRun (memStore D c b false) (trackBuf g) first (first + L) fs1 [x', y', z', w'] = (fs2, .ok r2)) :
    sForwardRun (memStore D c b false) (trackBuf g) first (first + L) fs2 [x', y', z', w'] = (fs2, .ok r2) := by
  refine C133_second_run b hb g hg hadd first hf L hL fs1 fs2 x' y' z' w' r2 ?_ h2
  have hi1 := C88_memory_isolated (D := D) (c := c) b false hb.format hb.differ
  have hi : (memStore D c b false).Isolated first (fun _ => True) :=
    ⟨fun s n m f g hn hm => hi1.other s n m f g (by omega) (by omega), hi1.object, hi1.kind⟩
  let disk : Int → MemFrame D c := fun n =>
    match (memStore D c b false).read fs n x with
    | .ok f => f
    | .error _ => ⟨n, [], x.img⟩
  have hd : ∀ n f f', first ≤ n → True → (memStore D c b false).read fs n f = .ok f' → disk n = f' := by
    intro n f f' _ _ e
    rw [hi1.object fs n f x trivial trivial] at e
    simp only [disk, e]
  have hplain : ∀ n, ∀ p ∈ (disk n).parts, p.prev = PREV_NONE ∧ p.next = NEXT_NONE := by
    intro n
    simp only [disk]
    cases e : (memStore D c b false).read fs n x with
    | error _ => simp
    | ok f =>
      obtain ⟨h1, h2⟩ := memStore_read_plain e
      exact fun p hp => ⟨(h2 p hp).1, (h2 p hp).2.1⟩
  obtain ⟨hr, hrep⟩ := C88_forward_files (memStore D c b false) first (first + L) (fun _ => True) hi (trackBuf g)
    (fun _ _ _ _ _ _ => trivial) fs fs1 disk hd [x, y, z, w] (fun _ _ => trivial) r1 h1
  obtain ⟨wf, w1, -⟩ := run_noadd hg hadd hplain hr
  have hlow : ∀ wr ∈ writesOf r1.log, (1 : Int) ≤ wr.1 := by
    intro wr hwr
    rw [w1, List.mem_map] at hwr
    obtain ⟨j, -, rfl⟩ := hwr
    show (1 : Int) ≤ first + j
    omega
  intro n n1 n2
  obtain ⟨j, rfl⟩ : ∃ j : ℕ, n = first + j := ⟨(n - first).toNat, by omega⟩
  have hl : LastWrite (writesOf r1.log) (first + (j : Int)) (wf j) := by
    rw [w1]
    refine ⟨(List.range j).map (fun j : ℕ => (first + (j : Int), wf j)),
      (List.range' (j + 1) (L - j)).map (fun j : ℕ => (first + (j : Int), wf j)), ?_, ?_⟩
    · have e1 : List.range (L + 1) = List.range j ++ j :: List.range' (j + 1) (L - j) := by
        rw [List.range_eq_range', List.range_eq_range', show L + 1 = j + ((L - j) + 1) by omega, ← List.range'_append]
        simp [List.range'_succ]
      rw [e1]
      simp
    · intro w' hw'
      simp only [List.mem_map, List.mem_range'] at hw'
      obtain ⟨i, ⟨k, hk, rfl⟩, rfl⟩ := hw'
      show first + ((j + 1 + 1 * k : ℕ) : Int) ≠ first + (j : Int)
      push_cast
      omega
  obtain ⟨s1, s2, v, a1, a2⟩ := replayed_lastWrite hi1 hrep hlow hl
  rw [a2 x' trivial]
  exact C131_written_decimals b hb s1 s2 _ (by omega) (wf j) x' v a1

/-! ### Examples -/

/-- The second run from the example of C131 changes nothing. -/
example : runFrom (runFrom fileStart).1 = runFrom fileStart ∧ (runFrom fileStart).1 ≠ fileStart := by
  have hret : ∃ r, (runFrom fileStart).2 = .ok r := by
    have : (match (runFrom fileStart).2 with | .ok _ => true | .error _ => false) = true := by decide +kernel
    cases e : (runFrom fileStart).2 with
    | error x => rw [e] at this; cases this
    | ok r => exact ⟨r, rfl⟩
  obtain ⟨r, hr⟩ := hret
  have h0 : runFrom fileStart = ((runFrom fileStart).1, .ok r) := Prod.ext rfl hr
  constructor
  · conv_rhs => rw [h0]
    exact C133_second_run fileBases fileBases_good fileGeo fileGeo_sane rfl 1 (by omega) 2 (by omega) fileStart _ _ _ _ _ r fileStart_decimals
      h0
  · intro e
    have h1 : linksAt (runFrom fileStart).1 = [some [(-1, 0), (-1, 1)], some [(0, 0), (1, 1)], some [(0, -2), (1, -2)],
      some [(-1, -2), (-1, -2)], none] := by decide +kernel
    rw [e] at h1
    exact absurd h1 (by decide +kernel)

/-- Without the condition on the decimals the second run may differ from the first: here (`4.4996` in a file, written as `4.500`) it
loses a trajectory. The third is like the second. -/
theorem C133_condition_needed :
    linksAt (runFrom longStart).1 = [some [(-1, 0), (-1, 1)], some [(0, 0), (1, 1)], some [(0, -2), (1, -2)],
      some [(-1, -2), (-1, -2)], none] ∧
    linksAt (runFrom (runFrom longStart).1).1 = [some [(-1, -2), (-1, 1)], some [(-1, -2), (1, 1)],
      some [(-1, -2), (1, -2)], some [(-1, -2), (-1, -2)], none] := by
  decide +kernel

/-- In that case C133_third_run applies. -/
example : runFrom (runFrom (runFrom longStart).1).1 = runFrom (runFrom longStart).1 := by
  have hret : ∀ fs, (match (runFrom fs).2 with | .ok _ => true | .error _ => false) = true → ∃ r, runFrom fs = ((runFrom fs).1, .ok r) := by
    intro fs h
    cases e : (runFrom fs).2 with
    | error x => rw [e] at h; cases h
    | ok r => exact ⟨r, Prod.ext rfl e⟩
  obtain ⟨r1, h1⟩ := hret longStart (by decide +kernel)
  obtain ⟨r2, h2⟩ := hret (runFrom longStart).1 (by decide +kernel)
  conv_rhs => rw [h2]
  exact C133_third_run fileBases fileBases_good fileGeo fileGeo_sane rfl 1 (by omega) 2 (by omega) longStart _ _ _ _ _ _ _ _ _ _ r1 r2 h1 h2

end
end Verif.Track
