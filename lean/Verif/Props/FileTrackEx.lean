/-
C130 on ten targets files and five correspondence files: two particles, 30 apart, seen by two cameras over the frames 1 .. 5.
-/
import Verif.Props.FileTrack

namespace Verif.Track
open Verif.Track.Spec Verif.Geo Verif.Geo.Spec V3
open _root_.Verif.IO
open Text (FS)

/-- The names of the example. -/
def twinBases : Bases := ⟨"rt_is".toList, "ptv_is".toList, "added".toList, demoTb⟩

/-- The files of the example. -/
def twinFiles : List (String × String) := [
  ("rt_is.1", "2\n1 1.000 0.000 0.000 0 0 -1 -1\n2 31.000 0.000 0.000 1 1 -1 -1\n"),
  ("rt_is.2", "2\n1 2.000 0.000 0.000 0 0 -1 -1\n2 32.000 0.000 0.000 1 1 -1 -1\n"),
  ("rt_is.3", "2\n1 3.000 0.000 0.000 0 0 -1 -1\n2 33.000 0.000 0.000 1 1 -1 -1\n"),
  ("rt_is.4", "2\n1 4.000 0.000 0.000 0 0 -1 -1\n2 34.000 0.000 0.000 1 1 -1 -1\n"),
  ("rt_is.5", "2\n1 5.000 0.000 0.000 0 0 -1 -1\n2 35.000 0.000 0.000 1 1 -1 -1\n"),
  ("cam1.0001_targets", "2\n   0  505.0000  500.0000    10     3     4  1000     0\n   1  655.0000  500.0000    10     3     4  1000     1\n"),
  ("cam1.0002_targets", "2\n   0  510.0000  500.0000    10     3     4  1000     0\n   1  660.0000  500.0000    10     3     4  1000     1\n"),
  ("cam1.0003_targets", "2\n   0  515.0000  500.0000    10     3     4  1000     0\n   1  665.0000  500.0000    10     3     4  1000     1\n"),
  ("cam1.0004_targets", "2\n   0  520.0000  500.0000    10     3     4  1000     0\n   1  670.0000  500.0000    10     3     4  1000     1\n"),
  ("cam1.0005_targets", "2\n   0  525.0000  500.0000    10     3     4  1000     0\n   1  675.0000  500.0000    10     3     4  1000     1\n"),
  ("cam2.0001_targets", "2\n   0  455.0000  500.0000    10     3     4  1000     0\n   1  605.0000  500.0000    10     3     4  1000     1\n"),
  ("cam2.0002_targets", "2\n   0  460.0000  500.0000    10     3     4  1000     0\n   1  610.0000  500.0000    10     3     4  1000     1\n"),
  ("cam2.0003_targets", "2\n   0  465.0000  500.0000    10     3     4  1000     0\n   1  615.0000  500.0000    10     3     4  1000     1\n"),
  ("cam2.0004_targets", "2\n   0  470.0000  500.0000    10     3     4  1000     0\n   1  620.0000  500.0000    10     3     4  1000     1\n"),
  ("cam2.0005_targets", "2\n   0  475.0000  500.0000    10     3     4  1000     0\n   1  625.0000  500.0000    10     3     4  1000     1\n")]

def twinFS : FS := fun name => (twinFiles.find? fun f => f.1.toList = name).map fun f => f.2.toList

/-- What the files of frame `n` say. -/
def twinD (n : ℤ) : DFrame :=
  ⟨[⟨1, 0, 0, -1, -1, n, 0, 0, -1, -2, 4⟩, ⟨2, 1, 1, -1, -1, n + 30, 0, 0, -1, -2, 4⟩], 2,
    [[⟨0, 500 + 5 * n, 500, 10, 3, 4, 1000, 0⟩, ⟨1, 650 + 5 * n, 500, 10, 3, 4, 1000, 1⟩],
     [⟨0, 450 + 5 * n, 500, 10, 3, 4, 1000, 0⟩, ⟨1, 600 + 5 * n, 500, 10, 3, 4, 1000, 1⟩]], [2, 2]⟩

theorem twin_file_read : ∀ n ∈ ([1, 2, 3, 4, 5] : List ℤ),
    blankFrame.read twinFS twinBases.corres [] [] twinBases.target n = (twinD n, .ok true) := by
  decide +kernel

/-- The frame in memory. -/
noncomputable def twinFrame (n : Int) : RealFrame 2 :=
  ofMem ⟨n, (twinD n).parts.map ofRow, ⟨(twinD n).targets, (twinD n).parts.map corrOf, rfl⟩⟩

theorem twin_seen_eq (n : Int) : (twinFrame n).seen = twinDisk n := by
  simp only [RealFrame.seen, twinFrame, ofMem, twinDisk, twinImg, seenImg, twinD, List.map_cons, List.map_nil, readPart, ofRow, corrOf,
    seenTarget, twin, PREV_NONE, NEXT_NONE]
  norm_num
  refine ⟨⟨?_, ?_⟩, ?_, ?_⟩ <;> ring

/-- An empty frame object for two cameras. -/
noncomputable def blankReal : RealFrame 2 := ⟨0, [], ⟨[[], []], [], rfl⟩⟩

theorem twin_good : GoodNames twinBases where
  corresLinkage := by decide
  corresPrio := by decide
  linkagePrio := by decide
  linkage := by decide
  prio := by decide
  format := by
    intro t ht
    simp only [twinBases, demoTb, List.mem_cons, List.not_mem_nil, or_false] at ht
    rcases ht with rfl | rfl <;> decide
  nodup := by decide
  differ := demoTb_differ

theorem twin_store_read {n : Int} (h1 : 1 ≤ n) (h5 : n ≤ 5) (o : RealFrame 2) :
    (realStore 2 twinBases false).read twinFS n o = .ok (twinFrame n) := by
  rw [(realStore_isolated twin_good false).object twinFS n o blankReal trivial trivial]
  have e : blankFrame = toDisk (toMem blankReal) := rfl
  have hr := twin_file_read n (by
    simp only [List.mem_cons, List.not_mem_nil, or_false]
    omega)
  simp only [realStore, memStore, fileStore_read_eq, ← e, Bool.false_eq_true, if_false, hr, bind, Except.bind]
  rfl

/-- The run on the files of the example returns. -/
theorem twin_file_run (o1 o2 o3 o4 : RealFrame 2) :
    ∃ fs' r, fileForwardRun airSetup 2 twinBases 1 (1 + (4 : ℕ)) twinFS [o1, o2, o3, o4] = (fs', .ok r) := by
  have hread : ∀ n, (1 : Int) ≤ n → n ≤ 1 + (4 : ℕ) → (realStore 2 twinBases false).read twinFS n o1 = .ok (twinFrame n) :=
    fun n h1 h2 => twin_store_read h1 (by push_cast at h2; omega) o1
  obtain ⟨r0, hr0, -⟩ := C99_run_returns_partial airSetup (by simp [airSetup]) rfl (by norm_num [airSetup]) twinDisk twin_unlinked 1 4
    (by norm_num) (fun n _ _ => twin_seen n) (by
      intro n h1 h2 h x1 hx x0 h0
      obtain ⟨hh, rfl⟩ := twin_get hx
      refine twin_trackable n h hh x0 ?_
      rcases h0 with h0 | ⟨h0, h3⟩
      · exact Or.inl h0
      · exact Or.inr ⟨by omega, h3⟩) o1.seen o2.seen o3.seen o4.seen
  have hfun : (fun n => (twinFrame n).seen) = twinDisk := funext twin_seen_eq
  exact C130_run_on_files_returns airSetup 2 twinBases twin_good (by simp [airSetup]) rfl (by norm_num [airSetup])
    (by decide) 1 (by norm_num) 4 (by norm_num) (by
      intro n h1 h2 t ht
      have hn : n ∈ ([1, 2, 3, 4, 5] : List ℤ) := by
        simp only [List.mem_cons, List.not_mem_nil, or_false]
        push_cast at h2
        omega
      have key : ∀ n ∈ ([1, 2, 3, 4, 5] : List ℤ), ∀ t ∈ demoTb, (writeName t n).toOption.isSome = true := by decide +kernel
      have := key n hn t ht
      cases e : writeName t n with
      | error x => rw [e] at this; simp [Except.toOption] at this
      | ok x => exact ⟨x, rfl⟩) twinFS twinFrame o1 o2 o3 o4 hread (by
      intro n _ _ ts hts
      simp only [twinFrame, ofMem, twinD, List.mem_cons, List.not_mem_nil, or_false] at hts
      rcases hts with rfl | rfl <;> simp) r0 (by rw [hfun]; exact hr0)

theorem twin_own_one (i : ℕ) (hi : i < 2) : OwnImages airSetup (twinDisk 1).img i (twin i 1) := by
  have hii : i = 0 ∨ i = 1 := by omega
  rcases hii with rfl | rfl
  · refine ⟨⟨1, [0, 0, -1, -1]⟩, rfl, fun cam hcam => ?_⟩
    have hc : cam = 0 ∨ cam = 1 := by
      have : cam < 2 := hcam
      omega
    rcases hc with rfl | rfl <;>
    · refine ⟨0, rfl, Or.inr ⟨0, _, _, _, rfl, rfl, rfl, rfl, ?_⟩⟩
      simp only [twin]
      rw [airSetup_pixel]
      norm_num
  · refine ⟨⟨2, [1, 1, -1, -1]⟩, rfl, fun cam hcam => ?_⟩
    have hc : cam = 0 ∨ cam = 1 := by
      have : cam < 2 := hcam
      omega
    rcases hc with rfl | rfl <;>
    · refine ⟨1, rfl, Or.inr ⟨1, _, _, _, rfl, rfl, rfl, rfl, ?_⟩⟩
      simp only [twin]
      rw [airSetup_pixel]
      norm_num

/-- The example meets the hypotheses of C130: the run on the files returns, and the files it leaves have both trajectories. -/
example (o1 o2 o3 o4 : RealFrame 2) : ∃ fs' r, fileForwardRun airSetup 2 twinBases 1 (1 + (4 : ℕ)) twinFS [o1, o2, o3, o4] = (fs', .ok r) ∧
    FollowedOnFiles 2 twinBases (twin 0) (fun _ => 0) 1 4 fs' ∧ FollowedOnFiles 2 twinBases (twin 1) (fun _ => 1) 1 4 fs' := by
  have hread : ∀ n, (1 : Int) ≤ n → n ≤ 1 + (4 : ℕ) → (realStore 2 twinBases false).read twinFS n o1 = .ok (twinFrame n) :=
    fun n h1 h2 => twin_store_read h1 (by push_cast at h2; omega) o1
  obtain ⟨fs', r, hrun⟩ := twin_file_run o1 o2 o3 o4
  refine ⟨fs', r, hrun, ?_⟩
  have key : ∀ i : ℕ, i < 2 → FollowedOnFiles 2 twinBases (twin i) (fun _ => i) 1 4 fs' := by
    intro i hi
    have hparts : ∀ n, (twinFrame n).parts = (twinDisk n).parts := fun n => by rw [← twin_seen_eq]; rfl
    have himg : ∀ n, seenImg (twinFrame n).img = (twinDisk n).img := fun n => by rw [← twin_seen_eq]; rfl
    have hf : ∀ n, FrameOK airSetup (twinDisk n) := by
      intro n
      refine ⟨rfl, fun ts hts => ?_⟩
      obtain ⟨cam, hcam⟩ := List.getElem?_of_mem hts
      obtain ⟨q, -, rfl⟩ := twin_targets hcam
      simp [twinDisk]
    have hsee : ∀ n m : Int, 0 ≤ n → n < 5 → (m = n ∨ m = n + 1) →
        SeenByAll airSetup.cams (twinDisk (n + 1)) (twin i m) (airSetup.proj (twin i m)) i := by
      intro n m h0 h5 hm
      refine near_seen (hf _) (fun cam hcam => twin_shown i hi n m h0 h5 hm cam hcam) (airSetup_air (by norm_num [twin])) ?_
      rcases hm with rfl | rfl
      · norm_num [InOpenBox, airSetup, twin]
        constructor <;> linarith
      · norm_num [InOpenBox, airSetup, twin]
    have hown := twin_own_one i hi
    refine C130_followed_on_files airSetup 2 twinBases twin_good (by simp [airSetup]) rfl (by norm_num [airSetup]) (by norm_num [airSetup]) 4
      twin_longest 1 (by norm_num) 4 (by norm_num) twinFS fs' twinFrame (twin i) (fun _ => i) o1 o2 o3 o4 hread ?_ ?_
      (fun n _ _ => twin_smooth i n) ?_ ?_ r hrun
    · intro n _ _
      rw [hparts, twin_parts]
      have hii : i = 0 ∨ i = 1 := by omega
      rcases hii with rfl | rfl <;> rfl
    · intro n _ _
      have := twin_away i hi n
      unfold KeepsAway at this ⊢
      rw [hparts, hparts]
      exact this
    · rw [twin_seen_eq, himg, projOwn_eq hown]
      exact hsee 1 1 (by norm_num) (by norm_num) (Or.inl rfl)
    · intro n h1 h2
      rw [twin_seen_eq]
      have e : (twin i n).smul 2 - twin i (n - 1) = twin i (n + 1) := by
        ext <;> simp [twin, V3.smul]
        ring
      rw [e]
      exact hsee n (n + 1) (by omega) (by push_cast at h2; omega) (Or.inr rfl)
  exact ⟨key 0 (by norm_num), key 1 (by norm_num)⟩

end Verif.Track
