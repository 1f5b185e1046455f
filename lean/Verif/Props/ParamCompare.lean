/-
C75: the comparisons by annotated attributes are equality.
-/
import Verif.Model.ParamCompare

namespace Verif.IO

theorem allEqual_of {a b : List (String × Attr)} (names : List String) (x y : String → Attr)
    (ha : ∀ n ∈ names, getattr a n = .ok (x n)) (hb : ∀ n ∈ names, getattr b n = .ok (y n)) :
    allEqual a b names = .ok (decide (∀ n ∈ names, x n = y n)) := by
  induction names with
  | nil => simp [allEqual]
  | cons n ns ih =>
    have h1 := ha n List.mem_cons_self
    have h2 := hb n List.mem_cons_self
    simp only [allEqual, h1, h2, bind, Except.bind]
    by_cases h : x n = y n
    · rw [if_pos h, ih (fun m hm => ha m (List.mem_cons_of_mem _ hm)) (fun m hm => hb m (List.mem_cons_of_mem _ hm))]
      simp [h]
    · rw [if_neg h]
      simp [h]

/-- C75: `compare_sequence_par` returns, and is true exactly for equal parameter sets. -/
theorem C75_sequence (a b : SequencePar) : compareSequence a b = .ok (decide (a = b)) := by
  rw [compareSequence, allEqual_of _ (fun n => (a.attrs.lookup n).getD (.int 0)) (fun n => (b.attrs.lookup n).getD (.int 0))
    (by simp [getattr, SequencePar.attrs, List.lookup]) (by simp [getattr, SequencePar.attrs, List.lookup])]
  cases a; cases b
  simp [SequencePar.attrs, List.lookup]

/-- C75: `compare_track_par` returns, and is true exactly for equal parameter sets. -/
theorem C75_track (a b : TrackPar) : compareTrack a b = .ok (decide (a = b)) := by
  rw [compareTrack, allEqual_of _ (fun n => (a.attrs.lookup n).getD (.int 0)) (fun n => (b.attrs.lookup n).getD (.int 0))
    (by simp [getattr, TrackPar.attrs, List.lookup]) (by simp [getattr, TrackPar.attrs, List.lookup])]
  cases a; cases b
  simp [TrackPar.attrs, List.lookup]

/-- C75: `compare_volume_par` returns, and is true exactly for equal parameter sets. -/
theorem C75_volume (a b : VolumePar) : compareVolume a b = .ok (decide (a = b)) := by
  rw [compareVolume, allEqual_of _ (fun n => (a.attrs.lookup n).getD (.int 0)) (fun n => (b.attrs.lookup n).getD (.int 0))
    (by simp [getattr, VolumePar.attrs, List.lookup]) (by simp [getattr, VolumePar.attrs, List.lookup])]
  cases a; cases b
  simp [VolumePar.attrs, List.lookup]

/-- C75: `compare_target_par` returns, and is true exactly for equal parameter sets. -/
theorem C75_target (a b : TargetPar) : compareTarget a b = .ok (decide (a = b)) := by
  rw [compareTarget, allEqual_of _ (fun n => (a.attrs.lookup n).getD (.int 0)) (fun n => (b.attrs.lookup n).getD (.int 0))
    (by simp [getattr, TargetPar.attrs, List.lookup]) (by simp [getattr, TargetPar.attrs, List.lookup])]
  cases a; cases b
  simp [TargetPar.attrs, List.lookup]

/-- Sets that differ in the last attribute only. -/
example : compareTarget TargetPar.default { TargetPar.default with crSz := 2 } = .ok false := by
  rw [C75_target]
  decide

end Verif.IO
