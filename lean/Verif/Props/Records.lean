/-
C141: records compare equal exactly if they are equal. C142: the order of targets that the search of the tracker needs.
-/
import Verif.Model.Records
import Verif.Props.Search

namespace Verif.Rec

open Verif.IO (Target)
open Verif.Search Verif.Search.Spec

/-! ### C141 -/

/-- C141: `compare_targets` returns, and says True exactly for equal targets. -/
theorem C141_targets (a b : Target) : ∃ r, compareTargets a b = .ok r ∧ (r = true ↔ a = b) := by
  refine ⟨_, rfl, ?_⟩
  cases a
  cases b
  simp [and_assoc]

/-- C141: `compare_path_info` says True exactly for equal records, for records with three coordinates; a record is not equal to
an object of another kind. -/
theorem C141_paths (a b : PathInfo) (ha : a.x.length = 3) (hb : b.x.length = 3) :
    (comparePathInfo a b = true ↔ a = b) ∧ pathEq a .other = false := by
  refine ⟨?_, rfl⟩
  have hx : ((a.x.zip b.x).all fun p => p.1 == p.2) = true ↔ a.x = b.x := by
    match h1 : a.x, ha, h2 : b.x, hb with
    | [x, y, z], _, [x', y', z'], _ => simp
  obtain ⟨x, _, _, _, _, _, _, _⟩ := a
  obtain ⟨x', _, _, _, _, _, _, _⟩ := b
  simp only [comparePathInfo, pathEq, Bool.and_eq_true, beq_iff_eq, PathInfo.mk.injEq] at hx ⊢
  rw [hx]
  simp only [and_assoc]

/-- C141: `compare_corres` says True exactly for equal rows. -/
theorem C141_corres (a b : Corres) : compareCorres a b = true ↔ a = b := by
  cases a
  cases b
  simp [compareCorres]

/-- C141 is false for a target and an object of another kind: `==` does not say False but raises. -/
theorem C141_foreign_refuted (a : Target) : ∃ e, targetEq a .other = .error e := ⟨_, rfl⟩

/-- C141, vectors, what holds (partial): vectors within the tolerance are accepted, and vectors that differ by more than the
tolerance plus 1/100000 of the component of the second vector are not. Missing: the relative part
(`C141_tolerance_refuted`). -/
theorem C141_vec_cmp_partial (u v : List ℚ) (tol : ℚ) :
    ((∀ p ∈ u.zip v, |p.1 - p.2| ≤ tol) → vecCmp u v tol = true) ∧
    ((∃ p ∈ u.zip v, tol + |p.2| / 100000 < |p.1 - p.2|) → vecCmp u v tol = false) := by
  constructor
  · intro h
    simp only [vecCmp, List.all_eq_true, decide_eq_true_eq]
    intro p hp
    have := h p hp
    have := abs_nonneg p.2
    linarith
  · rintro ⟨p, hp, h⟩
    rw [Bool.eq_false_iff]
    intro hc
    simp only [vecCmp, List.all_eq_true, decide_eq_true_eq] at hc
    have := hc p hp
    linarith

/-- C141 is false for `vec_cmp`: for every tolerance there are two positions that differ by more than twice the tolerance in a
component and compare equal. -/
theorem C141_tolerance_refuted (tol : ℚ) (ht : 0 < tol) :
    ∃ u v : List ℚ, u.length = 3 ∧ v.length = 3 ∧ (∃ p ∈ u.zip v, 2 * tol < |p.1 - p.2|) ∧ vecCmp u v tol = true := by
  refine ⟨[200000 * tol + 3 * tol, 0, 0], [200000 * tol, 0, 0], rfl, rfl, ⟨(200000 * tol + 3 * tol, 200000 * tol), by simp, ?_⟩, ?_⟩
  · simp only [add_sub_cancel_left]
    rw [abs_of_pos (by linarith)]
    linarith
  · simp only [vecCmp, List.zip_cons_cons, List.zip_nil_right, List.all_cons, List.all_nil, Bool.and_true, Bool.and_eq_true,
      decide_eq_true_eq, add_sub_cancel_left, sub_zero, abs_zero, mul_zero, add_zero]
    rw [abs_of_pos (by linarith), abs_of_pos (by linarith)]
    refine ⟨by linarith, ht.le, ht.le⟩

/-- C141 is false for `vec_cmp`: the order of the vectors matters (tolerance 1/1000000, positions 100001.000005 and 100000). -/
theorem C141_symmetry_refuted : vecCmp [100001 + 5 / 1000000, 0, 0] [100000, 0, 0] (1 / 1000000) = false ∧
    vecCmp [100000, 0, 0] [100001 + 5 / 1000000, 0, 0] (1 / 1000000) = true := by
  constructor
  · rw [Bool.eq_false_iff]
    intro h
    simp only [vecCmp, List.zip_cons_cons, List.all_cons, Bool.and_eq_true, decide_eq_true_eq] at h
    have := h.1
    rw [abs_of_pos (by norm_num), abs_of_pos (by norm_num)] at this
    norm_num at this
  · simp only [vecCmp, List.zip_cons_cons, List.zip_nil_right, List.all_cons, List.all_nil, Bool.and_eq_true, decide_eq_true_eq]
    rw [abs_of_neg (by norm_num), abs_of_pos (by norm_num)]
    norm_num

/-- C141, `reset_links`: the links and the priority are the defaults of a new record, everything else stays. -/
theorem C141_reset (p : PathInfo) : p.resetLinks.prevFrame = -1 ∧ p.resetLinks.nextFrame = -2 ∧ p.resetLinks.prio = 2 ∧
    p.resetLinks.x = p.x ∧ p.resetLinks.decis = p.decis ∧ p.resetLinks.finaldecis = p.finaldecis ∧
    p.resetLinks.linkdecis = p.linkdecis ∧ p.resetLinks.inlist = p.inlist := by simp [PathInfo.resetLinks]

/-- C141 is false for a record that has been used: `reset_links` does not make it equal to a new one as long as candidates are
registered. -/
theorem C141_reset_refuted (f : ℚ) (c : ℤ) : ∃ p, PathInfo.new.register f c = .ok p ∧ comparePathInfo p.resetLinks PathInfo.new = false := by
  refine ⟨_, if_pos (by decide), ?_⟩
  rw [Bool.eq_false_iff]
  intro h
  simp [comparePathInfo, pathEq, PathInfo.resetLinks, PathInfo.new] at h

/-- A record with the candidates `done` registered. -/
def registered (done : List (ℚ × ℤ)) : PathInfo :=
  ⟨[0, 0, 0], -1, -2, 2, done.map Prod.fst ++ List.replicate (80 - done.length) 0, 0, done.map Prod.snd ++ List.replicate (80 - done.length) 0,
    done.length⟩

theorem registered_register (done : List (ℚ × ℤ)) (c : ℚ × ℤ) (h : done.length ≤ 80) : (registered done).register c.1 c.2 =
    if done.length < 80 then .ok (registered (done ++ [c])) else .error .indexError := by
  have key : ∀ {α : Type} (d : List α) (z a : α) (n : ℕ), d.length = n → n < 80 →
      (d ++ List.replicate (80 - n) z).set n a = d ++ [a] ++ List.replicate (80 - (n + 1)) z := by
    intro α d z a n hn hl
    subst hn
    obtain ⟨k, hk⟩ : ∃ k, 80 - d.length = k + 1 := ⟨79 - d.length, by omega⟩
    rw [hk, show 80 - (d.length + 1) = k by omega, List.set_append_right _ _ (le_refl _), Nat.sub_self, List.replicate_succ, List.set_cons_zero,
      List.append_assoc]
    rfl
  unfold PathInfo.register registered
  simp only [List.length_append, List.length_map, List.length_replicate, List.length_singleton, Int.toNat_natCast]
  by_cases hl : done.length < 80
  · rw [if_pos ⟨by omega, by omega⟩, if_pos hl, key _ _ _ _ (by simp) hl, key _ _ _ _ (by simp) hl]
    simp
  · rw [if_neg (by omega), if_neg hl]

/-- C141, `register_link_candidate`: up to 80 candidates can be registered with a new record; their scores and numbers stand at the
beginning of the two lists, in order, and nothing else changes. One more is an IndexError. -/
theorem C141_register (l : List (ℚ × ℤ)) : l.foldlM (fun p c => p.register c.1 c.2) PathInfo.new =
    if l.length ≤ 80 then .ok ⟨[0, 0, 0], -1, -2, 2, l.map Prod.fst ++ List.replicate (80 - l.length) 0, 0,
      l.map Prod.snd ++ List.replicate (80 - l.length) 0, l.length⟩ else .error .indexError := by
  have key : ∀ (l done : List (ℚ × ℤ)), done.length ≤ 80 → l.foldlM (fun p c => p.register c.1 c.2) (registered done) =
      if done.length + l.length ≤ 80 then .ok (registered (done ++ l)) else .error .indexError := by
    intro l
    induction l with
    | nil => intro done h; rw [if_pos (by simpa using h), List.append_nil]; rfl
    | cons c l ih =>
      intro done h
      rw [List.foldlM_cons, registered_register done c h]
      by_cases hl : done.length < 80
      · rw [if_pos hl]
        show l.foldlM _ (registered (done ++ [c])) = _
        rw [ih (done ++ [c]) (by simp; omega), List.append_assoc]
        simp only [List.length_append, List.length_cons, List.length_nil, List.singleton_append]
        rw [show done.length + (0 + 1) + l.length = done.length + (l.length + 1) by omega]
      · rw [if_neg hl, if_neg (by simp; omega)]
        rfl
  have := key l [] (by simp)
  simp only [List.length_nil, List.nil_append, Nat.zero_add] at this
  exact this

/-- Two candidates. -/
example : [(1 / 2, 3), (1 / 4, 7)].foldlM (fun p c => p.register c.1 c.2) PathInfo.new =
    .ok ⟨[0, 0, 0], -1, -2, 2, [1 / 2, 1 / 4] ++ List.replicate 78 0, 0, [3, 7] ++ List.replicate 78 0, 2⟩ := C141_register _

/-- A new record and the same one with a link: the hypotheses of `C141_paths`. -/
example : PathInfo.new.x.length = 3 ∧ ({ PathInfo.new with nextFrame := 4 } : PathInfo).x.length = 3 ∧
    comparePathInfo PathInfo.new { PathInfo.new with nextFrame := 4 } = false := ⟨rfl, rfl, by decide +kernel⟩

/-- Both cases of `C141_vec_cmp_partial` occur. -/
example : vecCmp [1, 2, 3] [1, 2, 3 + 1 / 1000000] (1 / 1000000) = true ∧ vecCmp [1, 2, 3] [1, 2, 4] (1 / 1000000) = false := by
  constructor
  · refine (C141_vec_cmp_partial _ _ _).1 ?_
    simp
  · refine (C141_vec_cmp_partial _ _ _).2 ⟨(3, 4), by simp, ?_⟩
    norm_num

/-! ### C142 -/

theorem leY_trans (a b c : Target) (h : decide (a.y ≤ b.y) = true) (h' : decide (b.y ≤ c.y) = true) : decide (a.y ≤ c.y) = true := by
  simp only [decide_eq_true_eq] at *
  exact h.trans h'

theorem leY_total (a b : Target) : (decide (a.y ≤ b.y) || decide (b.y ≤ a.y)) = true := by
  simp only [Bool.or_eq_true, decide_eq_true_eq]
  exact le_total _ _

/-- C142: `sort_target_y` returns the same targets, in the order of y; targets with the same y stay in order. -/
theorem C142_sort (ts : List Target) : (sortTargetY ts).Perm ts ∧ (sortTargetY ts).Pairwise (fun a b => a.y ≤ b.y) ∧
    ∀ y : ℚ, (sortTargetY ts).filter (fun t => t.y = y) = ts.filter (fun t => t.y = y) := by
  refine ⟨List.mergeSort_perm _ _, ?_, fun y => ?_⟩
  · have := List.pairwise_mergeSort (le := fun a b : Target => decide (a.y ≤ b.y)) leY_trans leY_total ts
    exact this.imp (by simp)
  · have hs : (ts.filter fun t => t.y = y).Sublist (sortTargetY ts) := by
      refine List.sublist_mergeSort (le := fun a b : Target => decide (a.y ≤ b.y)) leY_trans leY_total ?_ List.filter_sublist
      refine List.Pairwise.imp_of_mem (R := fun _ _ => True) ?_ (List.pairwise_of_forall fun _ _ => trivial)
      intro a b ha hb _
      simp only [List.mem_filter, decide_eq_true_eq] at ha hb ⊢
      rw [ha.2, hb.2]
    have hs2 := hs.filter (fun t => decide (t.y = y))
    rw [List.filter_filter] at hs2
    simp only [Bool.and_self] at hs2
    have hp : ((sortTargetY ts).filter (fun t => decide (t.y = y))).Perm (ts.filter (fun t => decide (t.y = y))) :=
      (List.mergeSort_perm _ _).filter _
    exact (hs2.eq_of_length hp.length_eq.symm).symm

/-- The target is inside the part of the search window that is inside the picture, and has a correspondence. -/
def Inside (t : Target) (cx cy dl dr du dd imx imy : ℚ) : Prop :=
  t.tnr ≠ -1 ∧ (max (cx - dl) 0 < t.x ∧ t.x < min (cx + dr) imx) ∧ (max (cy - du) 0 < t.y ∧ t.y < min (cy + dd) imy)

/-- C142: after `sort_target_y`, whatever the order was, the search of the tracker finds a nearest target in the window (fewer than
8190 targets: C13). -/
theorem C142_found_sorted (ts : List Target) (cx cy dl dr du dd imx imy : ℚ)
    (him : imx ≤ 10 ^ 19 ∧ imy ≤ 10 ^ 19) (hc : 0 ≤ cx ∧ cx ≤ imx ∧ 0 ≤ cy ∧ cy ≤ imy) (hlen : ts.length < 8190)
    (hex : ∃ t ∈ ts, Inside t cx cy dl dr du dd imx imy) :
    ∃ (i : ℕ) (r : List ℤ) (t : Target), candsearchInPix ((sortTargetY ts).map view) cx cy dl dr du dd imx imy = .ok ((i : ℤ) :: r) ∧
      (sortTargetY ts)[i]? = some t ∧ t ∈ ts ∧ Inside t cx cy dl dr du dd imx imy ∧
      ∀ t' ∈ ts, Inside t' cx cy dl dr du dd imx imy →
        (cx - t.x) ^ 2 + (cy - t.y) ^ 2 ≤ (cx - t'.x) ^ 2 + (cy - t'.y) ^ 2 := by
  obtain ⟨hp, hs, -⟩ := C142_sort ts
  have key : ∀ t' ∈ ts, Inside t' cx cy dl dr du dd imx imy → ∃ j : ℕ, (sortTargetY ts)[j]? = some t' ∧
      InWindow ((sortTargetY ts).map view) cx cy dl dr du dd imx imy j ∧
      distOf ((sortTargetY ts).map view) cx cy j = (cx - t'.x) ^ 2 + (cy - t'.y) ^ 2 := by
    intro t' ht' hi
    obtain ⟨j, hj⟩ := List.mem_iff_getElem?.1 (hp.mem_iff.2 ht')
    refine ⟨j, hj, ⟨view t', by simp [hj], hi⟩, ?_⟩
    simp [distOf, hj, view]
  obtain ⟨t0, ht0, hi0⟩ := hex
  obtain ⟨j0, -, hw0, -⟩ := key t0 ht0 hi0
  obtain ⟨i, r, h1, ⟨v, hv, h2, h3, h4⟩, h5⟩ := C13_first_is_nearest_partial ((sortTargetY ts).map view) cx cy dl dr du dd imx imy him hc
    (by rw [List.map_map]; exact List.pairwise_map.2 hs) (by rw [List.length_map, hp.length_eq]; exact hlen) ⟨j0, hw0⟩
  rw [List.getElem?_map] at hv
  cases ht : (sortTargetY ts)[i]? with
  | none => rw [ht] at hv; cases hv
  | some t =>
    rw [ht] at hv
    simp only [Option.map_some, Option.some.injEq] at hv
    subst hv
    refine ⟨i, r, t, h1, ht, hp.mem_iff.1 (List.mem_of_getElem? ht), ⟨h2, h3, h4⟩, ?_⟩
    intro t' ht' hi'
    obtain ⟨j, hj, hw, hd⟩ := key t' ht' hi'
    have := h5 j hw
    rw [hd] at this
    simpa [distOf, ht, view] using this

/-- A picture of a streak (column 2, rows 1 to 5) beside a dot (row 2, column 5), with some of the surroundings. -/
def streak : Seg.Image := ⟨8, 8, fun y x => if y = 1 ∧ x = 2 then 9 else if 2 ≤ y ∧ y ≤ 5 ∧ x = 2 then 8 else if y = 2 ∧ x = 5 then 7 else 0⟩

/-- The two targets of the picture. -/
def streakTargets : List Target := [⟨0, 5 / 2, 89 / 26, 5, 1, 5, 26, -1⟩, ⟨1, 11 / 2, 5 / 2, 1, 1, 1, 4, -1⟩]

/-- C142 is false for detection: the targets of this picture come in the order of their brightest rows, and the centre of the first
is below that of the second. -/
theorem C142_detection_refuted : detect streak 8 8 ⟨3, 0, 1, 10, 1, 10, 1, 10, 0, 0, 8, 0, 8⟩ 30 = .ok streakTargets ∧
    ¬ streakTargets.Pairwise (fun a b => a.y ≤ b.y) := by
  refine ⟨by decide +kernel, ?_⟩
  simp only [streakTargets, List.pairwise_cons, List.mem_singleton, forall_eq]
  intro h
  have := h.1
  norm_num at this

theorem startPoint_two (xs : List ℚ) (thr : ℚ) : startPoint xs 2 thr = .ok 0 := by
  rw [startPoint, startLoop, dif_neg (by decide)]
  rfl

/-- C142 is false for tracking with detected targets as they are: whatever numbers the correspondences give the two targets, a
search in a window around the dot finds nothing, although the dot is in the window, because the search stops at the streak. With
`sort_target_y` it is found. -/
theorem C142_missed_refuted (a b : ℤ) (ha : a ≠ -1) (hb : b ≠ -1) (ts : List Target)
    (hts : ts = [{ streakTargets[0] with tnr := a }, { streakTargets[1] with tnr := b }]) :
    Inside { streakTargets[1] with tnr := b } (11 / 2) (5 / 2) (1 / 2) (1 / 2) (1 / 2) (1 / 2) 8 8 ∧
    candsearchInPix (ts.map view) (11 / 2) (5 / 2) (1 / 2) (1 / 2) (1 / 2) (1 / 2) 8 8 = .ok [-1, -1, -1, -1] ∧
    candsearchInPix ((sortTargetY ts).map view) (11 / 2) (5 / 2) (1 / 2) (1 / 2) (1 / 2) (1 / 2) 8 8 = .ok [0, -1, -1, -1] := by
  subst hts
  have hsort : sortTargetY [{ streakTargets[0] with tnr := a }, { streakTargets[1] with tnr := b }] =
      [{ streakTargets[1] with tnr := b }, { streakTargets[0] with tnr := a }] := by
    simp [sortTargetY, streakTargets, List.mergeSort, List.MergeSort.Internal.splitInTwo]
    norm_num
  rw [hsort]
  refine ⟨⟨hb, ?_⟩, ?_, ?_⟩
  · simp only [streakTargets, List.getElem_cons_succ, List.getElem_cons_zero]
    norm_num
  · norm_num [candsearchInPix, streakTargets, view, clip, startPoint_two, pixLoop, pyGet, Best.init, ha, hb, List.range'_succ, bind, Except.bind]
  · norm_num [candsearchInPix, streakTargets, view, clip, startPoint_two, pixLoop, pyGet, Best.init, Best.insert, dist2, BIG, ha, hb, List.range'_succ, bind, Except.bind]

/-- The hypotheses of `C142_found_sorted`, for the targets of the picture with numbers 3 and 5. -/
example : ∃ t ∈ [{ streakTargets[0] with tnr := 3 }, { streakTargets[1] with tnr := 5 }],
    Inside t (11 / 2) (5 / 2) (1 / 2) (1 / 2) (1 / 2) (1 / 2) 8 8 :=
  ⟨_, by simp, (C142_missed_refuted 3 5 (by decide) (by decide) _ rfl).1⟩

end Verif.Rec
