/-
C08-C13: search properties.
-/
import Verif.Proofs.Search
import Mathlib.Tactic.NormNum

set_option linter.unusedSectionVars false

namespace Verif.Search
open Verif.Search.Spec

/-! ### C10 -/

/-- C10: the size ratio of two non-negative sizes never raises, is symmetric, lies in [0,1], is 1
exactly for equal positive sizes, and does not change when both are scaled. -/
theorem C10_quality_ratio (a b : ℝ) (ha : 0 ≤ a) (hb : 0 ≤ b) :
    ∃ q, qualityRatio a b = .ok q ∧ qualityRatio b a = .ok q ∧ 0 ≤ q ∧ q ≤ 1 ∧
      (q = 1 ↔ a = b ∧ 0 < a) ∧ ∀ s, 0 < s → qualityRatio (s * a) (s * b) = .ok q := by
  have hsym : ratio b a = ratio a b := by
    unfold ratio; rw [min_comm, max_comm]; simp only [and_comm]
  refine ⟨ratio a b, qualityRatio_ok ha hb, by rw [qualityRatio_ok hb ha, hsym], ?_, ?_, ?_, ?_⟩
  · unfold ratio; split_ifs
    · exact le_refl _
    · exact div_nonneg (le_min ha hb) (le_trans ha (le_max_left _ _))
  · unfold ratio; split_ifs
    · norm_num
    · exact div_le_one_of_le₀ (le_trans (min_le_left _ _) (le_max_left _ _))
        (le_trans ha (le_max_left _ _))
  · unfold ratio
    split_ifs with h
    · constructor
      · intro h'; norm_num at h'
      · rintro ⟨-, h'⟩; rw [h.1] at h'; exact absurd h' (lt_irrefl _)
    · have hpos : 0 < max a b := by
        rcases lt_or_eq_of_le ha with h1 | h1
        · exact lt_of_lt_of_le h1 (le_max_left _ _)
        · rcases lt_or_eq_of_le hb with h2 | h2
          · exact lt_of_lt_of_le h2 (le_max_right _ _)
          · exact absurd ⟨h1.symm, h2.symm⟩ h
      rw [div_eq_one_iff_eq (ne_of_gt hpos)]
      constructor
      · intro he
        have : a = b := by
          have h1 := min_le_left a b; have h2 := min_le_right a b
          have h3 := le_max_left a b; have h4 := le_max_right a b
          linarith
        subst this
        simp at hpos
        exact ⟨rfl, hpos⟩
      · rintro ⟨rfl, -⟩; simp
  · intro s hs
    rw [qualityRatio_ok (mul_nonneg hs.le ha) (mul_nonneg hs.le hb)]
    unfold ratio
    have e : (s * a = 0 ∧ s * b = 0) ↔ (a = 0 ∧ b = 0) := by simp [hs.ne']
    simp only [e]
    split_ifs
    · rfl
    · rw [← mul_min_of_nonneg _ _ hs.le, ← mul_max_of_nonneg _ _ hs.le,
        mul_div_mul_left _ _ hs.ne']

/-! ### C11 -/

/-- C11: for every list, sorted or not, and every threshold, the start-point search reads only
existing entries (no IndexError) and returns an index of the list. -/
theorem C11_start_point_in_bounds {α : Type} [LinearOrder α] (xs : List α) (thr : α) :
    ∃ r, startPoint xs xs.length thr = .ok r ∧ (xs ≠ [] → r < xs.length) ∧ (xs = [] → r = 0) := by
  obtain ⟨r, h1, h2, h3⟩ := startPoint_ok xs thr
  refine ⟨r, h1, fun h => h3 (List.length_pos_iff.2 h), ?_⟩
  rintro rfl
  simpa using h2

/-- An unsorted list of 60 entries and a threshold above all of them. -/
example : startPoint (List.replicate 30 (2 : ℚ) ++ List.replicate 30 1) 60 100 = .ok 43 := by
  rw [startPoint]
  repeat (rw [startLoop]; simp only [pyGet]; norm_num [bind, Except.bind])

/-! ### C08 -/

/-- C08: on well-formed data find_candidate returns normally; its candidates have strictly
increasing target numbers (hence no repetition), number at most 40, and each is an existing target
that passes every acceptance test. The recorded tolerance is the distance from the epipolar line
(its square is the least squared distance to a point of the line), the recorded correlation is
4*q_sumg + 2*q_n + q_nx + q_ny times the grey sum of both targets. -/
theorem C08_candidates_sound (sen : Sensor) (v : VPar) (s : Shape) (crd : List Coord)
    (pix : List Shape) (xa ya xb yb : ℝ) (hd : DataOK s crd pix) (heps : 0 < v.eps0) :
    ∃ r, findCandidate sen v s crd pix xa ya xb yb = .ok r ∧
      (r.map Cand.pnr).Pairwise (· < ·) ∧ r.length ≤ 40 ∧
      ∀ c ∈ r, c.pnr < crd.length ∧ Acceptable v s crd pix xa ya xb yb c.pnr ∧
        ∃ p t, crd[c.pnr]? = some p ∧ pix[p.pnr]? = some t ∧ 0 ≤ c.tol ∧
          (∀ τ, c.tol ^ 2 ≤ distToLinePt xa ya (tilt xa xb) yb p.x p.y τ) ∧
          (∃ τ, distToLinePt xa ya (tilt xa xb) yb p.x p.y τ = c.tol ^ 2) ∧
          c.corr = (4 * ratio s.sumg t.sumg + 2 * ratio s.n t.n + ratio s.nx t.nx +
            ratio s.ny t.ny) * (s.sumg + t.sumg) := by
  unfold findCandidate
  simp only
  split_ifs with hoff
  · exact ⟨[], rfl, by simp, by simp, by simp⟩
  · obtain ⟨j0, h1, h2, -⟩ := startPoint_ok (crd.map Coord.x) ((mkWindow xa ya xb yb).xa - v.eps0)
    rw [List.length_map] at h1 h2
    simp only [h1, bind, Except.bind]
    obtain ⟨k, r, h3, -, h4, h5, -⟩ := candLoop_spec (mkWindow xa ya xb yb) v s crd pix hd
      (List.range' j0 (crd.length - j0)) (by intro j hj; rw [List.mem_range'_1] at hj; omega) []
    refine ⟨r, h3, ?_, h5 (by simp), ?_⟩
    · rw [h4, List.nil_append, List.map_map]
      have : Cand.pnr ∘ mkCand (mkWindow xa ya xb yb) s crd pix = id := by
        funext j; exact mkCand_pnr _ _ _ _ _
      rw [this, List.map_id]
      refine List.Pairwise.sublist (List.filter_sublist.trans (List.take_sublist _ _)) ?_
      exact List.pairwise_lt_range'
    · intro c hc
      rw [h4, List.nil_append, List.mem_map] at hc
      obtain ⟨j, hj, rfl⟩ := hc
      rw [mkCand_pnr]
      rw [List.mem_filter] at hj
      have hacc : AccW (mkWindow xa ya xb yb) v s crd pix j := by simpa using hj.2
      have hmem := List.mem_of_mem_take hj.1
      rw [List.mem_range'_1] at hmem
      refine ⟨by omega, (accW_iff v s crd pix xa ya xb yb heps j).1 hacc, ?_⟩
      obtain ⟨p, t, e1, e2, -⟩ := hacc
      obtain ⟨g1, g2⟩ := lineDist_sq xa ya xb yb p.x p.y
      refine ⟨p, t, e1, e2, ?_, ?_, ?_, ?_⟩ <;> simp only [mkCand, e1, e2]
      · exact lineDist_nonneg _ _ _
      · exact g1
      · exact g2

/-- One target, on the epipolar line. -/
def demoCrd : List Coord := [⟨0, 0, 0⟩]
def demoPix : List Shape := [⟨4, 2, 2, 100⟩]

example : DataOK ⟨4, 2, 2, 100⟩ demoCrd demoPix ∧
    Acceptable ⟨0.1, 0.5, 0.5, 0.5, 0.5⟩ ⟨4, 2, 2, 100⟩ demoCrd demoPix (-1) 0 1 0 0 := by
  refine ⟨by simp [DataOK, demoCrd, demoPix], ⟨0, 0, 0⟩, ⟨4, 2, 2, 100⟩, rfl, rfl, ?_, ?_, ?_, ?_⟩
  · norm_num [tilt]
  · norm_num
  · exact ⟨1 / 2, by norm_num [distToLinePt, tilt]⟩
  · norm_num [ratio]

/-! ### C09 -/

theorem not_acc_beyond (w : Window) (v : VPar) (s : Shape) (crd : List Coord) (pix : List Shape)
    (hs : (crd.map Coord.x).Pairwise (· ≤ ·)) (j i : Nat) (hij : j ≤ i) (c : Coord)
    (hc : crd[j]? = some c) (hx : c.x > w.xb + v.eps0) : ¬ AccW w v s crd pix i := by
  rintro ⟨c', t, h1, -, ⟨-, h2⟩, -⟩
  have hle : c.x ≤ c'.x := by
    rcases Nat.lt_or_ge j i with h | h
    · obtain ⟨l1, e1⟩ := List.getElem?_eq_some_iff.1 hc
      obtain ⟨l2, e2⟩ := List.getElem?_eq_some_iff.1 h1
      have := List.pairwise_iff_getElem.1 hs j i (by simpa using l1) (by simpa using l2) h
      simp only [List.getElem_map, e1, e2] at this
      exact this
    · have : j = i := by omega
      subst this
      rw [hc] at h1
      rw [Option.some.inj h1]
  linarith

open Classical in
/-- C09 (part that holds): if the coordinates are sorted by x, the segment touches the sensor and
there are fewer than 8190 targets, the candidates are exactly the first 40 acceptable targets, in
order. Missing: 8190 targets and more, see `C09_refuted`. -/
theorem C09_candidates_complete_partial (sen : Sensor) (v : VPar) (s : Shape) (crd : List Coord)
    (pix : List Shape) (xa ya xb yb : ℝ) (hd : DataOK s crd pix) (heps : 0 < v.eps0)
    (hs : (crd.map Coord.x).Pairwise (· ≤ ·)) (hlen : crd.length < 8190)
    (hon : ¬ SegmentOff sen xa ya xb yb) :
    ∃ r, findCandidate sen v s crd pix xa ya xb yb = .ok r ∧
      r.map Cand.pnr =
        ((List.range crd.length).filter (fun j => Acceptable v s crd pix xa ya xb yb j)).take 40 := by
  obtain ⟨w1, w2, w3, w4, -, -⟩ := mkWindow_eq xa ya xb yb
  unfold findCandidate
  simp only
  rw [if_neg (by rw [w1, w2, w3, w4]; exact hon)]
  obtain ⟨j0, h1, h2, -⟩ := startPoint_ok (crd.map Coord.x) ((mkWindow xa ya xb yb).xa - v.eps0)
  have hpop : popc ((crd.map Coord.x).length / 2) ≤ 11 := by
    apply popc_lt; rw [List.length_map]
    have : (2 : Nat) ^ (11 + 1) = 4096 := by norm_num
    rw [this]; omega
  have hbefore := startPoint_complete (crd.map Coord.x) _ hpop hs j0 h1
  rw [List.length_map] at h1 h2
  simp only [h1, bind, Except.bind]
  obtain ⟨k, r, h3, hk, h4, h5, h6⟩ := candLoop_spec (mkWindow xa ya xb yb) v s crd pix hd
    (List.range' j0 (crd.length - j0)) (by intro j hj; rw [List.mem_range'_1] at hj; omega) []
  refine ⟨r, h3, ?_⟩
  set A := fun j => decide (AccW (mkWindow xa ya xb yb) v s crd pix j) with hA
  have hAA : (fun j => decide (Acceptable v s crd pix xa ya xb yb j)) = A := by
    funext j; simp only [hA, accW_iff v s crd pix xa ya xb yb heps j]
  rw [hAA]
  have hr : r.map Cand.pnr = ((List.range' j0 (crd.length - j0)).take k).filter A := by
    rw [h4, List.nil_append, List.map_map]
    have : Cand.pnr ∘ mkCand (mkWindow xa ya xb yb) s crd pix = id := by
      funext j; exact mkCand_pnr _ _ _ _ _
    rw [this, List.map_id]
  have hsplit : List.range crd.length = List.range' 0 j0 ++ List.range' j0 (crd.length - j0) := by
    rw [List.range_eq_range']
    have := List.range'_append (s := 0) (m := j0) (n := crd.length - j0) (step := 1)
    simp only [Nat.one_mul, Nat.zero_add] at this
    rw [this]; congr 1; omega
  have hfirst : (List.range' 0 j0).filter A = [] := by
    rw [List.filter_eq_nil_iff]
    intro j hj
    rw [List.mem_range'_1] at hj
    simp only [hA, decide_eq_true_eq]
    rintro ⟨c, t, e1, -, ⟨e2, -⟩, -⟩
    have := hbefore j (by omega) c.x (by simp [e1])
    linarith
  rw [hsplit, List.filter_append, hfirst, List.nil_append]
  have hrest : (List.range' j0 (crd.length - j0)).filter A =
      ((List.range' j0 (crd.length - j0)).take k).filter A ++
      ((List.range' j0 (crd.length - j0)).drop k).filter A := by
    rw [← List.filter_append, List.take_append_drop]
  have hl40 : (r.map Cand.pnr).length ≤ 40 := by rw [List.length_map]; exact h5 (by simp)
  rw [hrest, ← hr]
  rcases h6 with h | h | ⟨j, c, hj, hc, hx⟩
  · rw [h, List.drop_length, List.filter_nil, List.append_nil, List.take_of_length_le hl40]
  · have : (r.map Cand.pnr).length = 40 := by
      have : 40 ≤ (r.map Cand.pnr).length := by rw [List.length_map]; exact h
      omega
    rw [← this, List.take_left]
  · have hnil : ((List.range' j0 (crd.length - j0)).drop k).filter A = [] := by
      rw [List.filter_eq_nil_iff]
      intro i hi
      simp only [hA, decide_eq_true_eq]
      have hij : j ≤ i := by
        have hlt := (List.getElem?_eq_some_iff.1 hj).1
        rw [List.length_range'] at hlt
        rw [List.getElem?_range' hlt] at hj
        have hj := Option.some.inj hj
        rw [List.drop_range', List.mem_range'_1] at hi
        omega
      exact not_acc_beyond _ v s crd pix hs j i hij c hc hx
    rw [hnil, List.append_nil, List.take_of_length_le hl40]

/-- 8190 detections: number 0 lies on the epipolar line, the others are far from it in y. -/
def manyCrd (n : Nat) : List Coord := ⟨0, 0, 0⟩ :: List.replicate n ⟨0, 0, 5⟩

/-- C09 refuted: with 8190 detections, an acceptable target (the very first one) is missed. -/
theorem C09_refuted (n : Nat) (hn : n = 8189) : ∃ (sen : Sensor) (v : VPar) (s : Shape) (pix : List Shape),
    DataOK s (manyCrd n) pix ∧ 0 < v.eps0 ∧ ((manyCrd n).map Coord.x).Pairwise (· ≤ ·) ∧
    ¬ SegmentOff sen (-1) 0 1 0 ∧ Acceptable v s (manyCrd n) pix (-1) 0 1 0 0 ∧
    findCandidate sen v s (manyCrd n) pix (-1) 0 1 0 = .ok [] := by
  have hd : DataOK ⟨4, 2, 2, 100⟩ (manyCrd n) demoPix := by
    refine ⟨by norm_num, ?_, by simp [demoPix]⟩
    intro c hc
    simp only [manyCrd, List.mem_cons, List.mem_replicate] at hc
    rcases hc with rfl | ⟨-, rfl⟩ <;> simp [demoPix]
  have hx : ∀ v ∈ (manyCrd n).map Coord.x, v = 0 := by
    intro v hv
    simp only [manyCrd, List.map_cons, List.map_replicate, List.mem_cons, List.mem_replicate] at hv
    rcases hv with rfl | ⟨-, rfl⟩ <;> rfl
  have hlen : (manyCrd n).length = 8190 := by rw [manyCrd, List.length_cons, List.length_replicate, hn]
  have hon : ¬ SegmentOff ⟨-10, -10, 10, 10⟩ (-1) 0 1 0 := by
    unfold SegmentOff; norm_num [tilt]
  refine ⟨⟨-10, -10, 10, 10⟩, ⟨0.1, 0.5, 0.5, 0.5, 0.5⟩, ⟨4, 2, 2, 100⟩, demoPix, hd, by norm_num, ?_,
    hon, ?_, ?_⟩
  · rw [List.pairwise_iff_forall_sublist]
    intro a b hab
    rw [hx a (hab.subset (by simp)), hx b (hab.subset (by simp))]
  · refine ⟨⟨0, 0, 0⟩, ⟨4, 2, 2, 100⟩, rfl, rfl, ?_, ?_, ?_, ?_⟩
    · norm_num [tilt]
    · norm_num
    · exact ⟨1 / 2, by norm_num [distToLinePt, tilt]⟩
    · norm_num [ratio]
  · obtain ⟨w1, w2, w3, w4, -, -⟩ := mkWindow_eq (-1) 0 1 0
    have hst := startPoint_8190 ((manyCrd n).map Coord.x)
      ((mkWindow (-1) 0 1 0).xa - (0.1 : ℝ)) (by rw [List.length_map, hlen]) (by
        intro v hv; rw [hx v hv, w1]; norm_num [tilt])
    rw [List.length_map] at hst
    unfold findCandidate
    simp only
    rw [if_neg (by rw [w1, w2, w3, w4]; exact hon), hst]
    simp only [bind, Except.bind]
    obtain ⟨k, r, h3, hk, h4, h5, h6⟩ := candLoop_spec (mkWindow (-1) 0 1 0)
      ⟨0.1, 0.5, 0.5, 0.5, 0.5⟩ ⟨4, 2, 2, 100⟩ (manyCrd n) demoPix hd
      (List.range' 1 ((manyCrd n).length - 1)) (by intro j hj; rw [List.mem_range'_1] at hj; omega) []
    rw [h3, h4, List.nil_append]
    congr 1
    rw [List.map_eq_nil_iff, List.filter_eq_nil_iff]
    intro j hj
    have hj := List.mem_of_mem_take hj
    rw [List.mem_range'_1] at hj
    simp only [decide_eq_true_eq]
    rintro ⟨c, t, e1, -, -, ⟨-, e2⟩, -⟩
    have : c = ⟨0, 0, 5⟩ := by
      obtain ⟨i, rfl⟩ : ∃ i, j = i + 1 := ⟨j - 1, by omega⟩
      simp only [manyCrd, List.getElem?_cons_succ] at e1
      exact (List.mem_replicate.1 (List.mem_of_getElem? e1)).2
    subst this
    rw [w4] at e2
    norm_num at e2

/-! ### C12, C13 -/

section
variable {K : Type} [Field K] [LinearOrder K] [IsStrictOrderedRing K]

theorem clip_eq (cx cy dl dr du dd imx imy : K) :
    clip cx cy dl dr du dd imx imy =
      ⟨max (cx - dl) 0, min (cx + dr) imx, max (cy - du) 0, min (cy + dd) imy⟩ := by
  have e1 : ∀ a : K, (if a < 0 then 0 else a) = max a 0 := by
    intro a; split_ifs with h
    · exact (max_eq_right h.le).symm
    · exact (max_eq_left (not_lt.1 h)).symm
  have e2 : ∀ a b : K, (if a > b then b else a) = min a b := by
    intro a b; split_ifs with h
    · exact (min_eq_right (le_of_lt h)).symm
    · exact (min_eq_left (not_lt.1 h)).symm
  simp only [clip, e1, e2]

theorem passW_iff (ts : List (Tgt K)) (cx cy dl dr du dd imx imy : K) (j : Nat) :
    PassW ts (clip cx cy dl dr du dd imx imy) j ↔ InWindow ts cx cy dl dr du dd imx imy j := by
  rw [clip_eq]; rfl

theorem inWindow_dist (ts : List (Tgt K)) (cx cy dl dr du dd imx imy : K) (j : Nat)
    (hc : 0 ≤ cx ∧ cx ≤ imx ∧ 0 ≤ cy ∧ cy ≤ imy) (him : imx ≤ 10 ^ 19 ∧ imy ≤ 10 ^ 19)
    (h : ∃ t, ts[j]? = some t ∧
      (max (cx - dl) 0 < t.x ∧ t.x < min (cx + dr) imx) ∧
      (max (cy - du) 0 < t.y ∧ t.y < min (cy + dd) imy)) : distOf ts cx cy j < BIG := by
  obtain ⟨t, h1, ⟨h2, h3⟩, h4, h5⟩ := h
  simp only [distOf, h1, BIG]
  have a1 := lt_of_le_of_lt (le_max_right (cx - dl) 0) h2
  have a2 := lt_of_lt_of_le h3 (min_le_right _ _)
  have a3 := lt_of_le_of_lt (le_max_right (cy - du) 0) h4
  have a4 := lt_of_lt_of_le h5 (min_le_right _ _)
  have b1 : (cx - t.x) ^ 2 ≤ (10 ^ 19) ^ 2 := by
    apply sq_le_sq'
    · linarith [hc.1, him.1]
    · linarith [hc.2.1, him.1]
  have b2 : (cy - t.y) ^ 2 ≤ (10 ^ 19) ^ 2 := by
    apply sq_le_sq'
    · linarith [hc.2.2.1, him.2]
    · linarith [hc.2.2.2, him.2]
  have : ((10 : K) ^ 19) ^ 2 + (10 ^ 19) ^ 2 < 10 ^ 40 := by norm_num
  linarith

/-- C12: for every target list (sorted or not) and image not larger than 10^19, the search returns
four entries without exception: the numbers of at most four distinct targets inside the window
that have a correspondence number, by strictly increasing distance, then -1 for the empty slots. -/
theorem C12_nearest_sound (ts : List (Tgt K)) (cx cy dl dr du dd imx imy : K)
    (him : imx ≤ 10 ^ 19 ∧ imy ≤ 10 ^ 19) :
    ∃ L : List Nat, L.length ≤ 4 ∧ candsearchInPix ts cx cy dl dr du dd imx imy =
        .ok (L.map Int.ofNat ++ List.replicate (4 - L.length) (-1)) ∧
      (∀ j ∈ L, InWindow ts cx cy dl dr du dd imx imy j) ∧
      L.Pairwise (fun i j => distOf ts cx cy i < distOf ts cx cy j) := by
  classical
  unfold candsearchInPix
  simp only
  split_ifs with hc
  swap
  · exact ⟨[], by simp, by simp [List.replicate], by simp, by simp⟩
  obtain ⟨j0, h1, h2, -⟩ := startPoint_ok (ts.map Tgt.y) (clip cx cy dl dr du dd imx imy).ymin
  rw [List.length_map] at h1 h2
  simp only [h1, bind, Except.bind]
  obtain ⟨k, s', h3, hk, h4, h5⟩ := pixLoop_spec ts (clip cx cy dl dr du dd imx imy) cx cy
    (List.range' j0 (ts.length - j0)) (by intro j hj; rw [List.mem_range'_1] at hj; omega) Best.init
  rw [h3]
  have hpass : ∀ j ∈ ((List.range' j0 (ts.length - j0)).take k).filter
      (fun j => decide (PassW ts (clip cx cy dl dr du dd imx imy) j)),
      InWindow ts cx cy dl dr du dd imx imy j := by
    intro j hj
    rw [List.mem_filter] at hj
    exact (passW_iff ts cx cy dl dr du dd imx imy j).1 (by simpa using hj.2)
  have hbig : ∀ j ∈ ((List.range' j0 (ts.length - j0)).take k).filter
      (fun j => decide (PassW ts (clip cx cy dl dr du dd imx imy) j)), distOf ts cx cy j < BIG := by
    intro j hj
    obtain ⟨t, a, -, b⟩ := hpass j hj
    exact inWindow_dist ts cx cy dl dr du dd imx imy j hc him ⟨t, a, b⟩
  have hinv := (BestInv.init (distOf ts cx cy)).foldl (by simp) hbig
  rw [List.nil_append, ← h4] at hinv
  obtain ⟨L, g1, g2, g3, g4, -⟩ := hinv.list hbig
  exact ⟨L, g1, congrArg Except.ok g2, fun j hj => hpass j (g3 j hj), g4⟩

/-- C13 (part that holds): on a y-sorted list of fewer than 8190 targets, with the centre inside
the image, every in-window target with a correspondence number is either at the distance of a
returned one, or four strictly nearer ones are returned. Missing: 8190 targets and more
(`C13_refuted`). -/
theorem C13_nearest_complete_partial (ts : List (Tgt K)) (cx cy dl dr du dd imx imy : K)
    (him : imx ≤ 10 ^ 19 ∧ imy ≤ 10 ^ 19) (hc : 0 ≤ cx ∧ cx ≤ imx ∧ 0 ≤ cy ∧ cy ≤ imy)
    (hs : (ts.map Tgt.y).Pairwise (· ≤ ·)) (hlen : ts.length < 8190) :
    ∃ L : List Nat, L.length ≤ 4 ∧ candsearchInPix ts cx cy dl dr du dd imx imy =
        .ok (L.map Int.ofNat ++ List.replicate (4 - L.length) (-1)) ∧
      (∀ j ∈ L, InWindow ts cx cy dl dr du dd imx imy j) ∧
      L.Pairwise (fun i j => distOf ts cx cy i < distOf ts cx cy j) ∧
      ∀ j, InWindow ts cx cy dl dr du dd imx imy j →
        (∃ i ∈ L, distOf ts cx cy i = distOf ts cx cy j) ∨
        (L.length = 4 ∧ ∀ i ∈ L, distOf ts cx cy i < distOf ts cx cy j) := by
  classical
  unfold candsearchInPix
  simp only
  rw [if_pos hc]
  obtain ⟨j0, h1, h2, -⟩ := startPoint_ok (ts.map Tgt.y) (clip cx cy dl dr du dd imx imy).ymin
  have hpop : popc ((ts.map Tgt.y).length / 2) ≤ 11 := by
    apply popc_lt; rw [List.length_map]
    have : (2 : Nat) ^ (11 + 1) = 4096 := by norm_num
    rw [this]; omega
  have hbefore := startPoint_complete (ts.map Tgt.y) _ hpop hs j0 h1
  rw [List.length_map] at h1 h2
  simp only [h1, bind, Except.bind]
  obtain ⟨k, s', h3, hk, h4, h5⟩ := pixLoop_spec ts (clip cx cy dl dr du dd imx imy) cx cy
    (List.range' j0 (ts.length - j0)) (by intro j hj; rw [List.mem_range'_1] at hj; omega) Best.init
  rw [h3]
  have hpass : ∀ j ∈ ((List.range' j0 (ts.length - j0)).take k).filter
      (fun j => decide (PassW ts (clip cx cy dl dr du dd imx imy) j)),
      InWindow ts cx cy dl dr du dd imx imy j := by
    intro j hj
    rw [List.mem_filter] at hj
    exact (passW_iff ts cx cy dl dr du dd imx imy j).1 (by simpa using hj.2)
  have hbig : ∀ j ∈ ((List.range' j0 (ts.length - j0)).take k).filter
      (fun j => decide (PassW ts (clip cx cy dl dr du dd imx imy) j)), distOf ts cx cy j < BIG := by
    intro j hj
    obtain ⟨t, a, -, b⟩ := hpass j hj
    exact inWindow_dist ts cx cy dl dr du dd imx imy j hc him ⟨t, a, b⟩
  have hinv := (BestInv.init (distOf ts cx cy)).foldl (by simp) hbig
  rw [List.nil_append, ← h4] at hinv
  obtain ⟨L, g1, g2, g3, g4, g5⟩ := hinv.list hbig
  refine ⟨L, g1, congrArg Except.ok g2, fun j hj => hpass j (g3 j hj), g4, ?_⟩
  intro j hj
  apply g5
  have hw := (passW_iff ts cx cy dl dr du dd imx imy j).2 hj
  rw [List.mem_filter]
  refine ⟨?_, by simpa using hw⟩
  obtain ⟨t, e1, e2, e3, e4, e5⟩ := hw
  obtain ⟨lt, elt⟩ := List.getElem?_eq_some_iff.1 e1
  have hj0 : j0 ≤ j := by
    by_contra hlt
    have := hbefore j (by omega) t.y (by simp [e1])
    linarith
  rcases h5 with h | ⟨i, ti, hi, hti, hy⟩
  · rw [h, List.take_length, List.mem_range'_1]; omega
  · have hlt := (List.getElem?_eq_some_iff.1 hi).1
    rw [List.length_range'] at hlt
    rw [List.getElem?_range' hlt] at hi
    have hi := Option.some.inj hi
    have hji : j < i := by
      by_contra hge
      have hle : ti.y ≤ t.y := by
        obtain ⟨l1, e6⟩ := List.getElem?_eq_some_iff.1 hti
        rcases Nat.lt_or_ge i j with h | h
        · have := List.pairwise_iff_getElem.1 hs i j (by simpa using l1) (by simpa using lt) h
          simp only [List.getElem_map, e6, elt] at this
          exact this
        · have : i = j := by omega
          subst this
          rw [hti] at e1; rw [Option.some.inj e1]
      linarith
    rw [List.take_range'_of_length_ge hlt.le, List.mem_range'_1]
    omega

/-- C13: consequently the first entry returned is a nearest in-window target. -/
theorem C13_first_is_nearest_partial (ts : List (Tgt K)) (cx cy dl dr du dd imx imy : K)
    (him : imx ≤ 10 ^ 19 ∧ imy ≤ 10 ^ 19) (hc : 0 ≤ cx ∧ cx ≤ imx ∧ 0 ≤ cy ∧ cy ≤ imy)
    (hs : (ts.map Tgt.y).Pairwise (· ≤ ·)) (hlen : ts.length < 8190)
    (hex : ∃ j, InWindow ts cx cy dl dr du dd imx imy j) :
    ∃ i r, candsearchInPix ts cx cy dl dr du dd imx imy = .ok ((i : Nat) :: r) ∧
      InWindow ts cx cy dl dr du dd imx imy i ∧
      ∀ j, InWindow ts cx cy dl dr du dd imx imy j → distOf ts cx cy i ≤ distOf ts cx cy j := by
  obtain ⟨L, h1, h2, h3, h4, h5⟩ :=
    C13_nearest_complete_partial ts cx cy dl dr du dd imx imy him hc hs hlen
  cases L with
  | nil =>
    obtain ⟨j, hj⟩ := hex
    rcases h5 j hj with ⟨i, hi, -⟩ | ⟨h, -⟩
    · simp at hi
    · simp at h
  | cons i L =>
    refine ⟨i, _, h2, h3 i (by simp), ?_⟩
    intro j hj
    rcases h5 j hj with ⟨i', hi, he⟩ | ⟨-, h⟩
    · rw [← he]
      rcases List.mem_cons.1 hi with rfl | hi
      · exact le_refl _
      · exact le_of_lt ((List.pairwise_cons.1 h4).1 i' hi)
    · exact le_of_lt (h i (by simp))

end

def demoTgts : List (Tgt ℚ) := [⟨10, 10, 3⟩, ⟨11, 10, -1⟩, ⟨12, 11, 4⟩, ⟨50, 60, 5⟩]

example : (demoTgts.map Tgt.y).Pairwise (· ≤ ·) ∧
    InWindow demoTgts 10 10 5 5 5 5 100 100 2 := by
  refine ⟨by decide +kernel, ⟨12, 11, 4⟩, rfl, by decide, ?_⟩
  norm_num

/-- 8190 targets at the height of the search centre; only number 0 is inside the window. -/
def manyTgts (n : Nat) : List (Tgt ℚ) := ⟨10, 10, 1⟩ :: List.replicate n ⟨90, 10, 1⟩

/-- C13 refuted: with 8190 targets the only in-window target is missed. -/
theorem C13_refuted (n : Nat) (hn : n = 8189) : ((manyTgts n).map Tgt.y).Pairwise (· ≤ ·) ∧
    InWindow (manyTgts n) 10 10 5 5 5 5 100 100 0 ∧
    candsearchInPix (manyTgts n) 10 10 5 5 5 5 100 100 = .ok [-1, -1, -1, -1] := by
  classical
  have hy : ∀ v ∈ (manyTgts n).map Tgt.y, v = 10 := by
    intro v hv
    simp only [manyTgts, List.map_cons, List.map_replicate, List.mem_cons, List.mem_replicate] at hv
    rcases hv with rfl | ⟨-, rfl⟩ <;> rfl
  have hlen : (manyTgts n).length = 8190 := by rw [manyTgts, List.length_cons, List.length_replicate, hn]
  refine ⟨?_, ⟨⟨10, 10, 1⟩, rfl, by decide, by norm_num⟩, ?_⟩
  · rw [List.pairwise_iff_forall_sublist]
    intro a b hab
    rw [hy a (hab.subset (by simp)), hy b (hab.subset (by simp))]
  · have hst := startPoint_8190 ((manyTgts n).map Tgt.y) (clip 10 10 5 5 5 5 100 100).ymin
      (by rw [List.length_map, hlen]) (by intro v hv; rw [hy v hv, clip_eq]; norm_num)
    rw [List.length_map] at hst
    unfold candsearchInPix
    simp only
    rw [if_pos (by norm_num), hst]
    simp only [bind, Except.bind]
    obtain ⟨k, s', h3, hk, h4, h5⟩ := pixLoop_spec (manyTgts n) (clip 10 10 5 5 5 5 100 100) 10 10
      (List.range' 1 ((manyTgts n).length - 1)) (by intro j hj; rw [List.mem_range'_1] at hj; omega)
      Best.init
    have : ((List.range' 1 ((manyTgts n).length - 1)).take k).filter
        (fun j => decide (PassW (manyTgts n) (clip 10 10 5 5 5 5 100 100) j)) = [] := by
      rw [List.filter_eq_nil_iff]
      intro j hj
      have hj := List.mem_of_mem_take hj
      rw [List.mem_range'_1] at hj
      simp only [decide_eq_true_eq]
      rintro ⟨t, e1, -, ⟨-, e2⟩, -⟩
      have : t = ⟨90, 10, 1⟩ := by
        obtain ⟨i, rfl⟩ : ∃ i, j = i + 1 := ⟨j - 1, by omega⟩
        simp only [manyTgts, List.getElem?_cons_succ] at e1
        exact (List.mem_replicate.1 (List.mem_of_getElem? e1)).2
      subst this
      rw [clip_eq] at e2
      norm_num at e2
    rw [this] at h4
    rw [h3, h4]
    rfl

section
variable {K : Type} [Field K] [LinearOrder K] [IsStrictOrderedRing K]

/-- C13: the search among unmatched targets finds, on a y-sorted list of fewer than 8190 targets,
a nearest unmatched in-window target and counts 1; if there is none it leaves `p[0]` as it was. -/
theorem C13_rest_partial (ts : List (Tgt K)) (cx cy dl dr du dd imx imy : K) (p0 : Int)
    (him : imx ≤ 10 ^ 19 ∧ imy ≤ 10 ^ 19) (hc : 0 ≤ cx ∧ cx ≤ imx ∧ 0 ≤ cy ∧ cy ≤ imy)
    (hs : (ts.map Tgt.y).Pairwise (· ≤ ·)) (hlen : ts.length < 8190) :
    ((∀ j, ¬ InWindowFree ts cx cy dl dr du dd imx imy j) ∧
      candsearchInPixRest ts cx cy dl dr du dd imx imy p0 = .ok (if p0 ≠ -1 then 1 else 0, p0)) ∨
    ∃ i : Nat, candsearchInPixRest ts cx cy dl dr du dd imx imy p0 = .ok (1, i) ∧
      InWindowFree ts cx cy dl dr du dd imx imy i ∧
      ∀ j, InWindowFree ts cx cy dl dr du dd imx imy j → distOf ts cx cy i ≤ distOf ts cx cy j := by
  classical
  have hpf : ∀ j, PassFree ts (clip cx cy dl dr du dd imx imy) j ↔
      InWindowFree ts cx cy dl dr du dd imx imy j := by intro j; rw [clip_eq]; rfl
  unfold candsearchInPixRest
  simp only
  rw [if_pos hc]
  obtain ⟨j0, h1, h2, -⟩ := startPoint_ok (ts.map Tgt.y) (clip cx cy dl dr du dd imx imy).ymin
  have hpop : popc ((ts.map Tgt.y).length / 2) ≤ 11 := by
    apply popc_lt; rw [List.length_map]
    have : (2 : Nat) ^ (11 + 1) = 4096 := by norm_num
    rw [this]; omega
  have hbefore := startPoint_complete (ts.map Tgt.y) _ hpop hs j0 h1
  rw [List.length_map] at h1 h2
  simp only [h1, bind, Except.bind]
  obtain ⟨k, s', h3, hk, h4, h5⟩ := restLoop_spec ts (clip cx cy dl dr du dd imx imy) cx cy p0
    (List.range' j0 (ts.length - j0)) (by intro j hj; rw [List.mem_range'_1] at hj; omega)
    (by
      intro j hj
      obtain ⟨t, a, -, b⟩ := (hpf j).1 hj
      exact inWindow_dist ts cx cy dl dr du dd imx imy j hc him ⟨t, a, b⟩) [] (BIG, p0)
    (Or.inl ⟨rfl, rfl⟩)
  rw [h3]
  rw [List.nil_append] at h4
  have hall : ∀ j, InWindowFree ts cx cy dl dr du dd imx imy j →
      j ∈ ((List.range' j0 (ts.length - j0)).take k).filter
        (fun j => decide (PassFree ts (clip cx cy dl dr du dd imx imy) j)) := by
    intro j hj
    have hw := (hpf j).2 hj
    rw [List.mem_filter]
    refine ⟨?_, by simpa using hw⟩
    obtain ⟨t, e1, e2, e3, e4, e5⟩ := hw
    obtain ⟨lt, elt⟩ := List.getElem?_eq_some_iff.1 e1
    have hj0 : j0 ≤ j := by
      by_contra hlt
      have := hbefore j (by omega) t.y (by simp [e1])
      linarith
    rcases h5 with h | ⟨i, ti, hi, hti, hy⟩
    · rw [h, List.take_length, List.mem_range'_1]; omega
    · have hlt := (List.getElem?_eq_some_iff.1 hi).1
      rw [List.length_range'] at hlt
      rw [List.getElem?_range' hlt] at hi
      have hi := Option.some.inj hi
      have hji : j < i := by
        by_contra hge
        have hle : ti.y ≤ t.y := by
          obtain ⟨l1, e6⟩ := List.getElem?_eq_some_iff.1 hti
          rcases Nat.lt_or_ge i j with h | h
          · have := List.pairwise_iff_getElem.1 hs i j (by simpa using l1) (by simpa using lt) h
            simp only [List.getElem_map, e6, elt] at this
            exact this
          · have : i = j := by omega
            subst this
            rw [hti] at e1; rw [Option.some.inj e1]
        linarith
      rw [List.take_range'_of_length_ge hlt.le, List.mem_range'_1]
      omega
  rcases h4 with ⟨hnil, rfl⟩ | ⟨i, hi, rfl, hmin⟩
  · left
    refine ⟨?_, rfl⟩
    intro j hj
    have := hall j hj
    rw [hnil] at this
    simp at this
  · right
    refine ⟨i, ?_, ?_, ?_⟩
    · have : (i : Int) ≠ -1 := by omega
      simp [this]
    · rw [List.mem_filter] at hi
      exact (hpf i).1 (by simpa using hi.2)
    · intro j hj; exact hmin j (hall j hj)

end

end Verif.Search
