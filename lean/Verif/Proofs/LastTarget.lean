/-
The search with three or four cameras: if the last target of every camera belongs to one particle, and the search windows hold few targets, the candidate
list is short and has its end mark.
-/
import Verif.Proofs.Total

namespace Verif.Track
open Verif.Track.Spec

/-- No candidate from row `n` on. -/
def NoneFrom (n : Nat) (l : List FP) : Prop := ∀ (i : Nat) (r : FP), n ≤ i → l[i]? = some r → r.freq = 0

theorem NoneFrom.bubble : ∀ {l : List FP} {n : Nat}, NoneFrom n l → NoneFrom n (bubble l)
  | [], n, h => by simp [Track.bubble, NoneFrom]
  | x :: xs, n, h => by
    have hx : NoneFrom (n - 1) xs := fun i r hi hr => h (i + 1) r (by omega) (by simpa using hr)
    have ih := hx.bubble
    rw [Track.bubble]
    cases hb : Track.bubble xs with
    | nil =>
      intro i r hi hr
      simp only at hr
      cases i with
      | zero => exact h 0 r hi (by simpa using hr)
      | succ i => simp at hr
    | cons y ys =>
      rw [hb] at ih
      simp only
      intro i r hi hr
      cases i with
      | zero =>
        have hx0 : x.freq = 0 := h 0 x hi rfl
        have hy0 : y.freq = 0 := ih 0 y (by omega) rfl
        split_ifs at hr
        · simp at hr; rw [← hr]; exact hy0
        · simp at hr; rw [← hr]; exact hx0
      | succ i =>
        refine ih i r (by omega) ?_
        split_ifs at hr <;> simpa using hr

theorem NoneFrom.sortFreq {l : List FP} {n : Nat} (h : NoneFrom n l) : NoneFrom n (sortFreq l) := by
  unfold Track.sortFreq
  generalize l.length - 1 = m
  induction m with
  | zero => exact h
  | succ m ih =>
    rw [List.range_succ, List.foldl_append]
    simp only [List.foldl_cons, List.foldl_nil]
    generalize (List.range m).foldl (fun a i => a.take i ++ Track.bubble (a.drop i)) l = a at ih
    have hd : NoneFrom (n - m) (a.drop m) := by
      intro i r hi hr
      rw [List.getElem?_drop] at hr
      exact ih _ r (by omega) hr
    intro i r hi hr
    rw [List.getElem?_append] at hr
    split_ifs at hr with hlt
    · rw [List.getElem?_take] at hr
      split_ifs at hr
      exact ih i r hi hr
    · rw [List.length_take] at hr hlt
      by_cases hm : m ≤ a.length
      · rw [min_eq_left hm] at hr hlt
        exact hd.bubble (i - m) r (by omega) hr
      · rw [List.drop_eq_nil_of_le (by omega)] at hr
        simp [Track.bubble] at hr

theorem NoneFrom.count {l : List FP} {n : Nat} (h : NoneFrom n l) : l.countP (fun r => decide (r.freq ≠ 0)) ≤ n := by
  rw [← List.take_append_drop n l, List.countP_append]
  have h2 : (l.drop n).countP (fun r => decide (r.freq ≠ 0)) = 0 := by
    rw [List.countP_eq_zero]
    intro r hr
    obtain ⟨i, hi⟩ := List.mem_iff_getElem?.1 hr
    rw [List.getElem?_drop] at hi
    simp [h _ r (by omega) hi]
  rw [h2]
  refine le_trans List.countP_le_length ?_
  rw [List.length_take]
  omega

theorem pruneRow_freq (k : Int) (r : FP) : (pruneRow k r).freq = r.freq ∨ (pruneRow k r).freq = 0 := by
  unfold pruneRow
  split_ifs <;> simp

theorem pruneRow_zero {k : Int} {r : FP} (h : r.freq = 0) : (pruneRow k r).freq = 0 := by
  rcases pruneRow_freq k r with e | e <;> omega

theorem prune_keeps_zero (l : List FP) : ∀ (i : Nat) (r z : FP), l[i]? = some r → (prune l)[i]? = some z → r.freq = 0 → z.freq = 0 := by
  induction l using prune_ind with
  | h0 => intro i r z h; simp at h
  | h1 x xs ih =>
    intro i r z h1 h2 h0
    rw [prune_cons] at h2
    cases i with
    | zero =>
      simp at h1 h2
      rw [← h2, h1]
      exact h0
    | succ i =>
      simp at h1 h2
      exact ih i (pruneRow x.ftnr r) z (by simp [h1]) h2 (pruneRow_zero h0)

/-- A number that occurs before is pruned, if its rows all have the same count. -/
theorem prune_again (l : List FP) : ∀ (i j : Nat) (r q z : FP), j < i → l[i]? = some r → l[j]? = some q → q.ftnr = r.ftnr → q.freq = r.freq →
    (prune l)[i]? = some z → z.freq = 0 := by
  induction l using prune_ind with
  | h0 => intro i j r q z _ h; simp at h
  | h1 x xs ih =>
    intro i j r q z hij h1 h2 e f h3
    rw [prune_cons] at h3
    obtain ⟨i, rfl⟩ : ∃ k, i = k + 1 := ⟨i - 1, by omega⟩
    simp at h1 h3
    have h1' : (xs.map (pruneRow x.ftnr))[i]? = some (pruneRow x.ftnr r) := by simp [h1]
    cases j with
    | zero =>
      simp at h2
      refine prune_keeps_zero _ i _ z h1' h3 ?_
      unfold pruneRow
      rw [if_pos (Or.inl (by rw [h2, e]))]
    | succ j =>
      simp at h2
      refine ih i j _ (pruneRow x.ftnr q) z (by omega) h1' (by simp [h2]) ?_ ?_ h3
      · unfold pruneRow
        rw [e, f]
        split_ifs <;> simp_all
      · unfold pruneRow
        rw [e, f]
        split_ifs <;> simp_all

/-- If the last row holds a number found by all cameras, at most four candidates are left. -/
theorem sortByFreq_last {a : List FP} {numCams : Nat} (h : FreshRows a numCams) (h1 : 1 ≤ numCams) {y : FP} (hy : a.getLast? = some y)
    (hyu : y.ftnr ≠ TR_UNUSED) (hyc : camCount a numCams y.ftnr = numCams) : (sortByFreq a numCams).2 ≤ 4 := by
  have hr := countRow_ok h
  have hcc : ∀ k, camCount a numCams k ≤ numCams := by
    intro k
    unfold camCount
    exact le_trans (List.length_filter_le _ _) (by rw [List.length_range])
  set a1 := a.map (countRow a numCams) with ha1
  have hrow : ∀ z ∈ a1, RowOK (camCount a numCams) z := by
    intro z hz
    rw [ha1, List.mem_map] at hz
    obtain ⟨r, hra, rfl⟩ := hz
    exact hr r hra
  have hmax : ∀ z ∈ a1, z.freq ≤ numCams := by
    intro z hz
    rcases hrow z hz with ⟨-, q⟩ | ⟨-, q, -⟩
    · omega
    · rw [q]; exact hcc _
  have hlast : a1.getLast? = some (countRow a numCams y) := by rw [ha1, List.getLast?_map, hy]; rfl
  have hlf : (countRow a numCams y).freq = numCams := by
    have e : (countRow a numCams y).ftnr = y.ftnr := rfl
    rcases hr y (List.mem_of_getLast? hy) with ⟨q, -⟩ | ⟨-, q, -⟩
    · exact absurd (e.symm.trans q) hyu
    · rw [q, e, hyc]
  obtain ⟨s1, s2, s3, -⟩ := sortFreq_spec a1
  have hlast2 : (sortFreq a1).getLast? = some (countRow a numCams y) := by rw [sortFreq_last, hlast]
  have hall : ∀ z ∈ sortFreq a1, z.freq = numCams := by
    intro z hz
    obtain ⟨b, hb⟩ := List.getLast?_eq_some_iff.1 hlast2
    have hle := hmax z (s2 hz)
    rw [hb] at hz s3
    rcases List.mem_append.1 hz with hz | hz
    · have := (List.pairwise_append.1 s3).2.2 z hz (countRow a numCams y) (by simp)
      omega
    · rw [List.mem_singleton] at hz
      rw [hz, hlf]
  have hnone : NoneFrom 4 (prune (sortFreq a1)) := by
    intro i z hi hz
    have hil : i < (sortFreq a1).length := by
      rw [← prune_length]
      exact (List.getElem?_eq_some_iff.1 hz).1
    have hq := List.getElem?_eq_getElem hil
    set q := (sortFreq a1)[i] with hqd
    have hqm : q ∈ sortFreq a1 := List.getElem_mem hil
    have hqf := hall q hqm
    rcases hrow q (s2 hqm) with ⟨-, w⟩ | ⟨w1, w2, -⟩
    · omega
    have hseen : SeenBy a 0 q.ftnr := by
      by_contra hno
      have hlt : camCount a numCams q.ftnr < numCams := by
        unfold camCount
        have := (List.length_filter_lt_length_iff_exists (p := fun j => decide (SeenBy a j q.ftnr)) (l := List.range numCams)).2 ⟨0,
          List.mem_range.2 (show 0 < numCams by omega), by simpa using hno⟩
        rwa [List.length_range] at this
      omega
    obtain ⟨j, hj, e⟩ := hseen
    rw [Nat.mul_zero, Nat.zero_add, Option.map_eq_some_iff] at e
    obtain ⟨r, hrj, hrk⟩ := e
    have hcr : (countRow a numCams r).ftnr = q.ftnr := hrk
    have hcf : (countRow a numCams r).freq = numCams := by
      rcases hr r (List.mem_of_getElem? hrj) with ⟨w, -⟩ | ⟨-, w, -⟩
      · rw [hcr] at w; exact absurd w w1
      · rw [w, hcr]; omega
    have hat := sortFreq_keeps_at a1 numCams hmax j (countRow a numCams r) (by rw [ha1, List.getElem?_map, hrj]; rfl) hcf
    exact prune_again _ i j q _ z (by omega) hq hat hcr (by rw [hcf, hqf]) hz
  exact hnone.sortFreq.count

theorem candidateList_ended_last {a : List FP} {numCams : Nat} (h : FreshRows a numCams) (h1 : 2 ≤ numCams)
    (hk : ∀ r ∈ a, -1 ≤ r.ftnr) {y : FP} (hy : a.getLast? = some y) (hyu : y.ftnr ≠ TR_UNUSED)
    (hyc : camCount a numCams y.ftnr = numCams) : Ended 4 ((candidateList a numCams).map fun r => ⟨r.ftnr, r.freq⟩) := by
  have hle := sortByFreq_last h (by omega) hy hyu hyc
  obtain ⟨l, r, e1, e2, e3⟩ := C57_terminated_partial a numCams h (by omega)
  obtain ⟨-, -, s3, -⟩ := sortByFreq_spec a numCams (camCount a numCams) (countRow_ok h)
  refine ⟨l.map (fun r => ⟨r.ftnr, r.freq⟩), ⟨r.ftnr, r.freq⟩, by rw [e1, List.map_append]; rfl, e2, ?_, ?_⟩
  · have hle : (candidateList a numCams).length ≤ 5 := by
      unfold candidateList
      simp only
      split_ifs
      · rw [List.length_take]
        omega
      · simp
    rw [e1, List.length_append, List.length_singleton] at hle
    rw [List.length_map]
    omega
  · intro f hf
    rw [List.mem_map] at hf
    obtain ⟨y, hy, rfl⟩ := hf
    have hy' : y ∈ candidateList a numCams := by rw [e1]; simp [hy]
    by_cases hu : y.ftnr = TR_UNUSED
    · simp [hu, TR_UNUSED]
    unfold candidateList at hy'
    simp only at hy'
    split_ifs at hy' with hn
    · obtain ⟨-, q⟩ := s3 y (List.mem_of_mem_take hy')
      obtain ⟨r, hr, e⟩ := q hu
      simp only
      rw [← e]
      exact hk r hr
    · simp only [List.mem_singleton] at hy'
      exact absurd (by rw [hy']; rfl) hu

theorem registerLoop_end (tnrs : List Int) (cam : Nat) (hne : tnrs ≠ []) : ∀ (cs : List Int) (reg out : List FP),
    registerLoop tnrs cam cs reg = .ok out → cs.length = reg.length → cs.getLast? = some (-1) →
    ∃ r, out.getLast? = some r ∧ tnrs.getLast? = some r.ftnr
  | [], reg, out, h, _, hl => by simp at hl
  | c :: cs, [], out, h, hlen, _ => by simp at hlen
  | c :: cs, r0 :: rs, out, h, hlen, hl => by
    have hcase : cs = [] ∧ c = -1 ∨ cs.getLast? = some (-1) := by
      cases cs with
      | nil => left; simpa using hl
      | cons d ds => right; rw [List.getLast?_cons_cons] at hl; exact hl
    unfold registerLoop at h
    rcases hcase with ⟨rfl, rfl⟩ | hcs
    · rw [if_neg (by decide)] at h
      obtain ⟨t, ht, h⟩ := bind_ok h
      obtain ⟨rest, h1, h⟩ := bind_ok h
      cases h
      have : rs = [] := by simpa using hlen
      subst this
      cases h1
      refine ⟨_, rfl, ?_⟩
      have hpos := List.length_pos_iff.2 hne
      unfold pyGetI at ht
      rw [if_neg (by omega), if_pos (by omega), show ((-1 : Int) + (tnrs.length : Int)).toNat = tnrs.length - 1 by omega] at ht
      rw [List.getLast?_eq_getElem?]
      unfold pyGet at ht
      split at ht
      · rename_i x hx
        rw [hx]
        cases ht
        rfl
      · cases ht
    · split_ifs at h with hc
      · obtain ⟨rest, h1, h⟩ := bind_ok h
        cases h
        obtain ⟨r, e1, e2⟩ := registerLoop_end tnrs cam hne cs rs rest h1 (by simpa using hlen) hcs
        exact ⟨r, by rw [List.getLast?_cons, e1]; rfl, e2⟩
      · obtain ⟨t, -, h⟩ := bind_ok h
        obtain ⟨rest, h1, h⟩ := bind_ok h
        cases h
        obtain ⟨r, e1, e2⟩ := registerLoop_end tnrs cam hne cs rs rest h1 (by simpa using hlen) hcs
        exact ⟨r, by rw [List.getLast?_cons, e1]; rfl, e2⟩

section
variable {P : Type} {K : Type} [Field K] [LinearOrder K] [IsStrictOrderedRing K]

/-- The search window of camera `cam` holds at most three targets. -/
def ThreeAtMost (c : Cams P K) (targets : List (List (Search.Tgt K))) (v : K × K) (a : Rect K) (cam : Nat) : Prop :=
  ∀ ts, targets[cam]? = some ts → ∀ S : Finset Nat,
    (∀ j ∈ S, Search.Spec.InWindow ts v.1 v.2 a.left a.right a.up a.down c.imx c.imy j) → S.card ≤ 3

theorem registerCam_end {c : Cams P K} {targets : List (List (Search.Tgt K))} {proj : List (K × K)} {as : List (Rect K)}
    {cam : Nat} {b : List FP} (him : c.imx ≤ 10 ^ 19 ∧ c.imy ≤ 10 ^ 19) (h : registerCam c targets proj as cam = .ok b)
    {v : K × K} {a : Rect K} (hv : proj[cam]? = some v) (ha : as[cam]? = some a) (h3 : ThreeAtMost c targets v a cam) {k : Int}
    (hk : IsLast targets cam k) : ∃ r, b[3]? = some r ∧ r.ftnr = k := by
  have hb := registerCam_block him h
  unfold registerCam at h
  obtain ⟨ts, h1, h⟩ := bind_ok h
  obtain ⟨v', h2, h⟩ := bind_ok h
  obtain ⟨a', h4, h⟩ := bind_ok h
  have g1 : targets[cam]? = some ts := by
    unfold pyGet at h1; split at h1 <;> simp_all
  rw [pyGet_some hv] at h2
  rw [pyGet_some ha] at h4
  cases h2
  cases h4
  unfold registerClosest at h
  obtain ⟨cs, e, h⟩ := bind_ok h
  obtain ⟨L, l1, l2, l3, l4⟩ := Search.C12_nearest_sound ts v.1 v.2 a.left a.right a.up a.down c.imx c.imy him
  rw [l2] at e
  cases e
  have hnd : L.Nodup := by
    refine l4.imp ?_
    rintro i j hlt rfl
    exact lt_irrefl _ hlt
  have hl : L.length ≤ 3 := by
    have := h3 ts g1 L.toFinset (fun j hj => l3 j (by simpa using hj))
    rwa [List.toFinset_card_of_nodup hnd] at this
  obtain ⟨ts', t, k1, k2, k3⟩ := hk
  rw [g1] at k1
  cases k1
  have hne : ts.map Search.Tgt.tnr ≠ [] := by
    intro e
    rw [List.map_eq_nil_iff] at e
    rw [e] at k2
    simp at k2
  obtain ⟨r, r1, r2⟩ := registerLoop_end _ cam hne _ _ _ h (by simp; omega) (by
    rw [List.getLast?_append, show 4 - L.length = (3 - L.length) + 1 by omega, List.replicate_succ', List.getLast?_concat]
    rfl)
  rw [List.getLast?_map, k2, Option.map_some, Option.some.injEq, k3] at r2
  rw [List.getLast?_eq_getElem?, hb.len] at r1
  exact ⟨r, r1, r2.symm⟩

theorem registerCams_end {c : Cams P K} {targets : List (List (Search.Tgt K))} {proj : List (K × K)} {as : List (Rect K)}
    (him : c.imx ≤ 10 ^ 19 ∧ c.imy ≤ 10 ^ 19) {k : Int} : ∀ (n cam : Nat) (rows : List FP),
    registerCams c targets proj as (List.range' cam n) = .ok rows →
    (∀ j, j < n → ∃ v a, proj[cam + j]? = some v ∧ as[cam + j]? = some a ∧ ThreeAtMost c targets v a (cam + j) ∧ IsLast targets (cam + j) k) →
    ∀ j, j < n → ∃ r, rows[4 * j + 3]? = some r ∧ r.ftnr = k
  | 0, cam, rows, h, _ => by simp
  | n + 1, cam, rows, h, hj => by
    rw [List.range'_succ] at h
    unfold registerCams at h
    obtain ⟨b, h1, h⟩ := bind_ok h
    obtain ⟨rest, h2, h⟩ := bind_ok h
    cases h
    have hb := registerCam_block him h1
    intro j hjn
    cases j with
    | zero =>
      obtain ⟨v, a, q1, q2, q3, q4⟩ := hj 0 (by omega)
      obtain ⟨r, r1, r2⟩ := registerCam_end him h1 q1 q2 q3 q4
      exact ⟨r, by rw [List.getElem?_append_left (by rw [hb.len]; omega)]; exact r1, r2⟩
    | succ j =>
      obtain ⟨r, r1, r2⟩ := registerCams_end him n (cam + 1) rest h2 (fun j hjn => by
        have := hj (j + 1) (by omega)
        rwa [show cam + (j + 1) = cam + 1 + j by ring] at this) j (by omega)
      refine ⟨r, ?_, r2⟩
      rw [List.getElem?_append_right (by rw [hb.len]; omega), hb.len, show 4 * (j + 1) + 3 - 4 = 4 * j + 3 by omega]
      exact r1

theorem areas_get {c : Cams P K} {center : P} : ∀ (cams : List Nat) (as : List (Rect K)), areas c center cams = .ok as →
    ∀ (i cam : Nat), cams[i]? = some cam → ∃ a, as[i]? = some a ∧ c.area cam center = .ok a
  | [], as, h, i, cam, hi => by simp at hi
  | x :: xs, as, h, i, cam, hi => by
    unfold areas at h
    obtain ⟨a, h1, h⟩ := bind_ok h
    obtain ⟨rest, h2, h⟩ := bind_ok h
    cases h
    cases i with
    | zero =>
      simp at hi
      subst hi
      exact ⟨a, rfl, h1⟩
    | succ i => simpa using areas_get xs rest h2 i cam (by simpa using hi)

/-- With two to four cameras: if the last targets of all cameras belong to the particle `k`, and no search window holds more than
three targets, the candidate list has its end mark behind at most four candidates. -/
theorem sortedCandidates_ended_last {c : Cams P K} {center : P} {proj : List (K × K)} {targets : List (List (Search.Tgt K))}
    (him : c.imx ≤ 10 ^ 19 ∧ c.imy ≤ 10 ^ 19) (hn : 2 ≤ c.num ∧ c.num ≤ 4) (ht : ∀ ts ∈ targets, ∀ t ∈ ts, -1 ≤ t.tnr)
    {k : Int} (hk : k ≠ -1) (hl : ∀ cam, cam < c.num → IsLast targets cam k)
    (h3 : ∀ cam, cam < c.num → ∃ v a, proj[cam]? = some v ∧ c.area cam center = .ok a ∧ ThreeAtMost c targets v a cam)
    {l : List FP} (h : sortedCandidates c center proj targets = .ok l) : Ended 4 (l.map fun r => ⟨r.ftnr, r.freq⟩) := by
  unfold sortedCandidates at h
  obtain ⟨as, h1, h⟩ := bind_ok h
  obtain ⟨rows, h2, h⟩ := bind_ok h
  cases h
  rw [List.range_eq_range'] at h2
  obtain ⟨k1, k2⟩ := registerCams_blocks him _ _ _ h2
  simp only [Nat.zero_add] at k2
  have hend : ∀ j, j < c.num → ∃ r, rows[4 * j + 3]? = some r ∧ r.ftnr = k := by
    refine registerCams_end him _ _ _ h2 ?_
    intro j hj
    obtain ⟨v, a, q1, q2, q3⟩ := h3 j hj
    obtain ⟨a', r1, r2⟩ := areas_get _ _ h1 j j (List.getElem?_range hj)
    rw [q2] at r2
    cases r2
    rw [Nat.zero_add]
    exact ⟨v, a, q1, r1, q3, hl j hj⟩
  have hfresh := fresh_of_blocks (by omega) k1 k2
  obtain ⟨y, hy, hyk⟩ := hend (c.num - 1) (by omega)
  refine candidateList_ended_last hfresh hn.1 ?_ (y := y) ?_ ?_ ?_
  · intro r hr
    obtain ⟨m, hm⟩ := List.getElem?_of_mem hr
    have hlt := (List.getElem?_eq_some_iff.1 hm).1
    have e : 4 * (m / 4) + m % 4 = m := by omega
    have hm' : ((rows.drop (4 * (m / 4))).take 4)[m % 4]? = some r := by
      rw [getElem?_block (by omega), e, hm]
    obtain ⟨v, a, -, -, src⟩ := (k2 (m / 4) (by omega)).src
    rcases src r (List.mem_of_getElem? hm') with ⟨ts, j, t, q1, q2, q3, -⟩ | ⟨ts, t, q1, q2, q3⟩
    · rw [← q3]
      exact ht ts (List.mem_of_getElem? q1) t (List.mem_of_getElem? q2)
    · rw [← q3]
      exact ht ts (List.mem_of_getElem? q1) t (List.mem_of_getLast? q2)
  · rw [List.getLast?_eq_getElem?, k1, show 4 * c.num - 1 = 4 * (c.num - 1) + 3 by omega]
    exact hy
  · rw [hyk]
    exact hk
  · unfold camCount
    rw [List.filter_eq_self.2, List.length_range]
    intro j hj
    obtain ⟨r, r1, r2⟩ := hend j (List.mem_range.1 hj)
    exact decide_eq_true ⟨3, by omega, by rw [r1, hyk, ← r2]; rfl⟩

end
end Verif.Track
