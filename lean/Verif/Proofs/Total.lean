/-
When a forward step cannot raise: the candidate list of one or two cameras has an end mark, and the searches are total.
-/
import Verif.Proofs.Lone
import Verif.Props.WellSeen

set_option linter.unusedSectionVars false

namespace Verif.Track
open Verif.Track.Spec

/-! ### The end mark of the candidate list with one or two cameras -/

theorem bubble_last (l : List FP) : (bubble l).getLast? = l.getLast? := by
  induction l with
  | nil => rfl
  | cons x xs ih =>
    have hl := bubble_length xs
    unfold bubble
    split
    · rename_i hb
      rw [hb] at hl
      have : xs = [] := by simpa using hl.symm
      subst this
      rfl
    · rename_i y ys hb
      rw [hb] at ih hl
      match xs, hl, ih with
      | z :: zs, _, ih =>
        rw [List.getLast?_cons_cons, ← ih]
        split_ifs <;> rw [List.getLast?_cons_cons]

theorem sortFreq_last (l : List FP) : (sortFreq l).getLast? = l.getLast? := by
  unfold sortFreq
  have : ∀ n, n < l.length ∨ n = 0 → ((List.range n).foldl (fun a i => a.take i ++ bubble (a.drop i)) l).length = l.length ∧
      ((List.range n).foldl (fun a i => a.take i ++ bubble (a.drop i)) l).getLast? = l.getLast? := by
    intro n
    induction n with
    | zero => intro _; exact ⟨rfl, rfl⟩
    | succ n ih =>
      intro hn
      obtain ⟨i1, i2⟩ := ih (by omega)
      rw [List.range_succ, List.foldl_append]
      simp only [List.foldl_cons, List.foldl_nil]
      generalize (List.range n).foldl (fun a i => a.take i ++ bubble (a.drop i)) l = b at *
      constructor
      · rw [List.length_append, bubble_length, List.length_take, List.length_drop]; omega
      · have hne : b.drop n ≠ [] := by
          intro e
          have := congrArg List.length e
          rw [List.length_drop, List.length_nil] at this
          omega
        have hne' : bubble (b.drop n) ≠ [] := by
          intro e
          have := congrArg List.length e
          rw [bubble_length, List.length_nil] at this
          exact hne (List.length_eq_zero_iff.1 this)
        rw [List.getLast?_append_of_ne_nil _ hne', bubble_last, ← i2]
        conv_rhs => rw [← List.take_append_drop n b]
        rw [List.getLast?_append_of_ne_nil _ hne]
  exact (this (l.length - 1) (by omega)).2

theorem prune_zero (l : List FP) : ∀ y, l.getLast? = some y → y.freq = 0 → ∃ z, (prune l).getLast? = some z ∧ z.freq = 0 := by
  induction l using prune_ind with
  | h0 => simp
  | h1 x xs ih =>
    intro y hy h0
    rw [prune_cons]
    cases xs with
    | nil => exact ⟨y, by simpa [prune_nil] using hy, h0⟩
    | cons x' xs =>
      rw [List.getLast?_cons_cons] at hy
      obtain ⟨z, hz, hz0⟩ := ih (pruneRow x.ftnr y) (by rw [List.getLast?_map, hy]; rfl) (by
        unfold pruneRow
        split_ifs
        · rfl
        · exact h0)
      refine ⟨z, ?_, hz0⟩
      have hne : prune ((x' :: xs).map (pruneRow x.ftnr)) ≠ [] := by
        intro e
        rw [e] at hz
        simp at hz
      obtain ⟨w, ws, e⟩ := List.exists_cons_of_ne_nil hne
      rw [e] at hz ⊢
      rw [List.getLast?_cons_cons]
      exact hz

/-- A last row that repeats an earlier number, or has a count below 2, is pruned. -/
theorem prune_last (l : List FP) : ∀ (a : List FP) (y : FP), l = a ++ [y] → a ≠ [] →
    (y.freq < 2 ∨ ∃ x ∈ a, x.ftnr = y.ftnr ∧ 2 ≤ x.freq) → ∃ z, (prune l).getLast? = some z ∧ z.freq = 0 := by
  induction l using prune_ind with
  | h0 => intro a y h; simp at h
  | h1 x xs ih =>
    intro a y h hne hy
    rw [prune_cons]
    match a, hne with
    | x' :: a, _ =>
      rw [List.cons_append, List.cons.injEq] at h
      obtain ⟨rfl, rfl⟩ := h
      have fin : (∃ z, (prune ((a ++ [y]).map (pruneRow x.ftnr))).getLast? = some z ∧ z.freq = 0) →
          ∃ z, (x :: prune ((a ++ [y]).map (pruneRow x.ftnr))).getLast? = some z ∧ z.freq = 0 := by
        rintro ⟨z, hz, hz0⟩
        refine ⟨z, ?_, hz0⟩
        have hne : prune ((a ++ [y]).map (pruneRow x.ftnr)) ≠ [] := by
          intro e
          rw [e] at hz
          simp at hz
        obtain ⟨w, ws, e⟩ := List.exists_cons_of_ne_nil hne
        rw [e] at hz ⊢
        rw [List.getLast?_cons_cons]
        exact hz
      apply fin
      by_cases hp : x.ftnr = y.ftnr ∨ y.freq < 2
      · apply prune_zero _ (pruneRow x.ftnr y)
        · rw [List.getLast?_map]; simp
        · unfold pruneRow; rw [if_pos hp]
      · push Not at hp
        rcases hy with hy | ⟨w, hw, hw1, hw2⟩
        · omega
        have hwa : w ∈ a := by
          rcases List.mem_cons.1 hw with rfl | hw
          · exact absurd hw1 hp.1
          · exact hw
        refine ih (a.map (pruneRow x.ftnr)) y ?_ ?_ (Or.inr ⟨w, ?_, hw1, hw2⟩)
        · rw [List.map_append, List.map_singleton]
          congr 2
          unfold pruneRow
          rw [if_neg (by push Not; exact hp)]
        · intro e
          rw [List.map_eq_nil_iff] at e
          rw [e] at hwa
          simp at hwa
        · rw [List.mem_map]
          refine ⟨w, hwa, ?_⟩
          unfold pruneRow
          rw [if_neg]
          push Not
          exact ⟨by rw [hw1]; exact hp.1, hw2⟩

/-- A row that is as frequent as any other stays in place. -/
theorem bubble_keeps_at (l : List FP) (m : Nat) (hm : ∀ x ∈ l, x.freq ≤ m) (i : Nat) (x : FP) (hx : l[i]? = some x) (hf : x.freq = m) :
    (bubble l)[i]? = some x := by
  induction l generalizing i with
  | nil => simp at hx
  | cons w ws ih =>
    have ih := ih (fun y hy => hm y (List.mem_cons_of_mem _ hy))
    have hs := bubble_subset ws
    have hl := bubble_length ws
    unfold bubble
    split
    · rename_i hb
      rw [hb] at hl
      have : ws = [] := by simpa using hl.symm
      subst this
      exact hx
    · rename_i y ys hb
      rw [hb] at ih hs
      have hy : y.freq ≤ m := hm y (List.mem_cons_of_mem _ (hs (by simp)))
      cases i with
      | zero =>
        simp only [List.getElem?_cons_zero, Option.some.injEq] at hx
        subst hx
        rw [if_neg (by omega)]
        rfl
      | succ i =>
        have := ih i hx
        split_ifs <;> exact this

theorem sortFreq_keeps_at (l : List FP) (m : Nat) (hm : ∀ x ∈ l, x.freq ≤ m) (i : Nat) (x : FP) (hx : l[i]? = some x) (hf : x.freq = m) :
    (sortFreq l)[i]? = some x := by
  unfold sortFreq
  generalize l.length - 1 = n
  suffices h : ((List.range n).foldl (fun a i => a.take i ++ bubble (a.drop i)) l) ⊆ l ∧
      ((List.range n).foldl (fun a i => a.take i ++ bubble (a.drop i)) l)[i]? = some x from h.2
  induction n with
  | zero => exact ⟨fun _ h => h, hx⟩
  | succ n ih =>
    rw [List.range_succ, List.foldl_append]
    simp only [List.foldl_cons, List.foldl_nil]
    generalize (List.range n).foldl (fun a i => a.take i ++ bubble (a.drop i)) l = b at *
    obtain ⟨i1, i2⟩ := ih
    constructor
    · intro x hx
      rw [List.mem_append] at hx
      rcases hx with hx | hx
      · exact i1 (List.mem_of_mem_take hx)
      · exact i1 (List.mem_of_mem_drop (bubble_subset _ hx))
    · have hlt := (List.getElem?_eq_some_iff.1 i2).1
      by_cases hin : i < n
      · rw [List.getElem?_append_left (by rw [List.length_take]; omega), List.getElem?_take_of_lt hin]
        exact i2
      · rw [List.getElem?_append_right (by rw [List.length_take]; omega), List.length_take, Nat.min_eq_left (by omega)]
        refine bubble_keeps_at _ m (fun y hy => hm y (i1 (List.mem_of_mem_drop hy))) _ x ?_ hf
        rw [List.getElem?_drop, show n + (i - n) = i by omega]
        exact i2

/-- With one or two cameras at least one of the records stays unused: the list has its end mark. -/
theorem sortByFreq_lt {a : List FP} {numCams : Nat} (h : FreshRows a numCams) (h1 : 1 ≤ numCams) (h2 : numCams ≤ 2) :
    (sortByFreq a numCams).2 < 4 * numCams := by
  have hr := countRow_ok h
  have hcc : ∀ k, camCount a numCams k ≤ numCams := by
    intro k
    unfold camCount
    exact le_trans (List.length_filter_le _ _) (by rw [List.length_range])
  set a1 := a.map (countRow a numCams) with ha1
  have hlen : a1.length = 4 * numCams := by rw [ha1, List.length_map, h.1]
  have hrow : ∀ y ∈ a1, RowOK (camCount a numCams) y := by
    intro y hy
    rw [ha1, List.mem_map] at hy
    obtain ⟨r, hra, rfl⟩ := hy
    exact hr r hra
  have hmax : ∀ y ∈ a1, y.freq ≤ 2 := by
    intro y hy
    rcases hrow y hy with ⟨-, q⟩ | ⟨-, q, -⟩
    · omega
    · rw [q]; exact le_trans (hcc _) h2
  -- the last record of the pruned list
  have key : ∃ z, (prune (sortFreq a1)).getLast? = some z ∧ z.freq = 0 := by
    obtain ⟨l1, -, -, -⟩ := sortFreq_spec a1
    have hne : a1 ≠ [] := by
      intro e
      rw [e, List.length_nil] at hlen
      omega
    obtain ⟨y, hy⟩ : ∃ y, a1.getLast? = some y := ⟨_, List.getLast?_eq_some_getLast hne⟩
    have hy2 : (sortFreq a1).getLast? = some y := by rw [sortFreq_last, hy]
    obtain ⟨b, hb⟩ := List.getLast?_eq_some_iff.1 hy2
    have hbl : b.length = 4 * numCams - 1 := by
      have := congrArg List.length hb
      rw [l1, hlen, List.length_append, List.length_singleton] at this
      omega
    have hbne : b ≠ [] := by
      intro e
      rw [e, List.length_nil] at hbl
      omega
    refine prune_last _ b y hb hbne ?_
    have hya : y ∈ a1 := List.mem_of_getLast? hy
    by_cases hf : y.freq < 2
    · exact Or.inl hf
    right
    rcases hrow y hya with ⟨-, q⟩ | ⟨q1, q2, -⟩
    · omega
    -- seen by both cameras, so by the first
    have h2c : numCams = 2 := by have := hcc y.ftnr; omega
    have hseen : SeenBy a 0 y.ftnr := by
      by_contra hno
      have : camCount a numCams y.ftnr ≤ 1 := by
        unfold camCount
        rw [h2c]
        rw [show List.range 2 = [0, 1] from rfl, List.filter_cons, if_neg (by simpa using hno)]
        exact le_trans (List.length_filter_le _ _) (by simp)
      omega
    obtain ⟨i, hi, e⟩ := hseen
    rw [Nat.mul_zero, Nat.zero_add, Option.map_eq_some_iff] at e
    obtain ⟨r, hri, hrk⟩ := e
    have hra := List.mem_of_getElem? hri
    have hcr : (countRow a numCams r).ftnr = y.ftnr := hrk
    have hcf : (countRow a numCams r).freq = 2 := by
      rcases hr r hra with ⟨w, -⟩ | ⟨-, w, -⟩
      · rw [hcr] at w; exact absurd w q1
      · rw [w, hcr, ← q2]
        have := hmax y hya
        omega
    have hat := sortFreq_keeps_at a1 2 hmax i (countRow a numCams r) (by rw [ha1, List.getElem?_map, hri]; rfl) hcf
    refine ⟨countRow a numCams r, ?_, hcr, by omega⟩
    rw [hb, List.getElem?_append_left (by omega)] at hat
    exact List.mem_of_getElem? hat
  obtain ⟨z, hz, hz0⟩ := key
  have hz2 : (sortFreq (prune (sortFreq a1))).getLast? = some z := by rw [sortFreq_last, hz]
  have e : (sortByFreq a numCams).2 = (sortFreq (prune (sortFreq a1))).countP (fun r => r.freq ≠ 0) := rfl
  obtain ⟨l1, -, -, -⟩ := sortFreq_spec a1
  obtain ⟨l2, -, -, -⟩ := sortFreq_spec (prune (sortFreq a1))
  rw [prune_length, l1, hlen] at l2
  obtain ⟨b, hb⟩ := List.getLast?_eq_some_iff.1 hz2
  rw [e, hb, List.countP_append]
  have hbl : b.length = 4 * numCams - 1 := by
    have := congrArg List.length hb
    rw [l2, List.length_append, List.length_singleton] at this
    omega
  have : [z].countP (fun r => decide (r.freq ≠ 0)) = 0 := by simp [hz0]
  rw [this]
  have := List.countP_le_length (p := fun r : FP => decide (r.freq ≠ 0)) (l := b)
  omega

/-- A list of candidates with its end mark behind at most `m` of them. -/
def Ended (m : Nat) (w : List Found) : Prop :=
  ∃ l r, w = l ++ [r] ∧ r.ftnr = TR_UNUSED ∧ l.length ≤ m ∧ ∀ f ∈ l, -1 ≤ f.ftnr

theorem candidateList_ended {a : List FP} {numCams : Nat} (h : FreshRows a numCams) (h1 : 1 ≤ numCams) (h2 : numCams ≤ 2)
    (hk : ∀ r ∈ a, -1 ≤ r.ftnr) : Ended 7 ((candidateList a numCams).map fun r => ⟨r.ftnr, r.freq⟩) := by
  have hlt := sortByFreq_lt h h1 h2
  obtain ⟨l, r, e1, e2, e3⟩ := C57_terminated_partial a numCams h hlt
  obtain ⟨-, -, s3, -⟩ := sortByFreq_spec a numCams (camCount a numCams) (countRow_ok h)
  refine ⟨l.map (fun r => ⟨r.ftnr, r.freq⟩), ⟨r.ftnr, r.freq⟩, by rw [e1, List.map_append]; rfl, e2, ?_, ?_⟩
  · have hle : (candidateList a numCams).length ≤ 4 * numCams := by
      unfold candidateList
      simp only
      split_ifs
      · rw [List.length_take]
        omega
      · simp; omega
    rw [e1, List.length_append, List.length_singleton] at hle
    rw [List.length_map]
    omega
  · intro f hf
    rw [List.mem_map] at hf
    obtain ⟨y, hy, rfl⟩ := hf
    have hy' : y ∈ candidateList a numCams := by rw [e1]; simp [hy]
    by_cases hu : y.ftnr = TR_UNUSED
    · simp [hu, TR_UNUSED]
    unfold candidateList at hy'
    simp only at hy'
    split_ifs at hy' with hn
    · obtain ⟨-, q⟩ := s3 y (List.mem_of_mem_take hy')
      obtain ⟨r, hr, e⟩ := q hu
      simp only
      rw [← e]
      exact hk r hr
    · simp only [List.mem_singleton] at hy'
      exact absurd (by rw [hy']; rfl) hu

/-! ### The searches are total -/

section
variable {P : Type} {K : Type} [Field K] [LinearOrder K] [IsStrictOrderedRing K]

theorem registerCam_total {c : Cams P K} {targets : List (List (Search.Tgt K))} {proj : List (K × K)} {as : List (Rect K)}
    {cam : Nat} (him : c.imx ≤ 10 ^ 19 ∧ c.imy ≤ 10 ^ 19) {ts : List (Search.Tgt K)} (ht : targets[cam]? = some ts) (hne : ts ≠ [])
    (hp : cam < proj.length) (ha : cam < as.length) : ∃ b, registerCam c targets proj as cam = .ok b := by
  unfold registerCam registerClosest
  rw [pyGet_some ht, pyGet_some (List.getElem?_eq_getElem hp), pyGet_some (List.getElem?_eq_getElem ha)]
  simp only [bind, Except.bind]
  obtain ⟨L, l1, l2, l3, -⟩ := Search.C12_nearest_sound ts proj[cam].1 proj[cam].2 as[cam].left as[cam].right as[cam].up as[cam].down
    c.imx c.imy him
  rw [l2]
  obtain ⟨out, o1, -⟩ := registerLoop_hits (ts.map Search.Tgt.tnr) cam (by simpa using hne)
    (L.map Int.ofNat ++ List.replicate (4 - L.length) (-1)) (List.replicate 4 FP.unused) (by
      intro x hx
      rw [List.mem_append] at hx
      rw [List.length_map]
      have hpos := List.length_pos_iff.2 hne
      rcases hx with hx | hx
      · rw [List.mem_map] at hx
        obtain ⟨i, hi, rfl⟩ := hx
        obtain ⟨t', ht', -⟩ := l3 i hi
        have := (List.getElem?_eq_some_iff.1 ht').1
        simp only [PT_UNUSED, Int.ofNat_eq_natCast]
        omega
      · rw [List.eq_of_mem_replicate hx]
        simp only [PT_UNUSED]
        omega) (by simp; omega)
  exact ⟨out, o1⟩

theorem registerCams_total {c : Cams P K} {targets : List (List (Search.Tgt K))} {proj : List (K × K)} {as : List (Rect K)} :
    ∀ cams : List Nat, (∀ cam ∈ cams, ∃ b, registerCam c targets proj as cam = .ok b) →
      ∃ rows, registerCams c targets proj as cams = .ok rows
  | [], _ => ⟨[], rfl⟩
  | cam :: cams, h => by
    obtain ⟨b, hb⟩ := h cam (by simp)
    obtain ⟨rows, hr⟩ := registerCams_total cams (fun x hx => h x (by simp [hx]))
    exact ⟨b ++ rows, by simp only [registerCams, hb, hr, bind, Except.bind]⟩

/-- One target list per camera, none empty. -/
def NoneEmpty (c : Cams P K) (targets : List (List (Search.Tgt K))) : Prop :=
  ∀ cam, cam < c.num → ∃ ts, targets[cam]? = some ts ∧ ts ≠ []

/-- The search returns, if no target list is empty and the limits can be computed. -/
theorem sortedCandidates_total (c : Cams P K) (center : P) (proj : List (K × K)) (targets : List (List (Search.Tgt K)))
    (him : c.imx ≤ 10 ^ 19 ∧ c.imy ≤ 10 ^ 19) (ht : NoneEmpty c targets) (hp : proj.length = c.num)
    (ha : ∀ cam, cam < c.num → ∃ a, c.area cam center = .ok a) : ∃ l, sortedCandidates c center proj targets = .ok l := by
  obtain ⟨as, a1, a2⟩ := areas_of (c := c) (center := center) (List.range c.num) (fun cam h => ha cam (List.mem_range.1 h))
  rw [List.length_range] at a2
  obtain ⟨rows, hr⟩ := registerCams_total (c := c) (targets := targets) (proj := proj) (as := as) (List.range c.num) (by
    intro cam hcam
    rw [List.mem_range] at hcam
    obtain ⟨ts, t1, t2⟩ := ht cam hcam
    exact registerCam_total him t1 t2 (by omega) (by omega))
  exact ⟨candidateList rows c.num, by simp only [sortedCandidates, a1, hr, bind, Except.bind]⟩

/-- With one or two cameras the list that the search returns has an end mark. -/
theorem sortedCandidates_ended {c : Cams P K} {center : P} {proj : List (K × K)} {targets : List (List (Search.Tgt K))}
    (him : c.imx ≤ 10 ^ 19 ∧ c.imy ≤ 10 ^ 19) (hn : 1 ≤ c.num ∧ c.num ≤ 2) (ht : ∀ ts ∈ targets, ∀ t ∈ ts, -1 ≤ t.tnr)
    {l : List FP} (h : sortedCandidates c center proj targets = .ok l) : Ended 7 (l.map fun r => ⟨r.ftnr, r.freq⟩) := by
  unfold sortedCandidates at h
  obtain ⟨as, h1, h⟩ := bind_ok h
  obtain ⟨rows, h2, h⟩ := bind_ok h
  cases h
  rw [List.range_eq_range'] at h2
  obtain ⟨k1, k2⟩ := registerCams_blocks him _ _ _ h2
  simp only [Nat.zero_add] at k2
  refine candidateList_ended (fresh_of_blocks (by omega) k1 k2) hn.1 hn.2 ?_
  intro r hr
  obtain ⟨m, hm⟩ := List.getElem?_of_mem hr
  have hlt := (List.getElem?_eq_some_iff.1 hm).1
  have e : 4 * (m / 4) + m % 4 = m := by omega
  have hm' : ((rows.drop (4 * (m / 4))).take 4)[m % 4]? = some r := by
    rw [getElem?_block (by omega), e, hm]
  obtain ⟨v, a, -, -, src⟩ := (k2 (m / 4) (by omega)).src
  rcases src r (List.mem_of_getElem? hm') with ⟨ts, j, t, q1, q2, q3, -⟩ | ⟨ts, t, q1, q2, q3⟩
  · rw [← q3]
    exact ht ts (List.mem_of_getElem? q1) t (List.mem_of_getElem? q2)
  · rw [← q3]
    exact ht ts (List.mem_of_getElem? q1) t (List.mem_of_getLast? q2)

theorem rest_total (ts : List (Search.Tgt K)) (cx cy dl dr du dd imx imy : K) (him : imx ≤ 10 ^ 19 ∧ imy ≤ 10 ^ 19) :
    ∃ r, Search.candsearchInPixRest ts cx cy dl dr du dd imx imy (-1) = .ok r ∧
      (0 < r.1 → ∃ i : Nat, r.2 = i ∧ i < ts.length) := by
  classical
  unfold Search.candsearchInPixRest
  simp only
  split_ifs with hc
  swap
  · exact ⟨_, rfl, fun h => by simp at h⟩
  obtain ⟨j0, h1, h2, -⟩ := Search.startPoint_ok (ts.map Search.Tgt.y) (Search.clip cx cy dl dr du dd imx imy).ymin
  rw [List.length_map] at h1 h2
  simp only [h1, bind, Except.bind]
  obtain ⟨k, s', h3, -, h4, -⟩ := Search.restLoop_spec ts (Search.clip cx cy dl dr du dd imx imy) cx cy (-1)
    (List.range' j0 (ts.length - j0)) (by intro j hj; rw [List.mem_range'_1] at hj; omega)
    (by
      rintro j ⟨t, a, -, b⟩
      rw [Search.clip_eq] at b
      exact Search.inWindow_dist ts cx cy dl dr du dd imx imy j hc him ⟨t, a, b⟩) [] (Search.BIG, -1)
    (Or.inl ⟨rfl, rfl⟩)
  rw [h3]
  refine ⟨_, rfl, ?_⟩
  rw [List.nil_append] at h4
  rcases h4 with ⟨-, e⟩ | ⟨j, hj, e, -⟩
  · rw [e]
    simp
  · rw [e]
    rw [List.mem_filter] at hj
    have := List.mem_of_mem_take hj.1
    rw [List.mem_range'_1] at this
    exact fun _ => ⟨j, rfl, by omega⟩

theorem assessNew_total (c : Cams P K) (pos : P) (targets : List (List (Search.Tgt K)))
    (him : c.imx ≤ 10 ^ 19 ∧ c.imy ≤ 10 ^ 19) (ht : NoneEmpty c targets)
    (hp : ∀ cam, cam < c.num → ∃ px, c.pix cam pos = .ok px) : ∃ r, assessNew c pos targets = .ok r := by
  have key : ∀ cams : List Nat, (∀ cam ∈ cams, cam < c.num) → ∃ l, assessCams c pos targets cams = .ok l := by
    intro cams
    induction cams with
    | nil => intro _; exact ⟨[], rfl⟩
    | cons cam cams ih =>
      intro h
      obtain ⟨l, hl⟩ := ih (fun x hx => h x (by simp [hx]))
      obtain ⟨ts, t1, -⟩ := ht cam (h cam (by simp))
      obtain ⟨px, hpx⟩ := hp cam (h cam (by simp))
      obtain ⟨r, r1, r2⟩ := rest_total ts px.1 px.2 ADD_PART ADD_PART ADD_PART ADD_PART c.imx c.imy him
      have : ∃ b, assessCam c pos targets cam = .ok b := by
        unfold assessCam
        rw [hpx, pyGet_some t1]
        simp only [bind, Except.bind]
        rw [r1]
        simp only
        by_cases h0 : r.1 > 0
        · rw [if_pos h0]
          obtain ⟨i, e, hi⟩ := r2 h0
          rw [e, pyGetI_nat (List.getElem?_eq_getElem hi)]
          exact ⟨_, rfl⟩
        · rw [if_neg h0]
          exact ⟨_, rfl⟩
      obtain ⟨b, hb⟩ := this
      exact ⟨b :: l, by simp only [assessCams, hb, hl, bind, Except.bind]⟩
  obtain ⟨l, hl⟩ := key (List.range c.num) (fun cam h => List.mem_range.1 h)
  exact ⟨_, by simp only [assessNew, hl, bind, Except.bind]; rfl⟩

end

/-! ### The step is total -/

section
variable {P J C I D : Type} [Field D] [LinearOrder D] [IsStrictOrderedRing D]

/-- Everything geometric that the search for particle `h` (with predecessor at `x0`) calls returns; the searches return lists
with an end mark behind at most `m` candidates. -/
structure CallsOK (g : Geo P J C I D) (b1 b2 b3 : Frame P D I) (m h : Nat) (x0 : Option P) (x1 : P) : Prop where
  search : ∃ w, g.search (expected g x0 x1) (g.centreProj x0 b1 h (expected g x0 x1)) b2.img = .ok w ∧ Ended m w
  ahead : ∀ r ∈ b2.parts, ∃ w, g.search (expectedAfter g x0 x1 r.x) (g.proj (expectedAfter g x0 x1 r.x)) b3.img = .ok w ∧ Ended m w
  assess : ∀ r ∈ b2.parts, ∃ n v c, g.assess (expectedAfter g x0 x1 r.x) b3.img = .ok (n, v, c) ∧
    (2 ≤ n → ∃ x4, g.pointPos v = .ok x4 ∧ (g.inVolume x4 = true → g.inBounds (g.sub r.x x4) = true →
      ∃ a, g.angleAcc r.x x4 (expectedAfter g x0 x1 r.x) = .ok a))
  angle0 : x0.isSome = true → ∀ r ∈ b2.parts, ∃ a, g.angleAcc x1 (expected g x0 x1) r.x = .ok a
  angle1 : ∀ r ∈ b2.parts, ∀ q ∈ b3.parts, g.inBounds (g.sub q.x r.x) = true →
    ∃ a, g.angleAcc r.x q.x (expectedAfter g x0 x1 r.x) = .ok a

theorem register_total {cur : Part P D} (r : D) (k : Int) (h : cur.cands.length < POSI) :
    cur.register r k = .ok { cur with cands := cur.cands ++ [(r, k)] } := by
  unfold Part.register
  rw [if_pos h]

theorem pyGetI_range {α : Type} {xs : List α} {i : Int} (h0 : 0 ≤ i) (h1 : i < xs.length) : ∃ x ∈ xs, pyGetI xs i = .ok x := by
  have hlt : i.toNat < xs.length := by omega
  refine ⟨xs[i.toNat], List.getElem_mem hlt, ?_⟩
  unfold pyGetI
  rw [if_pos h0]
  exact pyGet_some (List.getElem?_eq_getElem hlt)

theorem lookAhead_total {g : Geo P J C I D} {ctx : Ctx P} {b3 : Frame P D I} {r : Found} (hr : r.ftnr = TR_UNUSED)
    (h0 : ctx.x0.isSome = true → ∃ a, g.angleAcc ctx.x1 ctx.x2 ctx.x3 = .ok a)
    (h1 : ∀ q ∈ b3.parts, g.inBounds (g.sub q.x ctx.x3) = true → ∃ a, g.angleAcc ctx.x3 q.x ctx.x5 = .ok a) :
    ∀ (l : List Found) (cur : Part P D), (∀ f ∈ l, -1 ≤ f.ftnr) → cur.cands.length + l.length ≤ POSI →
      ∃ e, lookAhead g ctx b3 (l ++ [r]) cur = .ok { cur with cands := cur.cands ++ e } ∧ e.length ≤ l.length
  | [], cur, _, _ => by
    refine ⟨[], ?_, by simp⟩
    rw [List.nil_append, lookAhead, if_pos (Or.inl hr), List.append_nil]
  | fn :: l, cur, hf, hl => by
    rw [List.length_cons] at hl
    have ih : ∀ cur : Part P D, cur.cands.length + l.length ≤ POSI → ∃ e, lookAhead g ctx b3 (l ++ [r]) cur
        = .ok { cur with cands := cur.cands ++ e } ∧ e.length ≤ l.length :=
      fun cur h => lookAhead_total hr h0 h1 l cur (fun f hf' => hf f (by simp [hf'])) h
    rw [List.cons_append]
    by_cases hend : fn.ftnr = TR_UNUSED ∨ (b3.parts.length : Int) ≤ fn.ftnr
    · refine ⟨[], ?_, by simp⟩
      rw [lookAhead, if_pos hend, List.append_nil]
    have hfn := hf fn (by simp)
    have hpos : 0 ≤ fn.ftnr := by
      have : fn.ftnr ≠ -1 := fun e => hend (Or.inl e)
      omega
    obtain ⟨q, hq, hget⟩ := pyGetI_range hpos (show fn.ftnr < b3.parts.length by omega)
    by_cases hb : g.inBounds (g.sub q.x ctx.x3) = true
    swap
    · rw [lookAhead_far hend hget hb]
      obtain ⟨e, e1, e2⟩ := ih cur (by omega)
      exact ⟨e, e1, by rw [List.length_cons]; omega⟩
    obtain ⟨⟨angle1, acc1⟩, ha⟩ := h1 q hq hb
    have hx : ∃ angle0 acc0, (if ctx.x0.isSome = true then g.angleAcc ctx.x1 ctx.x2 ctx.x3 else .ok (angle1, acc1))
        = .ok (angle0, acc0) := by
      by_cases hs : ctx.x0.isSome = true
      · obtain ⟨⟨angle0, acc0⟩, h⟩ := h0 hs
        exact ⟨angle0, acc0, by rw [if_pos hs, h]⟩
      · exact ⟨angle1, acc1, by rw [if_neg hs]⟩
    obtain ⟨angle0, acc0, hx⟩ := hx
    rw [lookAhead_near hend hget hb ha hx]
    by_cases hg : g.gate ((acc0 + acc1) / 2) ((angle0 + angle1) / 2) = true
    · rw [if_pos hg, register_total _ _ (by omega)]
      simp only [Except.bind]
      obtain ⟨e, e1, e2⟩ := ih { cur with cands := cur.cands ++
        [(g.rr ((g.dist ctx.x1 ctx.x3 + g.dist q.x ctx.x3) / 2) ((acc0 + acc1) / 2) ((angle0 + angle1) / 2) (fn.freq + ctx.f.freq),
          ctx.f.ftnr)] } (by simp only [List.length_append, List.length_singleton]; omega)
      simp only [List.append_assoc] at e1
      exact ⟨_, e1, by simpa using e2⟩
    · rw [if_neg hg]
      obtain ⟨e, e1, e2⟩ := ih cur (by omega)
      exact ⟨e, e1, by rw [List.length_cons]; omega⟩

theorem tryNew_total {g : Geo P J C I D} (hadd : g.add = false) {ctx : Ctx P} {b3 : Frame P D I} {n : Nat} {v : J} {c : C}
    (h : g.assess ctx.x5 b3.img = .ok (n, v, c))
    (h2 : 2 ≤ n → ∃ x4, g.pointPos v = .ok x4 ∧ (g.inVolume x4 = true → g.inBounds (g.sub ctx.x3 x4) = true →
      ∃ a, g.angleAcc ctx.x3 x4 ctx.x5 = .ok a)) (cur : Part P D) (hl : cur.cands.length + 1 ≤ POSI) :
    ∃ e, tryNew g ctx cur b3 = .ok ({ cur with cands := cur.cands ++ e }, b3) ∧ e.length ≤ 1 := by
  have none : ∃ e, (.ok (cur, b3) : Py (Part P D × Frame P D I)) = .ok ({ cur with cands := cur.cands ++ e }, b3) ∧ e.length ≤ 1 :=
    ⟨[], by rw [List.append_nil], by simp⟩
  unfold tryNew
  rw [h]
  simp only [bind, Except.bind]
  by_cases hn : n ≥ 2
  swap
  · rw [if_neg hn]; exact none
  rw [if_pos hn]
  obtain ⟨x4, hx, ha⟩ := h2 hn
  rw [hx]
  simp only
  by_cases hv : g.inVolume x4 = true ∧ g.inBounds (g.sub ctx.x3 x4) = true
  swap
  · rw [if_neg hv]; exact none
  rw [if_pos hv]
  obtain ⟨⟨angle, acc⟩, ha⟩ := ha hv.1 hv.2
  rw [ha]
  simp only
  by_cases hg : g.gate acc angle = true
  · rw [if_pos hg, register_total _ _ (by omega)]
    simp only [hadd]
    exact ⟨[_], rfl, by simp⟩
  · rw [if_neg hg]; exact none

theorem tryPlain_total {g : Geo P J C I D} {ctx : Ctx P} (h0 : ctx.x0.isSome = true → ∃ a, g.angleAcc ctx.x1 ctx.x2 ctx.x3 = .ok a)
    (cur : Part P D) :
    ∃ e, tryPlain g ctx cur = .ok { cur with cands := cur.cands ++ e } ∧ (cur.cands ≠ [] → e = []) ∧ e.length ≤ 1 := by
  have none : ∃ e, (.ok cur : Py (Part P D)) = .ok { cur with cands := cur.cands ++ e } ∧ (cur.cands ≠ [] → e = []) ∧ e.length ≤ 1 :=
    ⟨[], by rw [List.append_nil], fun _ => rfl, by simp⟩
  unfold tryPlain
  rcases hx : ctx.x0 with _ | x0
  · exact none
  simp only
  by_cases hc : cur.cands = []
  swap
  · rw [if_neg hc]; exact none
  rw [if_pos hc]
  by_cases hb : g.inBounds (g.sub ctx.x3 ctx.x1) = true
  swap
  · rw [if_neg hb]; exact none
  rw [if_pos hb]
  obtain ⟨⟨angle, acc⟩, ha⟩ := h0 (by rw [hx]; rfl)
  rw [ha]
  simp only [bind, Except.bind]
  by_cases hg : g.gate acc angle = true
  · rw [if_pos hg, register_total _ _ (by rw [hc]; simp [POSI])]
    exact ⟨[_], rfl, fun h => absurd hc h, by simp⟩
  · rw [if_neg hg]; exact none

theorem candOne_total {g : Geo P J C I D} (hadd : g.add = false) {b1 b2 b3 : Frame P D I} {m h : Nat} {x0 : Option P} {x1 : P}
    (hc : CallsOK g b1 b2 b3 m h x0 x1) {r : Part P D} (hr : r ∈ b2.parts) (f : Found) (cur : Part P D)
    (hl : cur.cands.length + (m + 1) ≤ POSI) :
    ∃ e, candOne g x0 x1 (expected g x0 x1) f r cur b3 = .ok ({ cur with cands := cur.cands ++ e }, b3) ∧ e.length ≤ m + 1 := by
  obtain ⟨w, w1, l, r', rfl, w2, w3, w4⟩ := hc.ahead r hr
  obtain ⟨n, v, c, a1, a2⟩ := hc.assess r hr
  have hx5 : g.ahead x0 x1 r.x = expectedAfter g x0 x1 r.x := rfl
  have hlook : ∃ e, (if (l ++ [r']).length > 1 then
      lookAhead g ⟨x0, x1, expected g x0 x1, r.x, expectedAfter g x0 x1 r.x, f⟩ b3 (l ++ [r']) cur else .ok cur)
      = .ok { cur with cands := cur.cands ++ e } ∧ e.length ≤ m := by
    by_cases h1 : (l ++ [r']).length > 1
    · rw [if_pos h1]
      obtain ⟨e, e1, e2⟩ := lookAhead_total (g := g) (ctx := ⟨x0, x1, expected g x0 x1, r.x, expectedAfter g x0 x1 r.x, f⟩)
        (b3 := b3) w2 (fun hs => hc.angle0 hs r hr) (fun q hq => hc.angle1 r hr q hq) l cur w4 (by omega)
      exact ⟨e, e1, by omega⟩
    · rw [if_neg h1]
      exact ⟨[], by rw [List.append_nil], by simp⟩
  obtain ⟨e, e1, e2⟩ := hlook
  obtain ⟨e', f1, f2⟩ := tryNew_total (g := g) hadd (ctx := ⟨x0, x1, expected g x0 x1, r.x, expectedAfter g x0 x1 r.x, f⟩)
    (b3 := b3) a1 a2 { cur with cands := cur.cands ++ e } (by simp only [List.length_append]; omega)
  obtain ⟨e'', g1, g2, g3⟩ := tryPlain_total (g := g) (ctx := ⟨x0, x1, expected g x0 x1, r.x, expectedAfter g x0 x1 r.x, f⟩)
    (fun hs => hc.angle0 hs r hr) { cur with cands := cur.cands ++ e ++ e' }
  refine ⟨e ++ e' ++ e'', ?_, ?_⟩
  · unfold candOne
    simp only [hx5]
    rw [w1]
    simp only [bind, Except.bind]
    rw [e1]
    simp only
    rw [f1]
    simp only
    rw [g1]
    simp only [List.append_assoc]
  · by_cases hz : cur.cands ++ e ++ e' = []
    · simp only [List.append_eq_nil_iff] at hz
      obtain ⟨⟨-, rfl⟩, rfl⟩ := hz
      simp only [List.nil_append]
      omega
    · rw [g2 hz]
      simp only [List.append_nil, List.length_append]
      omega

theorem candLoop_total {g : Geo P J C I D} (hadd : g.add = false) {b1 b2 b3 : Frame P D I} {m h : Nat} {x0 : Option P} {x1 : P}
    (hc : CallsOK g b1 b2 b3 m h x0 x1) {r : Found} (hr : r.ftnr = TR_UNUSED) :
    ∀ (l : List Found) (cur : Part P D), (∀ f ∈ l, -1 ≤ f.ftnr) → cur.cands.length + l.length * (m + 1) ≤ POSI →
      ∃ e, candLoop g x0 x1 (expected g x0 x1) b2 (l ++ [r]) cur b3 = .ok ({ cur with cands := cur.cands ++ e }, b3)
  | [], cur, _, _ => by
    refine ⟨[], ?_⟩
    rw [List.nil_append, candLoop, if_pos (Or.inl hr), List.append_nil]
  | f :: l, cur, hf, hl => by
    rw [List.length_cons, Nat.succ_mul] at hl
    rw [List.cons_append, candLoop]
    by_cases hend : f.ftnr = TR_UNUSED ∨ (b2.parts.length : Int) ≤ f.ftnr
    · rw [if_pos hend]
      exact ⟨[], by rw [List.append_nil]⟩
    rw [if_neg hend]
    have hfn := hf f (by simp)
    have hpos : 0 ≤ f.ftnr := by
      have : f.ftnr ≠ -1 := fun e => hend (Or.inl e)
      omega
    obtain ⟨q, hq, hget⟩ := pyGetI_range hpos (show f.ftnr < b2.parts.length by omega)
    rw [hget]
    simp only [bind, Except.bind]
    obtain ⟨e, e1, hel⟩ := candOne_total hadd hc hq f cur (by omega)
    rw [e1]
    simp only
    obtain ⟨e', f1⟩ := candLoop_total hadd hc hr l { cur with cands := cur.cands ++ e } (fun f hf' => hf f (by simp [hf']))
      (by simp only [List.length_append]; omega)
    rw [f1]
    exact ⟨e ++ e', by simp only [List.append_assoc]⟩

theorem searchOne_total {g : Geo P J C I D} (hadd : g.add = false) {b0 b1 b2 b3 : Frame P D I} {m h : Nat} (hm : m * (m + 1) ≤ POSI)
    {p : Part P D} {x0 : Option P} (hp : b1.parts[h]? = some p) (hx : prevPos b0 p = .ok x0) (hc : CallsOK g b1 b2 b3 m h x0 p.x) :
    ∃ e, searchOne g b0 b1 h b2 b3 = .ok ({ p with cands := e }, b2, b3) := by
  obtain ⟨w, w1, l, r, rfl, w2, w3, w4⟩ := hc.search
  unfold searchOne
  rw [pyGet_some hp]
  simp only [bind, Except.bind]
  rw [hx]
  have hcc : g.centre x0 p.x = expected g x0 p.x := rfl
  simp only [hcc]
  rw [w1]
  simp only
  by_cases h1 : (l ++ [r]).length = 1
  · rw [if_pos h1]
    exact ⟨[], rfl⟩
  rw [if_neg h1]
  obtain ⟨e, e1⟩ := candLoop_total hadd hc w2 l { p with cands := [] } w4 (by
    have : l.length * (m + 1) ≤ m * (m + 1) := Nat.mul_le_mul_right _ w3
    simp only [List.length_nil]
    omega)
  rw [e1]
  simp only
  have : tryAdd g x0 p.x (expected g x0 p.x) { p with cands := [] ++ e } b2 = .ok ({ p with cands := [] ++ e }, b2) := by
    unfold tryAdd
    rcases x0 with _ | x0
    · rfl
    · simp [hadd]
  rw [this]
  exact ⟨e, by simp⟩

/-- Reading what a step reads of the current frame does not see the candidates. -/
def SameButCands (b b' : Frame P D I) : Prop :=
  b'.img = b.img ∧ b'.parts.length = b.parts.length ∧
    ∀ (h : Nat) (p : Part P D), b'.parts[h]? = some p → ∃ q, b.parts[h]? = some q ∧ p.x = q.x ∧ p.prev = q.prev ∧ p.next = q.next

theorem CallsOK.same {g : Geo P J C I D} {b1 b1' b2 b3 : Frame P D I} {m h : Nat} {x0 : Option P} {x1 : P}
    (hc : CallsOK g b1 b2 b3 m h x0 x1) (hs : b1'.img = b1.img) : CallsOK g b1' b2 b3 m h x0 x1 :=
  ⟨by
    have : g.centreProj x0 b1' h (expected g x0 x1) = g.centreProj x0 b1 h (expected g x0 x1) := by
      unfold Geo.centreProj
      rw [hs]
    rw [this]
    exact hc.search, hc.ahead, hc.assess, hc.angle0, hc.angle1⟩

theorem searchLoop_total {g : Geo P J C I D} (hadd : g.add = false) {b0 b1 b2 b3 : Frame P D I} {m : Nat} (hm : m * (m + 1) ≤ POSI)
    (hc : ∀ h p, b1.parts[h]? = some p → ∃ x0, prevPos b0 p = .ok x0 ∧ CallsOK g b1 b2 b3 m h x0 p.x) :
    ∀ (hs : List Nat) (b : Frame P D I), (∀ h ∈ hs, h < b1.parts.length) → SameButCands b1 b →
      ∃ b', searchLoop g b0 hs b b2 b3 = .ok (b', b2, b3) ∧ b'.img = b1.img
  | [], b, _, hS => ⟨b, rfl, hS.1⟩
  | h :: hs, b, hh, hS => by
    obtain ⟨s1, s2, s3⟩ := hS
    have hlt : h < b.parts.length := by rw [s2]; exact hh h (by simp)
    obtain ⟨q, q1, q2, q3, q4⟩ := s3 h _ (List.getElem?_eq_getElem hlt)
    obtain ⟨x0, x1, hcalls⟩ := hc h q q1
    have hprev : prevPos b0 b.parts[h] = .ok x0 := by
      rw [← x1]
      unfold prevPos
      rw [q3]
    obtain ⟨e, he⟩ := searchOne_total (b0 := b0) (b1 := b) hadd hm (List.getElem?_eq_getElem hlt) hprev
      (by rw [q2]; exact hcalls.same s1)
    simp only [searchLoop, he, bind, Except.bind]
    refine searchLoop_total hadd hm hc hs _ (fun x hx => hh x (by simp [hx])) ⟨s1, by simp [s2], ?_⟩
    intro k p hk
    simp only [List.getElem?_set] at hk
    split_ifs at hk with e1
    · cases hk
      subst e1
      exact ⟨q, q1, q2, q3, q4⟩
    · exact s3 k p hk

/-- A forward step returns, if everything geometric does and the searches return lists with end mark and few candidates. -/
theorem stepFrames_total {g : Geo P J C I D} (hg : SearchSane g) (hadd : g.add = false) {b0 b1 b2 b3 : Frame P D I} {m : Nat}
    (hm : m * (m + 1) ≤ POSI) (hp2 : ∀ q ∈ b2.parts, q.prev = PREV_NONE)
    (hc : ∀ h p, b1.parts[h]? = some p → ∃ x0, prevPos b0 p = .ok x0 ∧ CallsOK g b1 b2 b3 m h x0 p.x) :
    ∃ b1' b2' k, stepFrames g b0 b1 b2 b3 = .ok (b1', b2', b3, k) ∧ b1'.img = b1.img ∧ b2'.img = b2.img ∧
      b2'.parts.length = b2.parts.length := by
  obtain ⟨b', hb, hi⟩ := searchLoop_total hadd hm hc (List.range b1.parts.length) b1 (fun h hh => List.mem_range.1 hh)
    ⟨rfl, rfl, fun h p hp => ⟨p, hp, rfl, rfl, rfl⟩⟩
  unfold stepFrames
  rw [hb]
  simp only [bind, Except.bind]
  rw [List.range_eq_range'] at hb
  obtain ⟨-, -, -, e1, e2⟩ := searchLoop_spec hg b1.parts.length 0 b1 b2 b3 b' b2 b3 (by omega) hb
  obtain ⟨c', n', t, hl, -, hlen, -⟩ := linkPhase_spec (c := b'.parts) (n := b2.parts) hp2 (by
    intro p hp x hx
    obtain ⟨i, hi⟩ := List.getElem?_of_mem hp
    have hlt := (List.getElem?_eq_some_iff.1 hi).1
    obtain ⟨cs, f1, -, f2⟩ := (e2 i _ (List.getElem?_eq_getElem (by omega))).2 (Nat.zero_le _)
    rw [hi] at f1
    cases f1
    exact f2 x hx)
  rw [hl]
  exact ⟨_, _, _, rfl, hi, rfl, hlen⟩

/-- The frame after next, in step `s` of a run to `last`: in the last step there is none, and the buffer still has an old one. -/
def frameAfter (last s : Int) : Int := if s + 2 ≤ last then s + 2 else s - 2

/-- The buffer before step `s` of a run over unlinked frames. -/
structure RunBuf (disk : Int → Frame P D I) (first last s : Int) (b0 b1 b2 b3 : Frame P D I) : Prop where
  cur : b1.parts.map Part.x = (disk s).parts.map Part.x ∧ b1.img = (disk s).img
  nonext : ∀ p ∈ b1.parts, p.next = NEXT_NONE
  prev : ∀ p ∈ b1.parts, p.prev = PREV_NONE ∨ first < s ∧ ∃ h : Nat, p.prev = h ∧ h < b0.parts.length
  old : first < s → b0.parts.map Part.x = (disk (s - 1)).parts.map Part.x ∧ b0.img = (disk (s - 1)).img
  nxt : s < last → b2 = disk (s + 1)
  nxt2 : s < last → b3.parts.map Part.x = (disk (frameAfter last s)).parts.map Part.x ∧ b3.img = (disk (frameAfter last s)).img
  nxt2' : s + 2 ≤ last → b3 = disk (s + 2)

/-- All that the steps of a run call returns. -/
def RunCalls (g : Geo P J C I D) (disk : Int → Frame P D I) (m : Nat) (first last : Int) : Prop :=
  ∀ n, first ≤ n → n < last → ∀ (h : Nat) (x1 : P), ((disk n).parts.map Part.x)[h]? = some x1 →
    ∀ x0, (x0 = none ∨ first < n ∧ ∃ x ∈ (disk (n - 1)).parts.map Part.x, x0 = some x) →
    ∀ b1 b2 b3 : Frame P D I, b1.img = (disk n).img → b2 = disk (n + 1) →
      b3.parts.map Part.x = (disk (frameAfter last n)).parts.map Part.x → b3.img = (disk (frameAfter last n)).img →
      CallsOK g b1 b2 b3 m h x0 x1

theorem total_steps {g : Geo P J C I D} (hg : SearchSane g) (hadd : g.add = false) {disk : Int → Frame P D I}
    (hd : ∀ n, ∀ p ∈ (disk n).parts, Unlinked p) {m : Nat} (hm : m * (m + 1) ≤ POSI) {first last : Int}
    (H : RunCalls g disk m first last) (hL : first + 3 ≤ last) : ∀ (k : Nat) (s : Int) (b0 b1 b2 b3 : Frame P D I)
    (log : List (Ev (Frame P D I))), first ≤ s → s + k = last → RunBuf disk first last s b0 b1 b2 b3 →
    ∃ r b0' b1' b2' b3', forwardSteps disk (trackBuf g) last k s ⟨[b0, b1, b2, b3], log⟩ = .ok r ∧ r.buf = [b0', b1', b2', b3']
  | 0, s, b0, b1, b2, b3, log, hs, hk, B => ⟨_, b0, b1, b2, b3, rfl, rfl⟩
  | k + 1, s, b0, b1, b2, b3, log, hs, hk, B => by
    have hs' : s < last := by omega
    have hb2e : b2 = disk (s + 1) := B.nxt hs'
    obtain ⟨b1', b2', cnt, hst, i1, i2, hlen⟩ := stepFrames_total (b0 := b0) (b1 := b1) (b2 := b2) (b3 := b3) hg hadd hm
      (fun q hq => (hd (s + 1) q (by rw [← hb2e]; exact hq)).1) (by
        intro h p hp
        have hx : ((disk s).parts.map Part.x)[h]? = some p.x := by rw [← B.cur.1, List.getElem?_map, hp]; rfl
        rcases B.prev p (List.mem_of_getElem? hp) with e | ⟨hlt, i, e, hi⟩
        · refine ⟨none, ?_, H s hs hs' h p.x hx none (Or.inl rfl) b1 b2 b3 B.cur.2 hb2e (B.nxt2 hs').1 (B.nxt2 hs').2⟩
          unfold prevPos
          rw [e, if_neg (by decide)]
        · refine ⟨some b0.parts[i].x, ?_, H s hs hs' h p.x hx _ (Or.inr ⟨hlt, _, ?_, rfl⟩) b1 b2 b3 B.cur.2 hb2e (B.nxt2 hs').1
            (B.nxt2 hs').2⟩
          · unfold prevPos
            rw [e, if_pos (by omega), pyGetI_nat (List.getElem?_eq_getElem hi)]
            rfl
          · rw [← (B.old hlt).1]
            exact List.mem_map_of_mem (List.getElem_mem hi))
    obtain ⟨M, same, -, nn, -, -, -, e, he⟩ := stepFrames_spec hg B.nonext (fun p hp => hd (s + 1) p (by rw [← hb2e]; exact hp)) hst
    have hpos2 : b2'.parts.map Part.x = b2.parts.map Part.x := by
      have h1 := congrArg List.length he
      simp only [List.length_map, List.length_append] at h1
      have : e = [] := List.eq_nil_of_length_eq_zero (by omega)
      rw [he, this, List.append_nil]
    set b3' : Frame P D I := if s < last - 2 then disk (s + 3) else b0 with hb3'
    set log' := log ++ [.step s [b0, b1, b2, b3], .write s b1'] ++ (if s < last - 2 then [.read (s + 3)] else []) with hlog'
    have hstep : forwardStep disk (trackBuf g) last s ⟨[b0, b1, b2, b3], log⟩ = .ok ⟨[b1', b2', b3, b3'], log'⟩ := by
      unfold forwardStep trackBuf
      simp only [hst, bind, Except.bind, Run.next, fbNext, writeFromStart, pyGet, List.cons_append, List.nil_append,
        List.getElem?_cons_zero]
      by_cases h : s < last - 2
      · rw [if_pos h]
        simp only [readAtEnd, hb3', hlog', if_pos h]
        simp
      · rw [if_neg h]
        simp only [hb3', hlog', if_neg h]
        simp
    have B' : RunBuf disk first last (s + 1) b1' b2' b3 b3' := by
      refine ⟨⟨by rw [hpos2, hb2e], by rw [i2, hb2e]⟩, nn, ?_, ?_, ?_, ?_, ?_⟩
      · intro q hq
        rcases M.2.2 q hq with h | ⟨h, e1, e2⟩
        · exact Or.inl h
        · exact Or.inr ⟨by omega, h, e1, e2⟩
      · intro _
        rw [show s + 1 - 1 = s by ring, same, i1]
        exact B.cur
      · intro h
        rw [B.nxt2' (by omega)]
        congr 1
        ring
      · intro h
        unfold frameAfter
        by_cases h' : s < last - 2
        · rw [hb3', if_pos h', if_pos (by omega), show s + 1 + 2 = s + 3 by ring]
          exact ⟨rfl, rfl⟩
        · rw [hb3', if_neg h', if_neg (by omega), show s + 1 - 2 = s - 1 by ring]
          exact B.old (by omega)
      · intro h
        rw [hb3', if_pos (by omega)]
        congr 1
        ring
    obtain ⟨r, b0', b1'', b2'', b3'', r1, r2⟩ := total_steps hg hadd hd hm H hL k (s + 1) b1' b2' b3 b3' log' (by omega)
      (by push_cast at hk; omega) B'
    refine ⟨r, b0', b1'', b2'', b3'', ?_, r2⟩
    simp only [forwardSteps, hstep, bind, Except.bind, r1]

/-- A forward run returns. -/
theorem total_run {g : Geo P J C I D} (hg : SearchSane g) (hadd : g.add = false) {disk : Int → Frame P D I}
    (hd : ∀ n, ∀ p ∈ (disk n).parts, Unlinked p) {m : Nat} (hm : m * (m + 1) ≤ POSI) {first : Int} {L : Nat}
    (H : RunCalls g disk m first (first + L)) (hL : 3 ≤ L) (a b c d : Frame P D I) :
    ∃ r, forwardRun disk (trackBuf g) first (first + L) [a, b, c, d] = .ok r := by
  have hstart : ∃ log, forwardStart disk first ⟨[a, b, c, d], []⟩ =
      ⟨[c, disk first, disk (first + 1), disk (first + 2)], log⟩ := by
    refine ⟨[.read first, .read (first + 1), .read (first + 2)], ?_⟩
    simp [forwardStart, List.range_succ, readAtEnd, Run.next, Run.prev, fbNext, fbPrev]
  obtain ⟨log, h1⟩ := hstart
  have B : RunBuf disk first (first + L) first c (disk first) (disk (first + 1)) (disk (first + 2)) := by
    refine ⟨⟨rfl, rfl⟩, fun p hp => (hd first p hp).2, fun p hp => Or.inl (hd first p hp).1, fun h => absurd h (lt_irrefl _),
      fun _ => rfl, fun _ => ?_, fun _ => rfl⟩
    unfold frameAfter
    rw [if_pos (by omega)]
    exact ⟨rfl, rfl⟩
  obtain ⟨r, b0', b1', b2', b3', r1, r2⟩ := total_steps hg hadd hd hm H (by omega) L first c (disk first) (disk (first + 1))
    (disk (first + 2)) log (le_refl _) rfl B
  refine ⟨⟨[b1', b2', b3', b0'], r.log ++ [.write (first + L) b1']⟩, ?_⟩
  unfold forwardRun
  rw [h1, show (first + (L : Int) - first).toNat = L by omega, r1]
  simp only [bind, Except.bind]
  unfold forwardFinish
  rw [if_neg (by omega)]
  simp [writeFromStart, Run.next, r2, fbNext, pyGet, bind, Except.bind]

end
end Verif.Track
