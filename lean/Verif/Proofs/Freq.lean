/-
Helper lemmas: the frequency sort of the found-pixel records.
-/
import Verif.Spec.Tracking

namespace Verif.Track

theorem bubble_length (l : List FP) : (bubble l).length = l.length := by
  induction l with
  | nil => rfl
  | cons x xs ih =>
    unfold bubble
    split
    · rename_i h; rw [h] at ih; simp at ih; simp [← ih]
    · rename_i y ys h
      rw [h] at ih
      split_ifs <;> simp at ih ⊢ <;> omega

theorem bubble_subset (l : List FP) : bubble l ⊆ l := by
  induction l with
  | nil => simp [bubble]
  | cons x xs ih =>
    unfold bubble
    split
    · simp
    · rename_i y ys h
      rw [h] at ih
      have hy : y ∈ xs := ih (by simp)
      have hys : ys ⊆ xs := fun z hz => ih (by simp [hz])
      split_ifs
      · intro z hz
        simp only [List.mem_cons] at hz ⊢
        rcases hz with rfl | rfl | hz
        · exact Or.inr hy
        · exact Or.inr hy
        · exact Or.inr (hys hz)
      · intro z hz
        simp only [List.mem_cons] at hz ⊢
        rcases hz with rfl | rfl | hz
        · exact Or.inl rfl
        · exact Or.inr hy
        · exact Or.inr (hys hz)

/-- After a pass the first record has the largest frequency. -/
theorem bubble_head (l : List FP) : ∀ y ∈ (bubble l).head?, ∀ z ∈ l, z.freq ≤ y.freq := by
  induction l with
  | nil => simp [bubble]
  | cons x xs ih =>
    unfold bubble
    split
    · rename_i h
      have : xs = [] := by
        have := bubble_length xs; rw [h] at this; simpa using this.symm
      subst this
      simp
    · rename_i y ys h
      rw [h] at ih
      have ih := ih y (by simp)
      split_ifs with hc
      · intro w hw z hz
        simp at hw; subst hw
        simp only [List.mem_cons] at hz
        rcases hz with rfl | hz
        · omega
        · exact ih z hz
      · intro w hw z hz
        simp at hw; subst hw
        simp only [List.mem_cons] at hz
        rcases hz with rfl | hz
        · omega
        · have := ih z hz; omega

/-- `l` is `take i` sorted, everything in it at least as frequent as the rest. -/
structure SInv (a : List FP) (i : Nat) (l : List FP) : Prop where
  len : l.length = a.length
  sub : l ⊆ a
  sorted : ∀ j k x y, j < k → j < i → l[j]? = some x → l[k]? = some y → y.freq ≤ x.freq
  dom : ∀ z ∈ a, ∃ x ∈ l, z.freq ≤ x.freq

theorem SInv.step {a l : List FP} {i : Nat} (h : SInv a i l) (hi : i < a.length) :
    SInv a (i + 1) (l.take i ++ bubble (l.drop i)) := by
  have hb := bubble_length (l.drop i)
  have hs := bubble_subset (l.drop i)
  have hh := bubble_head (l.drop i)
  have hlen : (l.take i).length = i := by rw [List.length_take, h.len]; omega
  have hget : ∀ j x, j < i → (l.take i ++ bubble (l.drop i))[j]? = some x → l[j]? = some x := by
    intro j x hj hx
    rw [List.getElem?_append_left (by omega), List.getElem?_take, if_pos hj] at hx
    exact hx
  have hget' : ∀ j x, i ≤ j → (l.take i ++ bubble (l.drop i))[j]? = some x →
      ∃ k, i ≤ k ∧ l[k]? = some x := by
    intro j x hj hx
    rw [List.getElem?_append_right (by omega)] at hx
    have := hs (List.mem_of_getElem? hx)
    obtain ⟨k, hk⟩ := List.mem_iff_getElem?.1 this
    rw [List.getElem?_drop] at hk
    exact ⟨i + k, by omega, hk⟩
  refine ⟨by simp [hb, h.len]; omega, ?_, ?_, ?_⟩
  · intro z hz
    rw [List.mem_append] at hz
    rcases hz with hz | hz
    · exact h.sub (List.mem_of_mem_take hz)
    · exact h.sub (List.mem_of_mem_drop (hs hz))
  · intro j k x y hjk hj hx hy
    by_cases hji : j < i
    · have hx := hget j x hji hx
      by_cases hki : k < i
      · exact h.sorted j k x y hjk hji hx (hget k y hki hy)
      · obtain ⟨k', hk', hy⟩ := hget' k y (by omega) hy
        exact h.sorted j k' x y (by omega) hji hx hy
    · have hji : j = i := by omega
      subst hji
      rw [List.getElem?_append_right (by omega), hlen, Nat.sub_self, ← List.head?_eq_getElem?] at hx
      obtain ⟨k', hk', hy⟩ := hget' k y (by omega) hy
      refine hh x (by rw [hx]; rfl) y ?_
      rw [List.mem_iff_getElem?]
      exact ⟨k' - j, by rw [List.getElem?_drop, show j + (k' - j) = k' by omega]; exact hy⟩
  · intro z hz
    obtain ⟨x, hx, hzx⟩ := h.dom z hz
    rw [← List.take_append_drop i l, List.mem_append] at hx
    rcases hx with hx | hx
    · exact ⟨x, by rw [List.mem_append]; exact Or.inl hx, hzx⟩
    · cases hbl : bubble (l.drop i) with
      | nil => rw [hbl] at hb; simp at hb; rw [h.len] at hb; omega
      | cons y ys =>
        rw [hbl] at hh
        exact ⟨y, by simp, le_trans hzx (hh y (by simp) x hx)⟩

theorem SInv.all (a : List FP) (m : Nat) (hm : m ≤ a.length - 1) :
    SInv a m ((List.range m).foldl (fun a i => a.take i ++ bubble (a.drop i)) a) := by
  induction m with
  | zero => exact ⟨rfl, fun _ h => h, fun j k x y _ h => by omega, fun z hz => ⟨z, hz, le_rfl⟩⟩
  | succ m ih =>
    rw [List.range_succ, List.foldl_append]
    exact (ih (by omega)).step (by omega)

/-- What the (copying) frequency sort guarantees. -/
theorem sortFreq_spec (a : List FP) : (sortFreq a).length = a.length ∧ sortFreq a ⊆ a ∧
    (sortFreq a).Pairwise (fun x y => y.freq ≤ x.freq) ∧
    (∀ x ∈ (sortFreq a).head?, ∀ z ∈ a, z.freq ≤ x.freq) := by
  have h := SInv.all a (a.length - 1) le_rfl
  change SInv a (a.length - 1) (sortFreq a) at h
  have hp : (sortFreq a).Pairwise (fun x y => y.freq ≤ x.freq) := by
    rw [List.pairwise_iff_getElem]
    intro i j hi hj hij
    refine h.sorted i j _ _ hij ?_ (List.getElem?_eq_getElem hi) (List.getElem?_eq_getElem hj)
    have := h.len; omega
  refine ⟨h.len, h.sub, hp, ?_⟩
  intro x hx z hz
  obtain ⟨y, hy, hzy⟩ := h.dom z hz
  cases hl : sortFreq a with
  | nil => rw [hl] at hy; simp at hy
  | cons w ws =>
    rw [hl] at hx hy hp
    simp at hx; subst hx
    rw [List.mem_cons] at hy
    rcases hy with rfl | hy
    · exact hzy
    · exact le_trans hzy ((List.pairwise_cons.1 hp).1 y hy)

/-- `y` is `x` or its pruned (unused) version. -/
def PrunedFrom (x y : FP) : Prop := y = x ∨ y = { x with freq := 0, ftnr := TR_UNUSED }

theorem prune_nil : prune [] = [] := rfl

theorem prune_cons (x : FP) (xs : List FP) :
    prune (x :: xs) = x :: prune (xs.map (pruneRow x.ftnr)) := by
  simp [prune, pruneN]

theorem prune_ind {motive : List FP → Prop} (h0 : motive [])
    (h1 : ∀ x xs, motive (xs.map (pruneRow x.ftnr)) → motive (x :: xs)) (l : List FP) : motive l := by
  have : ∀ n (l : List FP), l.length = n → motive l := by
    intro n
    induction n with
    | zero => intro l hl; rw [List.length_eq_zero_iff] at hl; subst hl; exact h0
    | succ n ih =>
      intro l hl
      match l, hl with
      | x :: xs, hl => exact h1 x xs (ih _ (by simpa using hl))
  exact this _ l rfl

theorem prune_mem (l : List FP) : ∀ y ∈ prune l, ∃ x ∈ l, PrunedFrom x y := by
  induction l using prune_ind with
  | h0 => simp [prune_nil]
  | h1 x xs ih =>
    rw [prune_cons]
    intro y hy
    rw [List.mem_cons] at hy
    rcases hy with rfl | hy
    · exact ⟨y, by simp, Or.inl rfl⟩
    · obtain ⟨z, hz, hzy⟩ := ih y hy
      rw [List.mem_map] at hz
      obtain ⟨w, hw, rfl⟩ := hz
      refine ⟨w, by simp [hw], ?_⟩
      unfold pruneRow at hzy
      split_ifs at hzy
      · right
        rcases hzy with h | h <;> rw [h]
      · exact hzy

theorem prune_length (l : List FP) : (prune l).length = l.length := by
  induction l using prune_ind with
  | h0 => simp [prune_nil]
  | h1 x xs ih => rw [prune_cons]; simp [ih]

theorem prune_head (l : List FP) : (prune l).head? = l.head? := by
  cases l with
  | nil => simp [prune_nil]
  | cons x xs => rw [prune_cons]; simp

/-- Behind the head only numbers seen in at least two cameras survive, and each once. -/
theorem prune_tail (l : List FP) : ∀ y ∈ (prune l).tail, y.freq ≠ 0 → 2 ≤ y.freq := by
  have key : ∀ l : List FP, (∀ x ∈ l, x.freq = 0 ∨ 2 ≤ x.freq) →
      ∀ y ∈ prune l, y.freq = 0 ∨ 2 ≤ y.freq := by
    intro l hl y hy
    obtain ⟨x, hx, h | h⟩ := prune_mem l y hy
    · rw [h]; exact hl x hx
    · left; rw [h]
  cases l with
  | nil => simp [prune_nil]
  | cons x xs =>
    rw [prune_cons]
    intro y hy hne
    have hz : ∀ z ∈ xs.map (pruneRow x.ftnr), z.freq = 0 ∨ 2 ≤ z.freq := by
      intro z hz
      rw [List.mem_map] at hz
      obtain ⟨w, -, rfl⟩ := hz
      unfold pruneRow
      split_ifs with hc
      · exact Or.inl rfl
      · push Not at hc; exact Or.inr hc.2
    rcases key _ hz y hy with h | h
    · exact absurd h hne
    · exact h

/-- Rows that are used carry their camera count, unused rows have none. -/
def RowOK (cnt : Int → Nat) (r : FP) : Prop :=
  (r.ftnr = TR_UNUSED ∧ r.freq = 0) ∨ (r.ftnr ≠ TR_UNUSED ∧ r.freq = cnt r.ftnr ∧ r.freq ≠ 0)

theorem sortByFreq_spec (a : List FP) (numCams : Nat) (cnt : Int → Nat)
    (h : ∀ r ∈ a, RowOK cnt (countRow a numCams r)) :
    (sortByFreq a numCams).1.length = a.length ∧
    (sortByFreq a numCams).1.Pairwise (fun x y => y.freq ≤ x.freq) ∧
    (∀ y ∈ (sortByFreq a numCams).1, RowOK cnt y ∧
      (y.ftnr ≠ TR_UNUSED → ∃ r ∈ a, r.ftnr = y.ftnr)) ∧
    (∀ x ∈ (sortByFreq a numCams).1.head?, ∀ z ∈ a, z.ftnr ≠ TR_UNUSED → cnt z.ftnr ≤ x.freq) := by
  obtain ⟨l1, s1, p1, m1⟩ := sortFreq_spec (a.map (countRow a numCams))
  obtain ⟨l2, s2, p2, m2⟩ := sortFreq_spec (prune (sortFreq (a.map (countRow a numCams))))
  have hrow : ∀ y ∈ a.map (countRow a numCams), RowOK cnt y ∧ ∃ r ∈ a, r.ftnr = y.ftnr := by
    intro y hy
    rw [List.mem_map] at hy
    obtain ⟨r, hr, rfl⟩ := hy
    exact ⟨h r hr, r, hr, rfl⟩
  unfold sortByFreq
  simp only
  refine ⟨by rw [l2, prune_length, l1, List.length_map], p2, ?_, ?_⟩
  · intro y hy
    obtain ⟨x, hx, e | e⟩ := prune_mem _ y (s2 hy)
    · subst e
      obtain ⟨q1, q2⟩ := hrow y (s1 hx)
      exact ⟨q1, fun _ => q2⟩
    · subst e
      exact ⟨Or.inl ⟨rfl, rfl⟩, fun hh => absurd rfl hh⟩
  · intro x hx z hz hzu
    have hzc : (countRow a numCams z).freq = cnt z.ftnr := by
      rcases h z hz with ⟨q, -⟩ | ⟨-, q, -⟩
      · exact absurd q hzu
      · exact q
    cases hl : sortFreq (a.map (countRow a numCams)) with
    | nil => rw [hl, List.length_map] at l1; simp at l1; have := List.length_pos_of_mem hz; omega
    | cons w ws =>
      have hw : cnt z.ftnr ≤ w.freq := by
        rw [← hzc]
        exact m1 w (by rw [hl]; rfl) _ (List.mem_map_of_mem hz)
      refine le_trans hw (m2 x hx w ?_)
      rw [hl]; rw [prune_cons]; simp

/-- Used records are in non-increasing order of frequency; unused ones may be anywhere. -/
def UsedOrder (x y : FP) : Prop := x.freq = 0 ∨ y.freq ≤ x.freq

theorem bubble_keeps (l : List FP) (h : l.Pairwise UsedOrder) :
    (bubble l).Pairwise UsedOrder ∧ ∀ x ∈ l, x.freq ≠ 0 → x ∈ bubble l := by
  induction l with
  | nil => simp [bubble]
  | cons x xs ih =>
    rw [List.pairwise_cons] at h
    obtain ⟨i1, i2⟩ := ih h.2
    have hs := bubble_subset xs
    have hl := bubble_length xs
    unfold bubble
    split
    · rename_i hb
      rw [hb] at hl
      have : xs = [] := by simpa using hl.symm
      subst this
      exact ⟨by simp, fun y hy _ => hy⟩
    · rename_i y ys hb
      rw [hb] at i1 i2 hs
      have hy : y ∈ xs := hs (by simp)
      split_ifs with hc
      · constructor
        · rw [List.pairwise_cons]
          refine ⟨?_, i1⟩
          intro z hz
          rcases List.mem_cons.1 hz with rfl | hz
          · exact Or.inr le_rfl
          · exact (List.pairwise_cons.1 i1).1 z hz
        · intro z hz hne
          rcases List.mem_cons.1 hz with rfl | hz
          · rcases h.1 y hy with h0 | h0
            · exact absurd h0 hne
            · omega
          · exact List.mem_cons_of_mem _ (i2 z hz hne)
      · constructor
        · rw [List.pairwise_cons]
          exact ⟨fun z hz => h.1 z (hs hz), i1⟩
        · intro z hz hne
          rcases List.mem_cons.1 hz with rfl | hz
          · simp
          · exact List.mem_cons_of_mem _ (i2 z hz hne)

theorem sortFreq_keeps (l : List FP) (h : l.Pairwise UsedOrder) :
    (sortFreq l).Pairwise UsedOrder ∧ ∀ x ∈ l, x.freq ≠ 0 → x ∈ sortFreq l := by
  unfold sortFreq
  generalize l.length - 1 = m
  induction m with
  | zero => exact ⟨h, fun x hx _ => hx⟩
  | succ m ih =>
    rw [List.range_succ, List.foldl_append]
    simp only [List.foldl_cons, List.foldl_nil]
    generalize (List.range m).foldl (fun a i => a.take i ++ bubble (a.drop i)) l = b at *
    obtain ⟨i1, i2⟩ := ih
    rw [← List.take_append_drop m b, List.pairwise_append] at i1
    obtain ⟨p1, p2, p3⟩ := i1
    obtain ⟨q1, q2⟩ := bubble_keeps _ p2
    constructor
    · rw [List.pairwise_append]
      exact ⟨p1, q1, fun x hx y hy => p3 x hx y (bubble_subset _ hy)⟩
    · intro x hx hne
      have := i2 x hx hne
      rw [← List.take_append_drop m b, List.mem_append] at this
      rw [List.mem_append]
      exact this.imp id (fun hh => q2 x hh hne)

theorem prune_order (l : List FP) : l.Pairwise UsedOrder → (prune l).Pairwise UsedOrder := by
  induction l using prune_ind with
  | h0 => simp [prune_nil]
  | h1 x xs ih =>
    intro h
    rw [List.pairwise_cons] at h
    rw [prune_cons, List.pairwise_cons]
    constructor
    · intro y hy
      obtain ⟨z, hz, hzy⟩ := prune_mem _ y hy
      rw [List.mem_map] at hz
      obtain ⟨w, hw, rfl⟩ := hz
      rcases h.1 w hw with h0 | h0
      · exact Or.inl h0
      · right
        have : (pruneRow x.ftnr w).freq ≤ w.freq := by unfold pruneRow; split_ifs <;> simp
        rcases hzy with e | e <;> rw [e]
        · omega
        · exact Nat.zero_le _
    · apply ih
      rw [List.pairwise_map]
      refine h.2.imp ?_
      intro a b hab
      unfold pruneRow
      split_ifs
      · exact Or.inl rfl
      · exact Or.inl rfl
      · exact Or.inr (Nat.zero_le _)
      · exact hab

/-- A number found by at least two cameras survives the pruning. -/
theorem prune_keeps (l : List FP) (k : Int) (hku : k ≠ TR_UNUSED) :
    (∃ x ∈ l, x.ftnr = k ∧ 2 ≤ x.freq) → (∀ x ∈ l, x.ftnr = k → x.freq ≠ 0) →
    ∃ y ∈ prune l, y.ftnr = k ∧ y.freq ≠ 0 := by
  induction l using prune_ind with
  | h0 => simp
  | h1 x xs ih =>
    rintro ⟨z, hz, hk, h2⟩ hf
    rw [prune_cons]
    by_cases hx : x.ftnr = k
    · exact ⟨x, by simp, hx, hf x (by simp) hx⟩
    · have hz : z ∈ xs := by
        rcases List.mem_cons.1 hz with rfl | hz
        · exact absurd hk hx
        · exact hz
      have hp : pruneRow x.ftnr z = z := by
        unfold pruneRow
        rw [if_neg]
        push Not
        exact ⟨by rw [hk]; exact hx, h2⟩
      obtain ⟨y, hy, h3⟩ := ih ⟨z, by rw [List.mem_map]; exact ⟨z, hz, hp⟩, hk, h2⟩ (by
          intro w hw hwk
          rw [List.mem_map] at hw
          obtain ⟨v, hv, rfl⟩ := hw
          unfold pruneRow at hwk ⊢
          split_ifs at hwk ⊢ with hc
          · exact absurd hwk.symm hku
          · exact hf v (by simp [hv]) hwk)
      exact ⟨y, List.mem_cons_of_mem _ hy, h3⟩

open Verif.Track.Spec in
theorem seenIn_iff (a : List FP) (k : Int) (j : Nat) : seenIn a k j = true ↔ SeenBy a j k := by
  unfold seenIn SeenBy
  rw [List.any_eq_true]
  constructor
  · rintro ⟨r, hr, hk⟩
    obtain ⟨i, hi⟩ := List.mem_iff_getElem?.1 hr
    rw [List.getElem?_take] at hi
    split_ifs at hi with h4
    rw [List.getElem?_drop] at hi
    exact ⟨i, h4, by rw [hi]; simpa using hk⟩
  · rintro ⟨i, h4, hi⟩
    rw [Option.map_eq_some_iff] at hi
    obtain ⟨r, hr, hk⟩ := hi
    refine ⟨r, ?_, by simpa using hk⟩
    rw [List.mem_iff_getElem?]
    exact ⟨i, by rw [List.getElem?_take, if_pos h4, List.getElem?_drop]; exact hr⟩

open Verif.Track.Spec in
theorem countRow_ok {a : List FP} {numCams : Nat} (h : FreshRows a numCams) :
    ∀ r ∈ a, RowOK (camCount a numCams) (countRow a numCams r) := by
  obtain ⟨hlen, hn, hrow⟩ := h
  intro r hr
  obtain ⟨h1, h2, h3⟩ := hrow r hr
  by_cases hu : r.ftnr = TR_UNUSED
  · left
    refine ⟨hu, ?_⟩
    unfold countRow
    simp only [hu, ne_eq, not_true, if_false]
    exact h1
  · right
    have hc : (countRow a numCams r).freq = camCount a numCams r.ftnr := by
      unfold countRow camCount
      simp only [ne_eq, hu, not_false_eq_true, if_true, h1, Nat.zero_add]
      rw [← List.countP_eq_length_filter]
      have e : (r.cams.mapIdx fun j b => b || (decide (j < numCams) && seenIn a r.ftnr j)).take numCams
          = (List.range numCams).map (fun j => decide (SeenBy a j r.ftnr)) := by
        apply List.ext_getElem?
        intro j
        rw [List.getElem?_take]
        by_cases hj : j < numCams
        · rw [if_pos hj, List.getElem?_mapIdx, List.getElem?_map, List.getElem?_range hj]
          have hjl : j < r.cams.length := by omega
          rw [List.getElem?_eq_getElem hjl]
          simp only [Option.map_some, hj, decide_true, Bool.true_and, Option.some.injEq]
          cases hb : r.cams[j] with
          | true =>
            have : SeenBy a j r.ftnr := h3 j (by rw [List.getElem?_eq_getElem hjl, hb])
            simp [this]
          | false =>
            rw [Bool.false_or, Bool.eq_iff_iff, seenIn_iff]; simp
        · rw [if_neg hj, List.getElem?_map, List.getElem?_eq_none (by simp; omega)]; rfl
      rw [e, List.countP_map]
      rfl
    refine ⟨hu, hc, ?_⟩
    rw [hc]
    obtain ⟨i, hi⟩ := List.mem_iff_getElem?.1 hr
    have hil := (List.getElem?_eq_some_iff.1 hi).1
    unfold camCount
    apply Nat.ne_of_gt
    rw [List.length_pos_iff_exists_mem]
    refine ⟨i / 4, ?_⟩
    rw [List.mem_filter, List.mem_range]
    refine ⟨by omega, ?_⟩
    rw [decide_eq_true_iff]
    exact ⟨i % 4, Nat.mod_lt _ (by omega), by rw [Nat.div_add_mod, hi]; rfl⟩

open Verif.Track.Spec in
/-- Nothing is lost when the used records already come in order of frequency. -/
theorem sortByFreq_keeps {a : List FP} {numCams : Nat} (h : FreshRows a numCams)
    (ho : a.Pairwise (fun x y => x.ftnr ≠ TR_UNUSED → y.ftnr ≠ TR_UNUSED →
      camCount a numCams y.ftnr ≤ camCount a numCams x.ftnr)) (k : Int) (hk : k ≠ TR_UNUSED)
    (h2 : 2 ≤ camCount a numCams k) : ∃ y ∈ (sortByFreq a numCams).1, y.ftnr = k := by
  have hr := countRow_ok h
  have ho1 : (a.map (countRow a numCams)).Pairwise UsedOrder := by
    rw [List.pairwise_map, List.pairwise_iff_forall_sublist]
    intro x y hxy
    have hx := hr x (hxy.subset (by simp))
    have hy := hr y (hxy.subset (by simp))
    have hoo := List.pairwise_iff_forall_sublist.1 ho hxy
    rcases hx with ⟨-, hx⟩ | ⟨hx1, hx2, -⟩
    · exact Or.inl hx
    · right
      rcases hy with ⟨-, hy⟩ | ⟨hy1, hy2, -⟩
      · omega
      · rw [hx2, hy2]; exact hoo hx1 hy1
  -- a record with number k
  obtain ⟨x, hx, hxk⟩ : ∃ x ∈ a, x.ftnr = k := by
    unfold camCount at h2
    obtain ⟨j, hj⟩ := List.length_pos_iff_exists_mem.1
      (show 0 < ((List.range numCams).filter (fun j => decide (SeenBy a j k))).length by omega)
    rw [List.mem_filter, decide_eq_true_iff] at hj
    obtain ⟨-, i, -, hi⟩ := hj
    rw [Option.map_eq_some_iff] at hi
    obtain ⟨x, hx, e⟩ := hi
    exact ⟨x, List.mem_of_getElem? hx, e⟩
  have hxr := hr x hx
  have hxf : (countRow a numCams x).freq = camCount a numCams k := by
    rcases hxr with ⟨q, -⟩ | ⟨-, q, -⟩
    · exact absurd (hxk.symm.trans q) hk
    · rw [q]; exact congrArg _ hxk
  obtain ⟨o2, k2⟩ := sortFreq_keeps _ ho1
  have hm2 := k2 _ (List.mem_map_of_mem hx) (by omega)
  obtain ⟨y, hy, hyk, hyf⟩ := prune_keeps (sortFreq (a.map (countRow a numCams))) k hk
    ⟨_, hm2, hxk, by omega⟩ (by
      intro z hz hzk
      have := (sortFreq_spec (a.map (countRow a numCams))).2.1 hz
      rw [List.mem_map] at this
      obtain ⟨w, hw, rfl⟩ := this
      rcases hr w hw with ⟨q, -⟩ | ⟨-, -, q⟩
      · exact absurd (hzk.symm.trans q) hk
      · exact q)
  obtain ⟨-, k4⟩ := sortFreq_keeps _ (prune_order _ o2)
  exact ⟨y, k4 y hy hyf, hyk⟩

/-- A record that is as frequent as any other is never overwritten. -/
theorem bubble_keeps_max (l : List FP) (m : Nat) (hm : ∀ x ∈ l, x.freq ≤ m) :
    ∀ x ∈ l, x.freq = m → x ∈ bubble l := by
  induction l with
  | nil => simp
  | cons x xs ih =>
    intro z hz hzm
    have ih := ih (fun y hy => hm y (List.mem_cons_of_mem _ hy))
    unfold bubble
    have hl := bubble_length xs
    have hs := bubble_subset xs
    split
    · rename_i hb
      rw [hb] at hl
      have : xs = [] := by simpa using hl.symm
      subst this
      exact hz
    · rename_i y ys hb
      rw [hb] at ih hs
      have hy : y.freq ≤ m := hm y (List.mem_cons_of_mem _ (hs (by simp)))
      split_ifs with hc
      · rcases List.mem_cons.1 hz with rfl | hz
        · omega
        · exact List.mem_cons_of_mem _ (ih z hz hzm)
      · rcases List.mem_cons.1 hz with rfl | hz
        · simp
        · exact List.mem_cons_of_mem _ (ih z hz hzm)

theorem sortFreq_keeps_max (l : List FP) (m : Nat) (hm : ∀ x ∈ l, x.freq ≤ m) :
    ∀ x ∈ l, x.freq = m → x ∈ sortFreq l := by
  unfold sortFreq
  generalize l.length - 1 = n
  suffices h : ((List.range n).foldl (fun a i => a.take i ++ bubble (a.drop i)) l) ⊆ l ∧
      ∀ x ∈ l, x.freq = m → x ∈ ((List.range n).foldl (fun a i => a.take i ++ bubble (a.drop i)) l) from h.2
  induction n with
  | zero => exact ⟨fun _ h => h, fun x hx _ => hx⟩
  | succ n ih =>
    rw [List.range_succ, List.foldl_append]
    simp only [List.foldl_cons, List.foldl_nil]
    generalize (List.range n).foldl (fun a i => a.take i ++ bubble (a.drop i)) l = b at *
    obtain ⟨i1, i2⟩ := ih
    constructor
    · intro x hx
      rw [List.mem_append] at hx
      rcases hx with hx | hx
      · exact i1 (List.mem_of_mem_take hx)
      · exact i1 (List.mem_of_mem_drop (bubble_subset _ hx))
    · intro x hx hxm
      have := i2 x hx hxm
      rw [← List.take_append_drop n b, List.mem_append] at this
      rw [List.mem_append]
      refine this.imp id (fun hh => bubble_keeps_max _ m ?_ x hh hxm)
      intro y hy
      exact hm y (i1 (List.mem_of_mem_drop hy))

theorem prune_le (l : List FP) (m : Nat) (hm : ∀ x ∈ l, x.freq ≤ m) : ∀ x ∈ prune l, x.freq ≤ m := by
  intro x hx
  obtain ⟨y, hy, e | e⟩ := prune_mem l x hx
  · rw [e]; exact hm y hy
  · rw [e]; exact Nat.zero_le _

open Verif.Track.Spec in
/-- A number that as many cameras found as any other number is not lost. -/
theorem sortByFreq_keeps_max {a : List FP} {numCams : Nat} (h : FreshRows a numCams) (k : Int) (hk : k ≠ TR_UNUSED)
    (h2 : 2 ≤ camCount a numCams k)
    (hmax : ∀ r ∈ a, r.ftnr ≠ TR_UNUSED → camCount a numCams r.ftnr ≤ camCount a numCams k) :
    ∃ y ∈ (sortByFreq a numCams).1, y.ftnr = k := by
  have hr := countRow_ok h
  have hm : ∀ x ∈ a.map (countRow a numCams), x.freq ≤ camCount a numCams k := by
    intro x hx
    rw [List.mem_map] at hx
    obtain ⟨r, hra, rfl⟩ := hx
    rcases hr r hra with ⟨-, q⟩ | ⟨q1, q2, -⟩
    · rw [q]; exact Nat.zero_le _
    · rw [q2]; exact hmax r hra q1
  obtain ⟨x, hx, hxk⟩ : ∃ x ∈ a, x.ftnr = k := by
    have h2 := h2
    unfold camCount at h2
    obtain ⟨j, hj⟩ := List.length_pos_iff_exists_mem.1
      (show 0 < ((List.range numCams).filter (fun j => decide (SeenBy a j k))).length by omega)
    rw [List.mem_filter, decide_eq_true_iff] at hj
    obtain ⟨-, i, -, hi⟩ := hj
    rw [Option.map_eq_some_iff] at hi
    obtain ⟨x, hx, e⟩ := hi
    exact ⟨x, List.mem_of_getElem? hx, e⟩
  have cnt : ∀ w ∈ a, w.ftnr = k → (countRow a numCams w).freq = camCount a numCams k := by
    intro w hw hwk
    rcases hr w hw with ⟨q, -⟩ | ⟨-, q, -⟩
    · exact absurd (hwk.symm.trans q) hk
    · rw [q]; exact congrArg _ hwk
  have hm2 := sortFreq_keeps_max _ _ hm _ (List.mem_map_of_mem hx) (cnt x hx hxk)
  obtain ⟨y, hy, hyk, hyf⟩ := prune_keeps (sortFreq (a.map (countRow a numCams))) k hk
    ⟨_, hm2, hxk, by rw [cnt x hx hxk]; exact h2⟩ (by
      intro z hz hzk
      have := (sortFreq_spec (a.map (countRow a numCams))).2.1 hz
      rw [List.mem_map] at this
      obtain ⟨w, hw, rfl⟩ := this
      rw [cnt w hw hzk]; omega)
  have hyc : y.freq = camCount a numCams k := by
    obtain ⟨z, hz, e | e⟩ := prune_mem _ y hy
    · have := (sortFreq_spec (a.map (countRow a numCams))).2.1 hz
      rw [List.mem_map] at this
      obtain ⟨w, hw, rfl⟩ := this
      subst e
      exact cnt w hw hyk
    · rw [e] at hyf; exact absurd rfl hyf
  refine ⟨y, sortFreq_keeps_max _ _ (prune_le _ _ ?_) y hy hyc, hyk⟩
  intro z hz
  exact hm z ((sortFreq_spec _).2.1 hz)

theorem bubble_id (l : List FP) (h : l.Pairwise (fun x y => y.freq ≤ x.freq)) : bubble l = l := by
  induction l with
  | nil => rfl
  | cons x xs ih =>
    rw [List.pairwise_cons] at h
    unfold bubble
    rw [ih h.2]
    cases xs with
    | nil => rfl
    | cons y ys =>
      simp only
      rw [if_neg]
      have := h.1 y (by simp)
      omega

theorem sortFreq_id (l : List FP) (h : l.Pairwise (fun x y => y.freq ≤ x.freq)) :
    sortFreq l = l := by
  unfold sortFreq
  generalize l.length - 1 = m
  induction m with
  | zero => rfl
  | succ m ih =>
    rw [List.range_succ, List.foldl_append, ih]
    simp only [List.foldl_cons, List.foldl_nil]
    rw [bubble_id _ (h.sublist (List.drop_sublist _ _)), List.take_append_drop]

/-- Records found by a single camera are reported only if there is nothing better. -/
theorem sortByFreq_two (a : List FP) (numCams : Nat) :
    (∀ y ∈ (sortByFreq a numCams).1, y.freq ≠ 0 → 2 ≤ y.freq) ∨ (sortByFreq a numCams).2 ≤ 1 := by
  have hb1 := (sortFreq_spec (a.map (countRow a numCams))).2.2.1
  unfold sortByFreq
  simp only
  generalize sortFreq (a.map (countRow a numCams)) = b at *
  cases b with
  | nil => left; simp [prune_nil, sortFreq]
  | cons x xs =>
    have ht := prune_tail (x :: xs)
    rw [prune_cons] at ht ⊢
    rw [List.tail_cons] at ht
    rw [List.pairwise_cons] at hb1
    by_cases hx : x.freq ≠ 0 → 2 ≤ x.freq
    · left
      intro y hy hne
      rcases List.mem_cons.1 ((sortFreq_spec _).2.1 hy) with rfl | h
      · exact hx hne
      · exact ht y h hne
    · right
      push Not at hx
      have hz : ∀ y ∈ prune (xs.map (pruneRow x.ftnr)), y.freq = 0 := by
        intro y hy
        by_contra hne
        have h2 := ht y hy hne
        obtain ⟨z, hz, hzy⟩ := prune_mem _ y hy
        rw [List.mem_map] at hz
        obtain ⟨w, hw, rfl⟩ := hz
        have h3 := hb1.1 w hw
        have h4 : (pruneRow x.ftnr w).freq ≤ w.freq := by unfold pruneRow; split_ifs <;> simp
        rcases hzy with e | e
        · rw [e] at h2; omega
        · rw [e] at hne; exact hne rfl
      rw [sortFreq_id, List.countP_cons]
      · have : (prune (xs.map (pruneRow x.ftnr))).countP (fun r => decide (r.freq ≠ 0)) = 0 := by
          rw [List.countP_eq_zero]
          intro y hy
          simp [hz y hy]
        rw [this]
        split_ifs <;> omega
      · rw [List.pairwise_cons]
        refine ⟨fun y hy => by rw [hz y hy]; exact Nat.zero_le _, ?_⟩
        rw [List.pairwise_iff_forall_sublist]
        intro c d hcd
        rw [hz d (hcd.subset (by simp))]
        exact Nat.zero_le _

end Verif.Track
