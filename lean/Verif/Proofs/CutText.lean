/-
Texts that are cut: what is read of the beginning of a targets file.
-/
import Verif.Proofs.Crash

namespace Verif.IO
open Text

/-- What remains of words when the text is cut: some of them, and perhaps the beginning of the next one. -/
def CutWords (ws us : List (List Char)) : Prop :=
  ∃ i < ws.length, us = ws.take i ∨ ∃ w k, ws[i]? = some w ∧ us = ws.take i ++ [w.take k]

theorem words_take_word {w : List Char} (h : IsWord w) (k : ℕ) : words (w.take k) = [] ∨ words (w.take k) = [w.take k] := by
  by_cases e : w.take k = []
  · left; rw [e, words_nil]
  · right
    refine words_word ⟨e, fun c hc => h.2 c (List.mem_of_mem_take hc)⟩

theorem words_take_field {f w : List Char} (h : IsField f w) (k : ℕ) :
    words (f.take k) = [] ∨ ∃ k', words (f.take k) = [w.take k'] := by
  obtain ⟨hw, n, rfl⟩ := h
  rw [padLeft, List.take_append, List.take_replicate, words_pad]
  rcases words_take_word hw (k - (List.replicate (n - w.length) ' ').length) with e | e
  · exact Or.inl e
  · exact Or.inr ⟨_, e⟩

theorem words_field_cons {f w : List Char} (h : IsField f w) (s : List Char) : words (f ++ ' ' :: s) = w :: words s := by
  obtain ⟨hw, n, rfl⟩ := h
  rw [words_padLeft, words_cons hw (by rfl)]

theorem words_take_joinSp : ∀ {fs ws : List (List Char)}, List.Forall₂ IsField fs ws → fs ≠ [] → ∀ k,
    CutWords ws (words ((joinSp fs).take k))
  | [], _, .nil, h, _ => absurd rfl h
  | [f], _, .cons (b := w) hf .nil, _, k => by
    refine ⟨0, by simp, ?_⟩
    rw [joinSp]
    rcases words_take_field hf k with e | ⟨k', e⟩
    · left; rw [e]; rfl
    · right; exact ⟨w, k', rfl, by rw [e]; rfl⟩
  | f :: g :: fs, _, .cons (b := w) (l₂ := ws) hf hfs, _, k => by
    rw [joinSp]
    swap
    · simp
    by_cases hk : k ≤ f.length
    · refine ⟨0, by simp, ?_⟩
      rw [List.take_append_of_le_length hk]
      rcases words_take_field hf k with e | ⟨k', e⟩
      · left; rw [e]; rfl
      · right; exact ⟨w, k', rfl, by rw [e]; rfl⟩
    · obtain ⟨m, hm⟩ : ∃ m, k - f.length = m + 1 := ⟨k - f.length - 1, by omega⟩
      rw [List.take_append, List.take_of_length_le (by omega), hm, List.take_succ_cons, words_field_cons hf]
      obtain ⟨i, hi, h⟩ := words_take_joinSp hfs (by simp) m
      refine ⟨i + 1, by simpa using hi, ?_⟩
      rcases h with h | ⟨w', k', h1, h2⟩
      · left; rw [h]; rfl
      · right; exact ⟨w', k', by simpa using h1, by rw [h2]; rfl⟩

theorem parseTarget_short {us : List (List Char)} (h : us.length ≠ 8) : parseTarget us = .error .valueError := by
  unfold parseTarget
  split
  · simp at h
  · rfl

theorem parseInt_result (w : List Char) : (∃ v, parseInt w = .ok v) ∨ parseInt w = .error .valueError := by
  unfold parseInt
  split
  · exact Or.inl ⟨_, rfl⟩
  · exact Or.inr rfl

theorem pyInt_result (w : List Char) : (∃ v, pyInt w = .ok v) ∨ pyInt w = .error .valueError := by
  unfold pyInt
  split
  · exact parseInt_result _
  · exact Or.inr rfl

/-- A row that is cut: refused, or read with another number at its end. -/
theorem parseTarget_cut (t : Target) (k : ℕ) : parseTarget (words ((targetRow t).take k)) = .error .valueError ∨
    ∃ v, parseTarget (words ((targetRow t).take k)) = .ok { t.rounded with tnr := v } := by
  obtain ⟨i, hi, h⟩ := words_take_joinSp (targetRow_fields t) (by simp) k
  rw [targetRow]
  rcases h with h | ⟨w, k', h1, h2⟩
  · left
    rw [h]
    apply parseTarget_short
    rw [List.length_take]
    simp only [List.length_cons, List.length_nil] at hi ⊢
    omega
  · by_cases h7 : i = 7
    · subst h7
      rw [h2]
      simp only [List.take_succ_cons, List.take_zero, List.cons_append, List.nil_append, parseTarget, parseInt_intStr,
        parseFloat_fixedStr (show 0 < 4 by norm_num), bind, Except.bind]
      rcases parseInt_result (w.take k') with ⟨v, e⟩ | e <;> rw [e]
      · exact Or.inr ⟨v, rfl⟩
      · exact Or.inl rfl
    · left
      rw [h2]
      apply parseTarget_short
      simp only [List.length_append, List.length_take, List.length_cons, List.length_nil] at hi ⊢
      omega

theorem readline_no_nl {l : List Char} (hl : '\n' ∉ l) : readline l = (l, []) := by
  have : l.all (· != '\n') = true := by
    simp only [List.all_eq_true, bne_iff_ne, ne_eq]
    exact fun c hc e => hl (e ▸ hc)
  rw [readline, (takeWhile_all_nil this).1, (takeWhile_all_nil this).2]
  rfl

theorem readTargetRows_nil (n : ℕ) : readTargetRows (n + 1) [] = .error .valueError := by
  rw [readTargetRows]
  have : parseTarget (words (readline []).1) = .error .valueError := rfl
  rw [this]
  rfl

/-- The rows, cut before their end. -/
theorem readTargetRows_cut : ∀ (ts : List Target) (k : ℕ), k < (ts.flatMap fun t => targetRow t ++ ['\n']).length →
    readTargetRows ts.length ((ts.flatMap fun t => targetRow t ++ ['\n']).take k) = .error .valueError ∨
    ∃ front last v, ts = front ++ [last] ∧ readTargetRows ts.length ((ts.flatMap fun t => targetRow t ++ ['\n']).take k) =
      .ok (front.map Target.rounded ++ [{ last.rounded with tnr := v }])
  | [], k, h => by simp at h
  | t :: ts, k, h => by
    have hnl : '\n' ∉ targetRow t := joinSp_no_nl (targetRow_fields t)
    rw [List.flatMap_cons, List.append_assoc, List.singleton_append] at h ⊢
    rw [List.length_cons, readTargetRows]
    by_cases hk : k ≤ (targetRow t).length
    · rw [List.take_append_of_le_length hk, readline_no_nl fun hc => hnl (List.mem_of_mem_take hc)]
      simp only
      rcases parseTarget_cut t k with e | ⟨v, e⟩ <;> rw [e]
      · exact Or.inl rfl
      · cases ts with
        | nil =>
          right
          exact ⟨[], t, v, rfl, rfl⟩
        | cons t' ts =>
          left
          simp only [List.length_cons, bind, Except.bind]
          rw [readTargetRows_nil]
    · obtain ⟨m, hm⟩ : ∃ m, k - (targetRow t).length = m + 1 := ⟨k - (targetRow t).length - 1, by omega⟩
      rw [List.take_append, List.take_of_length_le (by omega), hm, List.take_succ_cons, readline_line hnl]
      simp only [parseTarget_row, bind, Except.bind]
      rcases readTargetRows_cut ts m (by simp only [List.length_append, List.length_cons] at h; omega) with e | ⟨front, last, v, e1, e2⟩
      · left; rw [e]
      · right
        refine ⟨t :: front, last, v, by rw [e1]; rfl, ?_⟩
        rw [e2]
        rfl

/-- The rows, without the last ones. -/
theorem readTargetRows_lines : ∀ (ts : List Target) (j : ℕ), j < ts.length →
    readTargetRows ts.length ((ts.take j).flatMap fun t => targetRow t ++ ['\n']) = .error .valueError
  | [], j, h => by simp at h
  | t :: ts, 0, _ => by
    rw [List.take_zero, List.flatMap_nil, List.length_cons, readTargetRows_nil]
  | t :: ts, j + 1, h => by
    have hnl : '\n' ∉ targetRow t := joinSp_no_nl (targetRow_fields t)
    rw [List.length_cons, List.take_succ_cons, List.flatMap_cons, List.append_assoc, List.singleton_append, readTargetRows,
      readline_line hnl]
    simp only [parseTarget_row, bind, Except.bind]
    rw [readTargetRows_lines ts j (by simpa using h)]

/-! ### The number at the head, cut -/

theorem ofDigitChars_lt : ∀ (l : List Char) (a : ℕ), l.all Char.isDigit = true → Nat.ofDigitChars 10 l a < (a + 1) * 10 ^ l.length
  | [], a, _ => by simp
  | c :: l, a, h => by
    simp only [List.all_cons, Bool.and_eq_true] at h
    rw [Nat.ofDigitChars_cons]
    have hc : c.toNat - '0'.toNat ≤ 9 := by
      have := h.1
      simp only [Char.isDigit, Bool.and_eq_true, decide_eq_true_eq] at this
      have h2 : c.toNat ≤ 57 := this.2
      have : '0'.toNat = 48 := rfl
      omega
    refine lt_of_lt_of_le (ofDigitChars_lt l _ h.2) ?_
    rw [List.length_cons, pow_succ]
    calc _ ≤ ((a + 1) * 10) * 10 ^ l.length := Nat.mul_le_mul_right _ (by omega)
      _ = _ := by ring

/-- A number other than 0, cut: nothing remains, or a number other than 0. -/
theorem pyInt_cut (num k : ℕ) (h : 0 < num) : pyInt ((intStr num).take k) = .error .valueError ∨
    ∃ v : ℕ, 0 < v ∧ pyInt ((intStr num).take k) = .ok (v : ℤ) := by
  have hs : intStr (num : ℤ) = Nat.toDigits 10 num := by simp [intStr]
  by_cases e : (intStr (num : ℤ)).take k = []
  · left
    rw [e]
    rfl
  right
  rw [hs] at e ⊢
  set d := Nat.toDigits 10 num with hd
  have hdig : d.all Char.isDigit = true := digits_isDigit num
  have hpre : (d.take k).all Char.isDigit = true := by
    rw [List.all_eq_true] at hdig ⊢
    exact fun c hc => hdig c (List.mem_of_mem_take hc)
  have hw : IsWord (d.take k) := ⟨e, fun c hc => isDigit_not_space (List.all_eq_true.1 hpre c hc)⟩
  have hsg : sign (d.take k) = (1, d.take k) := by
    have := sign_of_digit hpre e []
    simpa using this
  refine ⟨Nat.ofDigitChars 10 (d.take k) 0, ?_, ?_⟩
  · by_contra hz
    have hz : Nat.ofDigitChars 10 (d.take k) 0 = 0 := by omega
    have h1 : Nat.ofDigitChars 10 (d.take k ++ d.drop k) 0 = num := by
      rw [List.take_append_drop, hd, Nat.ofDigitChars_ten_toDigits]
    rw [Nat.ofDigitChars_append, hz] at h1
    have hdr : (d.drop k).all Char.isDigit = true := by
      rw [List.all_eq_true] at hdig ⊢
      exact fun c hc => hdig c (List.mem_of_mem_drop hc)
    have h2 := ofDigitChars_lt (d.drop k) 0 hdr
    rw [h1] at h2
    have hk : 0 < (d.take k).length := List.length_pos_of_ne_nil e
    have hlen : (d.take k).length + (d.drop k).length = d.length := by
      rw [← List.length_append, List.take_append_drop]
    rcases Nat.eq_zero_or_pos (d.drop k).length with h0 | h0
    · rw [h0] at h2
      simp at h2
      omega
    · have := length_toDigits_le h0 (by simpa using h2)
      rw [← hd] at this
      omega
  · rw [pyInt, words_word hw]
    simp only
    rw [parseInt, hsg]
    simp only [parseNat]
    rw [if_pos ⟨e, hpre⟩]
    simp

end Verif.IO
