/-
Lemmas about the readers of parameter files.
-/
import Verif.Model.ParamIO
import Verif.Spec.ParamIO
import Verif.Proofs.Text

namespace Verif.IO
open Text Spec

theorem bind_ok {α β : Type} {x : Py α} {f : α → Py β} {v : β} :
    (x >>= f) = .ok v ↔ ∃ a, x = .ok a ∧ f a = .ok v := by
  cases x with
  | error e => simp [bind, Except.bind]
  | ok a => simp [bind, Except.bind]

theorem rdInt_ok {ls : List (List Char)} {v : ℤ} {r : List (List Char)} :
    rdInt ls = .ok (v, r) ↔ pyInt (ls.headD []) = .ok v ∧ r = ls.tail := by
  rw [rdInt, bind_ok]
  constructor
  · rintro ⟨a, h1, h2⟩
    cases h2
    exact ⟨h1, rfl⟩
  · rintro ⟨h1, rfl⟩
    exact ⟨v, h1, rfl⟩

theorem rdFloat_ok {ls : List (List Char)} {v : ℚ} {r : List (List Char)} :
    rdFloat ls = .ok (v, r) ↔ pyFloat (ls.headD []) = .ok v ∧ r = ls.tail := by
  rw [rdFloat, bind_ok]
  constructor
  · rintro ⟨a, h1, h2⟩
    cases h2
    exact ⟨h1, rfl⟩
  · rintro ⟨h1, rfl⟩
    exact ⟨v, h1, rfl⟩

theorem headD_drop (ls : List (List Char)) (k : ℕ) : (ls.drop k).headD [] = ls.getD k [] := by
  simp [List.headD_eq_head?_getD, List.head?_drop, List.getD_eq_getElem?_getD]

theorem rdInt_drop (s : List Char) (k : ℕ) (p : ℤ × List (List Char)) :
    rdInt ((lines s).drop k) = .ok p ↔ IntOn s k p.1 ∧ p.2 = (lines s).drop (k + 1) := by
  obtain ⟨v, r⟩ := p
  rw [rdInt_ok, headD_drop, IntOn, lineAt, List.tail_drop]

theorem rdFloat_drop (s : List Char) (k : ℕ) (p : ℚ × List (List Char)) :
    rdFloat ((lines s).drop k) = .ok p ↔ NumOn s k p.1 ∧ p.2 = (lines s).drop (k + 1) := by
  obtain ⟨v, r⟩ := p
  rw [rdFloat_ok, headD_drop, NumOn, lineAt, List.tail_drop]

theorem dropWhile_append_space {a l : List Char} (ha : a.all isSpace = true) :
    (a ++ l).dropWhile isSpace = l.dropWhile isSpace := by
  induction a with
  | nil => rfl
  | cons c cs ih =>
    simp only [List.all_cons, Bool.and_eq_true] at ha
    rw [List.cons_append, List.dropWhile_cons, if_pos ha.1, ih ha.2]

theorem dropWhile_head {t : List Char} (h : ∀ c ∈ t.head?, isSpace c = false) : t.dropWhile isSpace = t := by
  cases t with
  | nil => rfl
  | cons c cs => rw [List.dropWhile_cons, if_neg (by simp [h c (by simp)])]

theorem dropWhile_split (l : List Char) : ∃ a, l = a ++ l.dropWhile isSpace ∧ a.all isSpace = true ∧
    ∀ c ∈ (l.dropWhile isSpace).head?, isSpace c = false := by
  induction l with
  | nil => exact ⟨[], by simp⟩
  | cons c cs ih =>
    by_cases hc : isSpace c = true
    · obtain ⟨a, h1, h2, h3⟩ := ih
      refine ⟨c :: a, ?_, by simp [hc, h2], ?_⟩
      · rw [List.dropWhile_cons, if_pos hc, List.cons_append, ← h1]
      · rw [List.dropWhile_cons, if_pos hc]; exact h3
    · refine ⟨[], ?_, by simp, ?_⟩ <;> rw [List.dropWhile_cons, if_neg hc]
      · rfl
      · simpa using hc

theorem stripped_iff {l t : List Char} : Stripped l t ↔ t = strip l := by
  constructor
  · rintro ⟨a, b, rfl, ha, hb, h1, h2⟩
    rw [strip, List.append_assoc, dropWhile_append_space ha]
    cases ht : t with
    | nil =>
      simp only [List.nil_append]
      have : b.dropWhile isSpace = [] := by
        have := dropWhile_append_space (l := []) hb
        simpa using this
      rw [this]; rfl
    | cons c cs =>
      have hc : isSpace c = false := h1 c (by simp [ht])
      rw [List.cons_append, List.dropWhile_cons, if_neg (by simp [hc]), ← List.cons_append, ← ht,
        List.reverse_append, dropWhile_append_space (by simpa using hb), dropWhile_head (by simpa using h2),
        List.reverse_reverse]
  · rintro rfl
    obtain ⟨a, h1, h2, h3⟩ := dropWhile_split l
    obtain ⟨b, h4, h5, h6⟩ := dropWhile_split (l.dropWhile isSpace).reverse
    refine ⟨a, b.reverse, ?_, h2, by simpa using h5, ?_, by simpa [strip] using h6⟩
    · have := congrArg List.reverse h4
      rw [List.reverse_reverse, List.reverse_append] at this
      rw [strip, List.append_assoc, ← this, ← h1]
    · intro c hc
      apply h3 c
      have := congrArg List.reverse h4
      rw [List.reverse_reverse, List.reverse_append] at this
      rw [this]
      rw [strip] at hc
      cases he : ((l.dropWhile isSpace).reverse.dropWhile isSpace).reverse with
      | nil => rw [he] at hc; simp at hc
      | cons d ds => rw [he] at hc; simpa using hc

theorem rdStr_drop (s : List Char) (k : ℕ) (p : List Char × List (List Char)) :
    rdStr ((lines s).drop k) = .ok p ↔ TextOn s k p.1 ∧ p.2 = (lines s).drop (k + 1) := by
  obtain ⟨v, r⟩ := p
  rw [rdStr, headD_drop, TextOn, stripped_iff, lineAt, List.tail_drop]
  simp only [Except.ok.injEq, Prod.mk.injEq]
  constructor <;> rintro ⟨h1, h2⟩ <;> exact ⟨h1.symm, h2.symm⟩

theorem textsOn_cons {s : List Char} {k : ℕ} {t : List Char} {ts : List (List Char)} :
    TextsOn s k (t :: ts) ↔ TextOn s k t ∧ TextsOn s (k + 1) ts := by
  constructor
  · intro h
    refine ⟨h 0 t (by simp), fun i u hu => ?_⟩
    have := h (i + 1) u (by simpa using hu)
    rwa [show k + (i + 1) = k + 1 + i by omega] at this
  · rintro ⟨h1, h2⟩ i u hu
    cases i with
    | zero => simp at hu; subst hu; exact h1
    | succ i =>
      have := h2 i u (by simpa using hu)
      rwa [show k + 1 + i = k + (i + 1) by omega] at this

theorem rdMany_str_drop (s : List Char) : ∀ (n k : ℕ) (p : List (List Char) × List (List Char)),
    rdMany rdStr n ((lines s).drop k) = .ok p ↔
      (p.1.length = n ∧ TextsOn s k p.1) ∧ p.2 = (lines s).drop (k + n)
  | 0, k, (ts, r) => by
    rw [rdMany]
    constructor
    · intro h
      cases h
      exact ⟨⟨rfl, by intro k t h; simp at h⟩, rfl⟩
    · rintro ⟨⟨h1, -⟩, h2⟩
      simp only at h1 h2
      rw [List.length_eq_zero_iff.mp h1, h2, Nat.add_zero]
  | n + 1, k, (ts, r) => by
    rw [rdMany, bind_ok]
    constructor
    · rintro ⟨a, h1, h2⟩
      rw [rdStr_drop] at h1
      rw [h1.2, bind_ok] at h2
      obtain ⟨b, h3, h4⟩ := h2
      rw [rdMany_str_drop s n] at h3
      cases h4
      refine ⟨⟨by simp [h3.1.1], textsOn_cons.mpr ⟨h1.1, h3.1.2⟩⟩, ?_⟩
      rw [h3.2]; congr 1; omega
    · rintro ⟨⟨h1, h2⟩, h3⟩
      cases ts with
      | nil => simp at h1
      | cons t ts =>
        rw [textsOn_cons] at h2
        refine ⟨(t, (lines s).drop (k + 1)), (rdStr_drop s k _).mpr ⟨h2.1, rfl⟩, ?_⟩
        rw [bind_ok]
        refine ⟨(ts, (lines s).drop (k + 1 + n)), (rdMany_str_drop s n _ _).mpr ⟨⟨by simpa using h1, h2.2⟩, rfl⟩, ?_⟩
        simp only at h3
        rw [h3, show k + (n + 1) = k + 1 + n by omega]

theorem bindInt (s : List Char) (k : ℕ) {β : Type} (f : ℤ × List (List Char) → Py β) (v : β) :
    (rdInt ((lines s).drop k) >>= f) = .ok v ↔ ∃ x, IntOn s k x ∧ f (x, (lines s).drop (k + 1)) = .ok v := by
  rw [bind_ok]
  constructor
  · rintro ⟨⟨a, r⟩, h1, h2⟩
    rw [rdInt_drop] at h1
    simp only at h1
    rw [h1.2] at h2
    exact ⟨a, h1.1, h2⟩
  · rintro ⟨x, h1, h2⟩
    exact ⟨_, (rdInt_drop s k _).mpr ⟨h1, rfl⟩, h2⟩

theorem bindFloat (s : List Char) (k : ℕ) {β : Type} (f : ℚ × List (List Char) → Py β) (v : β) :
    (rdFloat ((lines s).drop k) >>= f) = .ok v ↔ ∃ x, NumOn s k x ∧ f (x, (lines s).drop (k + 1)) = .ok v := by
  rw [bind_ok]
  constructor
  · rintro ⟨⟨a, r⟩, h1, h2⟩
    rw [rdFloat_drop] at h1
    simp only at h1
    rw [h1.2] at h2
    exact ⟨a, h1.1, h2⟩
  · rintro ⟨x, h1, h2⟩
    exact ⟨_, (rdFloat_drop s k _).mpr ⟨h1, rfl⟩, h2⟩

theorem bindStr (s : List Char) (k : ℕ) {β : Type} (f : List Char × List (List Char) → Py β) (v : β) :
    (rdStr ((lines s).drop k) >>= f) = .ok v ↔ ∃ x, TextOn s k x ∧ f (x, (lines s).drop (k + 1)) = .ok v := by
  rw [bind_ok]
  constructor
  · rintro ⟨⟨a, r⟩, h1, h2⟩
    rw [rdStr_drop] at h1
    simp only at h1
    rw [h1.2] at h2
    exact ⟨a, h1.1, h2⟩
  · rintro ⟨x, h1, h2⟩
    exact ⟨_, (rdStr_drop s k _).mpr ⟨h1, rfl⟩, h2⟩

theorem bindStrs (s : List Char) (n k : ℕ) {β : Type} (f : List (List Char) × List (List Char) → Py β) (v : β) :
    (rdMany rdStr n ((lines s).drop k) >>= f) = .ok v ↔
      ∃ xs : List (List Char), xs.length = n ∧ TextsOn s k xs ∧ f (xs, (lines s).drop (k + n)) = .ok v := by
  rw [bind_ok]
  constructor
  · rintro ⟨⟨a, r⟩, h1, h2⟩
    rw [rdMany_str_drop] at h1
    simp only at h1
    rw [h1.2] at h2
    exact ⟨a, h1.1.1, h1.1.2, h2⟩
  · rintro ⟨x, h0, h1, h2⟩
    exact ⟨_, (rdMany_str_drop s n k _).mpr ⟨⟨h0, h1⟩, rfl⟩, h2⟩

/-- Lines `i, i+1, …` are the integers `xs`. -/
def IntsOn (s : List Char) (i : ℕ) (xs : List ℤ) : Prop :=
  ∀ (k : ℕ) (x : ℤ), xs[k]? = some x → IntOn s (i + k) x

theorem intsOn_cons {s : List Char} {k : ℕ} {t : ℤ} {ts : List ℤ} :
    IntsOn s k (t :: ts) ↔ IntOn s k t ∧ IntsOn s (k + 1) ts := by
  constructor
  · intro h
    refine ⟨h 0 t (by simp), fun i u hu => ?_⟩
    have := h (i + 1) u (by simpa using hu)
    rwa [show k + (i + 1) = k + 1 + i by omega] at this
  · rintro ⟨h1, h2⟩ i u hu
    cases i with
    | zero => simp at hu; subst hu; exact h1
    | succ i =>
      have := h2 i u (by simpa using hu)
      rwa [show k + 1 + i = k + (i + 1) by omega] at this

theorem rdMany_int_drop (s : List Char) : ∀ (n k : ℕ) (p : List ℤ × List (List Char)),
    rdMany rdInt n ((lines s).drop k) = .ok p ↔
      (p.1.length = n ∧ IntsOn s k p.1) ∧ p.2 = (lines s).drop (k + n)
  | 0, k, (ts, r) => by
    rw [rdMany]
    constructor
    · intro h
      cases h
      exact ⟨⟨rfl, by intro k t h; simp at h⟩, rfl⟩
    · rintro ⟨⟨h1, -⟩, h2⟩
      simp only at h1 h2
      rw [List.length_eq_zero_iff.mp h1, h2, Nat.add_zero]
  | n + 1, k, (ts, r) => by
    rw [rdMany, bind_ok]
    constructor
    · rintro ⟨a, h1, h2⟩
      rw [rdInt_drop] at h1
      rw [h1.2, bind_ok] at h2
      obtain ⟨b, h3, h4⟩ := h2
      rw [rdMany_int_drop s n] at h3
      cases h4
      refine ⟨⟨by simp [h3.1.1], intsOn_cons.mpr ⟨h1.1, h3.1.2⟩⟩, ?_⟩
      rw [h3.2]; congr 1; omega
    · rintro ⟨⟨h1, h2⟩, h3⟩
      cases ts with
      | nil => simp at h1
      | cons t ts =>
        rw [intsOn_cons] at h2
        refine ⟨(t, (lines s).drop (k + 1)), (rdInt_drop s k _).mpr ⟨h2.1, rfl⟩, ?_⟩
        rw [bind_ok]
        refine ⟨(ts, (lines s).drop (k + 1 + n)), (rdMany_int_drop s n _ _).mpr ⟨⟨by simpa using h1, h2.2⟩, rfl⟩, ?_⟩
        simp only at h3
        rw [h3, show k + (n + 1) = k + 1 + n by omega]

theorem bindInts (s : List Char) (n k : ℕ) {β : Type} (f : List ℤ × List (List Char) → Py β) (v : β) :
    (rdMany rdInt n ((lines s).drop k) >>= f) = .ok v ↔
      ∃ xs : List ℤ, xs.length = n ∧ IntsOn s k xs ∧ f (xs, (lines s).drop (k + n)) = .ok v := by
  rw [bind_ok]
  constructor
  · rintro ⟨⟨a, r⟩, h1, h2⟩
    rw [rdMany_int_drop] at h1
    simp only at h1
    rw [h1.2] at h2
    exact ⟨a, h1.1.1, h1.1.2, h2⟩
  · rintro ⟨x, h0, h1, h2⟩
    exact ⟨_, (rdMany_int_drop s n k _).mpr ⟨⟨h0, h1⟩, rfl⟩, h2⟩

theorem lines_eq_drop (s : List Char) : lines s = (lines s).drop 0 := rfl

theorem evens_get {α : Type} : ∀ (xs : List α) (k : ℕ), (evens xs)[k]? = xs[2 * k]?
  | [], k => by simp [evens]
  | [a], k => by cases k <;> simp [evens, Nat.mul_add]
  | a :: b :: xs, 0 => by simp [evens]
  | a :: b :: xs, k + 1 => by
    rw [evens, List.getElem?_cons_succ, evens_get xs k, show 2 * (k + 1) = 2 * k + 1 + 1 by ring]
    simp

theorem odds_get {α : Type} (xs : List α) (k : ℕ) : (odds xs)[k]? = xs[2 * k + 1]? := by
  rw [odds, evens_get]
  simp

theorem evens_length {α : Type} : ∀ (xs : List α) (n : ℕ), xs.length = n * 2 → (evens xs).length = n
  | [], n, h => by simp at h; simp [evens, ← h]
  | [a], n, h => by simp at h; omega
  | a :: b :: xs, 0, h => by simp at h
  | a :: b :: xs, n + 1, h => by
    rw [evens, List.length_cons, evens_length xs n (by simp at h; omega)]

theorem odds_length {α : Type} : ∀ (xs : List α) (n : ℕ), xs.length = n * 2 → (odds xs).length = n
  | [], n, h => by simp at h; simp [odds, evens, ← h]
  | [a], n, h => by simp at h; omega
  | a :: b :: xs, 0, h => by simp at h
  | a :: b :: xs, n + 1, h => by
    have := odds_length xs n (by simp at h; omega)
    cases xs with
    | nil => simp [odds, evens] at this ⊢; exact this.symm
    | cons c cs =>
      simp only [odds, List.tail_cons, evens, List.length_cons] at this ⊢
      omega

theorem interleave {α : Type} : ∀ (as bs : List α) (n : ℕ), as.length = n → bs.length = n →
    ∃ xs : List α, xs.length = n * 2 ∧ evens xs = as ∧ odds xs = bs
  | [], [], n, h, _ => ⟨[], by simp at h; simp [← h], rfl, rfl⟩
  | [], b :: bs, n, h, h' => by simp at h h'; omega
  | a :: as, [], n, h, h' => by simp at h h'; omega
  | a :: as, b :: bs, n, h, h' => by
    obtain ⟨xs, h1, h2, h3⟩ := interleave as bs (n - 1) (by simp at h; omega) (by simp at h'; omega)
    refine ⟨a :: b :: xs, by simp at h ⊢; omega, by rw [evens, h2], ?_⟩
    rw [← h3]
    cases xs with
    | nil => simp [odds, evens]
    | cons c cs => simp [odds, evens]

theorem textsOn_evens_odds {s : List Char} {k : ℕ} {xs : List (List Char)} : TextsOn s k xs ↔
    (∀ (i : ℕ) (t : List Char), (evens xs)[i]? = some t → TextOn s (k + 2 * i) t) ∧
    ∀ (i : ℕ) (t : List Char), (odds xs)[i]? = some t → TextOn s (k + 2 * i + 1) t := by
  constructor
  · intro h
    refine ⟨fun i t ht => h (2 * i) t (by rwa [← evens_get]), fun i t ht => ?_⟩
    exact h (2 * i + 1) t (by rwa [← odds_get])
  · rintro ⟨h1, h2⟩ i t ht
    rcases Nat.even_or_odd' i with ⟨j, rfl | rfl⟩
    · exact h1 j t (by rwa [evens_get])
    · exact h2 j t (by rwa [odds_get])

theorem rdNames_eq (ls : List (List Char)) (n : ℕ) : rdMany rdNames n ls =
    (rdMany rdStr (n * 2) ls).map fun p => ((evens p.1).zip (odds p.1), p.2) := by
  induction n generalizing ls with
  | zero => rfl
  | succ n ih =>
    rw [show (n + 1) * 2 = n * 2 + 1 + 1 by ring]
    simp only [rdMany, rdNames, rdStr, bind, Except.bind]
    rw [ih]
    cases rdMany rdStr (n * 2) ls.tail.tail with
    | error e => rfl
    | ok p =>
      obtain ⟨xs, r⟩ := p
      simp only [Except.map]
      cases xs <;> simp [evens, odds]

theorem bindNames (s : List Char) (n k : ℕ) {β : Type}
    (f : List (List Char × List Char) × List (List Char) → Py β) (v : β) :
    (rdMany rdNames n ((lines s).drop k) >>= f) = .ok v ↔
      ∃ xs : List (List Char), xs.length = n * 2 ∧ TextsOn s k xs ∧
        f ((evens xs).zip (odds xs), (lines s).drop (k + n * 2)) = .ok v := by
  rw [rdNames_eq, ← bindStrs s (n * 2) k (fun p => f ((evens p.1).zip (odds p.1), p.2)) v]
  cases rdMany rdStr (n * 2) ((lines s).drop k) <;> rfl

theorem lines_last {l : List Char} (hl : '\n' ∉ l) (hne : l ≠ []) : lines l = [l] := by
  have h := linesAux_run hl [] []
  simp only [List.append_nil, List.nil_append] at h
  rw [lines, h, linesAux, if_neg hne]

theorem lines_joinNl : ∀ (ws : List (List Char)), (∀ w ∈ ws, IsWord w) → lines (joinNl ws) = ws
  | [], _ => lines_nil
  | [w], h => lines_last (h w (by simp)).no_nl (h w (by simp)).1
  | w :: v :: ws, h => by
    rw [joinNl, lines_cons (h w (by simp)).no_nl, lines_joinNl (v :: ws) (fun u hu => h u (by simp [hu]))]
    simp

end Verif.IO
