/-
C41: targets files (tracking_frame_buf.py).
-/
import Verif.Model.TargetsIO
import Verif.Proofs.Text

namespace Verif.IO
open Text Spec

/-- `u` is `t` with its position rounded to the written precision, and all other fields the same. -/
structure SameTarget (t u : Target) : Prop where
  pnr : u.pnr = t.pnr
  x : Rounded 4 t.x u.x
  y : Rounded 4 t.y u.y
  n : u.n = t.n
  nx : u.nx = t.nx
  ny : u.ny = t.ny
  sumg : u.sumg = t.sumg
  tnr : u.tnr = t.tnr

/-- The target that is read back. -/
def Target.rounded (t : Target) : Target := { t with x := rnd 4 t.x, y := rnd 4 t.y }

theorem sameTarget_rounded (t : Target) : SameTarget t t.rounded :=
  ⟨rfl, rnd_rounded 4 t.x, rnd_rounded 4 t.y, rfl, rfl, rfl, rfl, rfl⟩

theorem sameTarget_eq {t u : Target} (h : SameTarget t u) : u = t.rounded := by
  obtain ⟨h1, h2, h3, h4, h5, h6, h7, h8⟩ := h
  cases u
  simp only at *
  rw [Target.rounded, rounded_eq_rnd h2, rounded_eq_rnd h3]
  congr

theorem fmtInt_field (w : ℕ) (n : ℤ) : IsField (fmtInt w n) (intStr n) := (intStr_word n).padded w

theorem fmtFixed_field (w k : ℕ) (q : ℚ) : IsField (fmtFixed w k q) (fixedStr k q) := (fixedStr_word k q).padded w

theorem targetRow_fields (t : Target) : List.Forall₂ IsField
    [fmtInt 4 t.pnr, fmtFixed 9 4 t.x, fmtFixed 9 4 t.y, fmtInt 5 t.n, fmtInt 5 t.nx, fmtInt 5 t.ny,
      fmtInt 5 t.sumg, fmtInt 5 t.tnr]
    [intStr t.pnr, fixedStr 4 t.x, fixedStr 4 t.y, intStr t.n, intStr t.nx, intStr t.ny, intStr t.sumg,
      intStr t.tnr] :=
  .cons (fmtInt_field _ _) (.cons (fmtFixed_field _ _ _) (.cons (fmtFixed_field _ _ _) (.cons (fmtInt_field _ _)
    (.cons (fmtInt_field _ _) (.cons (fmtInt_field _ _) (.cons (fmtInt_field _ _) (.cons (fmtInt_field _ _) .nil)))))))

theorem parseTarget_row (t : Target) : parseTarget (words (targetRow t)) = .ok t.rounded := by
  rw [targetRow, words_joinSp (targetRow_fields t), parseTarget]
  simp only [parseInt_intStr, parseFloat_fixedStr (show 0 < 4 by norm_num), bind, Except.bind]
  rfl

theorem readTargetRows_flatMap : ∀ (targets : List Target) (n : ℕ), n ≤ targets.length →
    readTargetRows n (targets.flatMap fun t => targetRow t ++ ['\n']) = .ok ((targets.take n).map Target.rounded)
  | _, 0, _ => by simp [readTargetRows]
  | [], n + 1, h => by simp at h
  | t :: ts, n + 1, h => by
    rw [readTargetRows, List.flatMap_cons, List.append_assoc, List.singleton_append,
      readline_line (l := targetRow t) (joinSp_no_nl (targetRow_fields t))]
    simp only [parseTarget_row, bind, Except.bind]
    rw [readTargetRows_flatMap ts n (by simpa using h)]
    simp

theorem readTargetsText_ok (targets : List Target) (num : ℕ) (h : num ≤ targets.length) :
    readTargetsText (targetsText targets num) = .ok ((targets.take num).map Target.rounded) := by
  rw [readTargetsText, targetsText, readline_line (intStr_word _).no_nl, pyInt_intStr]
  simp only [bind, Except.bind]
  exact readTargetRows_flatMap targets num h

theorem fixName_eq {base : List Char} (hp : '%' ∈ base) (hh : '#' ∉ base) : fixName base = base := by
  simp [fixName, hp, hh]

theorem readName_eq_writeName {base : List Char} {frame : ℤ} (hp : '%' ∈ base) (hh : '#' ∉ base)
    (hf : 0 < frame) : readName base frame = writeName base frame := by
  rw [readName, if_pos hf, writeName, fixName_eq hp hh, if_neg (by omega)]

theorem fs_read_write (fs : FS) (name s : List Char) : (fs.write name s).read name = .ok s := by
  simp [FS.read, FS.write]

theorem writeTargets_ok {fs : FS} {targets : List Target} {num : ℤ} {base : List Char} {frame : ℤ}
    (h : (writeTargets fs targets num base frame).2 = .ok true) :
    ∃ name, writeName base frame = .ok name ∧ targets ≠ [] ∧
      (writeTargets fs targets num base frame).1 = fs.write name (targetsText targets num) := by
  rw [writeTargets] at h ⊢
  cases hn : writeName base frame with
  | error e => rw [hn] at h; simp at h
  | ok name =>
    rw [hn] at h
    simp only at h ⊢
    by_cases ht : targets = []
    · rw [if_pos ht] at h; simp at h
    · rw [if_neg ht]; exact ⟨name, rfl, ht, rfl⟩

/-- C41: for a base name with a number format (like `cam1.%05d`) and a positive frame number, whatever else
is on the disk: if the file was written, reading it returns the first `num` targets of the list, with
identical integer fields and positions rounded to four decimals. -/
theorem C41_roundtrip_partial (fs : FS) (targets : List Target) (num : ℕ) (base : List Char) (frame : ℤ)
    (hp : '%' ∈ base) (hh : '#' ∉ base) (hf : 0 < frame) (hnum : num ≤ targets.length)
    (hw : (writeTargets fs targets num base frame).2 = .ok true) :
    ∃ ts, readTargets (writeTargets fs targets num base frame).1 base frame = .ok ts ∧
      List.Forall₂ SameTarget (targets.take num) ts := by
  obtain ⟨name, e1, e2, e3⟩ := writeTargets_ok hw
  refine ⟨(targets.take num).map Target.rounded, ?_, ?_⟩
  · rw [readTargets, readName_eq_writeName hp hh hf, e1, e3]
    simp only [bind, Except.bind, fs_read_write]
    exact readTargetsText_ok targets num hnum
  · rw [List.forall₂_map_right_iff, List.forall₂_same]
    exact fun t _ => sameTarget_rounded t

/-- The write succeeds for every list that is not empty, when the base name has one integer format. -/
theorem C41_written (fs : FS) (targets : List Target) (num : ℤ) (base name : List Char) (frame : ℤ)
    (hne : targets ≠ []) (hn : writeName base frame = .ok name) :
    (writeTargets fs targets num base frame).2 = .ok true := by
  rw [writeTargets, hn]
  simp [hne]

theorem rounded_rounded (t : Target) : t.rounded.rounded = t.rounded := by
  simp [Target.rounded, rnd_rnd]

/-- C41: a second round trip changes nothing: the targets read back are read back identically. -/
theorem C41_stable (fs fs' : FS) (targets ts : List Target) (base : List Char) (frame : ℤ)
    (hp : '%' ∈ base) (hh : '#' ∉ base) (hf : 0 < frame)
    (hw : (writeTargets fs targets targets.length base frame).2 = .ok true)
    (hr : readTargets (writeTargets fs targets targets.length base frame).1 base frame = .ok ts) :
    readTargets (writeTargets fs' ts ts.length base frame).1 base frame = .ok ts := by
  obtain ⟨name, e1, e2, e3⟩ := writeTargets_ok hw
  obtain ⟨ts', e4, e5⟩ := C41_roundtrip_partial fs targets targets.length base frame hp hh hf (le_refl _) hw
  rw [hr] at e4
  obtain rfl := Except.ok.inj e4
  have hts : ts = targets.map Target.rounded := by
    rw [List.take_length] at e5
    have : List.Forall₂ (fun t u => u = t.rounded) targets ts := e5.imp fun _ _ h => sameTarget_eq h
    clear hr hw e3 e2 e4 e5
    induction this with
    | nil => rfl
    | cons h _ ih => rw [h, ih, List.map_cons]
  have hne : ts ≠ [] := by rw [hts]; simpa using e2
  obtain ⟨ts', f4, f5⟩ := C41_roundtrip_partial fs' ts ts.length base frame hp hh hf (le_refl _)
    (C41_written fs' ts ts.length base name frame hne e1)
  rw [f4]
  congr 1
  rw [List.take_length] at f5
  have : List.Forall₂ (fun t u => u = t.rounded) ts ts' := f5.imp fun _ _ h => sameTarget_eq h
  have h2 : ts' = ts.map Target.rounded := by
    clear f4 f5 hne hts hr e4 e5
    induction this with
    | nil => rfl
    | cons h _ ih => rw [h, ih, List.map_cons]
  rw [h2, hts, List.map_map]
  congr 1
  funext t
  exact rounded_rounded t

theorem fixedStr_rnd {k : ℕ} {q : ℚ} (h : q < 0 → rnd k q < 0) : fixedStr k (rnd k q) = fixedStr k q := by
  have hk : (10 : ℚ) ^ k ≠ 0 := by positivity
  have hk' : (0 : ℚ) < 10 ^ k := by positivity
  have e : roundEven (rnd k q * 10 ^ k) = roundEven (q * 10 ^ k) := by
    rw [rnd, div_mul_cancel₀ _ hk, roundEven_int]
  have hs : rnd k q < 0 ↔ q < 0 := by
    refine ⟨fun hr => ?_, h⟩
    by_contra hq
    have := roundEven_nonneg (q := q * 10 ^ k) (by nlinarith)
    have : 0 ≤ rnd k q := div_nonneg (by exact_mod_cast this) hk'.le
    linarith
  unfold fixedStr
  simp only [e, hs]

theorem rnd_neg {k : ℕ} {q : ℚ} (h : q < 0 → 2 * q * 10 ^ k < -1) : q < 0 → rnd k q < 0 := by
  intro hq
  have hk' : (0 : ℚ) < 10 ^ k := by positivity
  have h1 := (roundEven_spec (q * 10 ^ k)).1
  rw [abs_le] at h1
  rw [rnd]
  apply div_neg_of_neg_of_pos _ hk'
  have := h hq
  linarith

/-- C41: writing the targets read back gives the identical file (when no coordinate is negative and rounds to
zero: the negative zero of floats is not modelled). -/
theorem C41_rewrite_partial (fs fs' : FS) (targets ts : List Target) (base : List Char) (frame : ℤ)
    (hp : '%' ∈ base) (hh : '#' ∉ base) (hf : 0 < frame)
    (hpos : ∀ t ∈ targets, (t.x < 0 → t.x < -1 / 20000) ∧ (t.y < 0 → t.y < -1 / 20000))
    (hw : (writeTargets fs targets targets.length base frame).2 = .ok true)
    (hr : readTargets (writeTargets fs targets targets.length base frame).1 base frame = .ok ts)
    (name : List Char) (hn : writeName base frame = .ok name) :
    (writeTargets fs' ts ts.length base frame).1 name = (writeTargets fs targets targets.length base frame).1 name := by
  obtain ⟨name', e1, e2, e3⟩ := writeTargets_ok hw
  rw [hn] at e1
  obtain rfl := Except.ok.inj e1
  have hts : ts = targets.map Target.rounded := by
    rw [readTargets, readName_eq_writeName hp hh hf, hn, e3] at hr
    simp only [bind, Except.bind, fs_read_write] at hr
    rw [readTargetsText_ok targets targets.length (le_refl _), List.take_length] at hr
    exact (Except.ok.inj hr).symm
  have hne : ts ≠ [] := by rw [hts]; simpa using e2
  rw [e3, writeTargets, hn]
  simp only
  rw [if_neg hne]
  simp only [FS.write, if_true]
  congr 1
  rw [targetsText, targetsText, hts, List.length_map, List.flatMap_map]
  congr 2
  apply List.flatMap_congr
  intro t ht
  obtain ⟨hx, hy⟩ := hpos t ht
  congr 1
  have ex := fixedStr_rnd (rnd_neg (k := 4) (q := t.x) fun h => by have := hx h; norm_num; linarith)
  have ey := fixedStr_rnd (rnd_neg (k := 4) (q := t.y) fun h => by have := hy h; norm_num; linarith)
  simp only [targetRow, Target.rounded, fmtFixed, ex, ey]

/-- Two targets, one with a negative position that needs rounding, written to `cam1.%04d` as frame 7. -/
def twoTargets : List Target := [⟨0, 1127, 7948 / 10, 13, 4, 5, 1020, -1⟩, ⟨1, -3 / 100001, 105 / 100000, 2, 1, 2, 30, 4⟩]

example : ((writeTargets (fun _ => none) twoTargets 2 "cam1.%04d".toList 7).1 "cam1.0007_targets".toList).map
      String.ofList =
    some "2\n   0 1127.0000  794.8000    13     4     5  1020    -1\n   1   -0.0000    0.0010     2     1     2    30     4\n" := by
  decide +kernel

example : ∃ ts, readTargets (writeTargets (fun _ => none) twoTargets 2 "cam1.%04d".toList 7).1 "cam1.%04d".toList 7 = .ok ts ∧
    List.Forall₂ SameTarget twoTargets ts :=
  C41_roundtrip_partial (fun _ => none) twoTargets 2 "cam1.%04d".toList 7 (by decide) (by decide) (by decide) (by decide)
    (by decide +kernel)

/-- C41 fails for an empty list of targets: an exception, and an existing file of that frame is emptied. -/
theorem C41_empty_refuted (fs : FS) (num : ℤ) (base name : List Char) (frame : ℤ)
    (hn : writeName base frame = .ok name) :
    (writeTargets fs [] num base frame).2 = .error .valueError ∧ (writeTargets fs [] num base frame).1 name = some [] := by
  rw [writeTargets, hn]
  simp [FS.write]

/-- C41 fails when more targets are announced than there are: the file cannot be read. -/
theorem C41_count_refuted (fs : FS) (targets : List Target) (num : ℕ) (base : List Char) (frame : ℤ)
    (hp : '%' ∈ base) (hh : '#' ∉ base) (hf : 0 < frame) (hnum : targets.length < num)
    (hw : (writeTargets fs targets num base frame).2 = .ok true) :
    readTargets (writeTargets fs targets num base frame).1 base frame = .error .valueError := by
  have key : ∀ (ts : List Target) (n : ℕ), ts.length < n →
      readTargetRows n (ts.flatMap fun t => targetRow t ++ ['\n']) = .error .valueError := by
    intro ts
    induction ts with
    | nil =>
      intro n hn
      obtain ⟨n, rfl⟩ : ∃ m, n = m + 1 := ⟨n - 1, by simp at hn; omega⟩
      simp [readTargetRows, readline, words, wordsAux, parseTarget, bind, Except.bind]
    | cons t ts ih =>
      intro n hn
      obtain ⟨n, rfl⟩ : ∃ m, n = m + 1 := ⟨n - 1, by simp at hn; omega⟩
      rw [readTargetRows, List.flatMap_cons, List.append_assoc, List.singleton_append,
        readline_line (l := targetRow t) (joinSp_no_nl (targetRow_fields t))]
      simp only [parseTarget_row, bind, Except.bind]
      rw [ih n (by simpa using hn)]
  obtain ⟨name, e1, e2, e3⟩ := writeTargets_ok hw
  rw [readTargets, readName_eq_writeName hp hh hf, e1, e3]
  simp only [bind, Except.bind, fs_read_write]
  rw [readTargetsText, targetsText, readline_line (intStr_word _).no_nl, pyInt_intStr]
  simp only [bind, Except.bind]
  exact key targets _ hnum

theorem pyMod_plain {base : List Char} (n : ℤ) (h : '%' ∉ base) : pyMod base n = .error .typeError := by
  unfold pyMod
  induction base with
  | nil => rfl
  | cons c cs ih =>
    rw [fmtPct, if_neg (fun e => h (by simp [e])), ih (fun e => h (by simp [e]))]
    rfl

/-- C41 fails for old-type names (`cam1.#` or `cam1.`), which the writer accepts: reading is a TypeError. -/
theorem C41_old_names_refuted (fs : FS) (targets : List Target) (num : ℤ) (base : List Char) (frame : ℤ)
    (hp : '%' ∉ base) (hf : 0 < frame) :
    readTargets (writeTargets fs targets num base frame).1 base frame = .error .typeError := by
  rw [readTargets, readName, if_pos hf, pyMod_plain frame hp]
  rfl

example : (writeTargets (fun _ => none) twoTargets 2 "cam1.#".toList 7).2 = .ok true ∧
    readTargets (writeTargets (fun _ => none) twoTargets 2 "cam1.#".toList 7).1 "cam1.#".toList 7 = .error .typeError :=
  ⟨by decide +kernel, C41_old_names_refuted _ _ _ _ _ (by decide) (by decide)⟩

/-- C41 fails for frame 0: the writer uses the number 123456789, the reader no number; the file is not found. -/
theorem C41_frame_zero_refuted :
    (writeTargets (fun _ => none) twoTargets 2 "cam1.%04d".toList 0).2 = .ok true ∧
    readTargets (writeTargets (fun _ => none) twoTargets 2 "cam1.%04d".toList 0).1 "cam1.%04d".toList 0 =
      .error .ioError := by
  decide +kernel

end Verif.IO
